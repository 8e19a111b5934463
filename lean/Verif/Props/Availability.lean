import Verif.Proofs.Avail
import Verif.Props.Fees

/-
Properties C44, C45: operations that should be possible.
-/

namespace Hmm.Pool

open Decimal PoolMath Sample

/-- The sum of two amounts at compute scale fits into 128 bits. -/
def Room (a b : ℚ) : Prop := (a + b) * 10 ^ 12 < 2 ^ 128

/-- A deposit that should be fine: non-negative offers, ordered bounds on the grid, liquidity and amounts that
can be computed and stay within the offer, and no total that outgrows 128 bits. -/
structure Fits (p : Pool) (x y rpa rpb : Decimal) (lower upper : Nat) (liq xIn yIn : Decimal) : Prop where
  hx : x.Amount 12
  hy : y.Amount 12
  hrpa : 0 ≤ rpa.toRat
  hrpb : 0 ≤ rpb.toRat
  snapLower : p.rpToPossibleTick rpa false 0 = .ok lower
  snapUpper : p.rpToPossibleTick rpb false lower = .ok upper
  range : lower < upper
  amounts : ∃ a b, tickToRp lower = .ok a ∧ tickToRp upper = .ok b ∧ liqFromXYRpRng x y p.gs.rp a b = .ok liq ∧
    xFromLRpRng liq p.gs.rp a b = .ok xIn ∧ yFromLRpRng liq p.gs.rp a b = .ok yIn
  hliq : liq.Amount 12
  hxIn : xIn.Amount 12
  hyIn : yIn.Amount 12
  xOffer : xIn.toRat ≤ x.toRat
  yOffer : yIn.toRat ≤ y.toRat
  roomLiq : Room p.gs.liq.toRat liq.toRat
  roomLower : Room (p.startingAt lower + p.endingAt lower) liq.toRat
  roomUpper : Room (p.startingAt upper + p.endingAt upper) liq.toRat
  roomX : Room p.x.toRat xIn.toRat
  roomY : Room p.y.toRat yIn.toRat

theorem Room.nn {a b : Nat} (h : Room (⟨a, 12, false⟩ : Decimal).toRat (⟨b, 12, false⟩ : Decimal).toRat) :
    a + b < u128Size := by
  unfold Room at h
  rw [toRat_mk, toRat_mk, ← add_div, div_mul_cancel₀ _ (by norm_num)] at h
  exact_mod_cast h

theorem Room.of {a b : Decimal} (ha : a.Amount 12) (hb : b.Amount 12) (h : Room a.toRat b.toRat) :
    a.value + b.value < u128Size := by
  obtain ⟨v, rfl⟩ := ha.eq
  obtain ⟨w, rfl⟩ := hb.eq
  exact h.nn

theorem tickOrNew_gross {p : Pool} (hr : Reachable p) (t : Nat) :
    (p.tickOrNew t).liqGross.toRat = p.startingAt t + p.endingAt t := by
  rw [← (Booked.reachable hr).gross]
  unfold tickOrNew grossAt
  cases mapGet t p.ticks <;> simp [zero_toRat]

theorem tickOrNew_net {p : Pool} (hr : Reachable p) (t : Nat) :
    (p.tickOrNew t).liqNet.value ≤ (p.tickOrNew t).liqGross.value := by
  have hb := Booked.reachable hr
  have hs : 0 ≤ p.startingAt t :=
    sumPos_nonneg (by intro k; split <;> simp) hb.unique (fun q s hs => (hb.pos q s hs).1)
  have he : 0 ≤ p.endingAt t :=
    sumPos_nonneg (by intro k; split <;> simp) hb.unique (fun q s hs => (hb.pos q s hs).1)
  have hg := tickOrNew_gross hr t
  have hn : (p.tickOrNew t).liqNet.toRat = p.startingAt t - p.endingAt t := by
    rw [← hb.net]
    unfold tickOrNew netAt
    cases mapGet t p.ticks <;> simp [zero_toRat]
  obtain ⟨_, k2, k3⟩ := (Tidy.reachable hr).tickOrNew t
  have ha : |(p.tickOrNew t).liqNet.toRat| ≤ |(p.tickOrNew t).liqGross.toRat| := by
    rw [hn, hg, abs_of_nonneg (by linarith : 0 ≤ p.startingAt t + p.endingAt t), abs_le]
    constructor <;> linarith
  rw [abs_toRat, abs_toRat] at ha
  unfold mag at ha
  rw [k2.1, k3, div_le_div_iff_of_pos_right (by norm_num)] at ha
  exact_mod_cast ha

/-! ### C44 -/

/-- C44 (partial): a deposit that should be fine, opening a new position, is accepted exactly when for all four
kinds the growth counted below its lower bound is at most that counted below its upper bound.  Missing: the
full statement has no such condition, and is false. -/
theorem C44_criterion_partial {p : Pool} {user lower upper : Nat} {x y rpa rpb liq xIn yIn : Decimal}
    (hr : Reachable p) (hf : Fits p x y rpa rpb lower upper liq xIn yIn)
    (hnew : mapGet ⟨user, lower, upper⟩ p.positions = none) :
    (∃ p' r, p.deposit user x y rpa rpb = .ok (p', r) ∧ r.x = xIn ∧ r.y = yIn) ↔
      ∀ k, p.est k lower ≤ p.est k upper := by
  constructor
  · rintro ⟨p', r, h, _⟩ k
    obtain ⟨l1, u1, d, p1, g1, g2, _, hset, _⟩ := deposit_set h
    rw [hf.snapLower] at g1; cases g1
    rw [hf.snapUpper] at g2; cases g2
    have := (setPosition_claim hset k).2.2.1
    linarith
  · intro hest
    have ht := Tidy.reachable hr
    obtain ⟨a, b, ha, hb, hl, hx, hy⟩ := hf.amounts
    obtain ⟨_, kl, _⟩ := ht.tickOrNew lower
    obtain ⟨_, ku, _⟩ := ht.tickOrNew upper
    obtain ⟨p1, h1⟩ := setPosition_returns ht (Recorded.reachable hr) (user := user) hf.range hf.hliq hnew
      (Room.of ht.liq hf.hliq hf.roomLiq)
      (Room.of kl hf.hliq (by rw [tickOrNew_gross hr]; exact hf.roomLower))
      (Room.of ku hf.hliq (by rw [tickOrNew_gross hr]; exact hf.roomUpper)) (tickOrNew_net hr) hest
    have e1 := setPosition_frame h1
    have ex : p1.x = p.x := by rw [e1]
    have ey : p1.y = p.y := by rw [e1]
    have hfx := hf.roomX
    have hfy := hf.roomY
    have hox := hf.xOffer
    have hoy := hf.yOffer
    have t1 := ht.setPosition h1
    obtain ⟨x0, rfl⟩ := hf.hx.eq
    obtain ⟨y0, rfl⟩ := hf.hy.eq
    obtain ⟨xi, rfl⟩ := hf.hxIn.eq
    obtain ⟨yi, rfl⟩ := hf.hyIn.eq
    obtain ⟨l, rfl⟩ := hf.hliq.eq
    obtain ⟨px, hpx⟩ := ht.x.eq
    obtain ⟨py, hpy⟩ := ht.y.eq
    rw [hpx] at hfx ex
    rw [hpy] at hfy ey
    have hz : ∀ v : Nat, (⟨v, 12, false⟩ : Decimal).sub PoolMath.zero = .ok ⟨v, 12, false⟩ := fun v =>
      sub_nn_le 12 (Nat.zero_le v)
    have hlt : ∀ v : Nat, (⟨v, 12, false⟩ : Decimal).lt PoolMath.zero = .ok false := fun v => by
      rw [PoolMath.zero, lt_nn]; simp
    have hnn : ∀ v : Nat, (⟨v, 12, false⟩ : Decimal).isNegative = false := fun v => amount_not_negative (amount_mk _ _)
    rw [toRat_le_mk] at hox hoy
    obtain ⟨xf, hxf⟩ := t1.xFee.eq
    obtain ⟨yf, hyf⟩ := t1.yFee.eq
    obtain ⟨xa, hxa⟩ := t1.xAdj.eq
    obtain ⟨ya, hya⟩ := t1.yAdj.eq
    have hpay : p1.payFees Fees.zero = .ok p1 := by
      unfold payFees Fees.zero
      simp only
      rw [hxf, hyf, hxa, hya]
      simp only [hlt, hz, unwrap_eq, bind_eq, Bool.false_eq_true, if_false]
      rw [← hxf, ← hyf, ← hxa, ← hya]
      rfl
    have hor : ∀ {a : Decimal}, 0 ≤ a.toRat → (rassert (!a.isNegative)) = .ok () := fun h => by
      rw [not_isNegative.2 h]; rfl
    refine ⟨{ p1 with x := ⟨px + xi, 12, false⟩, y := ⟨py + yi, 12, false⟩ },
      ⟨⟨xi, 12, false⟩, ⟨yi, 12, false⟩, Fees.zero, ⟨xi, 12, false⟩, ⟨yi, 12, false⟩⟩, ?_, rfl, rfl⟩
    unfold Pool.deposit
    rw [hor (amount_mk _ _).nonneg, bind_eq, hor (amount_mk _ _).nonneg, bind_eq, hor hf.hrpa, bind_eq, hor hf.hrpb,
      bind_eq, hf.snapLower, bind_eq, hf.snapUpper, bind_eq, decide_eq_true hf.range, show rassert true = .ok () from rfl,
      bind_eq, ha, bind_eq, hb, bind_eq]
    simp only
    rw [hl, bind_eq, if_neg (by rw [hnn]; simp), hx, bind_eq, gt_nn, unwrap_eq, bind_eq,
      if_neg (by rw [decide_eq_true_eq]; omega), hy, bind_eq, gt_nn, unwrap_eq, bind_eq,
      if_neg (by rw [decide_eq_true_eq]; omega), h1, bind_eq]
    simp only [Fees.zero]
    rw [hz, unwrap_eq, bind_eq, hz, unwrap_eq, bind_eq, hz, unwrap_eq, bind_eq, hz, unwrap_eq, bind_eq, ex, ey,
      add_nn_eq hfx.nn, unwrap_eq, bind_eq, add_nn_eq hfy.nn, unwrap_eq, bind_eq,
      show p1.payFees ⟨PoolMath.zero, PoolMath.zero, PoolMath.zero, PoolMath.zero⟩ = .ok p1 from hpay, bind_eq,
      show PoolMath.zero.add PoolMath.zero = .ok PoolMath.zero by decide, unwrap_eq, bind_eq, bind_eq,
      sub_nn_le 12 hox, unwrap_eq, bind_eq, sub_nn_le 12 hoy, unwrap_eq, bind_eq]
    rfl

/-- C44 (partial): in particular it is accepted whenever no position begins or ends at its upper bound. -/
theorem C44_unused_partial {p : Pool} {user lower upper : Nat} {x y rpa rpb liq xIn yIn : Decimal}
    (hr : Reachable p) (hf : Fits p x y rpa rpb lower upper liq xIn yIn)
    (hnew : mapGet ⟨user, lower, upper⟩ p.positions = none) (hu : Unused p upper) :
    ∃ p' r, p.deposit user x y rpa rpb = .ok (p', r) ∧ r.x = xIn ∧ r.y = yIn := by
  refine (C44_criterion_partial hr hf hnew).2 fun k => ?_
  unfold est
  rw [if_neg (hu.out hr)]
  split
  · exact ((Recorded.reachable hr).below k lower).2
  · exact le_rfl

theorem Room.mk {a b : Decimal} (ha : a.Amount 12) (hb : b.Amount 12) (h : a.value + b.value < u128Size) :
    Room a.toRat b.toRat := by
  obtain ⟨v, rfl⟩ := ha.eq
  obtain ⟨w, rfl⟩ := hb.eq
  unfold Room
  rw [toRat_mk, toRat_mk, ← add_div, div_mul_cancel₀ _ (by norm_num)]
  have h : v + w < 2 ^ 128 := h
  exact_mod_cast h

/-- The sample pool after a sale of 1 X. -/
def sold : Pool := (get (pool.executeSwapFromX fl (D 1) PoolMath.zero)).1

theorem sold_ok : Reachable sold := sold_reachable

/-- Depositing up to 10 X and 10 Y from tick 5 to tick 15, or tick 16, fits. -/
theorem fits_of {upper : Nat} {rpb liq a b : Decimal} {y : Nat} (h1 : sold.rpToPossibleTick rpb false 5 = .ok upper)
    (h2 : tickToRp 5 = .ok a) (h3 : tickToRp upper = .ok b) (h4 : liqFromXYRpRng (D 10) (D 10) sold.gs.rp a b = .ok liq)
    (h5 : xFromLRpRng liq sold.gs.rp a b = .ok PoolMath.zero) (h6 : yFromLRpRng liq sold.gs.rp a b = .ok ⟨y, 12, false⟩)
    (h7 : y ≤ 10 ^ 13) (h8 : liq.Amount 12) (h9 : sold.gs.liq.value + liq.value < u128Size)
    (h10 : (sold.tickOrNew 5).liqGross.value + liq.value < u128Size)
    (h11 : (sold.tickOrNew upper).liqGross.value + liq.value < u128Size) (h12 : 0 ≤ rpb.toRat) (h13 : 5 < upper) :
    Fits sold (D 10) (D 10) (mid 5) rpb 5 upper liq PoolMath.zero ⟨y, 12, false⟩ where
  hx := amount_mk _ _
  hy := amount_mk _ _
  hrpa := (amount_mk _ 12).nonneg
  hrpb := h12
  snapLower := by decide +kernel
  snapUpper := h1
  range := h13
  amounts := ⟨a, b, h2, h3, h4, h5, h6⟩
  hliq := h8
  hxIn := zero_amount
  hyIn := amount_mk _ _
  xOffer := toRat_le_mk.2 (Nat.zero_le _)
  yOffer := toRat_le_mk.2 (show y ≤ 10 * 10 ^ 12 by omega)
  roomLiq := .mk (Tidy.reachable sold_ok).liq h8 h9
  roomLower := by
    rw [← tickOrNew_gross sold_ok]
    exact .mk ((Tidy.reachable sold_ok).tickOrNew 5).2.1 h8 h10
  roomUpper := by
    rw [← tickOrNew_gross sold_ok]
    exact .mk ((Tidy.reachable sold_ok).tickOrNew upper).2.1 h8 h11
  roomX := .mk (Tidy.reachable sold_ok).x zero_amount (by decide +kernel)
  roomY := .mk (Tidy.reachable sold_ok).y (amount_mk _ _) (by
    rw [show sold.y = ⟨19001020727362, 12, false⟩ by decide +kernel]
    show 19001020727362 + y < 2 ^ 128
    omega)

theorem sold_fits15 : Fits sold (D 10) (D 10) (mid 5) (mid 15) 5 15 ⟨19991002649437567, 12, false⟩ PoolMath.zero
    ⟨9999999999999, 12, false⟩ :=
  fits_of (a := get (tickToRp 5)) (b := get (tickToRp 15)) (by decide +kernel) (by decide +kernel) (by decide +kernel)
    (by decide +kernel) (by decide +kernel) (by decide +kernel) (by decide) (amount_mk _ _) (by decide +kernel)
    (by decide +kernel) (by decide +kernel) (amount_mk _ 12).nonneg (by decide)

theorem sold_fits16 : Fits sold (D 10) (D 10) (mid 5) (mid 16) 5 16 ⟨18173184432315923, 12, false⟩ PoolMath.zero
    ⟨9999999999999, 12, false⟩ :=
  fits_of (a := get (tickToRp 5)) (b := get (tickToRp 16)) (by decide +kernel) (by decide +kernel) (by decide +kernel)
    (by decide +kernel) (by decide +kernel) (by decide +kernel) (by decide) (amount_mk _ _) (by decide +kernel)
    (by decide +kernel) (by decide +kernel) (amount_mk _ 12).nonneg (by decide)

/-- C44 as stated is false: with fees collected, a deposit from an unused tick up to a tick that is in use and
has recorded less is refused. -/
theorem C44_false : ¬ ∀ (p : Pool) (user lower upper : Nat) (x y rpa rpb liq xIn yIn : Decimal), Reachable p →
    Fits p x y rpa rpb lower upper liq xIn yIn → mapGet ⟨user, lower, upper⟩ p.positions = none →
    ∃ p' r, p.deposit user x y rpa rpb = .ok (p', r) := by
  intro h
  obtain ⟨p', r, h⟩ := h sold 3 5 15 _ _ _ _ _ _ _ sold_ok sold_fits15 (by decide +kernel)
  have h2 : (sold.deposit 3 (D 10) (D 10) (mid 5) (mid 15)).isOk = false := by decide +kernel
  rw [h] at h2
  cases h2

-- the same deposit up to tick 16 is accepted
example : ∃ p' r, sold.deposit 3 (D 10) (D 10) (mid 5) (mid 16) = .ok (p', r) ∧ r.x = PoolMath.zero ∧
    r.y = ⟨9999999999999, 12, false⟩ :=
  C44_unused_partial sold_ok sold_fits16 (by decide +kernel) (unused_of sold_ok (by decide +kernel))

/-! ### C45 -/

theorem Reachable.spacing {p : Pool} (h : Reachable p) : p.spacing ≠ 0 := by
  induction h with
  | new h =>
    obtain ⟨tk, q, _, _, _, h4, _, rfl⟩ := new_ok h
    intro h0
    simp only at h0
    subst h0
    unfold rpToPossibleTk at h4
    rw [bind_ok] at h4
    obtain ⟨t, _, h4⟩ := h4
    rw [C26_zero] at h4
    cases h4
  | step _ hs ih =>
    cases hs with
    | deposit h => rw [deposit_spacing h]; exact ih
    | withdraw h =>
      obtain ⟨_, _, _, _, p1, p2, _, _, _, _, _, _, _, _, _, _, _, h1, _, _, _, _, _, _, _, _, _, _, _, h5, rfl⟩ :=
        withdraw_ok h
      show p2.spacing ≠ 0
      rw [(payFees_frame h5).2.2.2.1, setPosition_frame h1]
      exact ih
    | sellX h =>
      refine sellX_inv (P := fun q => q.spacing ≠ 0) h ih (fun hp hg => ?_) (fun hp hs => ?_)
      · rw [(goalX_ok hg).1.spacing]; exact hp
      · obtain ⟨p1, _, _, h3, _, _, ⟨_, h4⟩ | rfl⟩ := stepX_view hs
        · rw [(crossTick_frame h4).2.2.2.2.2.2.2.1, h3]; exact hp
        · rw [h3]; exact hp
    | sellY h =>
      refine sellY_inv (P := fun q => q.spacing ≠ 0) h ih (fun hp hg => ?_) (fun hp hs => ?_)
      · rw [(goalY_ok hg).1.spacing]; exact hp
      · obtain ⟨p1, _, _, h3, _, _, ⟨_, h4⟩ | rfl⟩ := stepY_view hs
        · rw [(crossTick_frame h4).2.2.2.2.2.2.2.1, h3]; exact hp
        · rw [h3]; exact hp

/-- What a sale has to find in order to start: the next tick with liquidity to the left, at or below the
current one. -/
def NextLeft (p : Pool) : Option Nat → Prop
  | none => ∀ t ∈ p.ticks.map (·.1), p.gs.tick < t
  | some g => g ∈ p.ticks.map (·.1) ∧ g ≤ p.gs.tick ∧ ∀ t ∈ p.ticks.map (·.1), t ≤ p.gs.tick → t ≤ g

/-- The next tick with liquidity to the right, above the current one. -/
def NextRight (p : Pool) : Option Nat → Prop
  | none => ∀ t ∈ p.ticks.map (·.1), t ≤ p.gs.tick
  | some g => g ∈ p.ticks.map (·.1) ∧ p.gs.tick < g ∧ ∀ t ∈ p.ticks.map (·.1), p.gs.tick < t → g ≤ t

/-- C45, sales of X: in every reachable state with liquidity the next tick to the left is found, on the grid
or not. -/
theorem C45_left {p : Pool} (hr : Reachable p) (ht : p.gs.tick + p.spacing ≤ 2 ^ 128) :
    ∃ g, p.leftLimit p.gs.tick = .ok g ∧ NextLeft p g := by
  obtain ⟨t, h1⟩ := C26_returns false hr.spacing ht
  have hb := Booked.reachable hr
  have h : p.leftLimit p.gs.tick = .ok ((p.tickKeys true).find? fun tk => decide (tk ≤ t)) := by
    unfold leftLimit tickToPossibleTick
    rw [show Nat.min p.gs.tick p.gs.tick = p.gs.tick from Nat.min_self _, h1, bind_eq]; rfl
  refine ⟨_, h, ?_⟩
  cases hf : (p.tickKeys true).find? fun tk => decide (tk ≤ t) with
  | some g =>
    rw [hf] at h
    exact leftLimit_max hb le_rfl h
  | none =>
    intro k hk
    have := List.find?_eq_none.1 hf k (mem_tickKeys.2 hk)
    rw [decide_eq_true_eq] at this
    have h3 := (C26_down h1).2.2 k (hb.grid hk)
    omega

/-- C45 (partial), sales of Y: in every reachable state whose tick is on the grid the next tick to the right
is found.  Missing: ticks off the grid, where nothing can be sold, see `C45_blocked`. -/
theorem C45_right_partial {p : Pool} (hr : Reachable p) (ht : p.gs.tick + p.spacing ≤ 2 ^ 128)
    (hg : p.spacing ∣ p.gs.tick) : ∃ g, p.rightLimit p.gs.tick p.gs.tick = .ok g ∧ NextRight p g := by
  obtain ⟨t, h1⟩ := C26_returns false hr.spacing ht
  have hb := Booked.reachable hr
  have ht : t = p.gs.tick := C26_multiples false h1 hg
  subst ht
  have h : p.rightLimit p.gs.tick p.gs.tick = .ok ((p.tickKeys false).find? fun tk => decide (tk > p.gs.tick)) := by
    unfold rightLimit tickToPossibleTick
    rw [h1, bind_eq, if_pos rfl]; rfl
  refine ⟨_, h, ?_⟩
  cases hf : (p.tickKeys false).find? fun tk => decide (tk > p.gs.tick) with
  | some g =>
    rw [hf] at h
    obtain ⟨k1, k2, k3⟩ := rightLimit_min hb h
    exact ⟨k1, k2, fun k hk hlt => by have := k3 k hk; omega⟩
  | none =>
    intro k hk
    have := List.find?_eq_none.1 hf k (mem_tickKeys.2 hk)
    rw [decide_eq_true_eq] at this
    omega

example : Reachable sold ∧ sold.gs.tick + sold.spacing ≤ 2 ^ 128 ∧ sold.spacing ∣ sold.gs.tick ∧
    NextLeft sold (some 15) ∧ NextRight sold (some 25) := by
  refine ⟨sold_ok, by decide +kernel, by decide +kernel, ?_, ?_⟩
  · unfold NextLeft; decide +kernel
  · unfold NextRight; decide +kernel

/-- C45: while the tick is off the grid and there is liquidity, no sale of Y goes through, whatever the amount
and the oracle. -/
theorem C45_blocked {p : Pool} (hl : 0 < p.gs.liq.toRat) (hg : ¬ p.spacing ∣ p.gs.tick) (fl : FloatEnv) (dy o : Decimal) :
    ¬ ∃ p' r, p.executeSwapFromY fl dy o = .ok (p', r) := by
  rintro ⟨p', r, h⟩
  unfold executeSwapFromY at h
  rw [ite_ok] at h
  rcases h with ⟨_, h⟩ | ⟨hpos, h⟩
  · simp [rpanic] at h
  have hpos : 0 < dy.toRat := isPositive_toRat.1 (by simpa using hpos)
  unfold swapFuel loopY at h
  rw [bind_ok] at h
  obtain ⟨b, h1, h⟩ := h
  have h1 := lt_le (unwrap_ok.1 h1)
  rw [ite_ok] at h
  rcases h with ⟨_, h⟩ | ⟨hb, _⟩
  swap
  · have := h1.2.2 (by simpa using hb)
    simp only [acc0, zero_toRat] at this
    linarith
  rw [bind_ok] at h
  obtain ⟨_, h2, _⟩ := h
  rw [if_pos (isPositive_toRat.2 hl), bind_ok] at h2
  obtain ⟨g, h2, _⟩ := h2
  obtain ⟨t, e1, e2⟩ := rightLimit_ok h2
  obtain ⟨k1, k2, _⟩ := C26_down e1
  simp only [acc0] at k2
  rcases e2 with ⟨e2, _⟩ | ⟨e2, _⟩
  · exact hg (e2 ▸ k1)
  · omega

/-- A pool with spacing 10 and one position, after a sale of 1 X. -/
def coarse : R (Pool × SwapOutput) := do
  let p ← Pool.new (mid 20) 10 PoolMath.zero PoolMath.zero
  let (p, _) ← p.deposit 1 (D 10) (D 10) (mid 10) (mid 30)
  p.executeSwapFromX fl (D 1) PoolMath.zero

/-- C45 as stated is false: after a sale of X that left liquidity behind, no sale of Y of any amount goes
through. -/
theorem C45_false : ¬ ∀ (p p' : Pool) (fl : FloatEnv) (dx o : Decimal) (r : SwapOutput), Reachable p →
    p.executeSwapFromX fl dx o = .ok (p', r) → 0 < p'.gs.liq.toRat →
    ∃ fl' dy o', ∃ p'' r', p'.executeSwapFromY fl' dy o' = .ok (p'', r') := by
  intro h
  have hc : coarse = .ok (get coarse) := by decide +kernel
  have h1 : 0 < (get coarse).1.gs.liq.toRat := isPositive_toRat.1 (by decide +kernel)
  have h2 : ¬ (get coarse).1.spacing ∣ (get coarse).1.gs.tick := by decide +kernel
  generalize get coarse = e at hc h1 h2
  unfold coarse at hc
  rw [bind_ok] at hc; obtain ⟨p0, g0, hc⟩ := hc
  rw [bind_ok] at hc; obtain ⟨⟨p1, _⟩, g1, hc⟩ := hc
  obtain ⟨fl', dy, o', hs⟩ := h p1 e.1 fl (D 1) PoolMath.zero e.2 (.step (.new g0) (.deposit g1)) hc h1
  exact C45_blocked h1 h2 fl' dy o' hs

end Hmm.Pool
