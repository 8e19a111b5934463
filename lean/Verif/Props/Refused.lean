import Verif.Props.Availability
import Verif.Props.PoolMath
import Verif.Props.Reports

/-
Property C123: offers that a pool refuses because of its own rounding.
-/

namespace Hmm.Pool

open Decimal PoolMath Sample

/-- A deposit that should be fine, whatever X is computed for it: `Fits` without its bound on X. -/
structure Sensible (p : Pool) (x y rpa rpb : Decimal) (lower upper : Nat) (liq xIn yIn : Decimal) : Prop where
  hx : x.Amount 12
  hy : y.Amount 12
  hrpa : 0 ≤ rpa.toRat
  hrpb : 0 ≤ rpb.toRat
  snapLower : p.rpToPossibleTick rpa false 0 = .ok lower
  snapUpper : p.rpToPossibleTick rpb false lower = .ok upper
  range : lower < upper
  amounts : ∃ a b, tickToRp lower = .ok a ∧ tickToRp upper = .ok b ∧ liqFromXYRpRng x y p.gs.rp a b = .ok liq ∧
    xFromLRpRng liq p.gs.rp a b = .ok xIn ∧ yFromLRpRng liq p.gs.rp a b = .ok yIn
  roomLiq : Room p.gs.liq.toRat liq.toRat
  roomLower : Room (p.startingAt lower + p.endingAt lower) liq.toRat
  roomUpper : Room (p.startingAt upper + p.endingAt upper) liq.toRat
  roomX : Room p.x.toRat xIn.toRat
  roomY : Room p.y.toRat yIn.toRat

/-- Full statement: a pool accepts a sensible deposit at ticks that it does not use. -/
def C123_full : Prop :=
  ∀ {p : Pool} {user lower upper : Nat} {x y rpa rpb liq xIn yIn : Decimal}, Reachable p →
    Sensible p x y rpa rpb lower upper liq xIn yIn → mapGet ⟨user, lower, upper⟩ p.positions = none → Unused p upper →
      ∃ p' r, p.deposit user x y rpa rpb = .ok (p', r)

theorem Sensible.fits {p : Pool} {lower upper : Nat} {x y rpa rpb liq xIn yIn : Decimal} (hr : Reachable p)
    (h : Sensible p x y rpa rpb lower upper liq xIn yIn) (hx : xIn.toRat ≤ x.toRat) :
    Fits p x y rpa rpb lower upper liq xIn yIn := by
  obtain ⟨a, b, h1, h2, h3, h4, h5⟩ := h.amounts
  obtain ⟨ha, _⟩ := tickToRp_pos h1
  obtain ⟨hb, _⟩ := tickToRp_pos h2
  have hp := rp_amount hr
  have hy := (C27_y_needed h.hx h.hy hp ha hb h3 h5).2
  have hl : liq.Amount 12 := by
    have ex := h.hx
    have ey := h.hy
    obtain ⟨x0, rfl⟩ := ex.eq
    obtain ⟨y0, rfl⟩ := ey.eq
    obtain ⟨v, hv⟩ := hp.eq
    obtain ⟨a0, rfl⟩ := ha.eq
    obtain ⟨b0, rfl⟩ := hb.eq
    rw [hv] at h3
    rcases liqFrom_nn h3 with ⟨_, _, rfl⟩ | ⟨_, _, rfl⟩ | ⟨_, _, _, rfl⟩ <;> exact amount_mk _ _
  have hab := C23_increasing h.range h1 h2
  have hxA : xIn.Amount 12 := by
    obtain ⟨l, rfl⟩ := hl.eq
    obtain ⟨v, hv⟩ := hp.eq
    obtain ⟨a0, rfl⟩ := ha.eq
    obtain ⟨b0, rfl⟩ := hb.eq
    rw [hv] at h4
    rcases (xFrom_nn h4).2.2.2 with ⟨_, _, rfl⟩ | ⟨g, _⟩
    · exact amount_mk _ _
    · rw [toRat_lt_mk] at hab; omega
  have hyA : yIn.Amount 12 := by
    obtain ⟨l, rfl⟩ := hl.eq
    obtain ⟨v, hv⟩ := hp.eq
    obtain ⟨a0, rfl⟩ := ha.eq
    obtain ⟨b0, rfl⟩ := hb.eq
    rw [hv] at h5
    rw [yFrom_nn h5]
    exact amount_mk _ _
  exact { h with hliq := hl, hxIn := hxA, hyIn := hyA, xOffer := hx, yOffer := hy }

/-- C123, missing: sensible deposits of which the computed X exceeds the offer.  Those are all refused. -/
theorem C123_accepted_partial {p : Pool} {user lower upper : Nat} {x y rpa rpb liq xIn yIn : Decimal} (hr : Reachable p)
    (h : Sensible p x y rpa rpb lower upper liq xIn yIn) (hnew : mapGet ⟨user, lower, upper⟩ p.positions = none)
    (hu : Unused p upper) :
    (∃ p' r, p.deposit user x y rpa rpb = .ok (p', r)) ↔ xIn.toRat ≤ x.toRat := by
  constructor
  · rintro ⟨p', r, hd⟩
    obtain ⟨lower', upper', a, b, liq', p1, p2, px, py, _, _, _, _, g1, g2, _, g3, g4, g5, _, g6, g7, _⟩ := deposit_ok hd
    obtain ⟨a', b', h1, h2, h3, h4, h5⟩ := h.amounts
    rw [h.snapLower] at g1; cases g1
    rw [h.snapUpper] at g2; cases g2
    rw [h1] at g3; cases g3
    rw [h2] at g4; cases g4
    rw [h3] at g5; cases g5
    rw [h4] at g6
    rw [← ok_inj.1 g6] at g7
    exact (gt_le g7).2.2 rfl
  · intro hx
    obtain ⟨p', r, hd, _⟩ := C44_unused_partial hr (h.fits hr hx) hnew hu
    exact ⟨p', r, hd⟩

/-- The X computed from the liquidity that X buys. -/
theorem x_exceeds {x q b m r d T l : Nat} (hT : 0 < T) (hm : 0 < m) (hd : 0 < d) (hqb : q * b = m * T + r)
    (hl : l = x * q / T * b / T * T / d) (h : T * b + (2 + d / T) * T * T + m * T ≤ x * r) : x < l * d / T * T / m := by
  generalize hA : x * q / T = A at hl
  generalize hN : A * b / T = N at hl
  have up : ∀ z k : Nat, 0 < k → z < z / k * k + k := fun z k hk => by
    have h8 := Nat.div_add_mod' z k
    have h9 := Nat.mod_lt z hk
    omega
  have h1 : x * q < A * T + T := hA ▸ up _ _ hT
  have h2 : A * b < N * T + T := hN ▸ up _ _ hT
  have h3 : N * T < l * d + d := hl ▸ up _ _ hd
  have h4 := up d T hT
  have h5 := up (l * d) T hT
  generalize hM : l * d / T = M at *
  generalize d / T = e at *
  have h6 : M ≥ N - 1 - e := by
    by_contra hc
    have : (M + 2 + e) ≤ N := by omega
    have := Nat.mul_le_mul_right T this
    nlinarith
  refine (Nat.le_div_iff_mul_le hm).2 ?_
  have h7 : N ≤ M + 1 + e := by omega
  have k1 : (x * q) * b ≤ (A * T + T) * b := Nat.mul_le_mul_right _ h1.le
  have k2 : A * b * T ≤ (N * T + T) * T := Nat.mul_le_mul_right _ h2.le
  have k3 : N * T * T ≤ (M + 1 + e) * T * T := Nat.mul_le_mul_right _ (Nat.mul_le_mul_right _ h7)
  have k4 : x * q * b = x * m * T + x * r := by rw [Nat.mul_assoc, hqb]; ring
  refine Nat.le_of_mul_le_mul_right ?_ hT
  show (x + 1) * m * T ≤ M * T * T
  nlinarith

/-- A deposit at or above the pool's price, or one inside its range of which the X counts, is refused once the offer
times the remainder of `q b` at the twelfth place reaches `b + 2 + ⌊b - q⌋ + ⌊q b⌋`, each number taken in its own units: `q` is
the root price moved into the range and `b` the upper bound. -/
theorem C123_refused {p : Pool} {user lower upper x y v a b q : Nat} {rpa rpb : Decimal}
    (hv : p.gs.rp = ⟨v, 12, false⟩) (hl : p.rpToPossibleTick rpa false 0 = .ok lower)
    (hu : p.rpToPossibleTick rpb false lower = .ok upper) (ha : tickToRp lower = .ok ⟨a, 12, false⟩)
    (hb : tickToRp upper = .ok ⟨b, 12, false⟩) (hq : q = max v a)
    (hc : v ≤ a ∨ v < b ∧ x * q / 10 ^ 12 * b / 10 ^ 12 * 10 ^ 12 / (b - q) ≤ y * 10 ^ 12 / (q - a))
    (h : 10 ^ 12 * b + (2 + (b - q) / 10 ^ 12) * 10 ^ 12 * 10 ^ 12 + q * b / 10 ^ 12 * 10 ^ 12 ≤ x * (q * b % 10 ^ 12)) :
    ∀ r, p.deposit user ⟨x, 12, false⟩ ⟨y, 12, false⟩ rpa rpb ≠ .ok r := by
  rintro ⟨p', r⟩ hd
  obtain ⟨lower', upper', a', b', liq', p1, p2, px, py, _, _, _, _, g1, g2, hlu, g3, g4, g5, _, g6, g7, _⟩ := deposit_ok hd
  rw [hl] at g1; cases g1
  rw [hu] at g2; cases g2
  rw [ha] at g3; cases g3
  rw [hb] at g4; cases g4
  rw [hv] at g5 g6
  have hab : a < b := toRat_lt_mk.1 (C23_increasing hlu ha hb)
  have hqb : q < b := by rw [hq]; rcases hc with hc | hc <;> omega
  have hmin : Max.max (Min.min v b) a = q := by rw [hq]; rcases hc with hc | hc <;> omega
  have e : liq' = ⟨x * q / 10 ^ 12 * b / 10 ^ 12 * 10 ^ 12 / (b - q), 12, false⟩ := by
    rcases liqFrom_nn g5 with ⟨k1, _, k2⟩ | ⟨k1, _, k2⟩ | ⟨k1, k3, _, k2⟩
    · rw [k2, hq, max_eq_right k1]
    · have : q = v := by rw [hq, max_eq_left (by omega)]
      rw [k2]
      rcases hc with hc | ⟨_, hc⟩
      · omega
      · rw [this] at hc ⊢
        rw [min_eq_left hc]
    · exact absurd hqb (by rw [hq]; exact not_lt.2 (k3.trans (le_max_left _ _)))
  subst e
  rcases (xFrom_nn g6).2.2.2 with ⟨_, k2, k3⟩ | ⟨k, _⟩
  · rw [hmin] at k2 k3
    have := x_exceeds (T := 10 ^ 12) (by norm_num) k2 (Nat.sub_pos_of_lt hqb) (Nat.div_add_mod' (q * b) (10 ^ 12)).symm rfl h
    rw [k3, gt_nn, ok_inj, decide_eq_false_iff_not] at g7
    exact g7 this
  · exact absurd k (by clear h g7 hc; omega)

/-- Depositing up to `n` X from tick 40 to tick 50, above the price of the sample pool, is sensible. -/
theorem sensible_of {n : Nat} {liq xIn : Decimal}
    (h4 : liqFromXYRpRng (D n) (D 0) sold.gs.rp (get (tickToRp 40)) (get (tickToRp 50)) = .ok liq)
    (h5 : xFromLRpRng liq sold.gs.rp (get (tickToRp 40)) (get (tickToRp 50)) = .ok xIn)
    (h6 : yFromLRpRng liq sold.gs.rp (get (tickToRp 40)) (get (tickToRp 50)) = .ok PoolMath.zero) (h8 : liq.Amount 12)
    (h7 : xIn.Amount 12) (h9 : sold.gs.liq.value + liq.value < u128Size)
    (h10 : (sold.tickOrNew 40).liqGross.value + liq.value < u128Size)
    (h11 : (sold.tickOrNew 50).liqGross.value + liq.value < u128Size) (h12 : sold.x.value + xIn.value < u128Size) :
    Sensible sold (D n) (D 0) (mid 40) (mid 50) 40 50 liq xIn PoolMath.zero where
  hx := amount_mk _ _
  hy := amount_mk _ _
  hrpa := (amount_mk _ 12).nonneg
  hrpb := (amount_mk _ 12).nonneg
  snapLower := by decide +kernel
  snapUpper := by decide +kernel
  range := by decide
  amounts := ⟨_, _, by decide +kernel, by decide +kernel, h4, h5, h6⟩
  roomLiq := .mk (Tidy.reachable sold_ok).liq h8 h9
  roomLower := by
    rw [← tickOrNew_gross sold_ok]
    exact .mk ((Tidy.reachable sold_ok).tickOrNew 40).2.1 h8 h10
  roomUpper := by
    rw [← tickOrNew_gross sold_ok]
    exact .mk ((Tidy.reachable sold_ok).tickOrNew 50).2.1 h8 h11
  roomX := .mk (Tidy.reachable sold_ok).x h7 h12
  roomY := .mk (Tidy.reachable sold_ok).y zero_amount (by decide +kernel)

/-- C123 as stated is false: 5 X offered between ticks 40 and 50 of a pool at tick 19 are refused, because the pool
computes that 5.000000000002 X are needed. -/
theorem C123_false : ¬ C123_full := by
  intro h
  have hs : Sensible sold (D 5) (D 0) (mid 40) (mid 50) 40 50 ⟨10023025372342338, 12, false⟩ ⟨5000000000002, 12, false⟩
      PoolMath.zero :=
    sensible_of (by decide +kernel) (by decide +kernel) (by decide +kernel) (amount_mk _ _) (amount_mk _ _)
      (by decide +kernel) (by decide +kernel) (by decide +kernel) (by decide +kernel)
  have hn : mapGet ⟨3, 40, 50⟩ sold.positions = none := by decide +kernel
  have := (C123_accepted_partial sold_ok hs hn (unused_of sold_ok (by decide +kernel))).1
    (h sold_ok hs hn (unused_of sold_ok (by decide +kernel)))
  rw [show D 5 = ⟨5 * 10 ^ 12, 12, false⟩ from rfl, toRat_le_mk] at this
  exact absurd this (by decide)

-- every larger whole offer is refused as well
example (n user : Nat) (hn : 5 ≤ n) : ∀ r, sold.deposit user (D n) (D 0) (mid 40) (mid 50) ≠ .ok r := by
  refine C123_refused (lower := 40) (upper := 50) (q := 1002001901105) (a := 1002001901105) (b := 1002503002258) (v := 1000983787402)
    (by decide +kernel) (by decide +kernel) (by decide +kernel) (by decide +kernel) (by decide +kernel) (by decide)
    (.inl (by decide)) ?_
  refine le_trans ?_ (Nat.mul_le_mul_right _ (Nat.mul_le_mul_right _ hn))
  decide

-- 1 X is accepted
example : ∃ p' r, sold.deposit 3 (D 1) (D 0) (mid 40) (mid 50) = .ok (p', r) := by
  refine (C123_accepted_partial (liq := ⟨2004605074466871, 12, false⟩) (xIn := ⟨999999999999, 12, false⟩) sold_ok
    (sensible_of (by decide +kernel) (by decide +kernel) (by decide +kernel) (amount_mk _ _) (amount_mk _ _)
      (by decide +kernel) (by decide +kernel) (by decide +kernel) (by decide +kernel)) (by decide +kernel)
    (unused_of sold_ok (by decide +kernel))).2 ?_
  rw [show D 1 = ⟨1 * 10 ^ 12, 12, false⟩ from rfl, toRat_le_mk]
  decide

end Hmm.Pool
