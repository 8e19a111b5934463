import Verif.Model.Release
import Verif.Proofs.WorldRefine

/-
The deployed program and the checked one agree where nothing overflows.
-/

namespace Hmm.Release

open Decimal PoolMath

theorem bind_same {α β : Type} {x : R α} {f g : α → R β} (h : ∀ a, x = .ok a → f a = g a) : x >>= f = x >>= g := by
  cases x with
  | error e => rfl
  | ok a => exact h a rfl

theorem bind_both {α β : Type} {x y : R α} {f g : α → R β} (hx : x = y) (h : ∀ a, y = .ok a → f a = g a) :
    x >>= f = y >>= g := by
  subst hx; exact bind_same h

theorem pow10_eq {k : Nat} (h : k ≤ 38) : Release.pow10 k = 10 ^ k := Nat.mod_eq_of_lt (pow10_lt_iff.2 h)

theorem pow10_checked {k : Nat} (h : k ≤ 38) : Hmm.pow10 k = .ok (10 ^ k) := if_pos (pow10_lt_iff.2 h)

theorem toScale_eq {d : Decimal} {s : Nat} (h1 : d.scale ≤ s + 38) (h2 : s ≤ d.scale + 38) : toScale d s = d.toScale s := by
  unfold toScale Decimal.toScale
  split
  · rw [pow10_checked (by omega), bind_eq, pow10_eq (by omega)]
  · rw [pow10_checked (by omega), bind_eq, pow10_eq (by omega)]

theorem toComputeScale_eq {d : Decimal} (h : d.scale ≤ 50) : toComputeScale d = d.toComputeScale :=
  toScale_eq (by show d.scale ≤ 12 + 38; omega) (by show 12 ≤ d.scale + 38; omega)

theorem abs_eq {d : Decimal} (h : d.scale ≤ 38) : abs d = d.abs := by
  unfold abs Decimal.abs
  rw [toScale_eq (by omega) (by omega)]

theorem denominator_eq {d : Decimal} (h : d.scale ≤ 38) : d.denominator = .ok (denominator d) := by
  unfold denominator Decimal.denominator
  rw [pow10_checked h, pow10_eq h]

theorem mul_eq {a b : Decimal} (h : b.scale ≤ 38) : mul a b = a.mul b := by
  unfold mul Decimal.mul
  rw [denominator_eq h]
  rfl

theorem mulUp_eq {a b : Decimal} (h : b.scale ≤ 38) : mulUp a b = a.mulUp b := by
  unfold mulUp Decimal.mulUp
  rw [denominator_eq h]
  rfl

theorem div_eq {a b : Decimal} (h : b.scale ≤ 38) : div a b = a.div b := by
  unfold div Decimal.div
  rw [denominator_eq h]
  rfl

theorem divUp_eq {a b : Decimal} (h : b.scale ≤ 38) : divUp a b = a.divUp b := by
  unfold divUp Decimal.divUp
  rw [denominator_eq h]
  rfl

theorem toScaleUp_eq {d : Decimal} {s : Nat} (h1 : d.scale ≤ s + 38) (h2 : s ≤ d.scale + 38) :
    toScaleUp d s = d.toScaleUp s := by
  unfold toScaleUp Decimal.toScaleUp
  simp only
  split
  · rw [pow10_checked (by omega), bind_eq, pow10_eq (by omega), divUp_eq (by show (0 : Nat) ≤ 38; omega)]
  · rw [pow10_checked (by omega), bind_eq, pow10_eq (by omega), mulUp_eq (by show (0 : Nat) ≤ 38; omega)]

theorem divToScale_eq {a b : Decimal} {s : Nat} (h1 : a.scale ≤ s + b.scale + 38) (h2 : s + b.scale ≤ a.scale + 38) :
    divToScale a b s = a.divToScale b s := by
  unfold divToScale Decimal.divToScale
  simp only
  refine bind_both ?_ fun _ _ => rfl
  split
  · refine bind_same fun q _ => ?_
    rw [pow10_checked (by omega), bind_eq, pow10_eq (by omega)]
  · rw [pow10_checked (by omega), bind_eq, pow10_eq (by omega)]

theorem sqrt_eq {d : Decimal} (h : d.scale ≤ 38) : sqrt d = d.sqrt := by
  unfold sqrt Decimal.sqrt
  simp only
  rw [toScale_eq (by show (0 : Nat) ≤ _; omega) (by show d.scale ≤ 0 + 38; omega)]
  refine bind_same fun o _ => bind_same fun z _ => bind_same fun e _ => ?_
  split
  · rfl
  · rw [denominator_eq h]
    rfl

theorem powLoop_eq : ∀ (k exp : Nat) (b r : Decimal), b.scale ≤ 38 → powLoop k exp b r = Decimal.powLoop k exp b r
  | 0, _, _, _, _ => rfl
  | k + 1, exp, b, r, h => by
    unfold powLoop Decimal.powLoop
    split
    · rfl
    · rw [mul_eq h]
      refine bind_same fun r' _ => ?_
      rw [mul_eq h]
      refine bind_same fun b' hb => ?_
      refine powLoop_eq k _ b' r' ?_
      rw [(mul_ok.1 hb).2.2]
      exact h

theorem powInt_eq {d : Decimal} (h : d.scale ≤ 38) (n : Nat) : powInt d n = d.powInt n := by
  unfold powInt Decimal.powInt
  rw [denominator_eq h, bind_eq]
  simp only
  split
  · rfl
  · exact powLoop_eq _ _ _ _ h

/-! ### Pool formulas -/

theorem tickToRp_eq (t : Nat) : tickToRp t = PoolMath.tickToRp t := by
  unfold tickToRp PoolMath.tickToRp
  refine bind_both ?_ fun b hb => powInt_eq ?_ t
  · unfold tickBaseRoot PoolMath.tickBaseRoot
    refine bind_both (toComputeScale_eq (by decide)) fun b hb => ?_
    rw [sqrt_eq]
    have : b.scale = 12 := by
      unfold PoolMath.tickBase Decimal.toComputeScale at hb
      rcases toScale_ok.1 hb with ⟨_, _, e⟩ | ⟨_, _, _, e⟩ <;> rw [e] <;> rfl
    omega
  · rw [PoolMath.tickBaseRoot_eq, ok_inj] at hb
    subst hb
    decide

theorem sub_scale {a b c : Decimal} (h : unwrap (a.sub b) = .ok c) : c.scale = a.scale :=
  (sub_ok.1 (unwrap_ok.1 h)).2.2.1

theorem mul_scale {a b c : Decimal} (h : a.mul b = .ok c) : c.scale = a.scale := by rw [(mul_ok.1 h).2.2]

theorem div_scale {a b c : Decimal} (h : a.div b = .ok c) : c.scale = a.scale := by rw [(div_ok.1 h).2.2.2]

theorem min_scale {a b c : Decimal} (h : a.min b = .ok c) : c = a ∨ c = b := by
  unfold Decimal.min at h
  rw [bind_ok] at h; obtain ⟨t, _, h⟩ := h
  rw [ite_ok] at h
  rcases h with ⟨_, h⟩ | ⟨_, h⟩ <;> rw [pure_ok] at h <;> simp [h]

theorem max_scale {a b c : Decimal} (h : a.max b = .ok c) : c = a ∨ c = b := by
  unfold Decimal.max at h
  rw [bind_ok] at h; obtain ⟨t, _, h⟩ := h
  rw [ite_ok] at h
  rcases h with ⟨_, h⟩ | ⟨_, h⟩ <;> rw [pure_ok] at h <;> simp [h]

theorem clamp_scale {rp a b m c : Decimal} (hr : rp.scale ≤ 38) (ha : a.scale ≤ 38) (hb : b.scale ≤ 38)
    (h1 : rp.min b = .ok m) (h2 : m.max a = .ok c) : c.scale ≤ 38 := by
  rcases max_scale h2 with rfl | rfl
  · rcases min_scale h1 with rfl | rfl <;> assumption
  · exact ha

theorem liqXOnly_eq {x a b : Decimal} (ha : a.scale ≤ 38) (hb : b.scale ≤ 38) : liqXOnly x a b = PoolMath.liqXOnly x a b := by
  unfold liqXOnly PoolMath.liqXOnly
  refine bind_same fun d hd => ?_
  split
  · rfl
  · rw [mul_eq ha]
    refine bind_same fun m _ => ?_
    rw [mul_eq hb]
    refine bind_same fun n _ => div_eq ?_
    rw [sub_scale hd]; exact hb

theorem liqYOnly_eq {y a b : Decimal} (hb : b.scale ≤ 38) : liqYOnly y a b = PoolMath.liqYOnly y a b := by
  unfold liqYOnly PoolMath.liqYOnly
  refine bind_same fun d hd => ?_
  split
  · rfl
  · exact div_eq (by rw [sub_scale hd]; exact hb)

theorem liqFromXYRpRng_eq {x y rp a b : Decimal} (hr : rp.scale ≤ 38) (ha : a.scale ≤ 38) (hb : b.scale ≤ 38) :
    liqFromXYRpRng x y rp a b = PoolMath.liqFromXYRpRng x y rp a b := by
  unfold liqFromXYRpRng PoolMath.liqFromXYRpRng
  rw [liqXOnly_eq ha hb, liqXOnly_eq hr hb, liqYOnly_eq hr, liqYOnly_eq hb]

theorem xFromLRpRng_eq {l rp a b : Decimal} (hr : rp.scale ≤ 38) (ha : a.scale ≤ 38) (hb : b.scale ≤ 38) :
    xFromLRpRng l rp a b = PoolMath.xFromLRpRng l rp a b := by
  unfold xFromLRpRng PoolMath.xFromLRpRng
  split
  · rfl
  · refine bind_same fun m hm => bind_same fun c hc => bind_same fun d hd => ?_
    rw [mul_eq hb]
    refine bind_same fun n hn => ?_
    rw [mul_eq (by rw [sub_scale hd]; exact hb)]
    refine bind_same fun k _ => div_eq ?_
    rw [mul_scale hn]
    exact clamp_scale hr ha hb hm hc

theorem yFromLRpRng_eq {l rp a b : Decimal} (hr : rp.scale ≤ 38) (ha : a.scale ≤ 38) (hb : b.scale ≤ 38) :
    yFromLRpRng l rp a b = PoolMath.yFromLRpRng l rp a b := by
  unfold yFromLRpRng PoolMath.yFromLRpRng
  refine bind_same fun m hm => bind_same fun c hc => bind_same fun d hd => ?_
  split
  · rfl
  · refine mul_eq ?_
    rw [sub_scale hd]
    exact clamp_scale hr ha hb hm hc

/-! ### Bitmap -/

theorem wrapI32_eq {n : Int} (h1 : -2 ^ 31 ≤ n) (h2 : n < 2 ^ 31) : wrapI32 n = n := by
  unfold wrapI32
  omega

theorem keyOf_eq {t : Int} (h1 : -2 ^ 31 ≤ t) (h2 : t < 2 ^ 31) : keyOf t = Bitmap.keyOf t :=
  wrapI32_eq (by omega) (by omega)

theorem ixOf_eq {t : Int} {k : Nat} (h : Bitmap.index (Bitmap.keyOf t) = .ok k) :
    ixOf t = Bitmap.ixOf t ∧ 0 ≤ Bitmap.ixOf t ∧ Bitmap.ixOf t < 8 := by
  unfold Bitmap.index Bitmap.keyOf at h
  rw [ite_ok] at h
  rcases h with ⟨⟨h1, h2⟩, _⟩ | ⟨_, h⟩
  · have hb : (bitmapSize : Int) = 10000 := rfl
    rw [hb] at h2
    unfold ixOf Bitmap.ixOf
    rw [hb, wrapI32_eq (by omega) (by omega)]
    refine ⟨rfl, Int.tmod_nonneg _ (by omega), Int.tmod_lt_of_pos _ (by omega)⟩
  · simp [rpanic] at h

theorem bit_eq {t : Int} {k : Nat} (h : Bitmap.index (Bitmap.keyOf t) = .ok k) : Bitmap.bit (Bitmap.ixOf t) = .ok (bit (ixOf t)) := by
  obtain ⟨e, h1, h2⟩ := ixOf_eq h
  unfold Bitmap.bit bit
  rw [if_pos ⟨h1, h2⟩, e, Int.emod_eq_of_lt h1 h2]

theorem activateTick_eq {b : Bitmap} {t : Int} (h1 : -2 ^ 31 ≤ t) (h2 : t < 2 ^ 31) : activateTick b t = b.activateTick t := by
  unfold activateTick Bitmap.activateTick
  rw [keyOf_eq h1 h2]
  refine bind_same fun k hk => ?_
  rw [bit_eq hk, bind_eq]

theorem unsetTick_eq {b : Bitmap} {t : Int} (h1 : -2 ^ 31 ≤ t) (h2 : t < 2 ^ 31) : unsetTick b t = b.unsetTick t := by
  unfold unsetTick Bitmap.unsetTick
  rw [keyOf_eq h1 h2]
  refine bind_same fun k hk => ?_
  rw [bit_eq hk, bind_eq]

theorem tickIsActive_eq {b : Bitmap} {t : Int} (h1 : -2 ^ 31 ≤ t) (h2 : t < 2 ^ 31) : tickIsActive b t = b.tickIsActive t := by
  unfold tickIsActive Bitmap.tickIsActive
  rw [keyOf_eq h1 h2]
  refine bind_same fun k hk => ?_
  obtain ⟨e, g1, g2⟩ := ixOf_eq hk
  rw [bit_eq hk, bind_eq, e, Int.emod_eq_of_lt g1 g2]

/-! ### Instructions -/

open OnChain

theorem computeLatestFee_eq {lower upper current scale : Nat} {g l u : Fee} (h1 : g.scale ≤ scale + 38) (h2 : scale ≤ g.scale + 38) :
    computeLatestFee lower upper current g l u scale = OnChain.computeLatestFee lower upper current g l u scale := by
  have h : ∀ sel : Fee → Nat, latestFeeOf sel lower upper current g l u scale =
      OnChain.latestFeeOf sel lower upper current g l u scale := by
    intro sel
    unfold latestFeeOf OnChain.latestFeeOf
    refine bind_same fun d hd => ?_
    have hs : d.scale = g.scale := by
      unfold feeWithinRange at hd
      rw [bind_ok] at hd; obtain ⟨_, _, hd⟩ := hd
      rw [bind_ok] at hd; obtain ⟨_, _, hd⟩ := hd
      rw [bind_ok] at hd; obtain ⟨_, _, hd⟩ := hd
      rw [bind_ok] at hd; obtain ⟨_, _, hd⟩ := hd
      rw [bind_ok] at hd; obtain ⟨_, _, hd⟩ := hd
      rw [bind_ok] at hd; obtain ⟨e, he, hd⟩ := hd
      rw [sub_scale hd, sub_scale he]
    rw [toScale_eq (by rw [hs]; exact h1) (by rw [hs]; exact h2)]
  unfold computeLatestFee OnChain.computeLatestFee
  simp only [h]

theorem updateTick_eq {ts : Tick} {tick : Nat} {delta : Decimal} {upper : Bool} (h1 : ts.netScale ≤ 50) (h2 : ts.grossScale ≤ 50) :
    updateTick ts tick delta upper = OnChain.updateTick ts tick delta upper := by
  unfold updateTick OnChain.updateTick
  rw [toComputeScale_eq (d := Decimal.new ts.net ts.netScale (ts.netNeg != 0)) h1,
    toComputeScale_eq (d := Decimal.new ts.gross ts.grossScale false) h2]

theorem updatePosition_eq {ps : Position} {l u : Tick} {delta : Decimal} {lower upper : Nat} {f : Fee} (h : ps.liqScale ≤ 50)
    (l1 : l.netScale ≤ 50) (l2 : l.grossScale ≤ 50) (u1 : u.netScale ≤ 50) (u2 : u.grossScale ≤ 50) :
    updatePosition ps l u delta lower upper f = OnChain.updatePosition ps l u delta lower upper f := by
  unfold updatePosition OnChain.updatePosition
  rw [toComputeScale_eq (d := Decimal.new ps.liq ps.liqScale false) h, updateTick_eq l1 l2, updateTick_eq u1 u2]

theorem feeTerm_eq {a b scale s : Nat} (h : a + b < u128Size) (h1 : scale ≤ s + 38) (h2 : s ≤ scale + 38) :
    feeTerm a b scale s = OnChain.feeTerm a b scale s := by
  unfold feeTerm OnChain.feeTerm checkedAdd wrapAdd
  rw [show u128 (a + b) = .ok (a + b) from if_pos h, bind_eq, Nat.mod_eq_of_lt h]
  exact toScale_eq h1 h2

namespace World

open OnChain.World

/-- The scales and fees of everything a pool keeps. -/
structure Plain (p : PoolAcc) : Prop where
  gs : p.gs.fee = Fee.zero ∧ p.gs.liqScale = 12
  tick : ∀ t ts, mapGet t p.ticks = some ts → GoodTick t ts
  pos : ∀ k q, mapGet k p.positions = some q → GoodPosition k q

theorem plain {w : World} (h : OnChain.World.Reachable w) {lp : Nat} {p : PoolAcc} (hp : mapGet lp w.pools = some p) : Plain p := by
  obtain ⟨_, s0, s, h1, h2⟩ := h.guarded hp
  have hg := Good.reachable h1
  refine ⟨?_, ?_, ?_⟩
  · rw [← h2.gs]; exact ⟨hg.gs.fee, hg.gs.scale⟩
  · rw [← h2.ticks]; exact hg.tick
  · rw [← h2.positions]; exact hg.pos

theorem initializePool_eq (w : World) (a lp x y t : Nat) : initializePool w a lp x y t = w.initializePool a lp x y t := by
  unfold initializePool OnChain.World.initializePool
  refine bind_same fun _ _ => bind_same fun _ _ => bind_same fun _ _ => bind_same fun m _ => ?_
  cases m.authority with
  | none => rfl
  | some q =>
    simp only
    refine bind_same fun _ _ => bind_same fun _ _ => bind_same fun _ _ => bind_same fun _ _ => ?_
    rw [tickToRp_eq]
    refine bind_same fun rp hrp => ?_
    obtain ⟨v, rfl, _⟩ := tickToRp_mk hrp
    rw [toScale_eq (by show (12 : Nat) ≤ 12 + 38; omega) (by show (12 : Nat) ≤ 12 + 38; omega)]

theorem compute_scale {d c : Decimal} (h : d.toComputeScale = .ok c) : c.scale = 12 := by
  unfold Decimal.toComputeScale at h
  rcases toScale_ok.1 h with ⟨_, _, e⟩ | ⟨_, _, _, e⟩ <;> rw [e] <;> rfl

theorem latestFee_zero {lower upper current : Nat} {g l u : Fee} {s : Nat} {f : Fee} (hg : g = Fee.zero) (hl : l = Fee.zero)
    (hu : u = Fee.zero) (hs : s = 12) (h : OnChain.computeLatestFee lower upper current g l u s = .ok f) : f = Fee.zero := by
  subst hg hl hu hs
  rw [computeLatestFee_zero, ok_inj] at h
  exact h.symm

theorem liq_scale {x y rp a b d : Decimal} (hx : x.scale = 12) (hy : y.scale = 12)
    (h : PoolMath.liqFromXYRpRng x y rp a b = .ok d) : d.scale = 12 := by
  have hX : ∀ {a b d : Decimal}, PoolMath.liqXOnly x a b = .ok d → d.scale = 12 := by
    intro a b d h
    unfold PoolMath.liqXOnly at h
    rw [bind_ok] at h; obtain ⟨_, _, h⟩ := h
    rw [ite_ok] at h
    rcases h with ⟨_, h⟩ | ⟨_, h⟩
    · simp [rpanic] at h
    · rw [bind_ok] at h; obtain ⟨_, h1, h⟩ := h
      rw [bind_ok] at h; obtain ⟨_, h2, h⟩ := h
      rw [div_scale h, mul_scale h2, mul_scale h1, hx]
  have hY : ∀ {a b d : Decimal}, PoolMath.liqYOnly y a b = .ok d → d.scale = 12 := by
    intro a b d h
    unfold PoolMath.liqYOnly at h
    rw [bind_ok] at h; obtain ⟨_, _, h⟩ := h
    rw [ite_ok] at h
    rcases h with ⟨_, h⟩ | ⟨_, h⟩
    · simp [rpanic] at h
    · rw [div_scale h, hy]
  unfold PoolMath.liqFromXYRpRng at h
  rw [bind_ok] at h; obtain ⟨_, _, h⟩ := h
  rw [ite_ok] at h
  rcases h with ⟨_, h⟩ | ⟨_, h⟩
  · exact hX h
  · rw [bind_ok] at h; obtain ⟨_, _, h⟩ := h
    rw [ite_ok] at h
    rcases h with ⟨_, h⟩ | ⟨_, h⟩
    · rw [bind_ok] at h; obtain ⟨_, h1, h⟩ := h
      rw [bind_ok] at h; obtain ⟨_, h2, h⟩ := h
      rcases min_scale h with rfl | rfl
      · exact hX h1
      · exact hY h2
    · exact hY h

theorem x_scale {l rp a b d : Decimal} (h : PoolMath.xFromLRpRng l rp a b = .ok d) : d.scale = l.scale := by
  unfold PoolMath.xFromLRpRng at h
  rw [ite_ok] at h
  rcases h with ⟨_, h⟩ | ⟨_, h⟩
  · simp [rpanic] at h
  · rw [bind_ok] at h; obtain ⟨_, _, h⟩ := h
    rw [bind_ok] at h; obtain ⟨_, _, h⟩ := h
    rw [bind_ok] at h; obtain ⟨_, _, h⟩ := h
    rw [bind_ok] at h; obtain ⟨_, _, h⟩ := h
    rw [bind_ok] at h; obtain ⟨_, h1, h⟩ := h
    rw [div_scale h, mul_scale h1]

theorem y_scale {l rp a b d : Decimal} (h : PoolMath.yFromLRpRng l rp a b = .ok d) : d.scale = l.scale := by
  unfold PoolMath.yFromLRpRng at h
  rw [bind_ok] at h; obtain ⟨_, _, h⟩ := h
  rw [bind_ok] at h; obtain ⟨_, _, h⟩ := h
  rw [bind_ok] at h; obtain ⟨_, _, h⟩ := h
  rw [ite_ok] at h
  rcases h with ⟨_, h⟩ | ⟨_, h⟩
  · simp [rpanic] at h
  · exact mul_scale h

theorem rp_scale {t : Nat} {c : Decimal} (h : PoolMath.tickToRp t = .ok c) : c.scale = 12 := by
  obtain ⟨v, rfl, _⟩ := tickToRp_mk h
  rfl

theorem fee_eq {d : Decimal} {f : Fee} (hf : f = Fee.zero) (hd : d.scale = 12) :
    feeTerm f.fx f.hx f.scale d.scale = OnChain.feeTerm f.fx f.hx f.scale d.scale ∧
    feeTerm f.fy f.hy f.scale d.scale = OnChain.feeTerm f.fy f.hy f.scale d.scale := by
  subst hf
  rw [hd]
  exact ⟨feeTerm_eq (by decide) (by decide) (by decide), feeTerm_eq (by decide) (by decide) (by decide)⟩

theorem loaded_plain {w : World} {lp : Nat} {p : PoolAcc} (hp : Plain p) {c : Accounts} {lower upper current : Nat} {a : Loaded}
    (h : OnChain.World.loadAccounts w lp p c lower upper current = .ok a) :
    GoodPosition ⟨c.user, lower, upper⟩ a.pos ∧ GoodTick lower a.lwr ∧ GoodTick upper a.upr := by
  obtain ⟨_, h⟩ := loadAccounts_ok.1 h
  obtain ⟨_, h2, _, h4, _, h6, _⟩ := OnChain.loadAccounts_ok.1 (h 0 0 0 0 0 0)
  exact ⟨hp.pos _ _ h2, hp.tick _ _ h4, hp.tick _ _ h6⟩

theorem deposit_eq {w : World} (hr : OnChain.World.Reachable w) (lp : Nat) (c : Accounts) (lower upper current xa ya : Nat) :
    deposit w lp c lower upper current xa ya = w.deposit lp c lower upper current xa ya := by
  unfold deposit OnChain.World.deposit
  refine bind_same fun p hp => bind_same fun a ha => ?_
  have hpl := plain hr (load_ok.1 hp)
  obtain ⟨gp, gl, gu⟩ := loaded_plain hpl ha
  refine bind_both (toComputeScale_eq (Nat.zero_le 50)) fun x hx => bind_both (toComputeScale_eq (Nat.zero_le 50)) fun y hy => ?_
  refine bind_both (tickToRp_eq _) fun ra hra => bind_both (tickToRp_eq _) fun rb hrb => bind_both (tickToRp_eq _) fun rp hrp => ?_
  have sa := rp_scale hra
  have sb := rp_scale hrb
  have sp := rp_scale hrp
  refine bind_both (liqFromXYRpRng_eq (by omega) (by omega) (by omega)) fun d hd => ?_
  have sd := liq_scale (compute_scale hx) (compute_scale hy) hd
  split
  · rfl
  · rw [activateTick_eq (t := 0) (by decide) (by decide)]
    refine bind_same fun b1 _ => ?_
    rw [activateTick_eq (t := 40000) (by decide) (by decide)]
    refine bind_same fun b _ => ?_
    refine bind_both (xFromLRpRng_eq (by omega) (by omega) (by omega)) fun xi hxi => ?_
    refine bind_both (yFromLRpRng_eq (by omega) (by omega) (by omega)) fun yi hyi => ?_
    have sx := x_scale hxi
    have sy := y_scale hyi
    have hgs : p.gs.fee.scale = 12 := by rw [hpl.gs.1]; rfl
    have hps : a.pos.fee.scale = 12 := by rw [gp.fee]; rfl
    refine bind_both (computeLatestFee_eq (by omega) (by omega)) fun f hf => ?_
    have ff := latestFee_zero hpl.gs.1 gl.fee gu.fee hps hf
    rw [updatePosition_eq (by rw [gp.scale]; omega) (by rw [gl.net]; omega) (by rw [gl.gross]; omega) (by rw [gu.net]; omega)
      (by rw [gu.gross]; omega)]
    refine bind_same fun r _ => ?_
    obtain ⟨pos, lwr, upr⟩ := r
    simp only
    refine bind_same fun g _ => ?_
    refine bind_both (fee_eq ff (sx.trans sd)).1 fun fx _ => bind_same fun xd hxd => ?_
    refine bind_both (fee_eq ff (sy.trans sd)).2 fun fy _ => bind_same fun yd hyd => ?_
    refine bind_same fun tx _ => ?_
    split
    · rfl
    · refine bind_same fun ty _ => ?_
      split
      · rfl
      · refine bind_both (abs_eq (by omega)) fun m _ => bind_same fun w1 _ => ?_
        refine bind_both (abs_eq (by rw [sub_scale hxd]; omega)) fun dx _ => bind_same fun w2 _ => ?_
        exact bind_both (abs_eq (by rw [sub_scale hyd]; omega)) fun dy _ => rfl

theorem withdraw_eq {w : World} (hr : OnChain.World.Reachable w) (lp : Nat) (c : Accounts) (lower upper current n : Nat) :
    withdraw w lp c lower upper current n = w.withdraw lp c lower upper current n := by
  unfold withdraw OnChain.World.withdraw
  refine bind_same fun p hp => bind_same fun a ha => ?_
  have hpl := plain hr (load_ok.1 hp)
  obtain ⟨gp, gl, gu⟩ := loaded_plain hpl ha
  refine bind_both (toComputeScale_eq (Nat.zero_le 50)) fun x hx => ?_
  have sd : x.neg.neg.scale = 12 := by rw [neg_scale, neg_scale, compute_scale hx]
  simp only
  refine bind_both (tickToRp_eq _) fun ra hra => bind_both (tickToRp_eq _) fun rb hrb => bind_both (tickToRp_eq _) fun rp hrp => ?_
  have sa := rp_scale hra
  have sb := rp_scale hrb
  have sp := rp_scale hrp
  have hgs : p.gs.fee.scale = 12 := by rw [hpl.gs.1]; rfl
  have hps : a.pos.fee.scale = 12 := by rw [gp.fee]; rfl
  refine bind_both (computeLatestFee_eq (by omega) (by omega)) fun f hf => ?_
  have ff := latestFee_zero hpl.gs.1 gl.fee gu.fee hps hf
  rw [updatePosition_eq (by rw [gp.scale]; omega) (by rw [gl.net]; omega) (by rw [gl.gross]; omega) (by rw [gu.net]; omega)
    (by rw [gu.gross]; omega)]
  refine bind_same fun r _ => ?_
  obtain ⟨pos, lwr, upr⟩ := r
  simp only
  refine bind_both (unsetTick_eq (by decide) (by decide)) fun b1 _ => bind_both (unsetTick_eq (by decide) (by decide)) fun b _ => ?_
  refine bind_same fun g _ => ?_
  refine bind_both (xFromLRpRng_eq (by omega) (by omega) (by omega)) fun xo hxo => ?_
  refine bind_both (yFromLRpRng_eq (by omega) (by omega) (by omega)) fun yo hyo => ?_
  have sx := x_scale hxo
  have sy := y_scale hyo
  refine bind_both (fee_eq ff (sx.trans sd)).1 fun fx _ => bind_same fun xd hxd => ?_
  refine bind_both (fee_eq ff (sy.trans sd)).2 fun fy _ => bind_same fun yd hyd => ?_
  have tx := (add_ok.1 (unwrap_ok.1 hxd)).2.2.1
  have ty := (add_ok.1 (unwrap_ok.1 hyd)).2.2.1
  refine bind_same fun w1 _ => bind_both (abs_eq (by omega)) fun dx _ => bind_same fun w2 _ => ?_
  exact bind_both (abs_eq (by omega)) fun dy _ => rfl

theorem exec_eq {w : World} (hr : OnChain.World.Reachable w) (i : OnChain.World.Instr) : exec w i = w.exec i := by
  cases i with
  | initializePool a lp x y t => exact initializePool_eq w a lp x y t
  | initializeBitmap lp => rfl
  | initializeTick lp t => rfl
  | createPosition lp u l h => rfl
  | deposit lp c l h cur x y =>
    unfold exec OnChain.World.exec
    simp only
    rw [deposit_eq hr]
  | withdraw lp c l h cur n =>
    unfold exec OnChain.World.exec
    simp only
    rw [withdraw_eq hr]

end World

end Hmm.Release
