import Verif.Proofs.Solvency
import Verif.Props.Active
import Verif.Props.SwapOutcome

/-
C69-C71: the reserves of the in-memory pool against the exact claims of its positions.
-/

namespace Hmm.Pool

open Decimal PoolMath
open Hmm.Sample hiding get

/-! ### C69: the reserves cover the positions -/

/-- The position of `backIn` after further sales of Y, made with twice the liquidity there is. -/
def drained : R Pool := do
  let p ← backIn
  let (p, _) ← p.executeSwapFromY fl (D 17) PoolMath.zero
  return p

theorem drained_reachable {p : Pool} (h : drained = .ok p) : Reachable p := by
  unfold drained at h
  rw [bind_ok] at h; obtain ⟨p1, h1, h⟩ := h
  rw [bind_ok] at h; obtain ⟨⟨p2, _⟩, h2, h⟩ := h
  cases h
  exact .step (backIn_reachable h1) (.sellY h2)

/-- C69 is false, by much: once a swap has ended exactly on a tick (C39), later swaps pay out more than
they should.  Here the only position is owed almost 11 X, and the pool has less than 2. -/
theorem C69_false : ∃ p, Reachable p ∧ p.x.toRat < 2 ∧ 10 < p.owedX :=
  ⟨Sample.get drained, drained_reachable (by decide +kernel), by decide +kernel, by decide +kernel⟩

/-- The position cannot be withdrawn. -/
theorem C69_stuck : ∃ p, Reachable p ∧ liqOf p.positions ⟨1, 10, 30⟩ = (Decimal.mk 19986005718851637 12 false).toRat ∧
    p.withdraw 1 ⟨19986005718851637, 12, false⟩ (mid 10) (mid 30) = .error .panic :=
  ⟨Sample.get drained, drained_reachable (by decide +kernel), by decide +kernel, by decide +kernel⟩

theorem two_clear {f : Decimal} {p : Pool} (h : Sample.two f = .ok p) : ClearReachable p := by
  unfold Sample.two at h
  rw [bind_ok] at h; obtain ⟨p0, h0, h⟩ := h
  rw [bind_ok] at h; obtain ⟨⟨p1, _⟩, h1, h⟩ := h
  rw [bind_ok] at h; obtain ⟨⟨p2, _⟩, h2, h⟩ := h
  cases h
  exact .step (.step (.new h0) (.deposit h1)) (.deposit h2)

/-- It is false by a little without any swap: each deposit is rounded down by itself. -/
theorem C69_false_dust : ∃ p, ClearReachable p ∧ p.y.toRat < p.owedY := by
  exact ⟨pool, two_clear pool_ok.1, by decide +kernel⟩

theorem Capped.clear {cap : ℚ} {n : Nat} {p : Pool} (h : Capped cap n p) : ClearReachable p := by
  induction h with
  | new h => exact .new h
  | deposit _ h _ ih => exact .step ih (.deposit h)
  | withdraw _ h ih => exact .step ih (.withdraw h)
  | sellX _ h hon ih => exact .step ih (.sellX h hon)
  | sellY _ h hon ih => exact .step ih (.sellY h hon)

theorem sellX_dusty {fl : FloatEnv} {p p' : Pool} {dx o : Decimal} {r : SwapOutput} (hp : ClearReachable p)
    (h : p.executeSwapFromX fl dx o = .ok (p', r)) : Dusty p.totalLiq (p.ticks.length + 1) p p' := by
  have hs := Sound.clearReachable hp
  have ht := Tidy.reachable hp.reachable
  obtain ⟨k, hk, hr⟩ := run_of_sellX h
  have hd : dx.isPositive = true := by
    unfold executeSwapFromX at h
    rw [ite_ok] at h
    rcases h with ⟨_, h⟩ | ⟨h0, _⟩
    · simp [rpanic] at h
    · simpa using h0
  exact (dusty_runX hd (p0 := p) hr rfl (.inl ⟨hs, .refl _, rfl, le_rfl⟩) ht.x.1 ht.y.1).weaken hs.total_nonneg hk

theorem sellY_dusty {fl : FloatEnv} {p p' : Pool} {dy o : Decimal} {r : SwapOutput} (hp : ClearReachable p)
    (h : p.executeSwapFromY fl dy o = .ok (p', r)) : Dusty p.totalLiq (p.ticks.length + 1) p p' := by
  have hs := Sound.clearReachable hp
  have ht := Tidy.reachable hp.reachable
  obtain ⟨k, hk, hr⟩ := run_of_sellY h
  have hd : dy.isPositive = true := by
    unfold executeSwapFromY at h
    rw [ite_ok] at h
    rcases h with ⟨_, h⟩ | ⟨h0, _⟩
    · simp [rpanic] at h
    · simpa using h0
  exact (dusty_runY hd (p0 := p) hr rfl (.inl ⟨hs, .refl _, rfl, rfl⟩) ht.x.1 ht.y.1).weaken hs.total_nonneg hk

theorem capped_total {cap : ℚ} {n : Nat} {p : Pool} (h0 : 0 ≤ cap) (h : Capped cap n p) : p.totalLiq ≤ cap := by
  induction h with
  | new h =>
    obtain ⟨tk, q, _, _, _, _, hq, rfl⟩ := new_ok h
    simpa [totalLiq, sumPos] using h0
  | deposit _ _ h _ => exact h
  | @withdraw n p p' user liq rpa rpb r hp h ih =>
    have hs := Sound.clearReachable hp.clear
    obtain ⟨lower, upper, a, b, p1, p2, x0, y0, adj, px, py, hl, g1, g2, g3, g4, g5, h1, _, _, _, _, _, _, _,
      _, _, h2, h3, h4, rfl⟩ := withdraw_ok h
    obtain ⟨e1, _⟩ := payFees_frame h4
    have w := sumPos_setPosition hs.booked.unique h1 (fun _ => 1)
    unfold totalLiq at ih ⊢
    simp only [e1]
    rw [w, neg_toRat]
    linarith
  | sellX hp h _ ih => rw [totalLiq_congr (sellX_dusty hp.clear h).positions]; exact ih
  | sellY hp h _ ih => rw [totalLiq_congr (sellY_dusty hp.clear h).positions]; exact ih

theorem spare_capped {cap : ℚ} {n : Nat} {p : Pool} (h0 : 0 ≤ cap) (h : Capped cap n p) :
    -(n * ulp 12) ≤ p.spareY ∧ -(n * ((cap + 2) * ulp 12)) ≤ p.spareX := by
  have hu := ulp_pos (s := 12)
  induction h with
  | new h =>
    obtain ⟨tk, q, _, _, _, _, hq, rfl⟩ := new_ok h
    simp [spareX, spareY, owedX, owedY, sumPos, zero_toRat]
  | deposit hp h _ ih =>
    have ht := Tidy.reachable hp.clear.reachable
    obtain ⟨⟨d1, _⟩, d2⟩ := spare_deposit (Sound.clearReachable hp.clear) ht.x.1 ht.y.1 h
    have : 2 * ulp 12 ≤ (cap + 2) * ulp 12 := by nlinarith
    push_cast
    constructor <;> linarith [ih.1, ih.2]
  | withdraw hp h ih =>
    have ht := Tidy.reachable hp.clear.reachable
    obtain ⟨d1, d2⟩ := spare_withdraw (Sound.clearReachable hp.clear) ht.x.1 ht.y.1 h
    constructor <;> linarith [ih.1, ih.2]
  | @sellX n fl p p' dx o r hp h hon ih =>
    have hd := sellX_dusty hp.clear h
    have hc := capped_total h0 hp
    have d1 := hd.y_lo
    have d2 := hd.x_lo
    have : ((p.ticks.length + 1 : ℕ) : ℚ) * ((p.totalLiq + 2) * ulp 12) ≤ ((p.ticks.length + 1 : ℕ) : ℚ) * ((cap + 2) * ulp 12) := by
      gcongr
    push_cast at d1 d2 this ⊢
    constructor <;> linarith [ih.1, ih.2]
  | @sellY n fl p p' dx o r hp h hon ih =>
    have hd := sellY_dusty hp.clear h
    have hc := capped_total h0 hp
    have d1 := hd.y_lo
    have d2 := hd.x_lo
    have : ((p.ticks.length + 1 : ℕ) : ℚ) * ((p.totalLiq + 2) * ulp 12) ≤ ((p.ticks.length + 1 : ℕ) : ℚ) * ((cap + 2) * ulp 12) := by
      gcongr
    push_cast at d1 d2 this ⊢
    constructor <;> linarith [ih.1, ih.2]

/-- C69 (partial), Y: the reserve covers what the positions hold up to one unit of the twelfth place for each
deposit and for each step of a swap.  Missing: the dust, and histories with a swap ending close to the grid. -/
theorem C69_y_partial {cap : ℚ} {n : Nat} {p : Pool} (h0 : 0 ≤ cap) (h : Capped cap n p) :
    p.owedY ≤ p.y.toRat + n / 10 ^ 12 := by
  have := (spare_capped h0 h).1
  unfold spareY ulp at this
  rw [mul_one_div] at this
  linarith

/-- C69 (partial), X: here a rounding can cost as many units as there is liquidity, since the price itself
is rounded. -/
theorem C69_x_partial {cap : ℚ} {n : Nat} {p : Pool} (h0 : 0 ≤ cap) (h : Capped cap n p) :
    p.owedX ≤ p.x.toRat + n * (cap + 2) / 10 ^ 12 := by
  have := (spare_capped h0 h).2
  unfold spareX ulp at this
  rw [mul_one_div, mul_div_assoc'] at this
  linarith

/-! ### C70: swaps neither drain nor swell the reserves -/

/-- C70 (partial): in a sale of X the reserves change by what the claims of all positions change, up to
`total liquidity + 2` units of the twelfth place for each step.  Missing: states in which the active
liquidity is wrong (C39). -/
theorem C70_from_x_partial {fl : FloatEnv} {p p' : Pool} {dx o : Decimal} {r : SwapOutput} (hp : ClearReachable p)
    (h : p.executeSwapFromX fl dx o = .ok (p', r)) :
    |(p'.x.toRat - p.x.toRat) - (p'.owedX - p.owedX)| ≤ (p.ticks.length + 1) * (p.totalLiq + 2) / 10 ^ 12 ∧
    |(p'.y.toRat - p.y.toRat) - (p'.owedY - p.owedY)| ≤ (p.ticks.length + 1) * (p.totalLiq + 2) / 10 ^ 12 := by
  have hd := sellX_dusty hp h
  have ht := (Sound.clearReachable hp).total_nonneg
  obtain ⟨d0, d1, d2, d3, d4⟩ := hd
  unfold spareX spareY ulp at *
  push_cast at d1 d2 d3 d4
  have e : ((p.ticks.length : ℚ) + 1) * (1 / 10 ^ 12) ≤ (p.ticks.length + 1) * ((p.totalLiq + 2) * (1 / 10 ^ 12)) := by
    gcongr
    linarith
  rw [mul_div_assoc, div_eq_mul_one_div (p.totalLiq + 2)]
  constructor <;> rw [abs_le] <;> constructor <;> linarith

/-- C70 (partial) for a sale of Y. -/
theorem C70_from_y_partial {fl : FloatEnv} {p p' : Pool} {dy o : Decimal} {r : SwapOutput} (hp : ClearReachable p)
    (h : p.executeSwapFromY fl dy o = .ok (p', r)) :
    |(p'.x.toRat - p.x.toRat) - (p'.owedX - p.owedX)| ≤ (p.ticks.length + 1) * (p.totalLiq + 2) / 10 ^ 12 ∧
    |(p'.y.toRat - p.y.toRat) - (p'.owedY - p.owedY)| ≤ (p.ticks.length + 1) * (p.totalLiq + 2) / 10 ^ 12 := by
  have hd := sellY_dusty hp h
  have ht := (Sound.clearReachable hp).total_nonneg
  obtain ⟨d0, d1, d2, d3, d4⟩ := hd
  unfold spareX spareY ulp at *
  push_cast at d1 d2 d3 d4
  have e : ((p.ticks.length : ℚ) + 1) * (1 / 10 ^ 12) ≤ (p.ticks.length + 1) * ((p.totalLiq + 2) * (1 / 10 ^ 12)) := by
    gcongr
    linarith
  rw [mul_div_assoc, div_eq_mul_one_div (p.totalLiq + 2)]
  constructor <;> rw [abs_le] <;> constructor <;> linarith

/-- C70 is false where the active liquidity is wrong: a sale of 17 Y lowers the X reserve by some 17 X and
the claim of the only position by half of that. -/
theorem C70_false : ∃ p p' r, Reachable p ∧ p.executeSwapFromY fl (D 17) PoolMath.zero = .ok (p', r) ∧
    p'.x.toRat - p.x.toRat < -16 ∧ -9 < p'.owedX - p.owedX := by
  refine ⟨Sample.get backIn, (Sample.get ((Sample.get backIn).executeSwapFromY fl (D 17) zero)).1,
    (Sample.get ((Sample.get backIn).executeSwapFromY fl (D 17) zero)).2, backIn_reachable (by decide +kernel), ?_, ?_, ?_⟩
  all_goals decide +kernel

/-- The deposits of `three`, one at a time, and a sale of 100 X, more than the positions can take. -/
def empty : Pool := Sample.get (Pool.new (mid 20) 1 zero ⟨3000000000, 12, false⟩)
def one₁ : Pool × Receipt := Sample.get (empty.deposit 1 (D 10) (D 10) (mid 10) (mid 30))
def two₁ : Pool × Receipt := Sample.get (one₁.1.deposit 2 (D 10) (D 10) (mid 3) (mid 5))
def three₁ : Pool × Receipt := Sample.get (two₁.1.deposit 2 (D 10) (D 10) (mid 5) (mid 7))
def sold₁ : Pool × SwapOutput := Sample.get (three₁.1.executeSwapFromX fl (D 100) zero)

/-- A history with three positions and a sale across five ticks, as C69 and C70 ask for.  It leaves no
liquidity active. -/
example : Capped 300000 3 three₁.1 ∧ Capped 300000 (3 + (three₁.1.ticks.length + 1)) sold₁.1 ∧
    three₁.1.ticks.length = 5 ∧ 19 < three₁.1.owedX + three₁.1.owedY ∧ sold₁.1.gs.liq.value = 0 := by
  have h0 : Capped 300000 0 empty := .new (by decide +kernel : Pool.new (mid 20) 1 zero ⟨3000000000, 12, false⟩ = _)
  have h1 : Capped 300000 1 one₁.1 := .deposit (r := one₁.2) h0
    (by decide +kernel : empty.deposit 1 (D 10) (D 10) (mid 10) (mid 30) = _) (by decide +kernel)
  have h2 : Capped 300000 2 two₁.1 := .deposit (r := two₁.2) h1
    (by decide +kernel : one₁.1.deposit 2 (D 10) (D 10) (mid 3) (mid 5) = _) (by decide +kernel)
  have h3 : Capped 300000 3 three₁.1 := .deposit (r := three₁.2) h2
    (by decide +kernel : two₁.1.deposit 2 (D 10) (D 10) (mid 5) (mid 7) = _) (by decide +kernel)
  have h4 : Capped 300000 (3 + (three₁.1.ticks.length + 1)) sold₁.1 := .sellX (r := sold₁.2) h3
    (by decide +kernel : three₁.1.executeSwapFromX fl (D 100) zero = _)
    (fun h => absurd h (by decide +kernel))
  exact ⟨h3, h4, by decide +kernel, by decide +kernel, by decide +kernel⟩

/-! ### C71: selling more than the pool can take -/

/-- C71 is false: with two overlapping positions a sale of 21 X, or any larger one, panics instead of being
filled as far as the liquidity goes.  The sale needs all the Y of both positions at once, and the reserve,
rounded down at each deposit, is two units of the twelfth place short of that. -/
theorem C71_false : ∃ p, ClearReachable p ∧ p.executeSwapFromX fl (D 21) zero = .error .panic ∧
    p.executeSwapFromX fl (D 1000) zero = .error .panic ∧
    ∃ p' r, p.executeSwapFromX fl (D 17) zero = .ok (p', r) := by
  exact ⟨pool, two_clear pool_ok.1, by decide +kernel, by decide +kernel, sells.2.imp fun _ h => h.imp fun _ h => h.1⟩

theorem owedY_nonneg {p : Pool} (hs : Sound p) (v : ℚ) :
    0 ≤ sumPos (fun k => id (clampTo v (tickPrice k.lower) (tickPrice k.upper)) - tickPrice k.lower) p.positions := by
  refine sumPos_nonneg' (fun k => ?_) fun k s hm => (hs.booked.pos k s (get_of_mem hs.booked.unique hm)).1
  unfold clampTo
  simp only [id]
  linarith [le_max_left (tickPrice k.lower) (min v (tickPrice k.upper))]

/-- C71 (partial): the Y reserve suffices for every step of a sale of X, whether it is filled or crosses
the goal tick, if it covers what the positions hold.  Missing: by C69 it may be short of that by dust. -/
theorem C71_enough_partial {p : Pool} (hp : ClearReachable p) (hc : p.owedY ≤ p.y.toRat) {start g : Nat}
    (hst : p.gs.tick ≤ start) (hg : p.leftLimit start = .ok (some g)) {q v cp : Decimal} (hq : tickToRp g = .ok q)
    (h1 : q.toRat ≤ v.toRat) (h2 : v.toRat ≤ p.gs.rp.toRat) (h : dyFromLDrp p.gs.liq p.gs.rp v = .ok cp) :
    0 ≤ p.y.toRat + cp.toRat := by
  have hs := Sound.clearReachable hp
  obtain ⟨_, hle, hmax⟩ := leftLimit_max hs.booked hst hg
  have hm := hs.move (hs.left_same hmax hq h1 h2) id (fun k => tickPrice k.lower)
  have h0 := owedY_nonneg hs v.toRat
  rw [hm] at h0
  unfold owedY at hc
  simp only [id] at h0
  unfold dyFromLDrp at h
  steps at h
  obtain ⟨d, hd, hcp⟩ := h
  have ed := sub_toRat hd
  obtain ⟨_, k2, _⟩ := mul_up hcp (mul_nonpos_of_nonpos_of_nonneg (by rw [ed]; linarith) hs.liq_nonneg)
  rw [ed] at k2
  linarith

/-- The pool after a small withdrawal, which is rounded in the pool's favour, covers its position, and a
step to the lower end of the range is possible. -/
def less₁ : Pool × Receipt := Sample.get (one₁.1.withdraw 1 (D 1000) (mid 10) (mid 30))

example : ClearReachable less₁.1 ∧ less₁.1.owedY ≤ less₁.1.y.toRat ∧ less₁.1.leftLimit 20 = .ok (some 10) ∧
    less₁.1.gs.tick = 20 ∧
    ∃ cp, dyFromLDrp less₁.1.gs.liq less₁.1.gs.rp (Sample.get (tickToRp 10)) = .ok cp ∧ cp.toRat < -9 := by
  refine ⟨.step (.step (.new (by decide +kernel : Pool.new (mid 20) 1 zero ⟨3000000000, 12, false⟩ = .ok empty))
    (.deposit (by decide +kernel : empty.deposit 1 (D 10) (D 10) (mid 10) (mid 30) = .ok (one₁.1, one₁.2))))
    (.withdraw (by decide +kernel : one₁.1.withdraw 1 (D 1000) (mid 10) (mid 30) = .ok (less₁.1, less₁.2))),
    by decide +kernel, by decide +kernel, by decide +kernel,
    Sample.get (dyFromLDrp less₁.1.gs.liq less₁.1.gs.rp (Sample.get (tickToRp 10))), by decide +kernel, by decide +kernel⟩

end Hmm.Pool
