import Verif.Props.Fees

/-
C64 is false without its side condition: a sale that ends exactly on the lower bound of a position takes the
fees it has earned away from it.
-/

namespace Hmm.Pool

open Decimal PoolMath Sample

/-- One position [10, 30) at fee rate one half, and a sale of three X. -/
def earned : R Pool := do
  let p ← Pool.new (mid 20) 1 PoolMath.zero ⟨500000000000, 12, false⟩
  let (p, _) ← p.deposit 1 (D 10) (D 10) (mid 10) (mid 30)
  let (p, _) ← p.executeSwapFromX fl (D 3) PoolMath.zero
  return p

/-- A second sale, just enough to bring the price to the lower end of the position. -/
def lost : R (Pool × SwapOutput) := do
  let p ← earned
  let dx ← dxFromLDrp p.gs.liq p.gs.rp (← tickToRp 10)
  p.executeSwapFromX fl (← dx.add dx) PoolMath.zero

theorem earned_reachable {p : Pool} (h : earned = .ok p) : Reachable p := by
  unfold earned at h
  rw [bind_ok] at h; obtain ⟨p0, h0, h⟩ := h
  rw [bind_ok] at h; obtain ⟨⟨p1, _⟩, h1, h⟩ := h
  rw [bind_ok] at h; obtain ⟨⟨p2, _⟩, h2, h⟩ := h
  cases h
  exact .step (.step (.new h0) (.deposit h1)) (.sellX h2)

theorem lost_step {p : Pool} {r : Pool × SwapOutput} (hp : earned = .ok p) (h : lost = .ok r) : Step p r.1 := by
  unfold lost at h
  rw [hp] at h
  rw [bind_ok] at h; obtain ⟨_, h0, h⟩ := h
  cases h0
  rw [bind_ok] at h; obtain ⟨t, _, h⟩ := h
  rw [bind_ok] at h; obtain ⟨dx, _, h⟩ := h
  rw [bind_ok] at h; obtain ⟨d, _, h⟩ := h
  exact .sellX h

/-- C64 is false: a sale of X that ends exactly on the lower bound of an open position takes the growth inside
its range down to zero, although the position was in range throughout the sale. -/
theorem C64_false : ∃ (p q : Pool) (key : PositionKey), Reachable p ∧ Step p q ∧
    0 < liqOf p.positions key ∧ 0 < liqOf q.positions key ∧ key.lower ≤ p.gs.tick ∧ p.gs.tick < key.upper ∧
    0 < p.inside .fx key.lower key.upper ∧ q.inside .fx key.lower key.upper = 0 ∧
    p.growth .fx < q.growth .fx := by
  refine ⟨get earned, (get lost).1, ⟨1, 10, 30⟩, earned_reachable (by decide +kernel),
    lost_step (p := get earned) (r := get lost) (by decide +kernel) (by decide +kernel), ?_, ?_, ?_, ?_, ?_, ?_, ?_⟩
  · unfold liqOf
    rw [show mapGet (⟨1, 10, 30⟩ : PositionKey) (get earned).positions = some ⟨⟨19986005718851637, 12, false⟩, Fees.zero⟩
      by decide +kernel]
    norm_num [toRat]
  · unfold liqOf
    rw [show mapGet (⟨1, 10, 30⟩ : PositionKey) (get lost).1.positions = some ⟨⟨19986005718851637, 12, false⟩, Fees.zero⟩
      by decide +kernel]
    norm_num [toRat]
  · show 10 ≤ (get earned).gs.tick
    decide +kernel
  · show (get earned).gs.tick < 30
    decide +kernel
  · simp only [inside, below, growth, recorded]
    rw [show (get earned).gs.tick = 18 by decide +kernel,
      show (get earned).gs.fees.at .fx = ⟨75052515, 12, false⟩ by decide +kernel,
      show mapGet 30 (get earned).ticks = some ⟨⟨19986005718851637, 12, true⟩, ⟨19986005718851637, 12, false⟩, Fees.zero⟩
        by decide +kernel,
      show mapGet 10 (get earned).ticks = some ⟨⟨19986005718851637, 12, false⟩, ⟨19986005718851637, 12, false⟩, Fees.zero⟩
        by decide +kernel]
    norm_num [toRat, Fees.at, Fees.zero, PoolMath.zero]
  · simp only [inside, below, growth, recorded]
    rw [show (get lost).1.gs.tick = 9 by decide +kernel,
      show (get lost).1.gs.fees.at .fx = ⟨499600176, 12, false⟩ by decide +kernel,
      show mapGet 30 (get lost).1.ticks = some ⟨⟨19986005718851637, 12, true⟩, ⟨19986005718851637, 12, false⟩, Fees.zero⟩
        by decide +kernel,
      show mapGet 10 (get lost).1.ticks = some ⟨⟨19986005718851637, 12, false⟩, ⟨19986005718851637, 12, false⟩, Fees.zero⟩
        by decide +kernel]
    norm_num [toRat, Fees.at, Fees.zero, PoolMath.zero]
  · simp only [growth]
    rw [show (get earned).gs.fees.at .fx = ⟨75052515, 12, false⟩ by decide +kernel,
      show (get lost).1.gs.fees.at .fx = ⟨499600176, 12, false⟩ by decide +kernel]
    norm_num [toRat]

/-- The only provider of the pool, who would have been paid 1.49 X of fees for a withdrawal before that sale,
is paid none for the same withdrawal after it, while the pot holds 9.98 X of them. -/
theorem C64_forfeit : ∃ (p q : Pool) (x y x' y' : Decimal), Reachable p ∧ Step p q ∧
    (∃ p', p.withdraw 1 (D 1000) (mid 10) (mid 30) =
      .ok (p', ⟨x, y, ⟨⟨1499999994004, 12, false⟩, PoolMath.zero, PoolMath.zero, PoolMath.zero⟩,
        ⟨2074402959365, 12, false⟩, y⟩)) ∧
    (∃ q', q.withdraw 1 (D 1000) (mid 10) (mid 30) = .ok (q', ⟨x', y', Fees.zero, x', y'⟩)) ∧
    q.xFee = ⟨9985011986173, 12, false⟩ ∧ (q.positions.map (·.1)) = [⟨1, 10, 30⟩] := by
  refine ⟨get earned, (get lost).1, ⟨574402965361, 12, false⟩, ⟨425152987999, 12, false⟩,
    ⟨998950626636, 12, false⟩, PoolMath.zero, earned_reachable (by decide +kernel),
    lost_step (p := get earned) (r := get lost) (by decide +kernel) (by decide +kernel),
    ⟨(get ((get earned).withdraw 1 (D 1000) (mid 10) (mid 30))).1, by decide +kernel⟩,
    ⟨(get ((get lost).1.withdraw 1 (D 1000) (mid 10) (mid 30))).1, by decide +kernel⟩,
    by decide +kernel, by decide +kernel⟩

end Hmm.Pool
