import Verif.Model.Pool

/-
Small concrete pools used to show that the hypotheses of theorems can be met.
-/

namespace Hmm.Sample

/-- Floating-point unit answering zero to everything; only the HMM pool of this file could ask it. -/
def fl : FloatEnv := fun _ _ => (0, false)

/-- A whole amount at compute scale. -/
def D (n : Nat) : Decimal := ⟨n * 10 ^ 12, 12, false⟩

/-- A root price in the middle of tick `t`, for small `t`. -/
def mid (t : Nat) : Decimal := ⟨10 ^ 12 + 50000000 * t + 25000000, 12, false⟩

/-- The value of a result, if it is one. -/
def get {α : Type} [Inhabited α] : R α → α
  | .ok a => a
  | .error _ => default

/-- A pool at tick 20 with fee rate `f`, with two positions, [10,30) and [15,25). -/
def two (f : Decimal) : R Pool := do
  let p ← Pool.new (mid 20) 1 PoolMath.zero f
  let (p, _) ← p.deposit 1 (D 10) (D 10) (mid 10) (mid 30)
  let (p, _) ← p.deposit 2 (D 10) (D 10) (mid 15) (mid 25)
  return p

/-- Two positions, fee rate 0.3 %. -/
def pool : Pool := get (two ⟨3000000000, 12, false⟩)

theorem exists_ok {α : Type} {x : R α} (h : x.isOk = true) : ∃ a, x = .ok a := by
  cases x with
  | ok a => exact ⟨a, rfl⟩
  | error e => cases h

theorem exists_ok₂ {α β : Type} {x : R (α × β)} (h : x.isOk = true) : ∃ a b, x = .ok (a, b) := by
  obtain ⟨⟨a, b⟩, h⟩ := exists_ok h
  exact ⟨a, b, h⟩

/-- The pool exists, has four initialised ticks and sits between them. -/
theorem pool_ok : two ⟨3000000000, 12, false⟩ = .ok pool ∧ pool.ticks.map (·.1) = [10, 15, 25, 30] ∧
    pool.gs.tick = 20 := by decide +kernel

/-- It fills a sale of 1 X within one range, and a sale of 17 X across tick 15. -/
theorem sells : (pool.executeSwapFromX fl (D 1) PoolMath.zero).isOk = true ∧
    ∃ p' r, pool.executeSwapFromX fl (D 17) PoolMath.zero = .ok (p', r) ∧ p'.gs.tick < 15 := by
  refine ⟨by decide +kernel, (get (pool.executeSwapFromX fl (D 17) PoolMath.zero)).1, (get (pool.executeSwapFromX fl (D 17) PoolMath.zero)).2, by decide +kernel, by decide +kernel⟩

end Hmm.Sample
