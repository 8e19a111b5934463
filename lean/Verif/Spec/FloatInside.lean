import Verif.Spec.FloatReach
import Verif.Spec.Fees

/-
Fee growth inside a range of the floating-point pool, as exact numbers.
-/

namespace Hmm.Flt

open F64

/-- One kind of growth of a record. -/
def Fees.at (f : Fees) : Kind → F64
  | .fx => f.fx
  | .fy => f.fy
  | .hx => f.hx
  | .hy => f.hy

namespace Pool

/-- Total growth since the creation of the pool. -/
def growth (p : Pool) (k : Kind) : ℚ := (p.gs.fees.at k).val

/-- Growth recorded at a tick, zero if it is not initialised. -/
def recorded (p : Pool) (k : Kind) (t : Nat) : ℚ := (mapGet t p.ticks).elim 0 fun ts => (ts.fees.at k).val

/-- Growth below a tick: the tick records the growth on the side of it where the price is not. -/
def growthBelow (p : Pool) (k : Kind) (t : Nat) : ℚ :=
  if t ≤ p.gs.tick then p.recorded k t else p.growth k - p.recorded k t

/-- Growth inside a range: below its upper tick and not below its lower tick. -/
def growthInside (p : Pool) (k : Kind) (lower upper : Nat) : ℚ := p.growthBelow k upper - p.growthBelow k lower

/-- The four growths are finite and far from the largest double. -/
def Moderate (p : Pool) : Prop := ∀ k, (p.gs.fees.at k).Finite ∧ p.growth k ≤ 2 ^ 900

end Pool

end Hmm.Flt
