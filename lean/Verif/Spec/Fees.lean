import Verif.Model.Pool
import Verif.Spec.Decimal

/-
Fee growth (fees per unit of liquidity) below, above and inside a range, as exact numbers.
-/

namespace Hmm

/-- The four kinds of growth: fees and HMM adjustments, in X and Y. -/
inductive Kind
  | fx | fy | hx | hy
  deriving DecidableEq

/-- One kind of growth of a record. -/
def Fees.at (f : Fees) : Kind → Decimal
  | .fx => f.fx
  | .fy => f.fy
  | .hx => f.hx
  | .hy => f.hy

namespace Pool

/-- Total growth since the creation of the pool. -/
def growth (p : Pool) (k : Kind) : ℚ := (p.gs.fees.at k).toRat

/-- Growth recorded at a tick, zero if it is not initialised. -/
def recorded (p : Pool) (k : Kind) (t : Nat) : ℚ := (mapGet t p.ticks).elim 0 fun ts => (ts.fees.at k).toRat

/-- Growth below a tick: the tick records the growth on the side of it where the price is not. -/
def below (p : Pool) (k : Kind) (t : Nat) : ℚ :=
  if t ≤ p.gs.tick then p.recorded k t else p.growth k - p.recorded k t

/-- Growth inside a range: neither below its lower nor above its upper tick. -/
def inside (p : Pool) (k : Kind) (lower upper : Nat) : ℚ := p.below k upper - p.below k lower

/-- Growth below a tick as the code counts it: all of it is below an uninitialised tick. -/
def est (p : Pool) (k : Kind) (t : Nat) : ℚ := if t ∈ p.ticks.map (·.1) then p.below k t else p.growth k

end Pool

end Hmm
