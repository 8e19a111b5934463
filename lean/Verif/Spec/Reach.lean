import Verif.Model.Pool
import Verif.Spec.Decimal

/-
Histories of the in-memory pool, and the sums over positions that its books should agree with.
-/

namespace Hmm.Pool

/-- One successful operation on the pool.  The floating-point unit may differ between operations. -/
inductive Step : Pool → Pool → Prop
  | deposit {p p' : Pool} {user : Nat} {x y rpa rpb : Decimal} {r : Receipt} :
      p.deposit user x y rpa rpb = .ok (p', r) → Step p p'
  | withdraw {p p' : Pool} {user : Nat} {liq rpa rpb : Decimal} {r : Receipt} :
      p.withdraw user liq rpa rpb = .ok (p', r) → Step p p'
  | sellX {fl : FloatEnv} {p p' : Pool} {dx o : Decimal} {r : SwapOutput} :
      p.executeSwapFromX fl dx o = .ok (p', r) → Step p p'
  | sellY {fl : FloatEnv} {p p' : Pool} {dy o : Decimal} {r : SwapOutput} :
      p.executeSwapFromY fl dy o = .ok (p', r) → Step p p'

/-- The states a pool can get into: created by `Pool::new`, then any number of successful operations.
(An operation that panics aborts the program, so it has no successor state.) -/
inductive Reachable : Pool → Prop
  | new {rp : Decimal} {spacing : Nat} {c fee : Decimal} {p : Pool} :
      Pool.new rp spacing c fee = .ok p → Reachable p
  | step {p p' : Pool} : Reachable p → Step p p' → Reachable p'

/-- The liquidity recorded for a position, zero if there is none. -/
def liqOf (ps : List (PositionKey × PositionState)) (k : PositionKey) : ℚ :=
  (mapGet k ps).elim 0 (·.liq.toRat)

/-- Sum over the positions of their liquidity, each weighted by its key. -/
def sumPos (w : PositionKey → ℚ) (ps : List (PositionKey × PositionState)) : ℚ :=
  (ps.map fun e => w e.1 * e.2.liq.toRat).sum

/-- Liquidity of the positions that begin at a tick. -/
def startingAt (p : Pool) (t : Nat) : ℚ := sumPos (fun k => if k.lower = t then 1 else 0) p.positions

/-- Liquidity of the positions that end at a tick. -/
def endingAt (p : Pool) (t : Nat) : ℚ := sumPos (fun k => if k.upper = t then 1 else 0) p.positions

/-- Liquidity of the positions whose range `[lower, upper)` contains a tick. -/
def inRange (p : Pool) (t : Nat) : ℚ :=
  sumPos (fun k => if k.lower ≤ t ∧ t < k.upper then 1 else 0) p.positions

/-- The price is more than two millionths away from the price of every tick of the grid (neighbouring
ticks are fifty millionths apart). -/
def Away (p : Pool) : Prop :=
  ∀ g q, p.spacing ∣ g → PoolMath.tickToRp g = .ok q → 2 * q.toRat < |p.gs.rp.toRat - q.toRat| * 10 ^ 6

/-- A successful operation where a swap that filled the whole offer left the price away from the grid. -/
inductive ClearStep : Pool → Pool → Prop
  | deposit {p p' : Pool} {user : Nat} {x y rpa rpb : Decimal} {r : Receipt} :
      p.deposit user x y rpa rpb = .ok (p', r) → ClearStep p p'
  | withdraw {p p' : Pool} {user : Nat} {liq rpa rpb : Decimal} {r : Receipt} :
      p.withdraw user liq rpa rpb = .ok (p', r) → ClearStep p p'
  | sellX {fl : FloatEnv} {p p' : Pool} {dx o : Decimal} {r : SwapOutput} :
      p.executeSwapFromX fl dx o = .ok (p', r) → (r.recv.toRat = dx.toRat → Away p') → ClearStep p p'
  | sellY {fl : FloatEnv} {p p' : Pool} {dy o : Decimal} {r : SwapOutput} :
      p.executeSwapFromY fl dy o = .ok (p', r) → (r.recv.toRat = dy.toRat → Away p') → ClearStep p p'

/-- The states of histories made of such operations. -/
inductive ClearReachable : Pool → Prop
  | new {rp : Decimal} {spacing : Nat} {c fee : Decimal} {p : Pool} :
      Pool.new rp spacing c fee = .ok p → ClearReachable p
  | step {p p' : Pool} : ClearReachable p → ClearStep p p' → ClearReachable p'

/-- Histories of such operations, from a given state, throughout which a position stays open. -/
inductive Held (key : PositionKey) (p : Pool) : Pool → Prop
  | here : 0 < liqOf p.positions key → Held key p p
  | step {q q' : Pool} : Held key p q → ClearStep q q' → 0 < liqOf q'.positions key → Held key p q'

end Hmm.Pool
