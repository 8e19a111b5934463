import Verif.Model.Pool
import Verif.Spec.Decimal

/-
Two pools that were operated alike but have different HMM parameters, or were shown different oracle
prices.
-/

namespace Hmm

/-- A fee record without its HMM part. -/
def Fees.plain (f : Fees) : Fees := ⟨f.fx, f.fy, PoolMath.zero, PoolMath.zero⟩

def TickState.plain (t : TickState) : TickState := { t with fees := t.fees.plain }

def PositionState.plain (s : PositionState) : PositionState := { s with fees := s.fees.plain }

namespace Pool

/-- Everything about a pool that is neither a reserve nor part of the HMM mechanism: grid, active
liquidity, price, tick, fee rate, fee pots, and the positions and ticks with their fee records. -/
def plain (p : Pool) : Pool :=
  { p with
    gs := { p.gs with fees := p.gs.fees.plain }
    ticks := p.ticks.map fun e => (e.1, e.2.plain)
    positions := p.positions.map fun e => (e.1, e.2.plain)
    x := PoolMath.zero, y := PoolMath.zero, xAdj := PoolMath.zero, yAdj := PoolMath.zero, c := PoolMath.zero }

/-- Two pools agree on all of that and on their reserves. -/
structure SameMarket (p q : Pool) : Prop where
  plain : p.plain = q.plain
  x : p.x.toRat = q.x.toRat
  y : p.y.toRat = q.y.toRat

/-- Two pools created alike and then operated alike, except for the HMM parameter, the oracle prices
and the floating-point unit. -/
inductive Twins : Pool → Pool → Prop
  | new {p q : Pool} {rp : Decimal} {spacing : Nat} {c c' fee : Decimal} :
      Pool.new rp spacing c fee = .ok p → Pool.new rp spacing c' fee = .ok q → Twins p q
  | deposit {p q p' q' : Pool} {user : Nat} {x y rpa rpb : Decimal} {r s : Receipt} : Twins p q →
      p.deposit user x y rpa rpb = .ok (p', r) → q.deposit user x y rpa rpb = .ok (q', s) → Twins p' q'
  | withdraw {p q p' q' : Pool} {user : Nat} {liq rpa rpb : Decimal} {r s : Receipt} : Twins p q →
      p.withdraw user liq rpa rpb = .ok (p', r) → q.withdraw user liq rpa rpb = .ok (q', s) → Twins p' q'
  | sellX {p q p' q' : Pool} {fl fl' : FloatEnv} {dx o o' : Decimal} {r s : SwapOutput} : Twins p q →
      p.executeSwapFromX fl dx o = .ok (p', r) → q.executeSwapFromX fl' dx o' = .ok (q', s) → Twins p' q'
  | sellY {p q p' q' : Pool} {fl fl' : FloatEnv} {dy o o' : Decimal} {r s : SwapOutput} : Twins p q →
      p.executeSwapFromY fl dy o = .ok (p', r) → q.executeSwapFromY fl' dy o' = .ok (q', s) → Twins p' q'

end Pool

end Hmm
