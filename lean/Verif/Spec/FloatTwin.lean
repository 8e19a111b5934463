import Verif.Spec.FloatReach

/-
Two pools on doubles that were operated alike but have different HMM parameters, or were shown different
oracle prices.
-/

namespace Hmm.Flt

open F64

/-- A fee record without its HMM part. -/
def Fees.plain (f : Fees) : Fees := ⟨f.fx, f.fy, F64.zero, F64.zero⟩

def TickState.plain (t : TickState) : TickState := { t with fees := t.fees.plain }

def PositionState.plain (s : PositionState) : PositionState := { s with fees := s.fees.plain }

namespace Pool

/-- Everything about a pool that is neither a reserve nor part of the HMM mechanism: grid, active
liquidity, price, tick, fee rate, fee pots, and the positions and ticks with their swap-fee records. -/
def plain (p : Pool) : Pool :=
  { p with
    gs := { p.gs with fees := p.gs.fees.plain }
    ticks := p.ticks.map fun e => (e.1, e.2.plain)
    positions := p.positions.map fun e => (e.1, e.2.plain)
    x := F64.zero, y := F64.zero, xAdj := F64.zero, yAdj := F64.zero, c := F64.zero }

/-- Two pools created alike and then operated alike, except for the HMM parameter, the oracle prices and
the bounds on the number of rounds. -/
inductive Twins (m : LibM) : Pool → Pool → Prop
  | new {p q : Pool} {rp c c' fee : F64} {spacing : Nat} :
      Pool.new m rp spacing c fee = .ok p → Pool.new m rp spacing c' fee = .ok q → Twins m p q
  | deposit {p q p' q' : Pool} {user : Nat} {x y rpa rpb : F64} {r s : Receipt} : Twins m p q →
      p.deposit m user x y rpa rpb = .ok (p', r) → q.deposit m user x y rpa rpb = .ok (q', s) → Twins m p' q'
  | withdraw {p q p' q' : Pool} {user : Nat} {liq rpa rpb : F64} {r s : Receipt} : Twins m p q →
      p.withdraw m user liq rpa rpb = .ok (p', r) → q.withdraw m user liq rpa rpb = .ok (q', s) → Twins m p' q'
  | swapX {p q p' q' : Pool} {n n' : Nat} {dx o o' : F64} {r s : SwapOutput} : Twins m p q →
      p.executeSwapFromX m n dx o = .ok (p', r) → q.executeSwapFromX m n' dx o' = .ok (q', s) → Twins m p' q'
  | swapY {p q p' q' : Pool} {n n' : Nat} {dy o o' : F64} {r s : SwapOutput} : Twins m p q →
      p.executeSwapFromY m n dy o = .ok (p', r) → q.executeSwapFromY m n' dy o' = .ok (q', s) → Twins m p' q'

end Pool

end Hmm.Flt
