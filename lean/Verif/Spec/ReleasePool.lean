import Verif.Model.ReleasePool

/-
Histories of the in-memory pool in a build without overflow checks.
-/

namespace Hmm.Release.InMemory

/-- Some tick at the bottom of the range of ticks, tick 0, is in use. -/
def AtBottom (p : Pool) : Prop := 0 ∈ p.ticks.map (·.1)

/-- One successful operation in a build without overflow checks, with X sold only in states with `G`. -/
inductive Step (G : Pool → Prop) : Pool → Pool → Prop
  | deposit {p p' : Pool} {user : Nat} {x y rpa rpb : Decimal} {r : Pool.Receipt} :
      deposit p user x y rpa rpb = .ok (p', r) → Step G p p'
  | withdraw {p p' : Pool} {user : Nat} {liq rpa rpb : Decimal} {r : Pool.Receipt} :
      withdraw p user liq rpa rpb = .ok (p', r) → Step G p p'
  | sellX {fl : FloatEnv} {n : Nat} {p p' : Pool} {dx o : Decimal} {r : SwapOutput} :
      G p → executeSwapFromX fl n p dx o = .ok (p', r) → Step G p p'
  | sellY {fl : FloatEnv} {n : Nat} {p p' : Pool} {dy o : Decimal} {r : SwapOutput} :
      executeSwapFromY fl n p dy o = .ok (p', r) → Step G p p'

/-- The states of such histories.  The spacing is a `u128`; the constant has at most fifty decimal places. -/
inductive Reachable (G : Pool → Prop) : Pool → Prop
  | new {rp : Decimal} {spacing : Nat} {c fee : Decimal} {p : Pool} : spacing < 2 ^ 128 → c.scale ≤ 50 →
      new rp spacing c fee = .ok p → Reachable G p
  | step {p p' : Pool} : Reachable G p → Step G p p' → Reachable G p'

end Hmm.Release.InMemory
