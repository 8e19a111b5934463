import Verif.Model.ReleaseFloat
import Verif.Spec.FloatReach

/-
Histories of the floating-point pool in a build without overflow checks.
-/

namespace Hmm.Flt.Unchecked

open F64

/-- Tick 0 is in use. -/
def AtBottom (p : Pool) : Prop := 0 ∈ p.ticks.map (·.1)

/-- The pools reachable in a build without overflow checks by calls that return, with X sold only in states
with `G`. -/
inductive Reach (m : LibM) (G : Pool → Prop) : Pool → Prop
  | new {rp c fee : F64} {spacing : Nat} {p : Pool} (h : Pool.new m rp spacing c fee = .ok p) : Reach m G p
  | deposit {p p' : Pool} {r : Pool.Receipt} {user : Nat} {x y rpa rpb : F64} (h0 : Reach m G p)
      (h : p.deposit m user x y rpa rpb = .ok (p', r)) : Reach m G p'
  | withdraw {p p' : Pool} {r : Pool.Receipt} {user : Nat} {liq rpa rpb : F64} (h0 : Reach m G p)
      (h : p.withdraw m user liq rpa rpb = .ok (p', r)) : Reach m G p'
  | swapX {p p' : Pool} {o : SwapOutput} {fuel : Nat} {dx oracle : F64} (h0 : Reach m G p) (hg : G p)
      (h : executeSwapFromX m fuel p dx oracle = .ok (p', o)) : Reach m G p'
  | swapY {p p' : Pool} {o : SwapOutput} {fuel : Nat} {dy oracle : F64} (h0 : Reach m G p)
      (h : executeSwapFromY m fuel p dy oracle = .ok (p', o)) : Reach m G p'

end Hmm.Flt.Unchecked
