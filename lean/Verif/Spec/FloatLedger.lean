import Verif.Spec.FloatReach

/-
What users pay into the floating-point pool and get out of it, against what the pool holds.
-/

namespace Hmm.Flt

open F64

/-- A finite number of magnitude at most `B`. -/
def UpTo (B : ℚ) (a : F64) : Prop := a.Finite ∧ |a.val| ≤ B

/-- Reserves and pots are numbers of magnitude at most `B`. -/
def Pool.UpTo (p : Pool) (B : ℚ) : Prop :=
  Flt.UpTo B p.x ∧ Flt.UpTo B p.y ∧ Flt.UpTo B p.xFee ∧ Flt.UpTo B p.yFee ∧ Flt.UpTo B p.xAdj ∧ Flt.UpTo B p.yAdj

/-- All X that the pool holds: reserve, fees and oracle adjustments. -/
def Pool.holdsX (p : Pool) : ℚ := p.x.val + p.xFee.val + p.xAdj.val

/-- All Y that the pool holds. -/
def Pool.holdsY (p : Pool) : ℚ := p.y.val + p.yFee.val + p.yAdj.val

/-- Histories in which all amounts stay below `B`, with the sums `ix` and `iy` of what users have paid of X and Y,
less what they got, as they were told.  The number counts deposits, withdrawals and rounds of swaps. -/
inductive Ledger (m : LibM) (B : ℚ) : Pool → ℚ → ℚ → ℕ → Prop
  | new {rp c fee : F64} {spacing : Nat} {p : Pool} (h : Pool.new m rp spacing c fee = .ok p) : Ledger m B p 0 0 0
  | deposit {p p' : Pool} {r : Pool.Receipt} {user : Nat} {x y rpa rpb : F64} {ix iy : ℚ} {n : ℕ} (h0 : Ledger m B p ix iy n)
      (h : p.deposit m user x y rpa rpb = .ok (p', r)) (hp : p'.UpTo B) (hx : UpTo B r.totalX) (hy : UpTo B r.totalY) :
      Ledger m B p' (ix + r.totalX.val) (iy + r.totalY.val) (n + 1)
  | withdraw {p p' : Pool} {r : Pool.Receipt} {user : Nat} {liq rpa rpb : F64} {ix iy : ℚ} {n : ℕ} (h0 : Ledger m B p ix iy n)
      (h : p.withdraw m user liq rpa rpb = .ok (p', r)) (hp : p'.UpTo B) (hx : UpTo B r.totalX) (hy : UpTo B r.totalY) :
      Ledger m B p' (ix - r.totalX.val) (iy - r.totalY.val) (n + 1)
  | swapX {p p' : Pool} {o : SwapOutput} {fuel : Nat} {dx oracle : F64} {ix iy : ℚ} {n : ℕ} (h0 : Ledger m B p ix iy n)
      (h : p.executeSwapFromX m fuel dx oracle = .ok (p', o)) (hp : p'.UpTo B) (hx : UpTo B o.recv) (hy : UpTo B o.send) :
      Ledger m B p' (ix + o.recv.val) (iy + o.send.val) (n + fuel)
  | swapY {p p' : Pool} {o : SwapOutput} {fuel : Nat} {dy oracle : F64} {ix iy : ℚ} {n : ℕ} (h0 : Ledger m B p ix iy n)
      (h : p.executeSwapFromY m fuel dy oracle = .ok (p', o)) (hp : p'.UpTo B) (hx : UpTo B o.recv) (hy : UpTo B o.send) :
      Ledger m B p' (ix + o.send.val) (iy + o.recv.val) (n + fuel)

end Hmm.Flt
