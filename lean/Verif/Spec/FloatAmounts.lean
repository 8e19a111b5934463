import Verif.Spec.F64
import Verif.Model.FloatPool

/-
What liquidity is worth, as exact numbers, and relative accuracy of doubles.
-/

namespace Hmm.F64

/-- The double is a finite number that differs from `q` by at most `k` parts in `2^52`. -/
def Within (a : F64) (q : ℚ) (k : ℕ) : Prop := ∃ r, a.Is r ∧ |r - q| ≤ |q| * k / 2 ^ 52

/-- A positive number of moderate size: between `2^-e` and `2^e`. -/
def Sized (e : ℕ) (q : ℚ) : Prop := 1 / 2 ^ e ≤ q ∧ q ≤ 2 ^ e

/-- Zero or a number of moderate size. -/
def Tame (e : ℕ) (q : ℚ) : Prop := q = 0 ∨ Sized e q

end Hmm.F64

namespace Hmm.Flt

open F64

/-- The pool price and the two bounds of a position are finite doubles of moderate size, the bounds in order. -/
structure Prices (rp rpa rpb : F64) (v a b : ℚ) : Prop where
  iv : rp.Is v
  ia : rpa.Is a
  ib : rpb.Is b
  rv : rp.Rep
  ra : rpa.Rep
  rb : rpb.Rep
  sv : Sized 100 v
  sa : Sized 100 a
  sb : Sized 100 b
  lt : a < b

/-- The X that liquidity `l` between the root prices `a` and `b` holds at the root price `v`: all of
`l · (1/a - 1/b)` below the range, nothing above it. -/
def heldX (l v a b : ℚ) : ℚ := l * (1 / max a (min v b) - 1 / b)

/-- The Y that it holds: nothing below the range, `l · (b - a)` above it. -/
def heldY (l v a b : ℚ) : ℚ := l * (max a (min v b) - a)

/-- Withdrawals by one user from one range, one after the other: what is asked for and the receipts. -/
inductive Pool.Withdrawals (m : LibM) (user : Nat) (rpa rpb : F64) : Pool → List (F64 × Pool.Receipt) → Pool → Prop
  | none (p : Pool) : Withdrawals m user rpa rpb p [] p
  | more {p p1 p2 : Pool} {liq : F64} {r : Pool.Receipt} {ws : List (F64 × Pool.Receipt)}
      (h : p.withdraw m user liq rpa rpb = .ok (p1, r)) (hs : Withdrawals m user rpa rpb p1 ws p2) :
      Withdrawals m user rpa rpb p ((liq, r) :: ws) p2

end Hmm.Flt
