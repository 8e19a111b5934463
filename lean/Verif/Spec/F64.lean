import Verif.Model.F64
import Mathlib.Algebra.Order.Field.Rat
import Mathlib.Algebra.Order.AbsoluteValue.Basic

/-
What doubles denote.
-/

namespace Hmm.F64

/-- The double is a finite number, namely `q`. -/
def Is (a : F64) (q : ℚ) : Prop := ∃ s n, a = fin s n ∧ q = (signed s n : ℚ) / (unit : ℚ)

/-- The double is a finite number. -/
def Finite (a : F64) : Prop := ∃ q, a.Is q

/-- The double is the whole number `z`. -/
def IsInt (a : F64) (z : ℤ) : Prop := a.Is z

/-- The value of a finite double; zero for infinities and NaN. -/
def val : F64 → ℚ
  | fin s n => (signed s n : ℚ) / (unit : ℚ)
  | _ => 0

/-- A finite double proper: at most 53 significant binary digits, in the exponent range of binary64.
Infinities and NaN are doubles too. -/
def Rep : F64 → Prop
  | fin _ n => (n : ℚ) / unit < 2 ^ 1024 ∧ ∃ m e, m < 2 ^ 53 ∧ n = m * 2 ^ e
  | _ => True

/-- `b` is the value of a double nearest to `q`. -/
def Nearest (q b : ℚ) : Prop := ∀ (d : F64) (r : ℚ), d.Rep → d.Is r → |q - b| ≤ |q - r|

end Hmm.F64
