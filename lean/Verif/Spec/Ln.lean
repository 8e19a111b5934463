import Verif.Spec.Decimal
import Mathlib.Analysis.SpecialFunctions.Log.Basic

/-
The natural logarithm of a decimal.
-/

namespace Hmm.Decimal

/-- `r` is the natural logarithm of `d`, at the scale of `d`, with an error of at most `3 * 10^-10` plus a unit of the last
place. -/
def LnNear (d r : Decimal) : Prop :=
  r.scale = d.scale ∧ |(r.toRat : ℝ) - Real.log d.toRat| ≤ 3 / 10 ^ 10 + 1 / 10 ^ d.scale

/-- `d` lies between the powers of two `2^k` and `2^(k+1)`, clear of both by one part in `2^40`. -/
def Between (k : ℤ) (d : Decimal) : Prop :=
  (2 : ℝ) ^ k * (1 + 1 / 2 ^ 40) ≤ d.toRat ∧ (d.toRat : ℝ) ≤ 2 ^ (k + 1) * (1 - 1 / 2 ^ 40)

end Hmm.Decimal
