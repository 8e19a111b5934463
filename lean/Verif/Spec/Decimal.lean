import Verif.Model.Decimal
import Mathlib.Algebra.Order.Field.Rat
import Mathlib.Data.Rat.Floor

/-
What a `Decimal` means, independently of how the code computes with it.
-/

namespace Hmm

/-- The number a decimal represents: `± value / 10^scale`. -/
def Decimal.toRat (d : Decimal) : ℚ :=
  (if d.negative then -1 else 1) * ((d.value : ℚ) / 10 ^ d.scale)

/-- One unit in the last place at a scale. -/
def ulp (scale : Nat) : ℚ := 1 / 10 ^ scale

/-- The magnitude a decimal represents. -/
def Decimal.mag (d : Decimal) : ℚ := (d.value : ℚ) / 10 ^ d.scale

/-- A non-negative number rounded down to a scale. -/
def floorAt (scale : Nat) (q : ℚ) : ℚ := (⌊q * 10 ^ scale⌋₊ : ℚ) / 10 ^ scale

/-- A non-negative number rounded up to a scale. -/
def ceilAt (scale : Nat) (q : ℚ) : ℚ := (⌈q * 10 ^ scale⌉₊ : ℚ) / 10 ^ scale

/-- Negative zero: the one number with two representations. -/
def Decimal.isNegZero (d : Decimal) : Prop := d.negative = true ∧ d.value = 0

/-- A non-negative amount at a scale. -/
def Decimal.Amount (s : Nat) (d : Decimal) : Prop := d.scale = s ∧ d.negative = false

end Hmm
