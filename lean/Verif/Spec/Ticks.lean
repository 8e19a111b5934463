import Verif.Spec.Decimal

/-
Specification of tick prices: the exact price of tick `t` is `rootQ ^ t`.
-/

namespace Hmm.PoolMath

/-- The square root of 1.0001 to twelve digits, rounded down. -/
def rootQ : ℚ := 1000049998750 / 10 ^ 12

/-- It is the root of 1.0001 rounded down to twelve digits. -/
theorem rootQ_spec : rootQ ^ 2 ≤ 10001 / 10000 ∧ 10001 / 10000 < (rootQ + 1 / 10 ^ 12) ^ 2 := by
  unfold rootQ; norm_num

end Hmm.PoolMath
