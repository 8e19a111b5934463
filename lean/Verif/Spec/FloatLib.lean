import Verif.Spec.FloatAmounts
import Mathlib.Analysis.SpecialFunctions.Pow.Real

/-
Math libraries that compute powers and logarithms accurately.
-/

namespace Hmm

open F64

/-- Powers and natural logarithms of doubles of moderate size are doubles and off by at most two parts in `2^52`.  (The
libraries Rust uses are off by less than one unit in the last place.) -/
structure LibM.Accurate (m : LibM) : Prop where
  powf : ∀ {b e : F64} {β ε : ℚ}, b.Rep → e.Rep → b.Is β → e.Is ε → Sized 50 β → 1 / 2 ^ 200 ≤ (β : ℝ) ^ (ε : ℝ) →
    (β : ℝ) ^ (ε : ℝ) ≤ 2 ^ 200 →
    (m.powf b e).Rep ∧ ∃ r : ℚ, (m.powf b e).Is r ∧ |(r : ℝ) - (β : ℝ) ^ (ε : ℝ)| ≤ (β : ℝ) ^ (ε : ℝ) / 2 ^ 51
  ln : ∀ {x : F64} {ξ : ℚ}, x.Rep → x.Is ξ → Sized 50 ξ →
    (m.ln x).Rep ∧ ∃ r : ℚ, (m.ln x).Is r ∧ |(r : ℝ) - Real.log ξ| ≤ |Real.log ξ| / 2 ^ 51

namespace Flt

/-- The root price of a tick, exactly: `1.0001^(t/2)`. -/
noncomputable def rootPrice (t : ℕ) : ℝ := (10001 / 10000 : ℝ) ^ ((t : ℝ) / 2)

end Flt

end Hmm
