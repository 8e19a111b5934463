import Verif.Model.Ln
import Mathlib.Analysis.SpecialFunctions.Log.Deriv

/-
The table of logarithms in `decimal.rs` against the real logarithm.
-/

namespace Hmm

/-- `n` terms of the series of `artanh y`. -/
def artanhSum (y : ℚ) : ℕ → ℚ
  | 0 => 0
  | n + 1 => artanhSum y n + y ^ (2 * n + 1) / (2 * n + 1)

theorem artanhSum_cast (y : ℚ) (n : ℕ) :
    ((artanhSum y n : ℚ) : ℝ) = ∑ i ∈ Finset.range n, (y : ℝ) ^ (2 * i + 1) / (2 * i + 1) := by
  induction n with
  | zero => simp [artanhSum]
  | succ n ih => rw [Finset.sum_range_succ, ← ih, artanhSum]; push_cast; rfl

/-- Rational bounds of a logarithm. -/
theorem log_artanh {x : ℚ} (hx : 0 ≤ x) (n : ℕ) :
    (2 * artanhSum (x / (2 + x)) n : ℚ) ≤ Real.log (1 + x) ∧
    Real.log (1 + x) ≤ (2 * (artanhSum (x / (2 + x)) n + (x / (2 + x)) ^ (2 * n + 1) / (1 - (x / (2 + x)) ^ 2)) : ℚ) := by
  have hxr : (0 : ℝ) ≤ x := by exact_mod_cast hx
  have y0 : (0 : ℝ) ≤ x / (2 + x) := by positivity
  have y1 : (x : ℝ) / (2 + x) < 1 := by rw [div_lt_one (by linarith)]; linarith
  have e : (1 + (x : ℝ) / (2 + x)) / (1 - (x : ℝ) / (2 + x)) = 1 + x := by
    have : (2 + (x : ℝ)) ≠ 0 := by linarith
    have h2 : 1 - (x : ℝ) / (2 + x) = 2 / (2 + x) := by field_simp; ring
    rw [h2]; field_simp; ring
  have h1 := Real.sum_range_le_log_div y0 y1 n
  have h2 := Real.log_div_le_sum_range_add y0 y1 n
  rw [e] at h1 h2
  have ec := artanhSum_cast (x / (2 + x)) n
  push_cast at ec ⊢
  rw [ec]
  constructor <;> linarith

/-- The row and column of the table as a number: `(row + 1) / 10^(col + 1)`. -/
def tableArg (row col : ℕ) : ℚ := (row + 1) / 10 ^ (col + 1)

def tableFits (row col : ℕ) : Bool :=
  match logTable row col with
  | .ok v =>
    let y := tableArg row col / (2 + tableArg row col)
    decide ((v : ℚ) ≤ 10 ^ 12 * (2 * artanhSum y 16) + 1 / 1000) &&
    decide (10 ^ 12 * (2 * (artanhSum y 16 + y ^ 33 / (1 - y ^ 2))) ≤ v + 1 + 1 / 1000)
  | _ => false

theorem table_fits : ∀ row < 9, ∀ col < 10, tableFits row col = true := by decide +kernel

/-- Entries of the table are at most 1.001 units of the twelfth place too small, and almost never too big. -/
theorem logTable_near {row col : ℕ} (hr : row < 9) (hc : col < 10) : ∃ v, logTable row col = .ok v ∧
    (v : ℝ) / 10 ^ 12 ≤ Real.log (1 + tableArg row col) + 1 / 10 ^ 15 ∧
    Real.log (1 + tableArg row col) ≤ (v : ℝ) / 10 ^ 12 + 1001 / 10 ^ 15 := by
  have h := table_fits row hr col hc
  unfold tableFits at h
  split at h
  · rename_i v hv
    simp only [Bool.and_eq_true, decide_eq_true_eq] at h
    obtain ⟨h1, h2⟩ := h
    have hx : 0 ≤ tableArg row col := by unfold tableArg; positivity
    obtain ⟨k1, k2⟩ := log_artanh hx 16
    have h1' := (Rat.cast_le (K := ℝ)).mpr h1
    have h2' := (Rat.cast_le (K := ℝ)).mpr h2
    push_cast at h1' h2' k1 k2
    refine ⟨v, hv, ?_, ?_⟩
    · rw [div_le_iff₀ (by positivity)]; linarith
    · rw [div_add_div _ _ (by positivity) (by positivity), le_div_iff₀ (by positivity)]; linarith
  · cases h

theorem ln2_near : (693147180559 : ℝ) / 10 ^ 12 ≤ Real.log 2 ∧ Real.log 2 ≤ 693147180559 / 10 ^ 12 + 1 / 10 ^ 12 := by
  obtain ⟨k1, k2⟩ := log_artanh (x := 1) (by norm_num) 20
  have h1 : (693147180559 : ℚ) / 10 ^ 12 ≤ 2 * artanhSum (1 / (2 + 1)) 20 := by decide +kernel
  have h2 : 2 * (artanhSum (1 / (2 + 1)) 20 + (1 / (2 + 1)) ^ (2 * 20 + 1) / (1 - (1 / (2 + 1)) ^ 2)) ≤
      (693147180559 : ℚ) / 10 ^ 12 + 1 / 10 ^ 12 := by decide +kernel
  have h1' := (Rat.cast_le (K := ℝ)).mpr h1
  have h2' := (Rat.cast_le (K := ℝ)).mpr h2
  have e : (1 : ℝ) + ((1 : ℚ) : ℝ) = 2 := by norm_num
  rw [e] at k1 k2
  push_cast at h1' h2' k1 k2
  exact ⟨h1'.trans k1, k2.trans h2'⟩

end Hmm
