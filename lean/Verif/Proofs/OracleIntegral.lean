import Verif.Spec.FloatOracle

/-
Closed forms of the integrals that say what a swap pays under an oracle price.
-/

namespace Hmm.Flt

open Set

theorem pos_of_mem {a b s : ℝ} (ha : 0 < a) (hb : 0 < b) (h : s ∈ uIcc a b) : 0 < s := by
  rw [mem_uIcc] at h
  rcases h with h | h <;> linarith [h.1]

theorem cutY_cont {o c a b : ℝ} (ho : 0 < o) (ha : 0 < a) (hb : 0 < b) :
    ContinuousOn (fun s : ℝ => (min 1 (o / s)) ^ c) (uIcc a b) := by
  intro s hs
  have hs0 := pos_of_mem ha hb hs
  apply ContinuousAt.continuousWithinAt
  apply ContinuousAt.rpow_const
  · exact continuousAt_const.min (continuousAt_const.div continuousAt_id hs0.ne')
  · left; exact (lt_min one_pos (div_pos ho hs0)).ne'

theorem cutX_cont {o c a b : ℝ} (ho : 0 < o) (ha : 0 < a) (hb : 0 < b) :
    ContinuousOn (fun s : ℝ => (min 1 (s / o)) ^ c / s ^ 2) (uIcc a b) := by
  intro s hs
  have hs0 := pos_of_mem ha hb hs
  apply ContinuousAt.continuousWithinAt
  apply ContinuousAt.div
  · apply ContinuousAt.rpow_const
    · exact continuousAt_const.min (continuousAt_id.div continuousAt_const ho.ne')
    · left; exact (lt_min one_pos (div_pos hs0 ho)).ne'
  · exact continuousAt_id.pow 2
  · exact (pow_pos hs0 2).ne'

theorem zero_notMem {a b : ℝ} (ha : 0 < a) (hb : 0 < b) : (0 : ℝ) ∉ uIcc a b := fun h => (pos_of_mem ha hb h).false

/-- Above the oracle's price. -/
theorem oracleY_above {L a b o c : ℝ} (ho : 0 < o) (hob : o ≤ b) (hba : b ≤ a) (hc : c ≠ 1) :
    oracleY L a b o c = L * (o ^ c * ((a ^ (1 - c) - b ^ (1 - c)) / (1 - c))) := by
  have hb : 0 < b := lt_of_lt_of_le ho hob
  have ha : 0 < a := lt_of_lt_of_le hb hba
  unfold oracleY
  congr 1
  have e : ∫ s in b..a, (min 1 (o / s)) ^ c = ∫ s in b..a, o ^ c * s ^ (-c) := by
    apply intervalIntegral.integral_congr
    intro s hs
    have hs0 := pos_of_mem hb ha hs
    rw [uIcc_of_le hba] at hs
    have h1 : o / s ≤ 1 := by rw [div_le_one hs0]; linarith [hs.1]
    simp only
    rw [min_eq_right h1, Real.div_rpow ho.le hs0.le, Real.rpow_neg hs0.le]
    rfl
  rw [e, intervalIntegral.integral_const_mul, integral_rpow (Or.inr ⟨fun h => hc (by linarith), zero_notMem hb ha⟩)]
  rw [show -c + 1 = 1 - c by ring]

/-- Above the oracle's price with `c = 1`. -/
theorem oracleY_above_one {L a b o : ℝ} (ho : 0 < o) (hob : o ≤ b) (hba : b ≤ a) :
    oracleY L a b o 1 = L * (o * Real.log (a / b)) := by
  have hb : 0 < b := lt_of_lt_of_le ho hob
  have ha : 0 < a := lt_of_lt_of_le hb hba
  unfold oracleY
  congr 1
  have e : ∫ s in b..a, (min 1 (o / s)) ^ (1 : ℝ) = ∫ s in b..a, o * (1 / s) := by
    apply intervalIntegral.integral_congr
    intro s hs
    have hs0 := pos_of_mem hb ha hs
    rw [uIcc_of_le hba] at hs
    have h1 : o / s ≤ 1 := by rw [div_le_one hs0]; linarith [hs.1]
    simp only
    rw [min_eq_right h1, Real.rpow_one]
    ring
  rw [e, intervalIntegral.integral_const_mul, integral_one_div (zero_notMem hb ha)]

/-- At or below it. -/
theorem oracleY_below {L a b o c : ℝ} (hb : 0 < b) (hba : b ≤ a) (hao : a ≤ o) : oracleY L a b o c = L * (a - b) := by
  have ha : 0 < a := lt_of_lt_of_le hb hba
  unfold oracleY
  congr 1
  have e : ∫ s in b..a, (min 1 (o / s)) ^ c = ∫ _ in b..a, (1 : ℝ) := by
    apply intervalIntegral.integral_congr
    intro s hs
    have hs0 := pos_of_mem hb ha hs
    rw [uIcc_of_le hba] at hs
    have h1 : 1 ≤ o / s := by rw [le_div_iff₀ hs0]; linarith [hs.2]
    simp only
    rw [min_eq_left h1, Real.one_rpow]
  rw [e, intervalIntegral.integral_const, smul_eq_mul, mul_one]

/-- Across it. -/
theorem oracleY_split {L a b k o c : ℝ} (ho : 0 < o) (ha : 0 < a) (hb : 0 < b) (hk : 0 < k) :
    oracleY L a b o c = oracleY L a k o c + oracleY L k b o c := by
  unfold oracleY
  rw [← mul_add, add_comm (∫ s in k..a, _), intervalIntegral.integral_add_adjacent_intervals
    (cutY_cont ho hb hk).intervalIntegrable (cutY_cont ho hk ha).intervalIntegrable]

/-- Below the oracle's price. -/
theorem oracleX_below {L a b o c : ℝ} (ha : 0 < a) (hab : a ≤ b) (hbo : b ≤ o) (hc : c ≠ 1) :
    oracleX L a b o c = L * ((b ^ (c - 1) - a ^ (c - 1)) / (c - 1) / o ^ c) := by
  have hb : 0 < b := lt_of_lt_of_le ha hab
  have ho : 0 < o := lt_of_lt_of_le hb hbo
  unfold oracleX
  congr 1
  have e : ∫ s in a..b, (min 1 (s / o)) ^ c / s ^ 2 = ∫ s in a..b, (1 / o ^ c) * s ^ (c - 2) := by
    apply intervalIntegral.integral_congr
    intro s hs
    have hs0 := pos_of_mem ha hb hs
    rw [uIcc_of_le hab] at hs
    have h1 : s / o ≤ 1 := by rw [div_le_one ho]; linarith [hs.2]
    simp only
    rw [min_eq_right h1, Real.div_rpow hs0.le ho.le, Real.rpow_sub hs0, Real.rpow_two]
    field_simp
  rw [e, intervalIntegral.integral_const_mul, integral_rpow (Or.inr ⟨fun h => hc (by linarith), zero_notMem ha hb⟩)]
  rw [show c - 2 + 1 = c - 1 by ring]
  ring

/-- Below the oracle's price with `c = 1`. -/
theorem oracleX_below_one {L a b o : ℝ} (ha : 0 < a) (hab : a ≤ b) (hbo : b ≤ o) :
    oracleX L a b o 1 = L * (Real.log (b / a) / o) := by
  have hb : 0 < b := lt_of_lt_of_le ha hab
  have ho : 0 < o := lt_of_lt_of_le hb hbo
  unfold oracleX
  congr 1
  have e : ∫ s in a..b, (min 1 (s / o)) ^ (1 : ℝ) / s ^ 2 = ∫ s in a..b, (1 / o) * (1 / s) := by
    apply intervalIntegral.integral_congr
    intro s hs
    have hs0 := pos_of_mem ha hb hs
    rw [uIcc_of_le hab] at hs
    have h1 : s / o ≤ 1 := by rw [div_le_one ho]; linarith [hs.2]
    simp only
    rw [min_eq_right h1, Real.rpow_one]
    field_simp
  rw [e, intervalIntegral.integral_const_mul, integral_one_div (zero_notMem ha hb)]
  ring

/-- At or above it. -/
theorem oracleX_above {L a b o c : ℝ} (ho : 0 < o) (hoa : o ≤ a) (hab : a ≤ b) :
    oracleX L a b o c = L * (1 / a - 1 / b) := by
  have ha : 0 < a := lt_of_lt_of_le ho hoa
  have hb : 0 < b := lt_of_lt_of_le ha hab
  unfold oracleX
  congr 1
  have e : ∫ s in a..b, (min 1 (s / o)) ^ c / s ^ 2 = ∫ s in a..b, s ^ (-2 : ℝ) := by
    apply intervalIntegral.integral_congr
    intro s hs
    have hs0 := pos_of_mem ha hb hs
    rw [uIcc_of_le hab] at hs
    have h1 : 1 ≤ s / o := by rw [le_div_iff₀ ho]; linarith [hs.1]
    simp only
    rw [min_eq_left h1, Real.one_rpow, Real.rpow_neg hs0.le, Real.rpow_two, one_div]
  rw [e, integral_rpow (Or.inr ⟨by norm_num, zero_notMem ha hb⟩)]
  rw [show (-2 : ℝ) + 1 = -1 by norm_num, Real.rpow_neg_one, Real.rpow_neg_one]
  ring

theorem oracleX_split {L a b k o c : ℝ} (ho : 0 < o) (ha : 0 < a) (hb : 0 < b) (hk : 0 < k) :
    oracleX L a b o c = oracleX L a k o c + oracleX L k b o c := by
  unfold oracleX
  rw [← mul_add, intervalIntegral.integral_add_adjacent_intervals
    (cutX_cont ho ha hk).intervalIntegrable (cutX_cont ho hk hb).intervalIntegrable]

/-- Between the pool's price and the oracle's: what the seller gets is at most what the constant-product curve pays and, for
`c` up to 2, at least the oracle's price for what they pay in. -/
theorem oracleY_between {L a b o c : ℝ} (hL : 0 ≤ L) (ho : 0 < o) (hb : 0 < b) (hba : b ≤ a) (h0 : 0 ≤ c) (h2 : c ≤ 2)
    (hob : o ≤ b) : L * (1 / b - 1 / a) * o ^ 2 ≤ oracleY L a b o c ∧ oracleY L a b o c ≤ L * (a - b) := by
  have ha : 0 < a := lt_of_lt_of_le hb hba
  have hI := (cutY_cont (c := c) ho hb ha).intervalIntegrable (μ := MeasureTheory.volume)
  have cut0 : ∀ s ∈ Icc b a, 0 < min 1 (o / s) ∧ min 1 (o / s) ≤ 1 := fun s hs =>
    ⟨lt_min one_pos (div_pos ho (lt_of_lt_of_le hb hs.1)), min_le_left _ _⟩
  constructor
  · have e : (1 / b - 1 / a) * o ^ 2 = ∫ s in b..a, o ^ 2 * s ^ (-2 : ℝ) := by
      rw [intervalIntegral.integral_const_mul, integral_rpow (Or.inr ⟨by norm_num, zero_notMem hb ha⟩),
        show (-2 : ℝ) + 1 = -1 by norm_num, Real.rpow_neg_one, Real.rpow_neg_one]
      ring
    unfold oracleY
    rw [mul_assoc, e]
    refine mul_le_mul_of_nonneg_left ?_ hL
    refine intervalIntegral.integral_mono_on hba ?_ hI ?_
    · apply ContinuousOn.intervalIntegrable
      intro s hs
      apply ContinuousAt.continuousWithinAt
      exact continuousAt_const.mul (continuousAt_id.rpow_const (Or.inl (pos_of_mem hb ha hs).ne'))
    · intro s hs
      obtain ⟨c0, c1⟩ := cut0 s hs
      have hs0 : 0 < s := lt_of_lt_of_le hb hs.1
      have h1 : o / s ≤ 1 := by rw [div_le_one hs0]; linarith [hs.1]
      refine le_trans (le_of_eq ?_) (Real.rpow_le_rpow_of_exponent_ge c0 c1 h2)
      rw [min_eq_right h1, Real.rpow_two, Real.rpow_neg hs0.le, Real.rpow_two, div_pow]
      rfl
  · have e : a - b = ∫ _ in b..a, (1 : ℝ) := by rw [intervalIntegral.integral_const, smul_eq_mul, mul_one]
    unfold oracleY
    refine mul_le_mul_of_nonneg_left ?_ hL
    rw [e]
    refine intervalIntegral.integral_mono_on hba hI intervalIntegrable_const ?_
    intro s hs
    obtain ⟨c0, c1⟩ := cut0 s hs
    exact Real.rpow_le_one c0.le c1 h0

theorem oracleX_between {L a b o c : ℝ} (hL : 0 ≤ L) (ha : 0 < a) (hab : a ≤ b) (h0 : 0 ≤ c) (h2 : c ≤ 2)
    (hbo : b ≤ o) : L * (b - a) / o ^ 2 ≤ oracleX L a b o c ∧ oracleX L a b o c ≤ L * (1 / a - 1 / b) := by
  have hb : 0 < b := lt_of_lt_of_le ha hab
  have ho : 0 < o := lt_of_lt_of_le hb hbo
  have hI := (cutX_cont (c := c) ho ha hb).intervalIntegrable (μ := MeasureTheory.volume)
  have cut0 : ∀ s ∈ Icc a b, 0 < min 1 (s / o) ∧ min 1 (s / o) ≤ 1 := fun s hs =>
    ⟨lt_min one_pos (div_pos (lt_of_lt_of_le ha hs.1) ho), min_le_left _ _⟩
  constructor
  · have e : (b - a) / o ^ 2 = ∫ _ in a..b, 1 / o ^ 2 := by
      rw [intervalIntegral.integral_const, smul_eq_mul, mul_one_div]
    unfold oracleX
    rw [mul_div_assoc, e]
    refine mul_le_mul_of_nonneg_left ?_ hL
    refine intervalIntegral.integral_mono_on hab intervalIntegrable_const hI ?_
    intro s hs
    obtain ⟨c0, c1⟩ := cut0 s hs
    have hs0 : 0 < s := lt_of_lt_of_le ha hs.1
    have h1 : s / o ≤ 1 := by rw [div_le_one ho]; linarith [hs.2]
    have := Real.rpow_le_rpow_of_exponent_ge c0 c1 h2
    rw [le_div_iff₀ (pow_pos hs0 2)]
    refine le_trans (le_of_eq ?_) this
    rw [min_eq_right h1, Real.rpow_two, div_pow]
    ring
  · have e : 1 / a - 1 / b = ∫ s in a..b, s ^ (-2 : ℝ) := by
      rw [integral_rpow (Or.inr ⟨by norm_num, zero_notMem ha hb⟩),
        show (-2 : ℝ) + 1 = -1 by norm_num, Real.rpow_neg_one, Real.rpow_neg_one]
      ring
    unfold oracleX
    refine mul_le_mul_of_nonneg_left ?_ hL
    rw [e]
    refine intervalIntegral.integral_mono_on hab hI ?_ ?_
    · apply ContinuousOn.intervalIntegrable
      intro s hs
      apply ContinuousAt.continuousWithinAt
      exact continuousAt_id.rpow_const (Or.inl (pos_of_mem ha hb hs).ne')
    · intro s hs
      obtain ⟨c0, c1⟩ := cut0 s hs
      have hs0 : 0 < s := lt_of_lt_of_le ha hs.1
      rw [Real.rpow_neg hs0.le, Real.rpow_two, div_eq_mul_inv]
      exact mul_le_of_le_one_left (by positivity) (Real.rpow_le_one c0.le c1 h0)

/-- The seller gets something between nothing and what the constant-product curve pays. -/
theorem oracleY_range {L a b o c : ℝ} (hL : 0 ≤ L) (ho : 0 < o) (hb : 0 < b) (hba : b ≤ a) (h0 : 0 ≤ c) :
    0 ≤ oracleY L a b o c ∧ oracleY L a b o c ≤ L * (a - b) := by
  have ha : 0 < a := lt_of_lt_of_le hb hba
  have hI := (cutY_cont (c := c) ho hb ha).intervalIntegrable (μ := MeasureTheory.volume)
  have cut0 : ∀ s ∈ Icc b a, 0 < min 1 (o / s) ∧ min 1 (o / s) ≤ 1 := fun s hs =>
    ⟨lt_min one_pos (div_pos ho (lt_of_lt_of_le hb hs.1)), min_le_left _ _⟩
  constructor
  · exact mul_nonneg hL (intervalIntegral.integral_nonneg hba fun s hs => Real.rpow_nonneg (cut0 s hs).1.le _)
  · have e : a - b = ∫ _ in b..a, (1 : ℝ) := by rw [intervalIntegral.integral_const, smul_eq_mul, mul_one]
    unfold oracleY
    refine mul_le_mul_of_nonneg_left ?_ hL
    rw [e]
    refine intervalIntegral.integral_mono_on hba hI intervalIntegrable_const ?_
    intro s hs
    obtain ⟨c0, c1⟩ := cut0 s hs
    exact Real.rpow_le_one c0.le c1 h0

theorem oracleX_range {L a b o c : ℝ} (hL : 0 ≤ L) (ho : 0 < o) (ha : 0 < a) (hab : a ≤ b) (h0 : 0 ≤ c) :
    0 ≤ oracleX L a b o c ∧ oracleX L a b o c ≤ L * (1 / a - 1 / b) := by
  have hb : 0 < b := lt_of_lt_of_le ha hab
  have hI := (cutX_cont (c := c) ho ha hb).intervalIntegrable (μ := MeasureTheory.volume)
  have cut0 : ∀ s ∈ Icc a b, 0 < min 1 (s / o) ∧ min 1 (s / o) ≤ 1 := fun s hs =>
    ⟨lt_min one_pos (div_pos (lt_of_lt_of_le ha hs.1) ho), min_le_left _ _⟩
  constructor
  · exact mul_nonneg hL (intervalIntegral.integral_nonneg hab fun s hs =>
      div_nonneg (Real.rpow_nonneg (cut0 s hs).1.le _) (sq_nonneg s))
  · have e : 1 / a - 1 / b = ∫ s in a..b, s ^ (-2 : ℝ) := by
      rw [integral_rpow (Or.inr ⟨by norm_num, zero_notMem ha hb⟩),
        show (-2 : ℝ) + 1 = -1 by norm_num, Real.rpow_neg_one, Real.rpow_neg_one]
      ring
    unfold oracleX
    refine mul_le_mul_of_nonneg_left ?_ hL
    rw [e]
    refine intervalIntegral.integral_mono_on hab hI ?_ ?_
    · apply ContinuousOn.intervalIntegrable
      intro s hs
      apply ContinuousAt.continuousWithinAt
      exact continuousAt_id.rpow_const (Or.inl (pos_of_mem ha hb hs).ne')
    · intro s hs
      obtain ⟨c0, c1⟩ := cut0 s hs
      have hs0 : 0 < s := lt_of_lt_of_le ha hs.1
      rw [Real.rpow_neg hs0.le, Real.rpow_two, div_eq_mul_inv]
      exact mul_le_of_le_one_left (by positivity) (Real.rpow_le_one c0.le c1 h0)

/-- Without a curvature parameter the oracle plays no part. -/
theorem oracleY_zero {L a b o : ℝ} : oracleY L a b o 0 = L * (a - b) := by
  unfold oracleY
  simp only [Real.rpow_zero, intervalIntegral.integral_const, smul_eq_mul, mul_one]

theorem oracleX_zero {L a b o : ℝ} (ha : 0 < a) (hab : a ≤ b) : oracleX L a b o 0 = L * (1 / a - 1 / b) := by
  have hb : 0 < b := lt_of_lt_of_le ha hab
  unfold oracleX
  have e : 1 / a - 1 / b = ∫ s in a..b, s ^ (-2 : ℝ) := by
    rw [integral_rpow (Or.inr ⟨by norm_num, zero_notMem ha hb⟩),
      show (-2 : ℝ) + 1 = -1 by norm_num, Real.rpow_neg_one, Real.rpow_neg_one]
    ring
  rw [e]
  congr 1
  apply intervalIntegral.integral_congr
  intro s hs
  have hs0 := pos_of_mem ha hb hs
  simp only [Real.rpow_zero]
  rw [Real.rpow_neg hs0.le, Real.rpow_two, one_div]

end Hmm.Flt
