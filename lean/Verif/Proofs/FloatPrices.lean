import Verif.Proofs.FloatLib
import Verif.Proofs.FloatTicks
import Mathlib.Analysis.Complex.ExponentialBounds

/-
Ticks and prices of the floating-point pool with an accurate math library.
-/

namespace Hmm.F64

theorem dyadic_is (n : Nat) {k : Nat} (hk : k ≤ 1074) : (fin false (n * 2 ^ (1074 - k))).Is ((n : ℚ) / 2 ^ k) := by
  refine ⟨false, _, rfl, ?_⟩
  have : unit = 2 ^ k * 2 ^ (1074 - k) := by unfold unit; rw [← pow_add]; congr 1; omega
  rw [this]
  simp only [signed, Bool.false_eq_true, if_false]
  have h2 : (2 : ℚ) ^ (1074 - k) ≠ 0 := by positivity
  have e : ((((n * 2 ^ (1074 - k) : ℕ) : ℤ)) : ℚ) = (n : ℚ) * 2 ^ (1074 - k) := by
    rw [Int.cast_natCast, Nat.cast_mul, Nat.cast_pow, Nat.cast_ofNat]
  rw [e, Nat.cast_mul, Nat.cast_pow, Nat.cast_pow, Nat.cast_ofNat, mul_div_mul_right _ _ h2]

theorem dyadic_rep (n k : Nat) (hn : n < 2 ^ 53) : (fin false (n * 2 ^ (1074 - k))).Rep := by
  rw [rep_fin]
  refine ⟨?_, n, _, hn, rfl⟩
  unfold limit
  calc n * 2 ^ (1074 - k) < 2 ^ 53 * 2 ^ (1074 - k) := by gcongr
    _ ≤ 2 ^ 53 * 2 ^ 1074 := by gcongr <;> omega
    _ = 2 ^ (53 + 1074) := (pow_add _ _ _).symm
    _ ≤ 2 ^ 2098 := Nat.pow_le_pow_right (by norm_num) (by norm_num)

attribute [local irreducible] unit limit

/-- `f64 as u32` of a whole number, negative ones included. -/
theorem toU32_toNat {a : F64} {z : ℤ} (h : a.IsInt z) (hz : z < 2 ^ 32) : a.toU32 = z.toNat := by
  rcases le_or_gt 0 z with h0 | h0
  · obtain ⟨k, rfl⟩ := Int.eq_ofNat_of_zero_le h0
    rw [Flt.toU32_int h, Int.toNat_natCast]
    omega
  · obtain ⟨s, n, rfl, e⟩ := isInt_iff.1 h
    have hu : (0 : ℤ) < unit := by exact_mod_cast unit_pos
    have hneg : signed s n < 0 := by rw [e]; exact mul_neg_of_neg_of_pos h0 hu
    cases s with
    | false =>
      simp only [signed, Bool.false_eq_true, if_false] at hneg
      omega
    | true =>
      unfold toU32
      simp only [if_true]
      omega

end Hmm.F64

namespace Hmm.Flt

open F64

/-- The root of the tick base. -/
def baseQ : ℚ := 4503824801722646 / 2 ^ 52

theorem base_eq : tickBase.sqrt = fin false (4503824801722646 * 2 ^ (1074 - 52)) := by decide +kernel

theorem base_is : tickBase.sqrt.Is baseQ := by
  rw [base_eq]
  exact dyadic_is 4503824801722646 (by norm_num)

theorem base_rep : tickBase.sqrt.Rep := by
  rw [base_eq]
  exact dyadic_rep 4503824801722646 52 (by norm_num)

theorem base_sized : Sized 50 baseQ := by unfold baseQ Sized; norm_num

section
attribute [local irreducible] unit limit

/-- The logarithm of the root of the tick base. -/
noncomputable def lam : ℝ := Real.log baseQ

theorem baseQ_real : ((baseQ : ℚ) : ℝ) = 4503824801722646 / 2 ^ 52 := by unfold baseQ; push_cast; norm_num

theorem baseQ_pos : (0 : ℝ) < (baseQ : ℝ) := by rw [baseQ_real]; positivity

theorem lam_bounds : 1 / 2 ^ 15 < lam ∧ lam < 1 / 2 ^ 14 := by
  have h1 := Real.one_sub_inv_le_log_of_pos baseQ_pos
  have h2 := Real.log_le_sub_one_of_pos baseQ_pos
  unfold lam
  rw [baseQ_real] at *
  constructor
  · exact lt_of_lt_of_le (by norm_num) h1
  · exact lt_of_le_of_lt h2 (by norm_num)

theorem base_pow (x : ℝ) : (baseQ : ℝ) ^ x = Real.exp (x * lam) := by
  rw [Real.rpow_def_of_pos baseQ_pos, mul_comm]; rfl

/-- Powers of the tick base. -/
theorem tick_value {m : LibM} (ha : m.Accurate) {t : ℕ} (ht : t ≤ 2 ^ 21) : (tickToRp m t).Rep ∧
    ∃ r : ℚ, (tickToRp m t).Is r ∧ |(r : ℝ) - Real.exp (t * lam)| ≤ Real.exp (t * lam) / 2 ^ 51 := by
  have hT : (ofNat t).Is (t : ℚ) := ofNat_is (ht.trans (by norm_num))
  have hTr : (ofNat t).Rep := ofRatio_rep _ _ _
  obtain ⟨l0, l1⟩ := lam_bounds
  have htr : (t : ℝ) ≤ 2 ^ 21 := by exact_mod_cast ht
  have hx : (t : ℝ) * lam ≤ 128 := by
    have : (t : ℝ) * lam ≤ 2 ^ 21 * (1 / 2 ^ 14) := mul_le_mul htr l1.le (by linarith [show (0 : ℝ) < 1 / 2 ^ 15 by positivity]) (by positivity)
    norm_num at this
    exact this
  have hx0 : 0 ≤ (t : ℝ) * lam := mul_nonneg (by positivity) (by linarith [show (0 : ℝ) < 1 / 2 ^ 15 by positivity])
  have e1 : (1 : ℝ) ≤ Real.exp (t * lam) := by rw [← Real.exp_zero]; exact Real.exp_le_exp.2 hx0
  have e2 : Real.exp (t * lam) ≤ 2 ^ 200 := by
    have h3 : Real.exp 1 ≤ 2.7182818286 := Real.exp_one_lt_d9.le
    calc Real.exp (t * lam) ≤ Real.exp 128 := Real.exp_le_exp.2 hx
      _ = Real.exp 1 ^ 128 := by rw [← Real.exp_nat_mul]; norm_num
      _ ≤ 2.7182818286 ^ 128 := pow_le_pow_left₀ (Real.exp_pos _).le h3 _
      _ ≤ 2 ^ 200 := by norm_num
  have hp := base_pow ((t : ℚ) : ℝ)
  have hc : (((t : ℚ) : ℝ)) = (t : ℝ) := by push_cast; rfl
  have := ha.powf base_rep hTr base_is hT base_sized
  rw [hp, hc] at this
  exact this (le_trans (by norm_num) e1) e2

/-- The logarithm of a price in the tick base, and the ticks around it. -/
theorem tick_quotient {m : LibM} (ha : m.Accurate) {a : F64} {v : ℚ} (hr : a.Rep) (hv : a.Is v) (hs : Sized 50 v) :
    ∃ l : ℚ, |(l : ℝ) - Real.log v / lam| ≤ 1 / 2 ^ 27 ∧ rpToTick m a false = ⌊l⌋.toNat ∧ rpToTick m a true = ⌈l⌉.toNat := by
  obtain ⟨l0, l1⟩ := lam_bounds
  have hl0 : 0 < lam := lt_trans (by positivity) l0
  obtain ⟨_, r, r1, r2⟩ := ha.ln hr hv hs
  obtain ⟨_, s, s1, s2⟩ := ha.ln base_rep base_is base_sized
  change |(s : ℝ) - lam| ≤ |lam| / 2 ^ 51 at s2
  rw [abs_of_pos hl0] at s2
  have s3 := _root_.abs_le.1 s2
  have s4 : lam / 2 ≤ s := by linarith [show lam / 2 ^ 51 ≤ lam / 2 from div_le_div_of_nonneg_left hl0.le (by norm_num) (by norm_num)]
  have spos : (0 : ℝ) < s := by linarith
  have s5 : (s : ℝ) ≤ 1 := by linarith [show lam / 2 ^ 51 ≤ lam from div_le_self hl0.le (by norm_num), show lam < 1 / 2 from l1.trans (by norm_num)]
  have s6 : (1 : ℝ) / 2 ^ 16 ≤ s := by
    have : (1 : ℝ) / 2 ^ 16 = 1 / 2 ^ 15 / 2 := by norm_num
    linarith
  have sposQ : (0 : ℚ) < s := by exact_mod_cast spos
  have hD := div_rounded r1 s1 sposQ.ne'
  have hlog : |Real.log v| ≤ 35 := by
    obtain ⟨v0, v1⟩ := hs.real
    have vpos : (0 : ℝ) < v := lt_of_lt_of_le (by positivity) v0
    have hl2 : Real.log 2 ≤ 0.7 := by linarith [Real.log_two_lt_d9]
    rw [_root_.abs_le]
    constructor
    · have := Real.log_le_log (by positivity) v0
      rw [one_div, Real.log_inv, Real.log_pow] at this
      push_cast at this
      linarith
    · have := Real.log_le_log vpos v1
      rw [Real.log_pow] at this
      push_cast at this
      linarith
  set y := Real.log v with hy
  have hr' : |(r : ℝ)| ≤ 36 := by
    have := abs_add_le ((r : ℝ) - y) y
    rw [sub_add_cancel] at this
    have h2 : |y| / 2 ^ 51 ≤ 35 / 2 ^ 51 := div_le_div_of_nonneg_right hlog (by positivity)
    norm_num at h2
    linarith
  have hq : Tame 210 |r / s| := by
    by_cases hv1 : v = 1
    · left
      have : y = 0 := by rw [hy, hv1]; simp
      rw [this] at r2
      simp at r2
      have : r = 0 := by exact_mod_cast r2
      rw [this]; simp
    · right
      obtain ⟨g0, g1⟩ := log_sized hv hr hs hv1
      have hr0 : 1 / 2 ^ 201 ≤ |(r : ℝ)| := by
        have := abs_sub_abs_le_abs_sub y r
        rw [abs_sub_comm y] at this
        have h2 : |y| / 2 ^ 51 ≤ |y| / 2 := div_le_div_of_nonneg_left (abs_nonneg _) (by norm_num) (by norm_num)
        have e : (1 : ℝ) / 2 ^ 201 = 1 / 2 ^ 200 / 2 := by norm_num
        rw [← hy] at g0
        linarith
      apply Sized.of_real
      · rw [Rat.cast_abs, Rat.cast_div, abs_div, abs_of_pos spos, le_div_iff₀ spos]
        have : (1 : ℝ) / 2 ^ 210 * s ≤ 1 / 2 ^ 210 * 1 := mul_le_mul_of_nonneg_left s5 (by positivity)
        have e : (1 : ℝ) / 2 ^ 210 ≤ 1 / 2 ^ 201 := by norm_num
        linarith
      · rw [Rat.cast_abs, Rat.cast_div, abs_div, abs_of_pos spos, div_le_iff₀ spos]
        have : (2 : ℝ) ^ 210 * (1 / 2 ^ 16) ≤ 2 ^ 210 * s := mul_le_mul_of_nonneg_left s6 (by positivity)
        have e : (36 : ℝ) ≤ 2 ^ 210 * (1 / 2 ^ 16) := by norm_num
        linarith
  obtain ⟨l, hl, hrel⟩ := hD.rel_tame hq (by norm_num)
  have hrel' : |(l : ℝ) - r / s| ≤ |(r : ℝ) / s| / 2 ^ 53 := by
    unfold F64.Rel at hrel
    have := (Rat.cast_le (K := ℝ)).mpr hrel
    push_cast at this
    simpa using this
  have hqb : |(r : ℝ) / s| ≤ 36 * 2 ^ 16 := by
    rw [abs_div, abs_of_pos spos, div_le_iff₀ spos]
    have : (36 : ℝ) * 2 ^ 16 * (1 / 2 ^ 16) ≤ 36 * 2 ^ 16 * s := mul_le_mul_of_nonneg_left s6 (by positivity)
    have e : (36 : ℝ) * 2 ^ 16 * (1 / 2 ^ 16) = 36 := by norm_num
    linarith
  have hyb : |y| / lam ≤ 35 * 2 ^ 15 := by
    rw [div_le_iff₀ hl0]
    have : (35 : ℝ) * 2 ^ 15 * (1 / 2 ^ 15) ≤ 35 * 2 ^ 15 * lam := mul_le_mul_of_nonneg_left l0.le (by positivity)
    have e : (35 : ℝ) * 2 ^ 15 * (1 / 2 ^ 15) = 35 := by norm_num
    linarith
  have hdiff : |(r : ℝ) / s - y / lam| ≤ 35 * 2 ^ 15 * 4 / 2 ^ 51 := by
    have e : (r : ℝ) / s - y / lam = ((r - y) * lam - y * (s - lam)) / (s * lam) := by field_simp; ring
    rw [e, abs_div, abs_of_pos (mul_pos spos hl0), div_le_iff₀ (mul_pos spos hl0)]
    have h1 : |(r - y) * lam - y * (s - lam)| ≤ |y| * lam * 2 / 2 ^ 51 := by
      refine (abs_sub _ _).trans ?_
      rw [abs_mul, abs_mul, abs_of_pos hl0]
      have a1 := mul_le_mul_of_nonneg_right r2 hl0.le
      have a2 := mul_le_mul_of_nonneg_left s2 (abs_nonneg y)
      have : |y| / 2 ^ 51 * lam + |y| * (lam / 2 ^ 51) = |y| * lam * 2 / 2 ^ 51 := by ring
      linarith
    refine h1.trans ?_
    have h2 : |y| ≤ 35 * 2 ^ 15 * lam := by rwa [div_le_iff₀ hl0] at hyb
    have h3 : |y| * lam ≤ 35 * 2 ^ 15 * lam * lam := mul_le_mul_of_nonneg_right h2 hl0.le
    have h4 : lam * lam ≤ 2 * (s * lam) := by nlinarith
    have h5 : |y| * lam ≤ 35 * 2 ^ 15 * (2 * (s * lam)) := by linarith
    calc |y| * lam * 2 / 2 ^ 51 ≤ 35 * 2 ^ 15 * (2 * (s * lam)) * 2 / 2 ^ 51 := by gcongr
      _ = _ := by ring
  have htot : |(l : ℝ) - y / lam| ≤ 1 / 2 ^ 27 := by
    have := abs_add_le ((l : ℝ) - r / s) (r / s - y / lam)
    rw [sub_add_sub_cancel] at this
    have h2 : |(r : ℝ) / s| / 2 ^ 53 ≤ 36 * 2 ^ 16 / 2 ^ 53 := div_le_div_of_nonneg_right hqb (by positivity)
    have h3 : (36 : ℝ) * 2 ^ 16 / 2 ^ 53 + 35 * 2 ^ 15 * 4 / 2 ^ 51 ≤ 1 / 2 ^ 27 := by norm_num
    linarith
  have hlb : (l : ℝ) ≤ 2 ^ 22 := by
    have h1 := (_root_.abs_le.1 htot).2
    have h2 : y / lam ≤ |y| / lam := div_le_div_of_nonneg_right (le_abs_self _) hl0.le
    have h3 : (35 : ℝ) * 2 ^ 15 + 1 / 2 ^ 27 ≤ 2 ^ 22 := by norm_num
    linarith
  have hlq : l ≤ 2 ^ 22 := (Rat.cast_le (K := ℝ)).mp (by push_cast; exact hlb)
  refine ⟨l, htot, ?_, ?_⟩
  · unfold rpToTick
    simp only [Bool.false_eq_true, if_false]
    refine toU32_toNat (floor_is hl) ?_
    have : ⌊l⌋ ≤ 2 ^ 22 := by
      have := Int.floor_le_floor hlq
      rwa [show ((2 : ℚ) ^ 22) = ((2 ^ 22 : ℤ) : ℚ) by norm_num, Int.floor_intCast] at this
    omega
  · unfold rpToTick
    simp only [if_true]
    refine toU32_toNat (ceil_is hl) ?_
    have : ⌈l⌉ ≤ 2 ^ 22 := by
      have := Int.ceil_le_ceil hlq
      rwa [show ((2 : ℚ) ^ 22) = ((2 ^ 22 : ℤ) : ℚ) by norm_num, Int.ceil_intCast] at this
    omega

end

end Hmm.Flt
