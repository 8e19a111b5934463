import Verif.Model.FloatPool
import Verif.Proofs.FloatRounding

/-
Ticks of the floating-point pool on the grid given by the tick spacing.
-/

namespace Hmm.Flt

open F64

attribute [local irreducible] unit limit

/-- Whole numbers up to `2^53` are doubles. -/
theorem whole_rounded {k : Nat} (h : k ≤ 2 ^ 53) : Rounded (k : ℚ) (fin false (k * unit)) := by
  refine ⟨false, k * unit, 1, one_pos, (ofRatio_whole h).symm, ?_⟩
  rw [signed_whole]
  have hu := unitQ_ne
  push_cast
  rw [div_one, mul_div_assoc, div_self hu]
  simp [signed]

theorem whole_is (k : Nat) : (fin false (k * unit)).Is (k : ℚ) := by
  refine ⟨false, k * unit, rfl, ?_⟩
  rw [signed_whole]
  have hu := unitQ_ne
  push_cast
  rw [mul_div_assoc, div_self hu]
  simp [signed]

theorem whole_rep {k : Nat} (h : k ≤ 2 ^ 53) : (fin false (k * unit)).Rep := by
  have := ofRatio_rep false (k * unit) 1
  rwa [ofRatio_whole h] at this

theorem ofNat_is {k : Nat} (h : k ≤ 2 ^ 53) : (ofNat k).Is (k : ℚ) := by
  unfold ofNat lit
  rw [ofRatio_whole h]
  exact whole_is k

/-- The ceiling of a finite double is the ceiling of its value. -/
theorem ceil_is {a : F64} {q : ℚ} (h : a.Is q) : a.ceil.IsInt ⌈q⌉ := by
  have h1 : a.ceil = a.neg.floor.neg := by
    obtain ⟨s, n, rfl, _⟩ := h
    unfold ceil floor F64.neg
    by_cases h0 : n % unit = 0
    · simp [h0]
    · cases s <;> simp [h0]
  rw [h1]
  have := neg_int (floor_is (neg_is h))
  rwa [Int.floor_neg, neg_neg] at this

/-- `f64 as u32` of a whole number. -/
theorem toU32_int {a : F64} {k : Nat} (h : a.IsInt k) : a.toU32 = min k (2 ^ 32 - 1) := by
  obtain ⟨s, n, rfl, e⟩ := isInt_iff.1 h
  have hn := isInt_natAbs e
  rw [Int.natAbs_natCast] at hn
  unfold toU32
  cases s with
  | false =>
    simp only [Bool.false_eq_true, if_false]
    rw [hn, Nat.mul_div_cancel _ unit_pos]
  | true =>
    simp only [signed, if_true] at e
    have hu : (0 : ℤ) < unit := by exact_mod_cast unit_pos
    have h2 : n = 0 := by
      have : (0 : ℤ) ≤ k * unit := by positivity
      omega
    have h3 : k = 0 := by
      rw [h2] at hn
      rcases Nat.mul_eq_zero.1 hn.symm with h | h
      · exact h
      · exact absurd h unit_pos.ne'
    simp [h3]

/-- The quotient of two ticks, in doubles, lies strictly between the same whole numbers as the true quotient. -/
theorem quot_is {t s : Nat} (ht : t < 2 ^ 32) (hs : 0 < s) (hs' : s < 2 ^ 32) : ∃ v : ℚ,
    (div (ofNat t) (ofNat s)).Is v ∧ ((t / s : ℕ) : ℚ) ≤ v ∧ v < ((t / s : ℕ) : ℚ) + 1 ∧
    (¬ s ∣ t → ((t / s : ℕ) : ℚ) < v) ∧ (s ∣ t → v = ((t / s : ℕ) : ℚ)) := by
  have hsq : (0 : ℚ) < s := by exact_mod_cast hs
  have hR := div_rounded (ofNat_is (le_of_lt (lt_trans ht (by norm_num)))) (ofNat_is (le_of_lt (lt_trans hs' (by norm_num)))) hsq.ne'
  have hq : t / s ≤ 2 ^ 53 := le_trans (Nat.div_le_self _ _) (le_of_lt (lt_trans ht (by norm_num)))
  have hdm : (t : ℚ) = s * ((t / s : ℕ) : ℚ) + ((t % s : ℕ) : ℚ) := by exact_mod_cast (Nat.div_add_mod t s).symm
  have hml : ((t % s : ℕ) : ℚ) + 1 ≤ s := by exact_mod_cast Nat.mod_lt t hs
  have hm0 : (0 : ℚ) ≤ ((t % s : ℕ) : ℚ) := by positivity
  have htq : (t : ℚ) < 2 ^ 32 := by exact_mod_cast ht
  have ht0 : (0 : ℚ) ≤ t := by positivity
  have hsq1 : (1 : ℚ) ≤ s := by exact_mod_cast hs
  have hsq2 : (s : ℚ) < 2 ^ 32 := by exact_mod_cast hs'
  generalize hQ : ((t / s : ℕ) : ℚ) = Q at *
  have hQ0 : 0 ≤ Q := by rw [← hQ]; positivity
  have hle : Q ≤ (t : ℚ) / s := by rw [le_div_iff₀ hsq]; nlinarith
  have hts : (t : ℚ) / s ≤ t := by rw [div_le_iff₀ hsq]; nlinarith
  have hts0 : (0 : ℚ) ≤ (t : ℚ) / s := by positivity
  obtain ⟨v, hv⟩ := hR.finite (whole_is (2 ^ 53)) (whole_rep (le_refl _)) (by
    rw [abs_of_nonneg hts0, abs_of_nonneg (by positivity)]
    push_cast
    linarith)
  have hge : Q ≤ v := by
    have := (whole_rounded hq).mono hR (whole_is _) hv (by rw [hQ]; exact hle)
    rwa [hQ] at this
  have herr := hR.error hv
  rw [abs_of_nonneg hts0] at herr
  have hun : (1 : ℚ) / (2 * unit) ≤ 1 / 2 ^ 65 := by
    apply one_div_le_one_div_of_le (by positivity)
    have : 2 ^ 64 ≤ unit := by
      rw [unit_eq]; exact Nat.pow_le_pow_right (by decide) (by decide)
    have : (2 ^ 64 : ℚ) ≤ unit := by exact_mod_cast this
    linarith
  -- the error, times the spacing, is below one
  have hes : ((t : ℚ) / s / 2 ^ 53 + 1 / (2 * unit)) * s < 1 := by
    have e1 : (t : ℚ) / s / 2 ^ 53 * s = t / 2 ^ 53 := by field_simp
    have e2 : (1 : ℚ) / (2 * unit) * s ≤ 1 / 2 ^ 65 * 2 ^ 32 := by
      apply mul_le_mul hun hsq2.le hsq.le (by positivity)
    have e3 : (t : ℚ) / 2 ^ 53 ≤ 1 / 2 ^ 21 := by
      rw [div_le_div_iff₀ (by positivity) (by positivity)]; nlinarith
    rw [add_mul, e1]
    norm_num at e2 e3 ⊢
    linarith
  have hdist : (t : ℚ) / s * s = t := div_mul_cancel₀ _ hsq.ne'
  have hlt : v < Q + 1 := by
    have h1 := (abs_le.1 herr).2
    by_contra hc
    have h2 : (Q + 1 - t / s) * s ≤ ((t : ℚ) / s / 2 ^ 53 + 1 / (2 * unit)) * s :=
      mul_le_mul_of_nonneg_right (by linarith) hsq.le
    rw [sub_mul, hdist] at h2
    nlinarith
  refine ⟨v, hv, hge, hlt, ?_, ?_⟩
  · intro hnd
    have hm1 : (1 : ℚ) ≤ ((t % s : ℕ) : ℚ) := by
      have : 0 < t % s := Nat.pos_of_ne_zero fun h => hnd (Nat.dvd_of_mod_eq_zero h)
      exact_mod_cast this
    have h1 := (abs_le.1 herr).1
    by_contra hc
    have h2 : (t / s - Q) * s ≤ ((t : ℚ) / s / 2 ^ 53 + 1 / (2 * unit)) * s :=
      mul_le_mul_of_nonneg_right (by linarith) hsq.le
    rw [sub_mul, hdist] at h2
    nlinarith
  · intro hd
    have h1 : (t : ℚ) / s = ((t / s : ℕ) : ℚ) := by
      rw [div_eq_iff hsq.ne']; exact_mod_cast (Nat.div_mul_cancel hd).symm
    rw [h1] at hR
    have h2 := hR.exact (whole_is _) (whole_rep hq)
    rw [← hQ]
    exact hv.unique h2

/-- Products of whole numbers below `2^53` are exact. -/
theorem mul_whole {a b : F64} {j k : Nat} (ha : a.IsInt j) (hb : b.IsInt k) (h : j * k ≤ 2 ^ 53) :
    (mul a b).IsInt ((j * k : ℕ) : ℤ) := by
  have hR := mul_rounded ha hb
  have e : ((j : ℤ) : ℚ) * ((k : ℤ) : ℚ) = ((j * k : ℕ) : ℚ) := by push_cast; ring
  rw [e] at hR
  have := hR.exact (whole_is _) (whole_rep h)
  unfold IsInt
  exact_mod_cast this

end Hmm.Flt
