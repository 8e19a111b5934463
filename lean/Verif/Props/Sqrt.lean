import Verif.Proofs.Sqrt

/-
Properties of the decimal square root: C10, C11.
-/

namespace Hmm

open Decimal

/-- `r` is the square root of `x` rounded down at a scale. -/
def IsRootDown (scale : Nat) (x r : ℚ) : Prop := 0 ≤ r ∧ r ^ 2 ≤ x ∧ x < (r + ulp scale) ^ 2

/-- What a good loop result means for the represented numbers. -/
theorem good_root {v s r : Nat} (h : SqrtGood (v * 10 ^ s) (Nat.sqrt (v * 10 ^ s)) r) :
    IsRootDown s ((v : ℚ) / 10 ^ s) ((r : ℚ) / 10 ^ s) ∨
    (IsRootDown s ((v : ℚ) / 10 ^ s) ((r : ℚ) / 10 ^ s - ulp s) ∧
      ((r : ℚ) / 10 ^ s) ^ 2 = (v : ℚ) / 10 ^ s + ulp s ^ 2) := by
  have h1 := Nat.sqrt_le (v * 10 ^ s)
  have h2 := Nat.lt_succ_sqrt (v * 10 ^ s)
  simp only [Nat.succ_eq_add_one] at h2
  have h10 := pow10Q_pos s
  have hx : (v : ℚ) / 10 ^ s = (v * 10 ^ s : ℕ) / (10 ^ s * 10 ^ s) := by
    push_cast; field_simp
  have key : ∀ t : Nat, t * t ≤ v * 10 ^ s → v * 10 ^ s < (t + 1) * (t + 1) →
      IsRootDown s ((v : ℚ) / 10 ^ s) ((t : ℚ) / 10 ^ s) := by
    intro t ht1 ht2
    refine ⟨by positivity, ?_, ?_⟩
    · rw [hx, div_pow, pow_two, pow_two]
      exact div_le_div_of_nonneg_right (by exact_mod_cast ht1) (by positivity)
    · unfold ulp
      rw [hx, ← add_div, div_pow, pow_two, pow_two]
      exact (div_lt_div_iff_of_pos_right (by positivity)).2 (by exact_mod_cast ht2)
  rcases h with h | ⟨h, hn⟩
  · left
    rw [h]; exact key _ h1 h2
  · right
    refine ⟨?_, ?_⟩
    · have := key _ h1 h2
      rw [h]
      have e : ((Nat.sqrt (v * 10 ^ s) + 1 : ℕ) : ℚ) / 10 ^ s - ulp s = (Nat.sqrt (v * 10 ^ s) : ℚ) / 10 ^ s := by
        unfold ulp; push_cast; ring
      rw [e]; exact this
    · rw [← h] at hn
      unfold ulp
      have hn' : (v : ℚ) * 10 ^ s + 1 = r * r := by exact_mod_cast hn
      have hne := h10.ne'
      field_simp
      linarith

/-! ### C10 Square root terminates and is within one unit in the last place -/

/-- C10: whenever `value * 10^scale` fits in 128 bits the square root of a non-negative decimal is
returned; it is the root rounded down, or, when the radicand is one double-precision unit below an exact
square, the root of that square (one unit above the rounded-down root). -/
theorem C10_sqrt (d : Decimal) (hneg : d.negative = false) (hs : d.scale ≤ 38)
    (hr : d.value * 10 ^ d.scale < 2 ^ 128) :
    ∃ c, d.sqrt = .ok c ∧ c.scale = d.scale ∧ c.negative = false ∧
      (IsRootDown d.scale d.toRat c.toRat ∨
        (IsRootDown d.scale d.toRat (c.toRat - ulp d.scale) ∧
          c.toRat ^ 2 = d.toRat + ulp d.scale ^ 2)) := by
  obtain ⟨r, h1, h2⟩ := sqrt_in_range hs hr
  refine ⟨_, h1, rfl, hneg, ?_⟩
  rw [toRat_of_nonneg hneg, toRat_of_nonneg (d := ⟨r, d.scale, d.negative⟩) hneg]
  exact good_root h2

/-- C10: the error `ExceedsPrecisionRange` comes out exactly when `value * 10^scale` needs more than
128 bits, except for the number one, which is returned unchanged. -/
theorem C10_sqrt_range (d : Decimal) (hneg : d.negative = false) (hs : d.scale ≤ 38) :
    (2 ^ 128 ≤ d.value * 10 ^ d.scale → d.toRat ≠ 1 →
      d.sqrt = .error (.code .exceedsPrecisionRange)) ∧
    (d.toRat = 1 → d.sqrt = .ok d) := by
  have hone : d.toRat = 1 ↔ d.value = 10 ^ d.scale := by
    rw [toRat_of_nonneg hneg]
    unfold mag
    rw [div_eq_one_iff_eq (pow10Q_pos _).ne']
    exact_mod_cast Iff.rfl
  rw [hone]
  constructor
  · intro ho h1
    have h0 : d.value ≠ 0 := by
      intro h; rw [h] at ho; simp at ho
    rw [sqrt_cases hs, if_neg (by tauto), if_pos (show u128Size ≤ _ from ho)]
  · intro h1
    rw [sqrt_cases hs, if_pos ⟨hneg, .inr h1⟩]

/-- C10: the Newton loop terminates for every decimal of any scale and sign: the square root never
diverges, and never panics when the scale is at most 38. -/
theorem C10_sqrt_terminates (d : Decimal) :
    d.sqrt ≠ .error .diverge ∧ (d.scale ≤ 38 → d.sqrt ≠ .error .panic) := by
  by_cases hs : d.scale ≤ 38
  · by_cases hr : d.value * 10 ^ d.scale < u128Size
    · obtain ⟨r, h1, _⟩ := sqrt_in_range hs hr
      rw [h1]; simp
    · rw [sqrt_cases hs]
      split
      · simp
      · rw [if_pos (by omega)]; simp
  · refine ⟨?_, fun h => absurd h hs⟩
    have : (fromInt 1).toScale d.scale = .error .panic := by
      rw [toScale_error]
      refine ⟨rfl, .inr ⟨Nat.zero_le _, .inl ?_⟩⟩
      rw [← not_lt, pow10_lt_iff]; simpa [fromInt] using hs
    unfold sqrt
    rw [this]
    simp [bind, Except.bind]

-- sqrt 2.000000 = 1.414213; sqrt 8 = 3 (8 + 1 is a square); out of range
example : (Decimal.mk 2000000 6 false).sqrt = .ok ⟨1414213, 6, false⟩ ∧
    (Decimal.mk 8 0 false).sqrt = .ok ⟨3, 0, false⟩ ∧
    (Decimal.mk (2 ^ 100) 12 false).sqrt = .error (.code .exceedsPrecisionRange) ∧
    (Decimal.mk (10 ^ 38) 38 false).sqrt = .ok ⟨10 ^ 38, 38, false⟩ := by decide +kernel

/-! ### C11 Square root of a negative number is refused: false -/

/-- C11 is false of the code: the square root of -4.00 is returned, as -2.00. -/
theorem C11_false : ¬ ∀ d c : Decimal, d.toRat < 0 → d.sqrt ≠ .ok c := by
  intro h
  refine h ⟨400, 2, true⟩ ⟨200, 2, true⟩ ?_ (by decide +kernel)
  rw [toRat_of_neg rfl]
  unfold mag; norm_num

/-- C11, what does hold: for a negative decimal in range the result carries the negative sign, and its
magnitude is the root of the magnitude; so no non-negative number is ever returned for a negative one
(zero only for radicands below one unit).  Missing: the refusal (`C11_false`). -/
theorem C11_sqrt_negative_partial {d c : Decimal} (hneg : d.negative = true) (hs : d.scale ≤ 38)
    (h : d.sqrt = .ok c) :
    c.negative = true ∧ c.scale = d.scale ∧ c.toRat ≤ 0 ∧
      (IsRootDown d.scale d.mag c.mag ∨ IsRootDown d.scale d.mag (c.mag - ulp d.scale)) := by
  by_cases hr : d.value * 10 ^ d.scale < u128Size
  · obtain ⟨r, h1, h2⟩ := sqrt_in_range hs hr
    rw [h1] at h
    cases h
    refine ⟨hneg, rfl, ?_, ?_⟩
    · rw [toRat_of_neg (d := ⟨r, d.scale, d.negative⟩) hneg]
      have := mag_nonneg ⟨r, d.scale, d.negative⟩
      linarith
    · exact (good_root h2).imp id And.left
  · rw [sqrt_cases hs, if_neg (by simp [hneg]), if_pos (by omega)] at h
    simp at h

example : (Decimal.mk 200 2 true).sqrt = .ok ⟨141, 2, true⟩ := by decide +kernel

end Hmm
