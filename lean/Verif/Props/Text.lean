import Verif.Proofs.Text

/-
Properties of printing and parsing decimals: C15, C16.
-/

namespace Hmm

open Decimal

/-! ### C15 Printing then parsing gives back the same decimal -/

/-- C15: parsing the displayed text of any machine decimal returns exactly that decimal. -/
theorem C15_roundtrip (d : Decimal) (hw : d.WF) : fromStr d.display = .ok d := by
  obtain ⟨lead, frac, h1, h2, h3, h4, h5⟩ := display_spec d
  unfold fromStr
  rw [h3, fromStrWith_noexp (mantissa_chars h1)]
  have := fromStrBody_nonpos (rec := fromStrWith fun _ => rpanic) (neg := d.negative) (k := 0) h1 h2
    (by rw [h4]; exact hw.1) (by rw [h5]; exact hw.2)
  simp only [Nat.cast_zero, neg_zero, Nat.add_zero, h4, h5] at this
  exact this

/-- C15: hence different decimals are displayed differently. -/
theorem C15_display_injective {d e : Decimal} (hd : d.WF) (he : e.WF) (h : d.display = e.display) :
    d = e := by
  have h1 := C15_roundtrip d hd
  rw [h, C15_roundtrip e he] at h1
  cases h1; rfl

example : (Decimal.mk 105 5 true).display = "-0.00105".toList ∧
    fromStr "-0.00105".toList = .ok ⟨105, 5, true⟩ ∧
    (Decimal.mk 0 2 true).display = "-0.00".toList ∧ (Decimal.mk 12345 2 false).display = "123.45".toList := by
  decide +kernel

/-! ### C16 Scientific notation is parsed without losing digits: false for positive exponents -/

/-- C16 is false of the code: `1.2345e2` denotes 123.45 and is parsed to 123.00. -/
theorem C16_false : fromStr "1.2345e2".toList = .ok ⟨12300, 2, false⟩ ∧
    (Decimal.mk 12300 2 false).toRat ≠ 12345 / 100 := by
  refine ⟨by decide +kernel, ?_⟩
  rw [toRat_of_nonneg rfl]; unfold mag; norm_num

/-- C16, negative exponents: a mantissa with a negative exponent is parsed to exactly the number it denotes
(as long as the digits fit in 128 bits and the scale in 8). -/
theorem C16_negative_exponent_partial {neg : Bool} {lead : List Nat} {frac : Option (List Nat)}
    {e : List Nat} (hd : AllDigits (allOf lead frac)) (h0 : allOf lead frac ≠ [])
    (hv : decValue (allOf lead frac) < 2 ^ 128) (he : AllDigits e) (he0 : e ≠ [])
    (hk : fracLen frac + decValue e < 256) :
    ∃ d, fromStr (mantissa neg lead frac ++ 'e' :: '-' :: digitText e) = .ok d ∧
      d.toRat = (if neg then -1 else 1) * (decValue (allOf lead frac) : ℚ) / 10 ^ fracLen frac
        / 10 ^ decValue e := by
  have hp := (parseI64_text he he0 (by omega)).2
  refine ⟨⟨decValue (allOf lead frac), fracLen frac + decValue e, neg⟩, ?_, ?_⟩
  · unfold fromStr
    rw [fromStrWith_exp (mantissa_chars hd) hp]
    exact fromStrBody_nonpos hd h0 hv hk
  · unfold toRat
    simp only
    rw [pow_add]
    cases neg <;> simp <;> field_simp

/-- C16, positive exponents: when the fraction has no more digits than the exponent (and the result fits) the
text is parsed to exactly the number it denotes.  Missing: longer fractions, which are cut
(`C16_false`, `C16_truncates`). -/
theorem C16_positive_exponent_partial {neg : Bool} {lead : List Nat} {frac : Option (List Nat)}
    {e : List Nat} (hd : AllDigits (allOf lead frac)) (h0 : allOf lead frac ≠ [])
    (he : AllDigits e) (he0 : e ≠ []) (hpos : 0 < decValue e) (h38 : decValue e ≤ 38)
    (hf : fracLen frac ≤ decValue e)
    (hv : decValue (allOf lead frac) * 10 ^ (decValue e - fracLen frac) * 10 ^ decValue e < 2 ^ 128) :
    ∃ d, fromStr (mantissa neg lead frac ++ 'e' :: digitText e) = .ok d ∧
      d.toRat = (if neg then -1 else 1) * (decValue (allOf lead frac) : ℚ) / 10 ^ fracLen frac
        * 10 ^ decValue e := by
  have hp := (parseI64_text he he0 (by omega)).1
  generalize hV : decValue (allOf lead frac) = V at *
  generalize hK : decValue e = k at *
  have h10 := pow10_pos k
  have h10' := pow10_pos (k - fracLen frac)
  have hv1 : V * 10 ^ (k - fracLen frac) < u128Size :=
    lt_of_le_of_lt (Nat.le_mul_of_pos_right _ h10) hv
  have hv2 : V < u128Size := lt_of_le_of_lt (Nat.le_mul_of_pos_right _ h10') hv1
  refine ⟨⟨V * 10 ^ (k - fracLen frac) * 10 ^ k, k, neg⟩, ?_, ?_⟩
  · unfold fromStr
    rw [fromStrWith_exp (mantissa_chars hd) hp,
      fromStrBody_pos hd h0 (by rw [hV]; exact hv2) (by omega) hpos (by omega), hV]
    have e1 : (Decimal.mk V (fracLen frac) false).toScale k
        = .ok ⟨V * 10 ^ (k - fracLen frac), k, false⟩ := by
      rw [toScale_ok]; right
      exact ⟨hf, pow10_lt_iff.2 (by simp only; omega), hv1, rfl⟩
    rw [e1]
    simp only [bind, Except.bind]
    rw [toScale_ok]; right
    exact ⟨Nat.zero_le _, pow10_lt_iff.2 (by simp only; omega), hv, rfl⟩
  · unfold toRat
    simp only
    have : (10 : ℚ) ^ k = 10 ^ fracLen frac * 10 ^ (k - fracLen frac) := by
      rw [← pow_add]; congr 1; omega
    push_cast
    rw [this]
    cases neg <;> simp <;> field_simp

/-- C16: the exact extent of the defect: with a fraction longer than a positive exponent, everything
after the shifted decimal point is cut: the result is the integer part of the number denoted. -/
theorem C16_truncates {neg : Bool} {lead f : List Nat} {e : List Nat} (hd : AllDigits (lead ++ f))
    (h0 : lead ++ f ≠ []) (he : AllDigits e) (he0 : e ≠ []) (hpos : 0 < decValue e)
    (h38 : decValue e ≤ 38) (hf : decValue e < f.length) (hf2 : f.length - decValue e ≤ 38)
    (hf3 : f.length < 256) (hV : decValue (lead ++ f) < 2 ^ 128)
    (hv : decValue (lead ++ f) / 10 ^ (f.length - decValue e) * 10 ^ decValue e < 2 ^ 128) :
    ∃ d, fromStr (mantissa neg lead (some f) ++ 'e' :: digitText e) = .ok d ∧
      d.toRat = (if neg then -1 else 1) *
        (⌊(decValue (lead ++ f) : ℚ) / 10 ^ f.length * 10 ^ decValue e⌋₊ : ℚ) := by
  have hp := (parseI64_text he he0 (by omega)).1
  generalize hVV : decValue (lead ++ f) = V at *
  generalize hK : decValue e = k at *
  refine ⟨⟨V / 10 ^ (f.length - k) * 10 ^ k, k, neg⟩, ?_, ?_⟩
  · unfold fromStr
    rw [fromStrWith_exp (mantissa_chars (frac := some f) hd) hp,
      fromStrBody_pos (frac := some f) hd h0 (by unfold allOf; simp only; rw [hVV]; exact hV)
        hf3 hpos (by omega)]
    unfold allOf fracLen
    simp only [hVV]
    have e1 : (Decimal.mk V f.length false).toScale k
        = .ok ⟨V / 10 ^ (f.length - k), k, false⟩ := by
      rw [toScale_ok]; left
      exact ⟨hf, pow10_lt_iff.2 hf2, rfl⟩
    rw [e1]
    simp only [bind, Except.bind]
    rw [toScale_ok]; right
    exact ⟨Nat.zero_le _, pow10_lt_iff.2 (by simp only; omega), hv, rfl⟩
  · have e2 : (V : ℚ) / 10 ^ f.length * 10 ^ k = (V : ℚ) / (10 ^ (f.length - k) : ℕ) := by
      have : (10 : ℚ) ^ f.length = 10 ^ k * 10 ^ (f.length - k) := by
        rw [← pow_add]; congr 1; omega
      rw [this]; push_cast; field_simp
    rw [e2, Nat.floor_div_eq_div]
    unfold toRat
    simp only
    push_cast
    cases neg <;> simp

example : fromStr "-1.25e-3".toList = .ok ⟨125, 5, true⟩ ∧ fromStr "1.25e3".toList = .ok ⟨1250000, 3, false⟩ ∧
    mantissa true [1] (some [2, 5]) ++ 'e' :: '-' :: digitText [3] = "-1.25e-3".toList := by decide +kernel

end Hmm
