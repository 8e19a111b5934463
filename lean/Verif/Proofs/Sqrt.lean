import Verif.Proofs.Rounding
import Mathlib.Data.Nat.Sqrt
import Mathlib.Data.Nat.Log

/-
The Newton loop of the square root: termination and result.
-/

namespace Hmm.Decimal

/-- The result of the loop that is acceptable for radicand `n` with integer root `s`. -/
def SqrtGood (n s y : Nat) : Prop := y = s ∨ (y = s + 1 ∧ n + 1 = (s + 1) * (s + 1))

/-- A Newton step never goes below the root. -/
theorem newton_ge {n s y : Nat} (hs : s * s ≤ n) (hy : 1 ≤ y) : s ≤ (y + n / y) / 2 := by
  rw [Nat.le_div_iff_mul_le (by norm_num)]
  by_contra h
  push Not at h
  have h1 : n < y * (n / y + 1) := by
    have := Nat.lt_mul_div_succ n (show 0 < y by omega)
    simpa using this
  -- n / y + 1 ≤ 2 s - y, so n < y (2 s - y) ≤ s²
  have h2 : n / y + 1 ≤ s * 2 - y := by omega
  have h3 : n < y * (s * 2 - y) := lt_of_lt_of_le h1 (Nat.mul_le_mul_left _ h2)
  have h4 : y * (s * 2 - y) ≤ s * s := by
    have := Nat.zero_le (n / y)
    have : y ≤ s * 2 := by omega
    obtain ⟨z, hz⟩ := Nat.exists_eq_add_of_le this
    rw [show s * 2 - y = z by omega]
    nlinarith [sq_nonneg ((y : ℤ) - z)]
  omega

theorem div_le_of_ge {n s y : Nat} (hs : n < (s + 1) * (s + 1)) (hy : s + 1 ≤ y) : n / y ≤ s := by
  have : n / y < s + 1 := by
    rw [Nat.div_lt_iff_lt_mul (by omega)]
    exact lt_of_lt_of_le hs (Nat.mul_le_mul_left _ hy)
  omega

/-- When a step changes the estimate by at most one, the new estimate is good. -/
theorem newton_stop {n s y : Nat} (h1 : s * s ≤ n) (h2 : n < (s + 1) * (s + 1)) (hy : 1 ≤ y)
    (hn : 1 ≤ n)
    (hd : (y + n / y) / 2 ≤ y + 1) (hd' : y ≤ (y + n / y) / 2 + 1) :
    SqrtGood n s ((y + n / y) / 2) := by
  have hge := newton_ge h1 hy
  have hs1 : 1 ≤ s := by
    by_contra h
    have : s = 0 := by omega
    subst this
    simp at h2; omega
  have hdm := Nat.div_add_mod n y
  have hml := Nat.mod_lt n (show 0 < y by omega)
  unfold SqrtGood
  rcases Nat.lt_or_ge y s with hlt | hge'
  · left; omega
  · rcases Nat.eq_or_lt_of_le hge' with he | hgt
    · subst he
      -- n / s ≤ s + 2
      have h3 : n / s < s + 3 := by
        rw [Nat.div_lt_iff_lt_mul (by omega)]; nlinarith
      rcases Nat.lt_or_ge (n / s) (s + 2) with h4 | h4
      · left; omega
      · right
        have h5 : n / s = s + 2 := by omega
        refine ⟨by omega, ?_⟩
        rw [h5] at hdm
        have : (s + 1) * (s + 1) = s * (s + 2) + 1 := by ring
        omega
    · have h3 := div_le_of_ge h2 hgt
      rcases Nat.lt_or_ge ((y + n / y) / 2) (s + 1) with h4 | h4
      · left; omega
      · right
        have h5 : (y + n / y) / 2 = s + 1 := by omega
        have h6 : y = s + 2 := by omega
        subst h6
        have h7 : n / (s + 2) = s := by omega
        refine ⟨h5, ?_⟩
        rw [h7] at hdm
        have : (s + 1) * (s + 1) = (s + 2) * s + 1 := by ring
        omega

/-- Above the root a step at least halves the distance. -/
theorem newton_halves {n s y : Nat} (h2 : n < (s + 1) * (s + 1)) (hy : s + 1 ≤ y) :
    (y + n / y) / 2 - s ≤ (y - s) / 2 := by
  have := div_le_of_ge h2 hy
  omega

/-- The sum in a step does not overflow. -/
theorem newton_fits {n y : Nat} (hn : n < u128Size) (hy : 2 ≤ y) (hyn : y ≤ n / 2 + 2) :
    y + n / y < u128Size ∧ (y + n / y) / 2 ≤ n / 2 + 2 := by
  have hmul : y * (n / y) ≤ n := Nat.mul_div_le n y
  have h4 : n / y ≤ n / 2 := Nat.div_le_div_left hy (by norm_num)
  have hb : u128Size = 2 ^ 128 := rfl
  by_cases hq : n / y ≤ 1
  · constructor
    · omega
    · omega
  · push Not at hq
    have : 2 * (y + n / y) ≤ y * (n / y) + 4 := by
      obtain ⟨a, ha⟩ := Nat.exists_eq_add_of_le hy
      obtain ⟨b, hb⟩ := Nat.exists_eq_add_of_le (show 2 ≤ n / y from hq)
      rw [ha, hb] at *
      nlinarith [Nat.zero_le (a * b)]
    constructor
    · omega
    · omega

/-- One round of the loop that does not stop. -/
theorem sqrtLoop_step {n fuel y y0 : Nat} (hn : n < u128Size) (hy : 1 ≤ y) (hyn : y ≤ n / 2 + 2)
    (hc : (y > y0 ∧ y - y0 > 1) ∨ (y < y0 ∧ y0 - y > 1)) (hy2 : 2 ≤ y ∨ n / y + 1 < u128Size) :
    sqrtLoop n (fuel + 1) y y0 = sqrtLoop n fuel ((y + n / y) / 2) y := by
  rw [sqrtLoop, if_pos hc, if_neg (by omega), if_pos]
  rcases Nat.lt_or_ge y 2 with h | h
  · have : y = 1 := by omega
    subst this
    rcases hy2 with h2 | h2
    · omega
    · omega
  · exact (newton_fits hn h hyn).1

theorem sqrtLoop_stop {n fuel y y0 : Nat}
    (hc : ¬ ((y > y0 ∧ y - y0 > 1) ∨ (y < y0 ∧ y0 - y > 1))) :
    sqrtLoop n (fuel + 1) y y0 = some (.ok y) := by
  rw [sqrtLoop, if_neg hc]

/-- From an estimate within one of the root. -/
theorem sqrtLoop_near {n s fuel y y0 : Nat} (hn : n < u128Size) (hn1 : 1 ≤ n)
    (h1 : s * s ≤ n) (h2 : n < (s + 1) * (s + 1))
    (hy : s ≤ y) (hy1 : y ≤ s + 1) (hyp : 1 ≤ y) (hyn : y ≤ n / 2 + 2) (hf : 2 ≤ y ∨ n / y + 1 < u128Size)
    (hstop : ¬ ((y > y0 ∧ y - y0 > 1) ∨ (y < y0 ∧ y0 - y > 1)) → SqrtGood n s y) :
    ∃ r, sqrtLoop n (fuel + 2) y y0 = some (.ok r) ∧ SqrtGood n s r := by
  by_cases hc : (y > y0 ∧ y - y0 > 1) ∨ (y < y0 ∧ y0 - y > 1)
  · rw [sqrtLoop_step hn hyp hyn hc hf]
    have hge := newton_ge h1 hyp
    have hle : (y + n / y) / 2 ≤ s + 1 := by
      rcases Nat.eq_or_lt_of_le hy with he | hlt
      · subst he
        have h3 : n / s < s + 3 := by
          rw [Nat.div_lt_iff_lt_mul (by omega)]; nlinarith
        omega
      · have := div_le_of_ge h2 hlt
        omega
    rw [sqrtLoop_stop (by omega)]
    exact ⟨_, rfl, newton_stop h1 h2 hyp hn1 (by omega) (by omega)⟩
  · rw [sqrtLoop_stop hc]
    exact ⟨_, rfl, hstop hc⟩

/-- From any estimate not below the root, `f + 2` rounds suffice for a distance below `2^f`. -/
theorem sqrtLoop_from {n s : Nat} (hn : n < u128Size) (hn1 : 1 ≤ n)
    (h1 : s * s ≤ n) (h2 : n < (s + 1) * (s + 1)) :
    ∀ (f y y0 : Nat), s ≤ y → 1 ≤ y → y ≤ n / 2 + 2 → (2 ≤ y ∨ n / y + 1 < u128Size) →
      y - s < 2 ^ f → (¬ ((y > y0 ∧ y - y0 > 1) ∨ (y < y0 ∧ y0 - y > 1)) → SqrtGood n s y) →
      ∃ r, sqrtLoop n (f + 2) y y0 = some (.ok r) ∧ SqrtGood n s r := by
  intro f
  induction f with
  | zero =>
    intro y y0 hy hyp hyn hf hd hstop
    exact sqrtLoop_near hn hn1 h1 h2 hy (by simp at hd; omega) hyp hyn hf hstop
  | succ f ih =>
    intro y y0 hy hyp hyn hf hd hstop
    by_cases hnear : y ≤ s + 1
    · exact sqrtLoop_near hn hn1 h1 h2 hy hnear hyp hyn hf hstop
    · by_cases hc : (y > y0 ∧ y - y0 > 1) ∨ (y < y0 ∧ y0 - y > 1)
      · rw [show f + 1 + 2 = (f + 2) + 1 by omega, sqrtLoop_step hn hyp hyn hc hf]
        have hge := newton_ge h1 hyp
        have hs1 : 1 ≤ s := by
          by_contra h
          have : s = 0 := by omega
          subst this
          simp at h2; omega
        have hy2 : 2 ≤ y := by omega
        have hhalf := newton_halves h2 (show s + 1 ≤ y by omega)
        have hq := div_le_of_ge h2 (show s + 1 ≤ y by omega)
        refine ih _ _ hge (by omega) (newton_fits hn hy2 hyn).2 ?_ ?_ ?_
        · rcases Nat.lt_or_ge ((y + n / y) / 2) 2 with hl | hl
          · right
            have : (y + n / y) / 2 = 1 := by omega
            rw [this]
            have : s = 1 := by omega
            subst this
            have : u128Size = 2 ^ 128 := rfl
            omega
          · exact .inl hl
        · rw [pow_succ] at hd; omega
        · intro hc'
          exact newton_stop h1 h2 hyp hn1 (by omega) (by omega)
      · rw [show f + 1 + 2 = (f + 2) + 1 by omega, sqrtLoop_stop hc]
        exact ⟨_, rfl, hstop hc⟩

/-- The loop as started by `sqrt`. -/
theorem sqrtLoop_start {n : Nat} (hn : n < u128Size) :
    ∃ r, sqrtLoop n sqrtFuel (n / 2 ^ (bitLen n / 2)) 0 = some (.ok r) ∧
      SqrtGood n (Nat.sqrt n) r := by
  have hfuel : sqrtFuel = 197 + 2 + 1 := rfl
  rcases Nat.eq_zero_or_pos n with h0 | hpos
  · subst h0
    exact ⟨0, by decide, .inl (by simp)⟩
  have h1 := Nat.sqrt_le n
  have h2 := Nat.lt_succ_sqrt n
  simp only [Nat.succ_eq_add_one] at h2
  generalize Nat.sqrt n = s at *
  have hlog1 : 2 ^ (Nat.log2 n) ≤ n := Nat.log2_self_le (by omega)
  have hlog2 : n < 2 ^ (Nat.log2 n + 1) := Nat.lt_log2_self
  have hbl : bitLen n = Nat.log2 n + 1 := by unfold bitLen; rw [if_neg (by omega)]
  rw [hbl]
  generalize Nat.log2 n = L at *
  set k := (L + 1) / 2 with hk
  have hkL : k ≤ L ∨ L = 0 := by omega
  have hy1 : 1 ≤ n / 2 ^ k := by
    rw [Nat.le_div_iff_mul_le (by positivity), one_mul]
    calc 2 ^ k ≤ 2 ^ L := Nat.pow_le_pow_right (by norm_num) (by omega)
      _ ≤ n := hlog1
  by_cases hsmall : n / 2 ^ k < 2
  · -- n < 4
    have hy : n / 2 ^ k = 1 := by omega
    have hlt : n < 2 * 2 ^ k := by
      rw [Nat.div_lt_iff_lt_mul (by positivity)] at hsmall; exact hsmall
    have : 2 ^ L < 2 ^ (k + 1) := by rw [pow_succ]; omega
    have hLk : L < k + 1 := (Nat.pow_lt_pow_iff_right (by norm_num)).1 this
    have hL : L ≤ 1 := by omega
    have hn4 : n < 4 := by
      calc n < 2 ^ (L + 1) := hlog2
        _ ≤ 2 ^ 2 := Nat.pow_le_pow_right (by norm_num) (by omega)
    rw [hy, hfuel, sqrtLoop_stop (by omega)]
    refine ⟨1, rfl, .inl ?_⟩
    have : s < 2 := by by_contra h; have : 2 * 2 ≤ s * s := Nat.mul_le_mul (by omega) (by omega); omega
    have : s ≠ 0 := by rintro rfl; simp at h2; omega
    omega
  · push Not at hsmall
    have hyn : n / 2 ^ k ≤ n / 2 + 2 := by
      rcases Nat.eq_zero_or_pos k with hk0 | hk0
      · have : L = 0 := by omega
        subst this
        rw [hk0]
        simp at hlog2 ⊢
        omega
      · have : n / 2 ^ k ≤ n / 2 ^ 1 := Nat.div_le_div_left (Nat.pow_le_pow_right (by norm_num) hk0) (by norm_num)
        simp at this; omega
    rw [hfuel]
    rw [sqrtLoop_step hn (by omega) hyn (by omega) (.inl hsmall)]
    set y := n / 2 ^ k with hydef
    have hge := newton_ge h1 (show 1 ≤ y by omega)
    have hs1 : 1 ≤ s := by
      by_contra h
      have : s = 0 := by omega
      subst this
      simp at h2; omega
    have hfits := newton_fits hn hsmall hyn
    refine sqrtLoop_from hn hpos h1 h2 197 _ _ hge (by omega) hfits.2 ?_ ?_ ?_
    · rcases Nat.lt_or_ge ((y + n / y) / 2) 2 with hl | hl
      · right
        have : (y + n / y) / 2 = 1 := by omega
        rw [this]
        have : s = 1 := by omega
        subst this
        have : u128Size = 2 ^ 128 := rfl
        omega
      · exact .inl hl
    · have e1 : (y + n / y) / 2 < u128Size := by omega
      have e2 : u128Size < 2 ^ 197 := by decide
      omega
    · intro hc'
      exact newton_stop h1 h2 (by omega) hpos (by omega) (by omega)

end Hmm.Decimal

namespace Hmm.Decimal

theorem fromInt_toScale {k s : Nat} (hs : s ≤ 38) (hk : k * 10 ^ s < u128Size) :
    (fromInt k).toScale s = .ok ⟨k * 10 ^ s, s, false⟩ := by
  rw [toScale_ok]
  right
  exact ⟨Nat.zero_le _, pow10_lt_iff.2 (by simpa [fromInt] using hs), by simpa [fromInt] using hk, by simp [fromInt]⟩

theorem eq_scale {a b : Decimal} (h : a.scale = b.scale) :
    a.eq b = .ok (a.value == b.value && a.negative == b.negative) := by
  unfold Decimal.eq; simp [h]

/-- `sqrt` with its tests as propositions. -/
theorem sqrt_cases {d : Decimal} (hs : d.scale ≤ 38) : d.sqrt =
    if d.negative = false ∧ (d.value = 0 ∨ d.value = 10 ^ d.scale) then .ok d
    else if u128Size ≤ d.value * 10 ^ d.scale then .error (.code .exceedsPrecisionRange)
    else match sqrtLoop (d.value * 10 ^ d.scale) sqrtFuel
        (d.value * 10 ^ d.scale / 2 ^ (bitLen (d.value * 10 ^ d.scale) / 2)) 0 with
      | none => .error .diverge
      | some r => r >>= fun y => pure ⟨y, d.scale, d.negative⟩ := by
  have hone := fromInt_toScale (k := 1) hs (by simpa using pow10_lt_iff.2 hs)
  have hz := eq_scale (a := d) (b := new 0 d.scale false) rfl
  have ho := eq_scale (a := d) (b := ⟨1 * 10 ^ d.scale, d.scale, false⟩) rfl
  unfold sqrt denominator
  simp only [hone, hz, ho, unwrap, bind, Except.bind, pure, Except.pure, pow10_le hs]
  have hcond : ((d.value == (new 0 d.scale false).value && d.negative == (new 0 d.scale false).negative ||
      d.value == 1 * 10 ^ d.scale && d.negative == false) = true) ↔
      d.negative = false ∧ (d.value = 0 ∨ d.value = 10 ^ d.scale) := by
    simp [new]; tauto
  by_cases hc : d.negative = false ∧ (d.value = 0 ∨ d.value = 10 ^ d.scale)
  · rw [if_pos (hcond.2 hc), if_pos hc]
  · rw [if_neg (fun h => hc (hcond.1 h)), if_neg hc]
    by_cases ho : u128Size ≤ d.value * 10 ^ d.scale
    · rw [if_pos ho, if_pos ho]; rfl
    · rw [if_neg ho, if_neg ho]
      cases sqrtLoop (d.value * 10 ^ d.scale) sqrtFuel
        (d.value * 10 ^ d.scale / 2 ^ (bitLen (d.value * 10 ^ d.scale) / 2)) 0 <;> rfl

/-- Every square root in range returns a good root with the operand's sign. -/
theorem sqrt_in_range {d : Decimal} (hs : d.scale ≤ 38) (hr : d.value * 10 ^ d.scale < u128Size) :
    ∃ r, d.sqrt = .ok ⟨r, d.scale, d.negative⟩ ∧
      SqrtGood (d.value * 10 ^ d.scale) (Nat.sqrt (d.value * 10 ^ d.scale)) r := by
  rw [sqrt_cases hs]
  split
  · rename_i h
    refine ⟨d.value, rfl, .inl ?_⟩
    rcases h.2 with h | h
    · simp [h]
    · rw [h, Nat.sqrt_eq]
  · rw [if_neg (by omega)]
    obtain ⟨r, h1, h2⟩ := sqrtLoop_start hr
    rw [h1]
    exact ⟨r, rfl, h2⟩

end Hmm.Decimal
