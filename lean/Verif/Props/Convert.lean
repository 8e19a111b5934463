import Verif.Proofs.LnFloat

/-
C99: decimals converted to machine numbers.
-/

namespace Hmm.Decimal

open F64

section
attribute [local irreducible] F64.unit F64.limit

theorem toF64_eq {d : Decimal} (hs : d.scale ≤ 38) : d.toF64 = .ok (F64.div (ofNat d.value) (ofNat (10 ^ d.scale))) := by
  unfold toF64 denominator pow10
  have e : u128 (10 ^ d.scale) = .ok (10 ^ d.scale) :=
    u128_ok.2 ⟨lt_of_le_of_lt (Nat.pow_le_pow_right (by norm_num) hs) u128_big, rfl⟩
  rw [e, PoolMath.bind_eq]
  rfl

/-- C99, conversion to `f64`, the part that holds: a decimal that is not negative becomes a double within three roundings of
it, and zero becomes zero.  Missing: the sign (`C99_sign_lost`). -/
theorem C99_f64_partial {d : Decimal} (hw : d.WF) (hn : d.negative = false) (hs : d.scale ≤ 38) :
    ∃ x, d.toF64 = .ok x ∧ x.Rep ∧ x.Within d.toRat 3 := by
  refine ⟨_, toF64_eq hs, div_rep _ _, ?_⟩
  have hpow : 10 ^ d.scale < 2 ^ 200 := lt_of_le_of_lt (Nat.pow_le_pow_right (by norm_num) hs) (by norm_num)
  have hvu : d.value < 2 ^ 200 := lt_trans hw.1 (by unfold u128Size; norm_num)
  have nt := ofNat_near (pow10_pos d.scale) hpow
  have hr : d.toRat = (d.value : ℚ) / ((10 ^ d.scale : ℕ) : ℚ) := by
    rw [toRat_of_nonneg hn]; unfold mag; push_cast; rfl
  rw [hr]
  have hp : (0 : ℚ) < ((10 ^ d.scale : ℕ) : ℚ) := by exact_mod_cast pow10_pos d.scale
  rcases Nat.eq_zero_or_pos d.value with h0 | h0
  · rw [h0]
    have z : Near 0 (ofNat 0) ((0 : ℕ) : ℚ) := near_is (Flt.ofNat_is (by norm_num)) (by norm_num)
    have := Near.div z nt hp (e := 200) (.inl (by simp)) (by norm_num) (by norm_num)
    exact (this.mono (by norm_num : _ ≤ 3)).within (by norm_num)
  · have nv := ofNat_near h0 hvu
    have sz : Sized 200 ((d.value : ℚ) / ((10 ^ d.scale : ℕ) : ℚ)) := by
      have a : (1 : ℚ) ≤ d.value := by exact_mod_cast h0
      have b : (d.value : ℚ) ≤ 2 ^ 200 := by exact_mod_cast hvu.le
      have c : ((10 ^ d.scale : ℕ) : ℚ) ≤ 2 ^ 200 := by exact_mod_cast hpow.le
      have e : (1 : ℚ) ≤ ((10 ^ d.scale : ℕ) : ℚ) := by exact_mod_cast pow10_pos d.scale
      constructor
      · exact div_le_div₀ (by positivity) a hp c
      · rw [div_le_iff₀ hp]
        calc (d.value : ℚ) ≤ 2 ^ 200 * 1 := by rw [mul_one]; exact b
          _ ≤ _ := mul_le_mul_of_nonneg_left e (by positivity)
    exact (Near.div nv nt hp (.inr sz) (by norm_num) (by norm_num)).within (by norm_num)

/-- C99, conversion to `f64`: at most 53 significant binary digits and fifteen places give the nearest double. -/
theorem C99_f64_nearest {d : Decimal} (hn : d.negative = false) (hv : d.value ≤ 2 ^ 53) (hs : d.scale ≤ 15) :
    ∃ x r, d.toF64 = .ok x ∧ x.Is r ∧ Nearest d.toRat r := by
  have hp : 10 ^ d.scale ≤ 2 ^ 53 := (Nat.pow_le_pow_right (by norm_num) hs).trans (by norm_num)
  have hR := div_rounded (Flt.ofNat_is hv) (Flt.ofNat_is hp) (by exact_mod_cast (pow10_pos d.scale).ne')
  have hr : d.toRat = (d.value : ℚ) / ((10 ^ d.scale : ℕ) : ℚ) := by
    rw [toRat_of_nonneg hn]; unfold mag; push_cast; rfl
  obtain ⟨r, hr'⟩ := Flt.rounded_finite hR (by
    have e : (1 : ℚ) ≤ ((10 ^ d.scale : ℕ) : ℚ) := by exact_mod_cast pow10_pos d.scale
    rw [abs_of_nonneg (by positivity), div_le_iff₀ (by linarith)]
    have a : (d.value : ℚ) ≤ 2 ^ 53 := by exact_mod_cast hv
    have b : (2 : ℚ) ^ 53 ≤ 2 ^ 1000 := pow_le_pow_right₀ (by norm_num) (by norm_num)
    calc (d.value : ℚ) ≤ 2 ^ 1000 * 1 := by rw [mul_one]; exact a.trans b
      _ ≤ _ := mul_le_mul_of_nonneg_left e (by positivity))
  refine ⟨_, r, toF64_eq (hs.trans (by norm_num)), hr', ?_⟩
  rw [hr]
  exact hR.nearest hr'

/-- C99, conversion to `f64` keeps the order of decimals at one scale. -/
theorem C99_f64_mono {a b : Decimal} (ha : a.WF) (hb : b.WF) (hna : a.negative = false) (hnb : b.negative = false)
    (hsc : a.scale = b.scale) (hs : a.scale ≤ 38) (h : a.toRat ≤ b.toRat) :
    ∃ x y p q, a.toF64 = .ok x ∧ b.toF64 = .ok y ∧ x.Is p ∧ y.Is q ∧ p ≤ q := by
  obtain ⟨x, ex, _, p, hp, _⟩ := C99_f64_partial ha hna hs
  obtain ⟨y, ey, _, q, hq, _⟩ := C99_f64_partial hb hnb (hsc ▸ hs)
  refine ⟨x, y, p, q, ex, ey, hp, hq, ?_⟩
  rw [toF64_eq hs] at ex
  rw [toF64_eq (hsc ▸ hs)] at ey
  cases ex
  cases ey
  rw [← hsc] at hq
  have hvv : a.value ≤ b.value := by
    rw [toRat_of_nonneg hna, toRat_of_nonneg hnb] at h
    unfold mag at h
    rw [hsc] at h
    have := (div_le_div_iff_of_pos_right (show (0 : ℚ) < 10 ^ b.scale by positivity)).1 h
    exact_mod_cast this
  have rounded : ∀ n : ℕ, Rounded (n : ℚ) (ofNat n) := by
    intro n
    refine ⟨false, n * unit, 1, one_pos, rfl, ?_⟩
    rw [signed_whole]
    have hu := unitQ_ne
    simp only [signed, Bool.false_eq_true, if_false]
    push_cast
    rw [div_one, mul_div_assoc, div_self hu, mul_one]
  have fin : ∀ n : ℕ, n < u128Size → ∃ r, (ofNat n).Is r := fun n hn => by
    apply Flt.rounded_finite (rounded n)
    rw [abs_of_nonneg (by positivity)]
    have a : (n : ℚ) ≤ 2 ^ 128 := by exact_mod_cast hn.le
    exact a.trans (pow_le_pow_right₀ (by norm_num) (by norm_num))
  obtain ⟨u, hu⟩ := fin a.value ha.1
  obtain ⟨w, hw⟩ := fin b.value hb.1
  have huw : u ≤ w := (rounded a.value).mono (rounded b.value) hu hw (by exact_mod_cast hvv)
  have nt := ofNat_near (pow10_pos a.scale) (lt_of_le_of_lt (Nat.pow_le_pow_right (by norm_num) hs) (by norm_num))
  obtain ⟨t, ht, t0, _, _⟩ := nt.pos (by exact_mod_cast pow10_pos a.scale)
  exact (div_rounded hu ht t0.ne').mono (div_rounded hw ht t0.ne') hp hq (div_le_div_of_nonneg_right huw t0.le)

end

/-- C99 is false of negative decimals: the sign is dropped. -/
theorem C99_sign_lost (v s : ℕ) : (Decimal.mk v s true).toF64 = (Decimal.mk v s false).toF64 := rfl

/-- C99 is false of the code: -1.5 becomes 1.5. -/
theorem C99_false : ¬ ∀ (d : Decimal) (x : F64), d.WF → d.toF64 = .ok x → x.Within d.toRat 3 := by
  intro h
  obtain ⟨r, hr, he⟩ := h ⟨15, 1, true⟩ (F64.fin false (3 * 2 ^ 1073)) (by decide) (by decide +kernel)
  obtain ⟨s, n, e, e'⟩ := hr
  cases e
  have : r = 3 / 2 := by
    rw [e']
    have : (F64.unit : ℚ) = 2 ^ 1074 := unit_mul_pow
    rw [this]
    simp only [signed, Bool.false_eq_true, if_false]
    push_cast
    rw [div_eq_div_iff (by positivity) (by norm_num), pow_succ (2 : ℚ) 1073]
    ring
  rw [this, toRat_mk_neg] at he
  norm_num [abs_of_pos, abs_of_neg] at he

/-- C99, conversion to `i32`, exactly: the low 32 bits of the digits, whatever the scale, negated if the decimal is negative;
it panics only for the one negative number out of range. -/
theorem C99_i32 (d : Decimal) :
    (∀ r, d.toI32 = .ok r → -2 ^ 31 ≤ r ∧ r < 2 ^ 31 ∧ (2 : ℤ) ^ 32 ∣ r - (if d.negative then -(d.value : ℤ) else d.value)) ∧
    (∀ e, d.toI32 = .error e → e = .panic ∧ d.negative = true ∧ d.value % 2 ^ 32 = 2 ^ 31) := by
  obtain ⟨w, hw⟩ : ∃ w, w = lowI32 d.value := ⟨_, rfl⟩
  have hw1 : -2 ^ 31 ≤ w ∧ w < 2 ^ 31 ∧ (2 : ℤ) ^ 32 ∣ w - d.value ∧ (w = -2 ^ 31 → d.value % 2 ^ 32 = 2 ^ 31) := by
    have hm := Nat.mod_lt d.value (show 0 < 2 ^ 32 by norm_num)
    rw [hw]
    unfold lowI32
    dsimp only
    by_cases h : d.value % 2 ^ 32 < 2 ^ 31
    · rw [if_pos h]; omega
    · rw [if_neg h]; omega
  unfold toI32
  dsimp only
  rw [← hw]
  by_cases hn : d.negative = true
  · rw [if_pos hn, if_pos hn, mul_neg_one]
    by_cases h : -2 ^ 31 ≤ -w ∧ -w < 2 ^ 31
    · rw [if_pos h]
      refine ⟨fun r hr => ?_, fun e he => by cases he⟩
      cases hr
      exact ⟨h.1, h.2, by obtain ⟨z, hz⟩ := hw1.2.2.1; exact ⟨-z, by rw [mul_neg, ← hz]; ring⟩⟩
    · rw [if_neg h]
      refine ⟨fun r hr => (by cases hr), fun e he => ?_⟩
      cases he
      exact ⟨rfl, hn, hw1.2.2.2 (by omega)⟩
  · rw [if_neg hn, if_neg hn, mul_one, if_pos ⟨hw1.1, hw1.2.1⟩]
    refine ⟨fun r hr => ?_, fun e he => by cases he⟩
    cases hr
    exact ⟨hw1.1, hw1.2.1, hw1.2.2.1⟩

/-- C99: whole numbers in range keep their value as an `i32`. -/
theorem C99_i32_whole {d : Decimal} (hs : d.scale = 0) (hv : d.value < 2 ^ 31) : ∃ r : ℤ, d.toI32 = .ok r ∧ (r : ℚ) = d.toRat := by
  obtain ⟨v, s, n⟩ := d
  simp only at hs hv
  subst hs
  have hl : lowI32 v = v := by
    unfold lowI32
    dsimp only
    rw [Nat.mod_eq_of_lt (by omega), if_pos hv]
  cases n
  · refine ⟨v, ?_, by rw [toRat_mk]; simp⟩
    unfold toI32
    dsimp only
    rw [hl, if_neg (show ¬ false = true by simp), mul_one, if_pos (by omega)]
  · refine ⟨-v, ?_, by rw [toRat_mk_neg]; simp⟩
    unfold toI32
    dsimp only
    rw [hl, if_pos rfl, mul_neg_one, if_pos (by omega)]

/-- C99, conversion to `i32` is wrong elsewhere: 4294967301 becomes 5, 2147483648 becomes -2147483648, 1.5 becomes 15, and
-2147483648, which is an `i32`, panics. -/
theorem C99_i32_false : (Decimal.mk 4294967301 0 false).toI32 = .ok 5 ∧ (Decimal.mk 2147483648 0 false).toI32 = .ok (-2147483648) ∧
    (Decimal.mk 15 1 false).toI32 = .ok 15 ∧ (Decimal.mk 2147483648 0 true).toI32 = .error .panic := by
  decide +kernel

/-- C99, a case: 12.25 is converted exactly. -/
theorem C99_case : (Decimal.mk 1225 2 false).toF64 = .ok (F64.fin false (49 * 2 ^ 1072)) ∧
    (Decimal.mk 17 0 true).toI32 = .ok (-17) := by
  decide +kernel

end Hmm.Decimal
