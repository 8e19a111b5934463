import Verif.Proofs.Rounding

/-
Properties of decimal arithmetic: C01-C06, C17-C20.
-/

namespace Hmm

open Decimal

/-! ### C01 Addition and subtraction are exact -/

/-- C01: a sum that is returned is the exact sum, at the common scale; the result is negative zero
only for two negative zeros. -/
theorem C01_add_exact {a b c : Decimal} (h : a.add b = .ok c) :
    a.scale = b.scale ∧ c.scale = a.scale ∧ c.toRat = a.toRat + b.toRat ∧
    (c.isNegZero → a.isNegZero ∧ b.isNegZero) := by
  obtain ⟨h1, _, h3, h4, h5⟩ := add_ok.1 h
  refine ⟨h1, h3, ?_, ?_⟩
  · rw [sval_toRat, sval_toRat, sval_toRat, h3, h4, ← h1]
    push_cast; ring
  · rintro ⟨hn, hv⟩
    have hab := h5 hv
    rw [hn] at hab
    have : a.negative = true ∧ b.negative = true := by simpa using hab.symm
    simp only [sval, this.1, this.2, hv, hn] at h4
    simp at h4
    exact ⟨⟨this.1, by omega⟩, ⟨this.2, by omega⟩⟩

/-- C01: exactly when and how a sum is not returned. -/
theorem C01_add_fails (a b : Decimal) (e : Err) : a.add b = .error e ↔
    (a.scale ≠ b.scale ∧ e = .code .differentScale) ∨
    (a.scale = b.scale ∧ a.negative = b.negative ∧ 2 ^ 128 ≤ a.value + b.value ∧ e = .panic) :=
  add_error

/-- C01: a returned difference is the exact difference. -/
theorem C01_sub_exact {a b c : Decimal} (h : a.sub b = .ok c) :
    a.scale = b.scale ∧ c.scale = a.scale ∧ c.toRat = a.toRat - b.toRat := by
  obtain ⟨h1, _, h3, h4, _⟩ := sub_ok.1 h
  refine ⟨h1, h3, ?_⟩
  rw [sval_toRat, sval_toRat, sval_toRat, h3, h4, ← h1]
  push_cast; ring

/-- C01: exactly when and how a difference is not returned. -/
theorem C01_sub_fails (a b : Decimal) (e : Err) : a.sub b = .error e ↔
    (a.scale ≠ b.scale ∧ e = .code .differentScale) ∨
    (a.scale = b.scale ∧ a.negative ≠ b.negative ∧ 2 ^ 128 ≤ a.value + b.value ∧ e = .panic) := by
  unfold sub
  rw [add_error]
  have : (a.negative = !b.negative) ↔ a.negative ≠ b.negative := by
    cases a.negative <;> cases b.negative <;> simp
  simp only [this, u128Size]

-- 5.00 + (-7.25) = -2.25, and the two ways to fail
example : (Decimal.mk 500 2 false).add ⟨725, 2, true⟩ = .ok ⟨225, 2, true⟩ := by decide
example : (Decimal.mk 500 2 false).sub ⟨725, 3, true⟩ = .error (.code .differentScale) := by decide
example : (Decimal.mk (2 ^ 128 - 1) 2 true).add ⟨1, 2, true⟩ = .error .panic := by decide

/-! ### C02 Multiplication truncates toward zero and never wraps -/

/-- C02: the returned product. -/
theorem C02_mul {a b c : Decimal} (h : a.mul b = .ok c) :
    c.scale = a.scale ∧ c.negative = (a.negative ^^ b.negative) ∧
    c.mag = floorAt a.scale (a.mag * b.mag) ∧
    c.mag ≤ |a.toRat * b.toRat| ∧ |a.toRat * b.toRat| < c.mag + ulp a.scale := by
  obtain ⟨h1, h2, h3⟩ := mul_mag h
  refine ⟨h1, h2, h3, ?_, ?_⟩ <;> rw [abs_mul, abs_toRat, abs_toRat, h3]
  · exact floorAt_le (mul_nonneg (mag_nonneg a) (mag_nonneg b))
  · exact lt_floorAt_add

/-- C02: exactly when the product panics; it never fails otherwise. -/
theorem C02_mul_fails (a b : Decimal) (e : Err) : a.mul b = .error e ↔
    e = .panic ∧ (2 ^ 128 ≤ a.value * b.value ∨ 38 < b.scale) := by
  rw [mul_error]
  have : u128Size ≤ 10 ^ b.scale ↔ 38 < b.scale := by
    rw [← not_lt, pow10_lt_iff]; omega
  rw [this]; rfl

-- -1.99 * 0.5 = -0.99 (truncated from -0.995)
example : (Decimal.mk 199 2 true).mul ⟨5, 1, false⟩ = .ok ⟨99, 2, true⟩ := by decide
example : (Decimal.mk (2 ^ 64) 2 true).mul ⟨2 ^ 64, 1, false⟩ = .error .panic := by decide

/-! ### C03 Division truncates toward zero and never wraps -/

/-- C03: the returned quotient; a zero divisor never gets here. -/
theorem C03_div {a b c : Decimal} (h : a.div b = .ok c) :
    b.toRat ≠ 0 ∧ c.scale = a.scale ∧ c.negative = (a.negative ^^ b.negative) ∧
    c.mag = floorAt a.scale (a.mag / b.mag) ∧
    c.mag ≤ |a.toRat / b.toRat| ∧ |a.toRat / b.toRat| < c.mag + ulp a.scale := by
  obtain ⟨h0, h1, h2, h3⟩ := div_mag h
  refine ⟨fun h => h0 (toRat_eq_zero.1 h), h1, h2, h3, ?_, ?_⟩ <;>
    rw [abs_div, abs_toRat, abs_toRat, h3]
  · exact floorAt_le (div_nonneg (mag_nonneg a) (mag_nonneg b))
  · exact lt_floorAt_add

/-- C03: exactly when the quotient panics; it never fails otherwise. -/
theorem C03_div_fails (a b : Decimal) (e : Err) : a.div b = .error e ↔
    e = .panic ∧ (b.toRat = 0 ∨ 2 ^ 128 ≤ a.value * 10 ^ b.scale ∨ 38 < b.scale) := by
  rw [div_error, toRat_eq_zero]
  have : u128Size ≤ 10 ^ b.scale ↔ 38 < b.scale := by
    rw [← not_lt, pow10_lt_iff]; omega
  rw [this]; rfl

-- -2.00 / 0.3 = -6.66
example : (Decimal.mk 200 2 true).div ⟨3, 1, false⟩ = .ok ⟨666, 2, true⟩ := by decide
example : (Decimal.mk 200 2 true).div ⟨0, 1, false⟩ = .error .panic := by decide

/-! ### C04 Round-up variants bracket the exact result -/

/-- C04: rounding-up product: the exact result rounded up; with the rounding-down product it brackets
the exact result within one unit in the last place. -/
theorem C04_mul_bracket {a b lo hi : Decimal} (hlo : a.mul b = .ok lo) (hhi : a.mulUp b = .ok hi) :
    hi.scale = a.scale ∧ hi.negative = lo.negative ∧
    hi.mag = ceilAt a.scale (a.mag * b.mag) ∧
    lo.mag ≤ |a.toRat * b.toRat| ∧ |a.toRat * b.toRat| ≤ hi.mag ∧
    (hi.value = lo.value ∨ hi.value = lo.value + 1) := by
  obtain ⟨h1, h2, h3⟩ := mul_mag hlo
  obtain ⟨g1, g2, g3⟩ := mulUp_mag hhi
  refine ⟨g1, g2.trans h2.symm, g3, ?_, ?_, ?_⟩
  · rw [abs_mul, abs_toRat, abs_toRat, h3]
    exact floorAt_le (mul_nonneg (mag_nonneg a) (mag_nonneg b))
  · rw [abs_mul, abs_toRat, abs_toRat, g3]
    exact le_ceilAt
  · obtain ⟨_, _, rfl⟩ := mul_ok.1 hlo
    obtain ⟨_, _, rfl⟩ := mulUp_ok.1 hhi
    have hp := pow10_pos b.scale
    simp only
    generalize a.value * b.value = n
    generalize 10 ^ b.scale = m at *
    have e1 : (n + (m - 1)) / m ≤ n / m + 1 := by
      rw [← Nat.add_div_right n hp]; exact Nat.div_le_div_right (by omega)
    have e2 : n / m ≤ (n + (m - 1)) / m := Nat.div_le_div_right (by omega)
    omega

/-- C04: rounding-up quotient. -/
theorem C04_div_bracket {a b lo hi : Decimal} (hlo : a.div b = .ok lo) (hhi : a.divUp b = .ok hi) :
    hi.scale = a.scale ∧ hi.negative = lo.negative ∧
    hi.mag = ceilAt a.scale (a.mag / b.mag) ∧
    lo.mag ≤ |a.toRat / b.toRat| ∧ |a.toRat / b.toRat| ≤ hi.mag ∧
    (hi.value = lo.value ∨ hi.value = lo.value + 1) := by
  obtain ⟨_, h1, h2, h3⟩ := div_mag hlo
  obtain ⟨_, g1, g2, g3⟩ := divUp_mag hhi
  refine ⟨g1, g2.trans h2.symm, g3, ?_, ?_, ?_⟩
  · rw [abs_div, abs_toRat, abs_toRat, h3]
    exact floorAt_le (div_nonneg (mag_nonneg a) (mag_nonneg b))
  · rw [abs_div, abs_toRat, abs_toRat, g3]
    exact le_ceilAt
  · obtain ⟨_, _, _, rfl⟩ := div_ok.1 hlo
    obtain ⟨_, _, h0, rfl⟩ := divUp_ok.1 hhi
    have hp : 0 < b.value := by omega
    simp only
    generalize a.value * 10 ^ b.scale = n
    generalize b.value = m at *
    have e1 : (n + (m - 1)) / m ≤ n / m + 1 := by
      rw [← Nat.add_div_right n hp]; exact Nat.div_le_div_right (by omega)
    have e2 : n / m ≤ (n + (m - 1)) / m := Nat.div_le_div_right (by omega)
    omega

/-- C04: the rounding-up variants return whenever there is head-room of one more divisor, so the
bracket is not about a vanishing domain. -/
theorem C04_up_returns (a b : Decimal) (hs : b.scale ≤ 38) :
    (a.value * b.value + 10 ^ b.scale ≤ 2 ^ 128 → ∃ c, a.mulUp b = .ok c) ∧
    (b.value ≠ 0 → a.value * 10 ^ b.scale + b.value ≤ 2 ^ 128 → ∃ c, a.divUp b = .ok c) := by
  have hp := pow10_lt_iff.2 hs
  have h1 := pow10_pos b.scale
  refine ⟨fun h => ⟨_, mulUp_ok.2 ⟨?_, hp, rfl⟩⟩, fun h0 h => ⟨_, divUp_ok.2 ⟨?_, hp, h0, rfl⟩⟩⟩
  · unfold u128Size; omega
  · unfold u128Size; omega

example : (Decimal.mk 199 2 true).mulUp ⟨5, 1, false⟩ = .ok ⟨100, 2, true⟩ := by decide
example : (Decimal.mk 200 2 true).divUp ⟨3, 1, false⟩ = .ok ⟨667, 2, true⟩ := by decide

/-! ### C05 Multiply/divide round trips never create value -/

/-- C05: `(a*b)/b ≤ a`. -/
theorem C05_mul_div {a b p q : Decimal} (ha : 0 ≤ a.toRat) (hb : 0 < b.toRat)
    (h1 : a.mul b = .ok p) (h2 : p.div b = .ok q) : q.toRat ≤ a.toRat := by
  obtain ⟨_, _, _, hq⟩ := div_mag h2
  have hbm : 0 < b.mag := by rw [← abs_toRat, abs_of_pos hb]; exact hb
  have ham : a.toRat = a.mag := by rw [← abs_toRat, abs_of_nonneg ha]
  calc q.toRat ≤ q.mag := by rw [← abs_toRat]; exact le_abs_self _
    _ ≤ p.mag / b.mag := by rw [hq]; exact floorAt_le (div_nonneg (mag_nonneg p) hbm.le)
    _ ≤ a.mag * b.mag / b.mag := by
        apply div_le_div_of_nonneg_right _ hbm.le
        rw [(mul_mag h1).2.2]; exact floorAt_le (mul_nonneg (mag_nonneg a) hbm.le)
    _ = a.toRat := by rw [ham]; field_simp

/-- C05: `(a/b)*b ≤ a`. -/
theorem C05_div_mul {a b p q : Decimal} (ha : 0 ≤ a.toRat) (hb : 0 < b.toRat)
    (h1 : a.div b = .ok p) (h2 : p.mul b = .ok q) : q.toRat ≤ a.toRat := by
  have hbm : 0 < b.mag := by rw [← abs_toRat, abs_of_pos hb]; exact hb
  have ham : a.toRat = a.mag := by rw [← abs_toRat, abs_of_nonneg ha]
  calc q.toRat ≤ q.mag := by rw [← abs_toRat]; exact le_abs_self _
    _ ≤ p.mag * b.mag := by
        rw [(mul_mag h2).2.2]; exact floorAt_le (mul_nonneg (mag_nonneg p) hbm.le)
    _ ≤ a.mag / b.mag * b.mag := by
        apply mul_le_mul_of_nonneg_right _ hbm.le
        rw [(div_mag h1).2.2.2]; exact floorAt_le (div_nonneg (mag_nonneg a) hbm.le)
    _ = a.toRat := by rw [ham]; field_simp

-- 1.00 / 3 = 0.33, times 3 = 0.99
example : (Decimal.mk 100 2 false).div ⟨3, 0, false⟩ = .ok ⟨33, 2, false⟩ ∧
    (Decimal.mk 33 2 false).mul ⟨3, 0, false⟩ = .ok ⟨99, 2, false⟩ := by decide
-- 0.05 * 0.5 = 0.02, divided by 0.5 = 0.04
example : (Decimal.mk 5 2 false).mul ⟨5, 1, false⟩ = .ok ⟨2, 2, false⟩ ∧
    (Decimal.mk 2 2 false).div ⟨5, 1, false⟩ = .ok ⟨4, 2, false⟩ := by decide

/-! ### C06 Rescaling is lossless upward and truncating downward -/

/-- C06: rescaling upward keeps the represented number and the sign bit, and panics exactly on overflow. -/
theorem C06_up {d : Decimal} {s : Nat} (hs : d.scale ≤ s) :
    (∀ c, d.toScale s = .ok c → c.scale = s ∧ c.negative = d.negative ∧ c.toRat = d.toRat) ∧
    (∀ e, d.toScale s = .error e ↔
      e = .panic ∧ (38 < s - d.scale ∨ 2 ^ 128 ≤ d.value * 10 ^ (s - d.scale))) := by
  constructor
  · intro c h
    obtain ⟨h1, h2, h3⟩ := toScale_up_mag hs h
    exact ⟨h1, h2, toRat_of_mag h2 h3⟩
  · intro e
    rw [toScale_error]
    have : u128Size ≤ 10 ^ (s - d.scale) ↔ 38 < s - d.scale := by
      rw [← not_lt, pow10_lt_iff]; omega
    rw [this]
    simp only [not_lt.2 hs, false_and, false_or, hs, true_and]
    rfl

/-- C06: rescaling downward truncates toward zero and panics only when more than 38 digits are dropped. -/
theorem C06_down {d : Decimal} {s : Nat} (hs : s < d.scale) :
    (∀ c, d.toScale s = .ok c →
      c.scale = s ∧ c.negative = d.negative ∧ c.mag = floorAt s d.mag) ∧
    (∀ e, d.toScale s = .error e ↔ e = .panic ∧ 38 < d.scale - s) := by
  constructor
  · intro c h
    exact toScale_down_mag hs h
  · intro e
    rw [toScale_error]
    have : u128Size ≤ 10 ^ (d.scale - s) ↔ 38 < d.scale - s := by
      rw [← not_lt, pow10_lt_iff]; omega
    rw [this]
    have : ¬ d.scale ≤ s := by omega
    simp only [hs, true_and, this, false_and, or_false]

/-- C06: going up and back down is the identity. -/
theorem C06_up_down {d c : Decimal} {s : Nat} (hs : d.scale ≤ s) (h : d.toScale s = .ok c) :
    c.toScale d.scale = .ok d := by
  rcases toScale_ok.1 h with ⟨h1, _⟩ | ⟨_, h1, h2, rfl⟩
  · omega
  · rw [toScale_ok]
    rcases Nat.eq_or_lt_of_le hs with he | hlt
    · right
      subst he
      simp only [Nat.sub_self, pow_zero, mul_one, le_refl, true_and] at h1 h2 ⊢
      exact ⟨h1, h2, trivial⟩
    · left
      exact ⟨hlt, h1, by simp [Nat.mul_div_cancel _ (pow10_pos _)]⟩

/-- C06: going down in two steps is going down in one (when the one step drops at most 38 digits:
beyond that the single step panics, `C06_down`). -/
theorem C06_down_down {d c e : Decimal} {s t : Nat} (hs : s < d.scale) (ht : t < s)
    (hd : d.scale - t ≤ 38) (h1 : d.toScale s = .ok c) (h2 : c.toScale t = .ok e) :
    d.toScale t = .ok e := by
  rcases toScale_ok.1 h1 with ⟨_, _, rfl⟩ | ⟨h, _⟩
  swap; · omega
  rcases toScale_ok.1 h2 with ⟨_, _, rfl⟩ | ⟨h, _⟩
  swap; · simp at h; omega
  rw [toScale_ok]
  left
  refine ⟨by omega, pow10_lt_iff.2 hd, ?_⟩
  simp only [Nat.div_div_eq_div_mul, ← pow_add]
  congr 3
  omega

example : (Decimal.mk 1239 3 true).toScale 5 = .ok ⟨123900, 5, true⟩ ∧
    (Decimal.mk 1239 3 true).toScale 1 = .ok ⟨12, 1, true⟩ ∧
    (Decimal.mk 12 1 true).toScale 0 = .ok ⟨1, 0, true⟩ ∧
    (Decimal.mk 1239 3 true).toScale 0 = .ok ⟨1, 0, true⟩ ∧
    (Decimal.mk 1239 3 true).toScale 42 = .error .panic := by decide

/-! ### C07 Rounding-up rescale keeps the sign: false, the sign of negatives is lost -/

/-- C07 is false of the code: -1.5 rescaled with rounding up to scale 0 is +2, not -2. -/
theorem C07_false : ¬ ∀ (d c : Decimal) (s : Nat), d.toScaleUp s = .ok c → c.negative = d.negative := by
  intro h
  exact absurd (h ⟨15, 1, true⟩ ⟨2, 0, false⟩ 0 (by decide)) (by decide)

theorem toScaleUp_mag {d c : Decimal} {s : Nat} (h : d.toScaleUp s = .ok c) :
    c.scale = s ∧ c.negative = false ∧ c.mag = ceilAt s d.mag := by
  unfold toScaleUp new at h
  rw [ite_ok] at h
  steps at h
  rcases h with ⟨hs, p, ⟨hp, rfl⟩, h⟩ | ⟨hs, p, ⟨hp, rfl⟩, h⟩
  · obtain ⟨h0, h1, h2, h3⟩ := divUp_mag h
    refine ⟨h1, by rw [h2]; simp, ?_⟩
    rw [h3]
    congr 1
    unfold mag
    push_cast
    have : (10 : ℚ) ^ d.scale = 10 ^ s * 10 ^ (d.scale - s) := by
      rw [← pow_add]; congr 1; omega
    rw [this]; field_simp
  · obtain ⟨h1, h2, h3⟩ := mulUp_mag h
    refine ⟨h1, by rw [h2]; simp, ?_⟩
    rw [h3]
    congr 1
    unfold mag
    push_cast
    have : (10 : ℚ) ^ s = 10 ^ d.scale * 10 ^ (s - d.scale) := by
      rw [← pow_add]; congr 1; omega
    rw [this]; field_simp

/-- C07, the part that holds: the magnitude is the exact one rounded up to the target scale, and
non-negative decimals keep their sign.  Missing: negative decimals lose their sign (`C07_false`,
`C07_sign_lost`). -/
theorem C07_toScaleUp_partial {d c : Decimal} {s : Nat} (h : d.toScaleUp s = .ok c) :
    c.scale = s ∧ c.mag = ceilAt s d.mag ∧ (0 ≤ d.toRat → c.toRat = ceilAt s d.toRat) := by
  obtain ⟨h1, h2, h3⟩ := toScaleUp_mag h
  refine ⟨h1, h3, fun hd => ?_⟩
  rw [toRat_of_nonneg h2, h3, ← abs_toRat, abs_of_nonneg hd]

/-- C07: the exact extent of the defect: whatever the sign of the operand, the result is never negative. -/
theorem C07_sign_lost {d c : Decimal} {s : Nat} (h : d.toScaleUp s = .ok c) :
    c.negative = false ∧ (d.toRat < 0 → 0 < c.toRat) := by
  obtain ⟨_, h2, h3⟩ := toScaleUp_mag h
  refine ⟨h2, fun hd => ?_⟩
  rw [toRat_of_nonneg h2, h3]
  have : 0 < d.mag := by rw [← abs_toRat]; exact abs_pos.2 hd.ne
  exact lt_of_lt_of_le this le_ceilAt

example : (Decimal.mk 1231 3 false).toScaleUp 1 = .ok ⟨13, 1, false⟩ ∧
    (Decimal.mk 1231 3 true).toScaleUp 1 = .ok ⟨13, 1, false⟩ ∧
    (Decimal.mk 1231 3 true).toScaleUp 5 = .ok ⟨123100, 5, false⟩ := by decide

/-! ### C17 Integrality test is exact -/

/-- C17: for every machine decimal of scale at most 38 the test returns, and is true exactly for integers. -/
theorem C17_isInteger (d : Decimal) (hw : d.WF) (hs : d.scale ≤ 38) :
    ∃ b, d.isInteger = .ok b ∧ (b = true ↔ ∃ n : ℤ, d.toRat = n) := by
  have hp := pow10_pos d.scale
  have e0 : d.toScale 0 = .ok ⟨d.value / 10 ^ d.scale, 0, d.negative⟩ := by
    rw [toScale_ok]
    rcases Nat.eq_zero_or_pos d.scale with h0 | h0
    · right
      refine ⟨by omega, ?_, ?_, ?_⟩
      · rw [pow10_lt_iff]; omega
      · rw [h0]; simpa using hw.1
      · rw [h0]; simp
    · left
      exact ⟨h0, pow10_lt_iff.2 (by omega), by simp⟩
  have e1 : Decimal.toScale ⟨d.value / 10 ^ d.scale, 0, d.negative⟩ d.scale
      = .ok ⟨d.value / 10 ^ d.scale * 10 ^ d.scale, d.scale, d.negative⟩ := by
    rw [toScale_ok]
    right
    refine ⟨Nat.zero_le _, pow10_lt_iff.2 (by simpa using hs), ?_, by simp⟩
    simp only [Nat.sub_zero]
    exact lt_of_le_of_lt (Nat.div_mul_le_self _ _) hw.1
  have e2 : ∃ c, d.sub ⟨d.value / 10 ^ d.scale * 10 ^ d.scale, d.scale, d.negative⟩ = .ok c := by
    cases h : d.sub ⟨d.value / 10 ^ d.scale * 10 ^ d.scale, d.scale, d.negative⟩ with
    | ok c => exact ⟨c, rfl⟩
    | error e =>
      rcases (C01_sub_fails _ _ _).1 h with ⟨h1, _⟩ | ⟨_, h1, _⟩ <;> simp at h1
  obtain ⟨c, hc⟩ := e2
  refine ⟨c.isZero, ?_, ?_⟩
  · unfold isInteger
    steps
    exact ⟨_, e0, _, e1, _, hc, rfl⟩
  · obtain ⟨_, _, h3, h4, _⟩ := sub_ok.1 hc
    rw [isZero_iff]
    have hv : c.value = 0 ↔ d.value = d.value / 10 ^ d.scale * 10 ^ d.scale := by
      unfold sval at h4
      simp only at h4
      generalize d.value / 10 ^ d.scale * 10 ^ d.scale = z at *
      cases hn : d.negative <;> cases hcn : c.negative <;> simp only [hn, hcn] at h4 <;>
        simp at h4 <;> omega
    rw [hv]
    have hdvd : d.value = d.value / 10 ^ d.scale * 10 ^ d.scale ↔ 10 ^ d.scale ∣ d.value := by
      rw [Nat.dvd_iff_div_mul_eq, eq_comm]
    rw [hdvd]
    have hq := pow10Q_pos d.scale
    constructor
    · rintro ⟨k, hk⟩
      refine ⟨(if d.negative then -1 else 1) * k, ?_⟩
      unfold toRat
      rw [hk]
      push_cast
      rw [mul_div_cancel_left₀ _ hq.ne']
    · rintro ⟨n, hn⟩
      have h2 : |d.toRat| = |(n : ℚ)| := by rw [hn]
      rw [abs_toRat] at h2
      have h5 : (d.value : ℚ) = |(n : ℚ)| * 10 ^ d.scale := by rw [value_eq, h2]
      refine ⟨n.natAbs, ?_⟩
      have h6 : (n.natAbs : ℚ) = |(n : ℚ)| := by
        rw [Nat.cast_natAbs]; simp
      rw [← h6] at h5
      have : d.value = n.natAbs * 10 ^ d.scale := by exact_mod_cast h5
      rw [this, mul_comm]

example : (Decimal.mk 1200 2 true).isInteger = .ok true ∧
    (Decimal.mk 1201 2 true).isInteger = .ok false := by decide

/-! ### C18 Division to a target scale is exact truncation -/

/-- C18: a returned quotient is the exact one truncated toward zero at the requested scale. -/
theorem C18_divToScale {a b c : Decimal} {s : Nat} (h : a.divToScale b s = .ok c) :
    b.toRat ≠ 0 ∧ c.scale = s ∧ c.negative = (a.negative ^^ b.negative) ∧
    c.mag = floorAt s (a.mag / b.mag) ∧
    c.mag ≤ |a.toRat / b.toRat| ∧ |a.toRat / b.toRat| < c.mag + ulp s := by
  suffices hmain : b.value ≠ 0 ∧ c.scale = s ∧ c.negative = (a.negative ^^ b.negative) ∧
      c.mag = floorAt s (a.mag / b.mag) by
    obtain ⟨h0, h1, h2, h3⟩ := hmain
    refine ⟨fun h => h0 (toRat_eq_zero.1 h), h1, h2, h3, ?_, ?_⟩ <;>
      rw [abs_div, abs_toRat, abs_toRat, h3]
    · exact floorAt_le (div_nonneg (mag_nonneg a) (mag_nonneg b))
    · exact lt_floorAt_add
  have hx : (!(a.negative == b.negative)) = (a.negative ^^ b.negative) := by
    cases a.negative <;> cases b.negative <;> rfl
  unfold divToScale at h
  simp only [bind_ok, ite_ok] at h
  steps at h
  obtain ⟨v, h, rfl⟩ := h
  rcases h with ⟨hd, q, ⟨h0, rfl⟩, p, ⟨_, rfl⟩, _, rfl⟩ | ⟨hd, p, ⟨_, rfl⟩, m, ⟨_, rfl⟩, h0, rfl⟩
  · refine ⟨h0, rfl, hx, ?_⟩
    have hbq : (b.value : ℚ) ≠ 0 := by exact_mod_cast h0
    obtain ⟨k, hk⟩ : ∃ k : Nat, (a.scale : Int) - s - b.scale = k :=
      ⟨_, (Int.toNat_of_nonneg (le_of_lt hd)).symm⟩
    rw [floorAt_of (n := a.value) (m := b.value * 10 ^ k)]
    · unfold mag
      simp only [hk, Int.toNat_natCast, Nat.div_div_eq_div_mul]
    · unfold mag
      push_cast
      have : (10 : ℚ) ^ a.scale = 10 ^ s * 10 ^ b.scale * 10 ^ k := by
        rw [← pow_add, ← pow_add]; congr 1; omega
      rw [this]; field_simp
  · refine ⟨h0, rfl, hx, ?_⟩
    have hbq : (b.value : ℚ) ≠ 0 := by exact_mod_cast h0
    obtain ⟨k, hk⟩ : ∃ k : Nat, -((a.scale : Int) - s - b.scale) = k :=
      ⟨_, (Int.toNat_of_nonneg (by omega)).symm⟩
    rw [floorAt_of (n := a.value * 10 ^ k) (m := b.value)]
    · unfold mag
      simp only [hk, Int.toNat_natCast]
    · unfold mag
      push_cast
      have : (10 : ℚ) ^ s * 10 ^ b.scale = 10 ^ a.scale * 10 ^ k := by
        rw [← pow_add, ← pow_add]; congr 1; omega
      field_simp
      rw [mul_assoc, mul_assoc, mul_comm (10 ^ b.scale : ℚ), this]

-- 1.000000 / 0.3 at scale 2 is 3.33; 2.00 / 3 at scale 4 is 0.6666
example : (Decimal.mk 1000000 6 false).divToScale ⟨3, 1, false⟩ 2 = .ok ⟨333, 2, false⟩ ∧
    (Decimal.mk 200 2 true).divToScale ⟨3, 0, false⟩ 4 = .ok ⟨6666, 4, true⟩ ∧
    (Decimal.mk 200 2 true).divToScale ⟨0, 0, false⟩ 4 = .error .panic := by decide

/-! ### C19 Negation -/

/-- C19: negation flips the represented number, keeps the scale, is an involution, and cancels. -/
theorem C19_neg (a : Decimal) :
    a.neg.toRat = -a.toRat ∧ a.neg.scale = a.scale ∧ a.neg.neg = a ∧
    (∀ c, a.add a.neg = .ok c → c.toRat = 0) ∧
    (a.toRat ≠ 0 → ∃ c, a.add a.neg = .ok c) := by
  obtain ⟨v, s, n⟩ := a
  have key : ∀ (v s : Nat) (n : Bool),
      (Decimal.mk v s n).neg = if v = 0 then ⟨v, s, n⟩ else ⟨v, s, !n⟩ := by
    intro v s n
    unfold neg isNegative isPositive isZero
    by_cases hv : v = 0 <;> cases n <;> simp [hv]
  have e1 : (Decimal.mk v s n).neg.toRat = -(Decimal.mk v s n).toRat := by
    rw [key]
    split
    · rename_i h; rw [toRat_zero h]; simp
    · unfold toRat; cases n <;> simp
  refine ⟨e1, ?_, ?_, ?_, ?_⟩
  · rw [key]; split <;> rfl
  · by_cases hv : v = 0
    · rw [key v, if_pos hv, key v, if_pos hv]
    · rw [key v, if_neg hv, key v, if_neg hv, Bool.not_not]
  · intro c h
    rw [(C01_add_exact h).2.2.1, e1]; ring
  · intro h
    have hv : v ≠ 0 := fun h0 => h (toRat_zero h0)
    rw [key, if_neg hv]
    cases hc : (Decimal.mk v s n).add ⟨v, s, !n⟩ with
    | ok c => exact ⟨c, rfl⟩
    | error e =>
      rcases (C01_add_fails _ _ _).1 hc with ⟨h1, _⟩ | ⟨_, h1, _⟩
      · simp at h1
      · cases n <;> simp at h1

example : (Decimal.mk 150 2 true).neg = ⟨150, 2, false⟩ ∧ (Decimal.mk 0 2 false).neg = ⟨0, 2, false⟩ := by
  decide

/-! ### C20 Integer-part conversions -/

/-- C20: `abs` is the integer part of the magnitude, or a panic exactly when that needs more than 64 bits. -/
theorem C20_abs (d : Decimal) (hw : d.WF) (hs : d.scale ≤ 38) :
    d.abs = if ⌊d.mag⌋₊ < 2 ^ 64 then .ok ⌊d.mag⌋₊ else .error .panic := by
  have e0 : d.toScale 0 = .ok ⟨d.value / 10 ^ d.scale, 0, d.negative⟩ := by
    rw [toScale_ok]
    rcases Nat.eq_zero_or_pos d.scale with h0 | h0
    · right
      refine ⟨by omega, ?_, ?_, ?_⟩
      · rw [pow10_lt_iff]; omega
      · rw [h0]; simpa using hw.1
      · rw [h0]; simp
    · left
      exact ⟨h0, pow10_lt_iff.2 (by omega), by simp⟩
  have e1 : ⌊d.mag⌋₊ = d.value / 10 ^ d.scale := by
    unfold mag
    rw [← Nat.floor_div_eq_div (K := ℚ)]
    push_cast; rfl
  rw [e1]
  unfold Decimal.abs
  rw [e0]
  rfl

/-- C20: `abs_up` is the magnitude rounded up to an integer; it panics exactly when that integer needs
more than 64 bits or the intermediate `value + 10^scale - 1` more than 128. -/
theorem C20_absUp (d : Decimal) (hs : d.scale ≤ 38) :
    d.absUp = if ⌈d.mag⌉₊ < 2 ^ 64 ∧ d.value + (10 ^ d.scale - 1) < 2 ^ 128
      then .ok ⌈d.mag⌉₊ else .error .panic := by
  have hp := pow10_lt_iff.2 hs
  have hpos := pow10_pos d.scale
  have e1 : ⌈d.mag⌉₊ = (d.value + (10 ^ d.scale - 1)) / 10 ^ d.scale := by
    rw [← ceil_div_eq hpos]; unfold mag; push_cast; rfl
  have e2 : d.toScaleUp 0 = divUp ⟨d.value, 0, d.negative⟩ ⟨10 ^ d.scale, 0, d.negative⟩ := by
    unfold toScaleUp new
    rw [if_pos (Nat.zero_le _)]
    simp only [Nat.sub_zero, pow10_le hs]
    rfl
  rw [e1]
  unfold absUp
  rw [e2]
  by_cases hv : d.value + (10 ^ d.scale - 1) < 2 ^ 128
  · have e3 : divUp ⟨d.value, 0, d.negative⟩ ⟨10 ^ d.scale, 0, d.negative⟩
        = .ok ⟨(d.value + (10 ^ d.scale - 1)) / 10 ^ d.scale, 0, false⟩ := by
      rw [divUp_ok]
      refine ⟨by simpa [u128Size] using hv, by simp [u128Size], hpos.ne', by simp⟩
    rw [e3]
    simp only [hv, and_true]
    rfl
  · have e3 : divUp ⟨d.value, 0, d.negative⟩ ⟨10 ^ d.scale, 0, d.negative⟩ = .error .panic := by
      unfold divUp denominator
      simp only [pow10_le (Nat.zero_le 38)]
      have : checkedSub (10 ^ d.scale) 1 = .ok (10 ^ d.scale - 1) := by
        rw [checkedSub_ok]; exact ⟨hpos, rfl⟩
      simp only [bind, Except.bind, this]
      by_cases h1 : d.value < u128Size
      · simp only [pow_zero, checkedMul, mul_one, u128, if_pos h1, checkedAdd]
        rw [if_neg (by simpa [u128Size] using hv)]
      · simp only [pow_zero, checkedMul, mul_one, u128, if_neg h1]
    rw [e3]
    simp only [hv, and_false]
    rfl

example : (Decimal.mk 1250 2 true).abs = .ok 12 ∧ (Decimal.mk 1250 2 true).absUp = .ok 13 ∧
    (Decimal.mk (2 ^ 64) 0 true).abs = .error .panic := by decide

end Hmm
