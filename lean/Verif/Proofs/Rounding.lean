import Verif.Proofs.DecimalOps
import Mathlib.Algebra.Order.Floor.Semifield

/-
Integer division as rounding of rationals.
-/

namespace Hmm

theorem floorAt_of {s n m : Nat} {q : ℚ} (h : q * 10 ^ s = (n : ℚ) / m) :
    floorAt s q = ((n / m : Nat) : ℚ) / 10 ^ s := by
  unfold floorAt
  rw [h, Nat.floor_div_eq_div]

theorem ceil_div_eq {n m : Nat} (hm : 0 < m) : ⌈(n : ℚ) / m⌉₊ = (n + (m - 1)) / m := by
  apply eq_of_forall_ge_iff
  intro k
  rw [Nat.ceil_le, div_le_iff₀ (by exact_mod_cast hm), Nat.div_le_iff_le_mul_add_pred hm]
  rw [← Nat.cast_mul, Nat.cast_le, mul_comm]
  omega

theorem ceilAt_of {s n m : Nat} {q : ℚ} (hm : 0 < m) (h : q * 10 ^ s = (n : ℚ) / m) :
    ceilAt s q = (((n + (m - 1)) / m : Nat) : ℚ) / 10 ^ s := by
  unfold ceilAt
  rw [h, ceil_div_eq hm]

theorem floorAt_le {s : Nat} {q : ℚ} (hq : 0 ≤ q) : floorAt s q ≤ q := by
  unfold floorAt
  rw [div_le_iff₀ (by positivity)]
  exact Nat.floor_le (by positivity)

theorem lt_floorAt_add {s : Nat} {q : ℚ} : q < floorAt s q + ulp s := by
  unfold floorAt ulp
  rw [← add_div, lt_div_iff₀ (by positivity)]
  exact Nat.lt_floor_add_one _

theorem le_ceilAt {s : Nat} {q : ℚ} : q ≤ ceilAt s q := by
  unfold ceilAt
  rw [le_div_iff₀ (by positivity)]
  exact Nat.le_ceil _

theorem ceilAt_lt_add {s : Nat} {q : ℚ} (hq : 0 ≤ q) : ceilAt s q < q + ulp s := by
  unfold ceilAt ulp
  rw [div_lt_iff₀ (by positivity)]
  have := Nat.ceil_lt_add_one (a := q * 10 ^ s) (by positivity)
  have h10 : (0 : ℚ) < 10 ^ s := by positivity
  calc (⌈q * 10 ^ s⌉₊ : ℚ) < q * 10 ^ s + 1 := this
    _ = _ := by field_simp

theorem ulp_pos (s : Nat) : 0 < ulp s := by unfold ulp; positivity

theorem floorAt_nonneg (s : Nat) (q : ℚ) : 0 ≤ floorAt s q := by unfold floorAt; positivity

theorem floorAt_mono {s : Nat} {p q : ℚ} (h : p ≤ q) : floorAt s p ≤ floorAt s q := by
  unfold floorAt
  apply div_le_div_of_nonneg_right _ (by positivity)
  exact_mod_cast Nat.floor_mono (mul_le_mul_of_nonneg_right h (by positivity))

theorem ceilAt_mono {s : Nat} {p q : ℚ} (h : p ≤ q) : ceilAt s p ≤ ceilAt s q := by
  unfold ceilAt
  apply div_le_div_of_nonneg_right _ (by positivity)
  exact_mod_cast Nat.ceil_mono (mul_le_mul_of_nonneg_right h (by positivity))

namespace Decimal

theorem mul_mag {a b c : Decimal} (h : a.mul b = .ok c) :
    c.scale = a.scale ∧ c.negative = (a.negative ^^ b.negative) ∧
    c.mag = floorAt a.scale (a.mag * b.mag) := by
  obtain ⟨_, _, rfl⟩ := mul_ok.1 h
  refine ⟨rfl, by cases a.negative <;> cases b.negative <;> rfl, ?_⟩
  rw [floorAt_of (n := a.value * b.value) (m := 10 ^ b.scale)]
  · rfl
  · unfold mag; push_cast; field_simp

theorem mulUp_mag {a b c : Decimal} (h : a.mulUp b = .ok c) :
    c.scale = a.scale ∧ c.negative = (a.negative ^^ b.negative) ∧
    c.mag = ceilAt a.scale (a.mag * b.mag) := by
  obtain ⟨_, _, rfl⟩ := mulUp_ok.1 h
  refine ⟨rfl, by cases a.negative <;> cases b.negative <;> rfl, ?_⟩
  rw [ceilAt_of (n := a.value * b.value) (m := 10 ^ b.scale) (pow10_pos _)]
  · rfl
  · unfold mag; push_cast; field_simp

theorem div_mag {a b c : Decimal} (h : a.div b = .ok c) :
    b.value ≠ 0 ∧ c.scale = a.scale ∧ c.negative = (a.negative ^^ b.negative) ∧
    c.mag = floorAt a.scale (a.mag / b.mag) := by
  obtain ⟨_, _, h0, rfl⟩ := div_ok.1 h
  refine ⟨h0, rfl, by cases a.negative <;> cases b.negative <;> rfl, ?_⟩
  rw [floorAt_of (n := a.value * 10 ^ b.scale) (m := b.value)]
  · rfl
  · unfold mag; push_cast
    have : (b.value : ℚ) ≠ 0 := by exact_mod_cast h0
    field_simp

theorem divUp_mag {a b c : Decimal} (h : a.divUp b = .ok c) :
    b.value ≠ 0 ∧ c.scale = a.scale ∧ c.negative = (a.negative ^^ b.negative) ∧
    c.mag = ceilAt a.scale (a.mag / b.mag) := by
  obtain ⟨_, _, h0, rfl⟩ := divUp_ok.1 h
  refine ⟨h0, rfl, by cases a.negative <;> cases b.negative <;> rfl, ?_⟩
  rw [ceilAt_of (n := a.value * 10 ^ b.scale) (m := b.value) (by omega)]
  · rfl
  · unfold mag; push_cast
    have : (b.value : ℚ) ≠ 0 := by exact_mod_cast h0
    field_simp

theorem toScale_down_mag {d c : Decimal} {s : Nat} (hs : s < d.scale) (h : d.toScale s = .ok c) :
    c.scale = s ∧ c.negative = d.negative ∧ c.mag = floorAt s d.mag := by
  rcases toScale_ok.1 h with ⟨_, _, rfl⟩ | ⟨h1, _⟩
  · refine ⟨rfl, rfl, ?_⟩
    rw [floorAt_of (n := d.value) (m := 10 ^ (d.scale - s))]
    · rfl
    · unfold mag; push_cast
      have : (10 : ℚ) ^ d.scale = 10 ^ s * 10 ^ (d.scale - s) := by
        rw [← pow_add]; congr 1; omega
      rw [this]; field_simp
  · omega

theorem toScale_up_mag {d c : Decimal} {s : Nat} (hs : d.scale ≤ s) (h : d.toScale s = .ok c) :
    c.scale = s ∧ c.negative = d.negative ∧ c.mag = d.mag := by
  rcases toScale_ok.1 h with ⟨h1, _⟩ | ⟨_, _, _, rfl⟩
  · omega
  · refine ⟨rfl, rfl, ?_⟩
    unfold mag; push_cast
    have : (10 : ℚ) ^ s = 10 ^ d.scale * 10 ^ (s - d.scale) := by
      rw [← pow_add]; congr 1; omega
    rw [this]; field_simp

theorem toRat_of_mag {c d : Decimal} (hn : c.negative = d.negative) (hm : c.mag = d.mag) :
    c.toRat = d.toRat := by
  rw [toRat_eq, toRat_eq, hm]; unfold sgn; rw [hn]

/-- Two decimals of equal scale, sign and magnitude are the same. -/
theorem ext_mag {c d : Decimal} (hs : c.scale = d.scale) (hn : c.negative = d.negative)
    (hm : c.mag = d.mag) : c = d := by
  obtain ⟨cv, cs, cn⟩ := c
  obtain ⟨dv, ds, dn⟩ := d
  simp only at hs hn
  subst hs hn
  unfold mag at hm
  simp only at hm
  rw [div_left_inj' (by positivity)] at hm
  have : cv = dv := by exact_mod_cast hm
  rw [this]

theorem mul_toRat {a b c : Decimal} (h : a.mul b = .ok c) (ha : a.negative = false)
    (hb : b.negative = false) :
    c.scale = a.scale ∧ c.negative = false ∧ c.toRat = floorAt a.scale (a.toRat * b.toRat) := by
  obtain ⟨h1, h2, h3⟩ := mul_mag h
  have hc : c.negative = false := by rw [h2, ha, hb]; rfl
  rw [toRat_of_nonneg ha, toRat_of_nonneg hb, toRat_of_nonneg hc]
  exact ⟨h1, hc, h3⟩

theorem div_toRat {a b c : Decimal} (h : a.div b = .ok c) (ha : a.negative = false)
    (hb : b.negative = false) :
    0 < b.toRat ∧ c.scale = a.scale ∧ c.negative = false ∧
      c.toRat = floorAt a.scale (a.toRat / b.toRat) := by
  obtain ⟨h0, h1, h2, h3⟩ := div_mag h
  have hc : c.negative = false := by rw [h2, ha, hb]; rfl
  rw [toRat_of_nonneg ha, toRat_of_nonneg hb, toRat_of_nonneg hc]
  refine ⟨?_, h1, hc, h3⟩
  exact lt_of_le_of_ne (mag_nonneg b) (Ne.symm fun h => h0 (mag_eq_zero.1 h))

end Decimal

end Hmm
