import Mathlib.Analysis.Real.Sqrt
import Verif.Props.Pow
import Verif.Props.Sqrt
import Verif.Props.DecimalArith
import Verif.Proofs.Solvency

/-
Property of powers with a decimal exponent: C78.
-/

namespace Hmm

open Decimal

/-! ### C78 Powers with decimal exponents: only some exponents, each with its error bound -/

/-- C78 is false of the code: at one decimal place 16.0 ^ 0.2 (about 1.74) is returned as 2.0, the
fourth root, because 0.25 is cut to 0.2 before it is compared with the exponent. -/
theorem C78_false : (Decimal.mk 160 1 false).powDec ⟨2, 1, false⟩ = .ok ⟨20, 1, false⟩ ∧
    (Decimal.mk 20 1 false).toRat ^ 5 = 2 * (Decimal.mk 160 1 false).toRat ∧
    (Decimal.mk 2 1 false).toRat = 1 / 5 := by
  refine ⟨by decide +kernel, ?_, ?_⟩
  · rw [toRat_of_nonneg rfl, toRat_of_nonneg rfl]; unfold mag; norm_num
  · rw [toRat_of_nonneg rfl]; unfold mag; norm_num

/-- A returned square root is within one unit of the real root. -/
theorem sqrt_near {d c : Decimal} (hneg : d.negative = false) (hs : d.scale ≤ 38)
    (h : d.sqrt = .ok c) : c.scale = d.scale ∧ c.negative = false ∧
      |(c.toRat : ℝ) - √(d.toRat : ℝ)| ≤ (ulp d.scale : ℝ) := by
  have hu : (0 : ℝ) ≤ (ulp d.scale : ℝ) := by
    have := ulp_pos d.scale; exact_mod_cast this.le
  by_cases hr : d.value * 10 ^ d.scale < 2 ^ 128
  · obtain ⟨c', h1, h2, h3, h4⟩ := C10_sqrt d hneg hs hr
    rw [h] at h1
    cases h1
    refine ⟨h2, h3, ?_⟩
    have key : ∀ r : ℚ, IsRootDown d.scale d.toRat r →
        (r : ℝ) ≤ √(d.toRat : ℝ) ∧ √(d.toRat : ℝ) ≤ r + ulp d.scale := by
      rintro r ⟨g1, g2, g3⟩
      constructor
      · apply Real.le_sqrt_of_sq_le; exact_mod_cast g2
      · apply Real.sqrt_le_iff.2
        refine ⟨by have : (0 : ℝ) ≤ (r : ℝ) := by exact_mod_cast g1
                   linarith, ?_⟩
        have : (d.toRat : ℝ) < ((r + ulp d.scale) ^ 2 : ℚ) := by exact_mod_cast g3
        push_cast at this
        exact this.le
    rw [abs_le]
    rcases h4 with h4 | ⟨h4, _⟩
    · have := key _ h4
      constructor <;> linarith [this.1, this.2]
    · have := key _ h4
      push_cast at this
      constructor <;> linarith [this.1, this.2]
  · have h1 : d.toRat = 1 := by
      by_contra hne
      rw [(C10_sqrt_range d hneg hs).1 (by omega) hne] at h
      cases h
    rw [(C10_sqrt_range d hneg hs).2 h1] at h
    cases h
    refine ⟨rfl, hneg, ?_⟩
    rw [h1]
    simpa using hu

/-- Square roots of nearby numbers are near. -/
theorem sqrt_dist {r x δ : ℝ} (hr : 0 ≤ r) (hx : 0 ≤ x) (h : |r - x| ≤ δ) : |√r - √x| ≤ √δ := by
  have h1 := abs_le.1 h
  rw [abs_le]
  constructor
  · have : √x ≤ √r + √δ := by
      refine (Real.sqrt_le_sqrt (by linarith [h1.1] : x ≤ r + δ)).trans ?_
      apply Real.sqrt_le_iff.2
      refine ⟨by positivity, ?_⟩
      rw [add_sq, Real.sq_sqrt hr, Real.sq_sqrt ((abs_nonneg _).trans h)]
      nlinarith [Real.sqrt_nonneg r, Real.sqrt_nonneg δ]
    linarith
  · have : √r ≤ √x + √δ := by
      refine (Real.sqrt_le_sqrt (by linarith [h1.2] : r ≤ x + δ)).trans ?_
      apply Real.sqrt_le_iff.2
      refine ⟨by positivity, ?_⟩
      rw [add_sq, Real.sq_sqrt hx, Real.sq_sqrt ((abs_nonneg _).trans h)]
      nlinarith [Real.sqrt_nonneg x, Real.sqrt_nonneg δ]
    linarith

/-- Square roots of nearby numbers at least one are as near as the numbers. -/
theorem sqrt_dist_one {r x δ : ℝ} (hr : 0 ≤ r) (hx : 1 ≤ x) (h : |r - x| ≤ δ) : |√r - √x| ≤ δ := by
  have h1 : 1 ≤ √x := by rw [Real.one_le_sqrt]; exact hx
  have h2 := Real.sqrt_nonneg r
  have h3 : (√r - √x) * (√r + √x) = r - x := by
    have a := Real.mul_self_sqrt hr
    have b := Real.mul_self_sqrt (by linarith : (0:ℝ) ≤ x)
    linarith [show (√r - √x) * (√r + √x) = √r * √r - √x * √x by ring]
  have h4 : |√r - √x| * (√r + √x) = |r - x| := by
    rw [← h3, abs_mul, abs_of_nonneg (by linarith : (0:ℝ) ≤ √r + √x)]
  have := abs_nonneg (√r - √x)
  nlinarith

theorem fromInt_toScale_ok {k s : Nat} {c : Decimal} (h : (fromInt k).toScale s = .ok c) :
    c = ⟨k * 10 ^ s, s, false⟩ ∧ 10 ^ s < u128Size := by
  rcases toScale_ok.1 h with ⟨h1, _⟩ | ⟨_, h2, _, h3⟩
  · unfold fromInt at h1; simp at h1
  · refine ⟨by rw [h3]; rfl, ?_⟩
    simpa [fromInt] using h2

/-- The quotient of two small integers at a scale. -/
theorem div_ints {m k s : Nat} {c : Decimal}
    (h : (Decimal.mk (m * 10 ^ s) s false).div ⟨k * 10 ^ s, s, false⟩ = .ok c) :
    c = ⟨m * 10 ^ s / k, s, false⟩ := by
  obtain ⟨_, _, h3, h4⟩ := div_ok.1 h
  rw [h4]
  congr 1
  exact Nat.mul_div_mul_right _ _ (pow10_pos s)

theorem powDecWith_ok {rec : Decimal → R Decimal} {d e c : Decimal}
    (h : powDecWith rec d e = .ok c) : d.scale ≤ 38 ∧
    ((e.value = 0 ∧ c = ⟨10 ^ d.scale, d.scale, false⟩) ∨
     (e.value ≠ 0 ∧ e.scale = d.scale ∧
      ((e = ⟨10 ^ d.scale / 4, d.scale, false⟩ ∧ ∃ r, d.sqrt = .ok r ∧ r.sqrt = .ok c) ∨
       (e = ⟨10 ^ d.scale / 2, d.scale, false⟩ ∧ d.sqrt = .ok c) ∨
       (e = ⟨10 ^ d.scale, d.scale, false⟩ ∧ c = d) ∨
       (e = ⟨5 * 10 ^ d.scale / 4, d.scale, false⟩ ∧
          ∃ r q, d.sqrt = .ok r ∧ r.sqrt = .ok q ∧ d.mul q = .ok c) ∨
       (e = ⟨3 * 10 ^ d.scale / 2, d.scale, false⟩ ∧ ∃ r, d.sqrt = .ok r ∧ d.mul r = .ok c) ∨
       (e.isInteger = .ok true ∧ e.negative = false ∧ ∃ n, e.abs = .ok n ∧ d.powInt n = .ok c) ∨
       (e.isInteger = .ok true ∧ e.negative = true ∧
          ∃ n p, e.abs = .ok n ∧ d.powInt n = .ok p ∧
            (Decimal.mk (10 ^ d.scale) d.scale false).div p = .ok c) ∨
       (e.isInteger = .ok false ∧ e.negative = true ∧
          ∃ p, rec (new e.value e.scale false) = .ok p ∧
            (Decimal.mk (10 ^ d.scale) d.scale false).div p = .ok c)))) := by
  unfold powDecWith at h
  simp only [bind_ok] at h
  obtain ⟨one, h1, two, h2, four, h4, quarter, hq, half, hh, five, h5, oq, hoq, three, h3, oh, hoh, h⟩ := h
  obtain ⟨rfl, hlt⟩ := fromInt_toScale_ok h1
  obtain ⟨rfl, _⟩ := fromInt_toScale_ok h2
  obtain ⟨rfl, _⟩ := fromInt_toScale_ok h4
  obtain ⟨rfl, _⟩ := fromInt_toScale_ok h5
  obtain ⟨rfl, _⟩ := fromInt_toScale_ok h3
  obtain rfl := div_ints hq
  obtain rfl := div_ints hh
  obtain rfl := div_ints hoq
  obtain rfl := div_ints hoh
  simp only [one_mul] at h
  refine ⟨by have := pow10_lt_iff.1 hlt; exact this, ?_⟩
  by_cases hz : e.isZero = true
  · rw [if_pos hz] at h
    cases h
    left; exact ⟨isZero_iff.1 hz, rfl⟩
  · rw [if_neg hz] at h
    have hz' : e.value ≠ 0 := fun h0 => hz (isZero_iff.2 h0)
    right
    simp only [bind_ok, unwrap_ok, ite_ok] at h
    have eqd : ∀ {v : Nat} {b : Bool}, e.eq ⟨v, d.scale, false⟩ = .ok b → e.scale = d.scale ∧
        (b = true → e = ⟨v, d.scale, false⟩) := by
      intro v b hb
      unfold Decimal.eq at hb
      by_cases hs : e.scale = d.scale
      · refine ⟨hs, fun ht => ?_⟩
        simp only [hs, beq_self_eq_true, Bool.not_true, Bool.false_eq_true, if_false] at hb
        cases hb
        simp at ht
        obtain ⟨a, b, c⟩ := e
        simp only at hs ht
        rw [hs, ht.1, ht.2]
      · simp [hs] at hb
        cases hb
    obtain ⟨b1, g1, h⟩ := h
    refine ⟨hz', (eqd g1).1, ?_⟩
    rcases h with ⟨hb, r, k1, k2⟩ | ⟨_, b2, g2, h⟩
    · exact .inl ⟨(eqd g1).2 hb, r, k1, k2⟩
    right
    rcases h with ⟨hb, k1⟩ | ⟨_, b3, g3, h⟩
    · exact .inl ⟨(eqd g2).2 hb, k1⟩
    right
    rcases h with ⟨hb, k1⟩ | ⟨_, b4, g4, h⟩
    · cases k1; exact .inl ⟨(eqd g3).2 hb, rfl⟩
    right
    rcases h with ⟨hb, r, k1, q, k2, k3⟩ | ⟨_, b5, g5, h⟩
    · exact .inl ⟨(eqd g4).2 hb, r, q, k1, k2, k3⟩
    right
    rcases h with ⟨hb, r, k1, k2⟩ | ⟨_, b6, g6, h⟩
    · exact .inl ⟨(eqd g5).2 hb, r, k1, k2⟩
    right
    rcases h with ⟨hb, n, k1, k2⟩ | ⟨hb, h⟩
    · simp only [isPositive, Bool.and_eq_true, Bool.not_eq_true'] at hb
      rw [hb.1] at g6
      exact .inl ⟨g6, hb.2.1, n, k1, k2⟩
    right
    rcases h with ⟨hb, n, k1, p, k2, k3⟩ | ⟨hb2, h⟩
    · simp only [isNegative, Bool.and_eq_true, Bool.not_eq_true'] at hb
      rw [hb.1] at g6
      exact .inl ⟨g6, hb.2.1, n, p, k1, k2, k3⟩
    right
    rcases h with ⟨hb3, p, k1, k2⟩ | ⟨_, h⟩
    · rw [hb3] at hb2
      have : b6 = false := by simpa using hb2
      rw [this] at g6
      simp only [isNegative, Bool.and_eq_true, Bool.not_eq_true'] at hb3
      exact ⟨g6, hb3.1, p, k1, k2⟩
    · cases h

/-- `p` is `x ^ e` for one of the supported exponents, up to rounding at one unit `u`: roots within a
unit (fourth roots within `2u` for numbers at least one), integer powers with the bounds of C12. -/
def PowNear (u x e p : ℚ) : Prop :=
  (e = 1 / 4 ∧ |(p : ℝ) - √√(x : ℝ)| ≤ u + √(u : ℝ) ∧ (1 ≤ x → |(p : ℝ) - √√(x : ℝ)| ≤ 2 * u)) ∨
  (e = 1 / 2 ∧ |(p : ℝ) - √(x : ℝ)| ≤ u) ∨
  (e = 5 / 4 ∧ |(p : ℝ) - x * √√(x : ℝ)| ≤ x * (u + √(u : ℝ)) + u ∧
    (1 ≤ x → |(p : ℝ) - x * √√(x : ℝ)| ≤ x * (2 * u) + u)) ∨
  (e = 3 / 2 ∧ |(p : ℝ) - x * √(x : ℝ)| ≤ x * u + u) ∨
  (∃ n : ℕ, e = n ∧ (n ≤ 1 → p = x ^ n) ∧ p ≤ x ^ n ∧ (1 ≤ x → x ^ n * (1 - n * u) ≤ p) ∧
    (x ≤ 1 → x ^ n - n * u ≤ p))

theorem quarter_toRat {s v k : Nat} (hs : 2 ≤ s) (hk : k = 4 ∨ k = 2) :
    (Decimal.mk (v * 10 ^ s / k) s false).toRat = v / k := by
  rw [toRat_of_nonneg rfl]
  unfold mag
  obtain ⟨t, rfl⟩ : ∃ t, s = t + 2 := ⟨s - 2, by omega⟩
  have h0 := pow10Q_pos t
  rcases hk with rfl | rfl
  · rw [show v * 10 ^ (t + 2) / 4 = v * 25 * 10 ^ t by
      rw [pow_add]; rw [show v * (10 ^ t * 10 ^ 2) = v * 25 * 10 ^ t * 4 by ring]; simp]
    push_cast; rw [pow_add]; field_simp; ring
  · rw [show v * 10 ^ (t + 2) / 2 = v * 50 * 10 ^ t by
      rw [pow_add]; rw [show v * (10 ^ t * 10 ^ 2) = v * 50 * 10 ^ t * 2 by ring]; simp]
    push_cast; rw [pow_add]; field_simp; ring

/-- Two roots taken one after the other. -/
theorem fourth_near {d r q : Decimal} (hneg : d.negative = false) (hs : d.scale ≤ 38)
    (h1 : d.sqrt = .ok r) (h2 : r.sqrt = .ok q) : q.scale = d.scale ∧ q.negative = false ∧
      |(q.toRat : ℝ) - √√(d.toRat : ℝ)| ≤ (ulp d.scale : ℚ) + √((ulp d.scale : ℚ) : ℝ) ∧
      (1 ≤ d.toRat → |(q.toRat : ℝ) - √√(d.toRat : ℝ)| ≤ 2 * (ulp d.scale : ℚ)) := by
  obtain ⟨a1, a2, a3⟩ := sqrt_near hneg hs h1
  obtain ⟨b1, b2, b3⟩ := sqrt_near a2 (by omega) h2
  rw [a1] at b3
  have hr : (0 : ℝ) ≤ (r.toRat : ℝ) := by
    have : 0 ≤ r.toRat := by rw [toRat_of_nonneg a2]; exact mag_nonneg r
    exact_mod_cast this
  refine ⟨b1.trans a1, b2, ?_, fun hx => ?_⟩
  · have := sqrt_dist hr (Real.sqrt_nonneg _) a3
    calc _ ≤ |(q.toRat : ℝ) - √(r.toRat : ℝ)| + |√(r.toRat : ℝ) - √√(d.toRat : ℝ)| := abs_sub_le _ _ _
      _ ≤ _ := add_le_add b3 this
  · have h1 : (1 : ℝ) ≤ √(d.toRat : ℝ) := by rw [Real.one_le_sqrt]; exact_mod_cast hx
    have := sqrt_dist_one hr h1 a3
    have h3 := abs_sub_le (q.toRat : ℝ) (√(r.toRat : ℝ)) (√√(d.toRat : ℝ))
    linarith

/-- A rounded product with a factor that is near a number. -/
theorem mul_near {d q c : Decimal} {y δ : ℝ} (hneg : d.negative = false) (hq : q.negative = false)
    (h : d.mul q = .ok c) (hy : |(q.toRat : ℝ) - y| ≤ δ) :
    |(c.toRat : ℝ) - d.toRat * y| ≤ d.toRat * δ + (ulp d.scale : ℚ) := by
  have hd : 0 ≤ d.toRat := by rw [toRat_of_nonneg hneg]; exact mag_nonneg d
  have hq : 0 ≤ q.toRat := by rw [toRat_of_nonneg hq]; exact mag_nonneg q
  obtain ⟨_, h1, h2⟩ := mul_down h (mul_nonneg hd hq)
  have h1' : (c.toRat : ℝ) ≤ d.toRat * q.toRat := by exact_mod_cast h1
  have h2' : (d.toRat : ℝ) * q.toRat < c.toRat + (ulp d.scale : ℚ) := by exact_mod_cast h2
  have hd' : (0 : ℝ) ≤ d.toRat := by exact_mod_cast hd
  have h3 := abs_le.1 hy
  have h4 := mul_le_mul_of_nonneg_left h3.1 hd'
  have h5 := mul_le_mul_of_nonneg_left h3.2 hd'
  have hu : (0 : ℝ) ≤ (ulp d.scale : ℚ) := by
    have := ulp_pos d.scale; exact_mod_cast this.le
  rw [abs_le]
  constructor <;> nlinarith

theorem abs_int {e : Decimal} {n : Nat} {z : ℤ} (h : e.abs = .ok n) (hz : e.toRat = z) : e.mag = n := by
  unfold Decimal.abs at h
  rw [bind_ok] at h
  obtain ⟨a, h1, h2⟩ := h
  unfold toU64 at h2
  rw [u64_ok] at h2
  obtain ⟨_, rfl⟩ := h2
  have hm : e.mag = (z.natAbs : ℚ) := by
    rw [← abs_toRat, hz, ← Int.cast_abs, Int.abs_eq_natAbs]; simp
  have hv : e.value = z.natAbs * 10 ^ e.scale := by
    unfold mag at hm
    rw [div_eq_iff (pow10Q_pos _).ne'] at hm
    exact_mod_cast hm
  rcases toScale_ok.1 h1 with ⟨_, _, rfl⟩ | ⟨h3, _, _, rfl⟩
  · simp only [Nat.sub_zero]
    rw [hm, hv, Nat.mul_div_cancel _ (pow10_pos _)]
  · have : e.scale = 0 := by omega
    rw [hm, hv, this]; simp

/-- An integer power is near. -/
theorem powInt_near {d c : Decimal} {n : Nat} (hneg : d.negative = false) (hs : d.scale ≤ 38)
    (h : d.powInt n = .ok c) : c.scale = d.scale ∧ c.negative = false ∧
      PowNear (ulp d.scale) d.toRat n c.toRat := by
  obtain ⟨h1, h2, h3, h4, h5⟩ := C12_pow_bounds hneg h
  refine ⟨h1, h2, .inr (.inr (.inr (.inr ⟨n, rfl, fun hn => ?_, h3, h4, h5⟩)))⟩
  have hn' : n = 0 ∨ n = 1 := by omega
  have hh := C14_returns_partial d 0 0 hneg hs (by norm_num) (by norm_num)
  rcases hn' with rfl | rfl
  · obtain ⟨⟨c', g1, g2, _⟩, _⟩ := hh
    rw [h] at g1; cases g1; simpa using g2
  · rw [hh.2.2 c h]; simp

/-- The arms for an exponent that is not negative. -/
theorem powDecWith_near {rec : Decimal → R Decimal} {d e c : Decimal} (hneg : d.negative = false)
    (h2 : 2 ≤ d.scale) (he : e.WF) (hen : e.negative = false) (h : powDecWith rec d e = .ok c) :
    c.scale = d.scale ∧ c.negative = false ∧ PowNear (ulp d.scale) d.toRat e.toRat c.toRat := by
  obtain ⟨hs, h⟩ := powDecWith_ok h
  rcases h with ⟨h0, rfl⟩ | ⟨h0, hes, h⟩
  · refine ⟨rfl, rfl, .inr (.inr (.inr (.inr ⟨0, ?_, ?_⟩)))⟩
    · rw [isZero_toRat.1 (isZero_iff.2 h0)]; rfl
    · rw [toRat_of_nonneg (d := ⟨10 ^ d.scale, d.scale, false⟩) rfl, one_mag]; simp
  rcases h with ⟨he, r, k1, k2⟩ | ⟨he, k⟩ | ⟨he, rfl⟩ | ⟨he, r, q, k1, k2, k3⟩ | ⟨he, r, k1, k2⟩ |
    ⟨hi, _, n, k1, k2⟩ | ⟨_, hn, _⟩ | ⟨_, hn, _⟩
  · obtain ⟨a1, a2, a3, a4⟩ := fourth_near hneg hs k1 k2
    refine ⟨a1, a2, .inl ⟨?_, a3, a4⟩⟩
    have := quarter_toRat (v := 1) h2 (.inl rfl)
    rw [one_mul] at this
    rw [he, this]; norm_num
  · obtain ⟨a1, a2, a3⟩ := sqrt_near hneg hs k
    refine ⟨a1, a2, .inr (.inl ⟨?_, a3⟩)⟩
    have := quarter_toRat (v := 1) h2 (.inr rfl)
    rw [one_mul] at this
    rw [he, this]; norm_num
  · refine ⟨rfl, hneg, .inr (.inr (.inr (.inr ⟨1, ?_, fun _ => by simp, by simp, fun hx => ?_, fun hx => ?_⟩)))⟩
    · rw [he, toRat_of_nonneg rfl, one_mag]; simp
    · have := ulp_pos c.scale
      simp only [pow_one, Nat.cast_one, one_mul]
      nlinarith
    · have := ulp_pos c.scale
      simp only [pow_one, Nat.cast_one, one_mul]
      linarith
  · obtain ⟨a1, a2, a3, a4⟩ := fourth_near hneg hs k1 k2
    obtain ⟨b1, b2, _⟩ := mul_mag k3
    refine ⟨b1, ?_, .inr (.inr (.inl ⟨?_, mul_near hneg a2 k3 a3, fun hx => mul_near hneg a2 k3 (a4 hx)⟩))⟩
    · rw [b2, hneg, a2]; rfl
    · rw [he, quarter_toRat (v := 5) h2 (.inl rfl)]; norm_num
  · obtain ⟨a1, a2, a3⟩ := sqrt_near hneg hs k1
    obtain ⟨b1, b2, _⟩ := mul_mag k2
    refine ⟨b1, ?_, .inr (.inr (.inr (.inl ⟨?_, mul_near hneg a2 k2 a3⟩)))⟩
    · rw [b2, hneg, a2]; rfl
    · rw [he, quarter_toRat (v := 3) h2 (.inr rfl)]; norm_num
  · obtain ⟨b, g1, g2⟩ := C17_isInteger e he (by omega)
    rw [hi] at g1; cases g1
    obtain ⟨z, hz⟩ := g2.1 rfl
    have := abs_int k1 hz
    rw [toRat_of_nonneg hen, this]
    exact powInt_near hneg hs k2
  · rw [hen] at hn; cases hn
  · rw [hen] at hn; cases hn

/-- C78 (partial): for a non-negative base with at least two decimal places, a returned power has an exponent that
is 0, ±1/4, ±1/2, ±5/4, ±3/2 or an integer; it is the true power up to the stated rounding, and for a
negative exponent the reciprocal, rounded down, of such a power with the opposite exponent.  Missing: bases with fewer
than two places, where 0.25 and 1.25 are cut (`C78_false`), and negative bases (C11, C13). -/
theorem C78_power_partial {d e c : Decimal} (hneg : d.negative = false) (h2 : 2 ≤ d.scale) (he : e.WF)
    (h : d.powDec e = .ok c) : c.scale = d.scale ∧ c.negative = false ∧
      (0 ≤ e.toRat → PowNear (ulp d.scale) d.toRat e.toRat c.toRat) ∧
      (e.toRat < 0 → ∃ p, 0 < p ∧ PowNear (ulp d.scale) d.toRat (-e.toRat) p ∧
        c.toRat ≤ 1 / p ∧ 1 / p < c.toRat + ulp d.scale) := by
  unfold powDec at h
  cases hen : e.negative with
  | false =>
    obtain ⟨a1, a2, a3⟩ := powDecWith_near hneg h2 he hen h
    refine ⟨a1, a2, fun _ => a3, fun hlt => ?_⟩
    have : 0 ≤ e.toRat := by rw [toRat_of_nonneg hen]; exact mag_nonneg e
    linarith
  | true =>
    have key : ∀ {p : Decimal}, p.negative = false → p.scale = d.scale →
        (Decimal.mk (10 ^ d.scale) d.scale false).div p = .ok c →
        PowNear (ulp d.scale) d.toRat (-e.toRat) p.toRat → e.value ≠ 0 →
        c.scale = d.scale ∧ c.negative = false ∧
        (0 ≤ e.toRat → PowNear (ulp d.scale) d.toRat e.toRat c.toRat) ∧
        (e.toRat < 0 → ∃ p, 0 < p ∧ PowNear (ulp d.scale) d.toRat (-e.toRat) p ∧
          c.toRat ≤ 1 / p ∧ 1 / p < c.toRat + ulp d.scale) := by
      intro p hp hps hc hnear hv
      have h1 : (Decimal.mk (10 ^ d.scale) d.scale false).toRat = 1 := by
        rw [toRat_of_nonneg rfl, one_mag]
      obtain ⟨g1, g2, g3, g4⟩ := div_down hc (by rw [h1]; norm_num)
        (by rw [toRat_of_nonneg hp]; exact mag_nonneg p)
      obtain ⟨_, f1, f2, _⟩ := div_mag hc
      rw [h1] at g3 g4
      refine ⟨f1, by rw [f2, hp]; rfl, fun hge => ?_, fun _ => ⟨p.toRat, g1, hnear, g3, g4⟩⟩
      exfalso
      have hm : 0 < e.mag := by
        unfold mag
        have : (0 : ℚ) < e.value := by exact_mod_cast Nat.pos_of_ne_zero hv
        exact div_pos this (pow10Q_pos _)
      rw [toRat_of_neg hen] at hge
      linarith
    have hem : -e.toRat = e.mag := by rw [toRat_of_neg hen]; ring
    obtain ⟨hs, h⟩ := powDecWith_ok h
    rcases h with ⟨h0, rfl⟩ | ⟨h0, hes, h⟩
    · refine ⟨rfl, rfl, fun _ => .inr (.inr (.inr (.inr ⟨0, ?_, ?_⟩))), fun hlt => ?_⟩
      · rw [isZero_toRat.1 (isZero_iff.2 h0)]; rfl
      · rw [toRat_of_nonneg (d := ⟨10 ^ d.scale, d.scale, false⟩) rfl, one_mag]; simp
      · rw [isZero_toRat.1 (isZero_iff.2 h0)] at hlt; exact absurd hlt (lt_irrefl _)
    rcases h with ⟨he, _⟩ | ⟨he, _⟩ | ⟨he, _⟩ | ⟨he, _⟩ | ⟨he, _⟩ |
      ⟨_, hn, _⟩ | ⟨hi, _, n, p, k1, k2, k3⟩ | ⟨hi, _, p, k1, k2⟩
    · rw [he] at hen; cases hen
    · rw [he] at hen; cases hen
    · rw [he] at hen; cases hen
    · rw [he] at hen; cases hen
    · rw [he] at hen; cases hen
    · rw [hen] at hn; cases hn
    · obtain ⟨b, g1, g2⟩ := C17_isInteger e he (by omega)
      rw [hi] at g1; cases g1
      obtain ⟨z, hz⟩ := g2.1 rfl
      obtain ⟨a1, a2, a3⟩ := powInt_near hneg hs k2
      refine key a2 a1 k3 ?_ h0
      rw [hem, abs_int k1 hz]; exact a3
    · have hw : (new e.value e.scale false).WF := he
      obtain ⟨a1, a2, a3⟩ := powDecWith_near hneg h2 hw rfl k1
      refine key a2 a1 k2 ?_ h0
      rw [hem]
      rw [toRat_of_nonneg (d := new e.value e.scale false) rfl] at a3
      exact a3

-- 2^0.5, 2^1.25, 2^-1.5, 2^-2 and an unsupported exponent, all at six places
example : (Decimal.mk 2000000 6 false).powDec ⟨500000, 6, false⟩ = .ok ⟨1414213, 6, false⟩ ∧
    (Decimal.mk 2000000 6 false).powDec ⟨1250000, 6, false⟩ = .ok ⟨2378412, 6, false⟩ ∧
    (Decimal.mk 2000000 6 false).powDec ⟨1500000, 6, true⟩ = .ok ⟨353553, 6, false⟩ ∧
    (Decimal.mk 2000000 6 false).powDec ⟨2000000, 6, true⟩ = .ok ⟨250000, 6, false⟩ ∧
    (Decimal.mk 2000000 6 false).powDec ⟨750000, 6, false⟩ = .error .panic := by decide +kernel

/-- C78: the exponents that are not supported are refused: any exponent that is not of the list panics. -/
theorem C78_refused (d e : Decimal) (hneg : d.negative = false) (h2 : 2 ≤ d.scale) (he : e.WF)
    (hq : |e.toRat| ≠ 1 / 4 ∧ |e.toRat| ≠ 1 / 2 ∧ |e.toRat| ≠ 5 / 4 ∧ |e.toRat| ≠ 3 / 2)
    (hi : ∀ n : ℤ, e.toRat ≠ n) : ∀ c, d.powDec e ≠ .ok c := by
  intro c h
  obtain ⟨_, _, h3, h4⟩ := C78_power_partial hneg h2 he h
  have key : ∀ p, PowNear (ulp d.scale) d.toRat |e.toRat| p → False := by
    rintro p (⟨h, _⟩ | ⟨h, _⟩ | ⟨h, _⟩ | ⟨h, _⟩ | ⟨n, h, _⟩)
    · exact hq.1 h
    · exact hq.2.1 h
    · exact hq.2.2.1 h
    · exact hq.2.2.2 h
    · rcases abs_choice e.toRat with h5 | h5
      · exact hi n (by rw [← h5, h]; simp)
      · exact hi (-n) (by rw [h5] at h; push_cast; linarith)
  rcases le_or_gt 0 e.toRat with h5 | h5
  · apply key c.toRat; rw [abs_of_nonneg h5]; exact h3 h5
  · obtain ⟨p, _, hp, _⟩ := h4 h5
    apply key p; rw [abs_of_neg h5]; exact hp

end Hmm
