import Verif.Proofs.Pow

/-
Properties of integer powers: C12, C13, C14.
-/

namespace Hmm

open Decimal

/-! ### C12 Integer powers have a proven error bound -/

/-- C12: a returned power keeps the scale, never exceeds the exact power, and for a base of at least
one is at least `x^n (1 - n ulp)`, for a base of at most one at least `x^n - n ulp`. -/
theorem C12_pow_bounds {d c : Decimal} {n : Nat} (hneg : d.negative = false)
    (h : d.powInt n = .ok c) :
    c.scale = d.scale ∧ c.negative = false ∧ c.toRat ≤ d.toRat ^ n ∧
    (1 ≤ d.toRat → d.toRat ^ n * (1 - n * ulp d.scale) ≤ c.toRat) ∧
    (d.toRat ≤ 1 → d.toRat ^ n - n * ulp d.scale ≤ c.toRat) := by
  obtain ⟨_, hl⟩ := powInt_ok h
  obtain ⟨h1, h2⟩ := powLoop_upper _ _ _ _ _ hl
  have hcn : c.negative = false := (powLoop_sign_pos _ _ _ _ _ hneg hl).trans hneg
  rw [one_mag, one_mul] at h2
  rw [toRat_of_nonneg hneg, toRat_of_nonneg hcn]
  refine ⟨h1, hcn, h2, fun hx => ?_, fun hx => ?_⟩
  · have := powLoop_lower_ge _ _ _ _ _ 1 d.mag 0 0 hl rfl le_rfl hx le_rfl le_rfl
      (by rw [one_mag]; simp) (by simp)
    simpa using this
  · have := powLoop_lower_le _ _ _ _ _ 1 d.mag 0 0 hl rfl zero_le_one le_rfl (mag_nonneg d) hx
      le_rfl le_rfl hx (by rw [one_mag]; simp) (by simp)
    simpa using this

-- 1.5^5 = 7.59375 -> 7.593 at scale 3; 0.3^3 = 0.027 -> 0.02 at scale 2
example : (Decimal.mk 1500 3 false).powInt 5 = .ok ⟨7593, 3, false⟩ ∧
    (Decimal.mk 30 2 false).powInt 3 = .ok ⟨2, 2, false⟩ := by decide +kernel

/-! ### C13 Integer powers of negative bases have the right sign: false, the sign is inverted -/

/-- C13 is false of the code: (-2)^2 is returned as -4. -/
theorem C13_false : ¬ ∀ (d c : Decimal) (n : Nat), d.toRat < 0 → d.powInt n = .ok c →
    (n % 2 = 0 → 0 ≤ c.toRat) ∧ (n % 2 = 1 → c.toRat ≤ 0) := by
  intro h
  have h1 := (h ⟨2, 0, true⟩ ⟨4, 0, true⟩ 2 (by rw [toRat_of_neg rfl]; unfold mag; norm_num)
    (by decide +kernel)).1 rfl
  rw [toRat_of_neg rfl] at h1
  unfold mag at h1
  norm_num at h1

/-- C13: the exact extent of the defect: for every negative base the sign of the power is the opposite
of the right one, for every exponent (even powers negative, odd powers positive). -/
theorem C13_sign_inverted {d c : Decimal} {n : Nat} (hneg : d.negative = true)
    (h : d.powInt n = .ok c) : c.negative = (n % 2 == 0) := by
  obtain ⟨_, hl⟩ := powInt_ok h
  by_cases h0 : n = 0
  · subst h0; rw [powLoop_zero] at hl; cases hl; simpa using hneg
  · obtain ⟨r', b', g1, g2, g3⟩ := powLoop_succ h0 hl
    have hb' : b'.negative = false := by rw [(mul_mag g2).2.1]; simp
    rw [powLoop_sign_pos _ _ _ _ _ hb' g3]
    rcases g1 with ⟨ho, hr⟩ | ⟨ho, rfl⟩
    · rw [(mul_mag hr).2.1]
      simp; omega
    · simp [ho, hneg]

/-- C13, the part that holds: the magnitude of a power of a negative base is the power of the magnitude
(so the bounds of C12 apply to it).  Missing: the sign (`C13_false`, `C13_sign_inverted`). -/
theorem C13_magnitude_partial {d c : Decimal} {n : Nat} (h : d.powInt n = .ok c) :
    ∃ c', (Decimal.mk d.value d.scale false).powInt n = .ok c' ∧ c'.mag = c.mag ∧
      c.scale = d.scale := by
  obtain ⟨hs, hl⟩ := powInt_ok h
  obtain ⟨c', h1, h2, h3⟩ := powLoop_congr_mag 128 n d ⟨10 ^ d.scale, d.scale, d.negative⟩
    ⟨d.value, d.scale, false⟩ ⟨10 ^ d.scale, d.scale, false⟩ rfl rfl rfl rfl _ hl
  refine ⟨c', ?_, ?_, (powLoop_upper _ _ _ _ _ hl).1⟩
  · rw [powInt_eq (d := ⟨d.value, d.scale, false⟩) n hs]; exact h1
  · unfold mag; rw [h2, h3]

example : (Decimal.mk 20 1 true).powInt 3 = .ok ⟨80, 1, false⟩ ∧
    (Decimal.mk 20 1 true).powInt 0 = .ok ⟨10, 1, true⟩ := by decide +kernel

/-! ### C14 Integer powers return whenever the result is representable: false -/

/-- C14 is false of the code: `b^1` panics for `b = 2^64`, because the base is squared once more than
needed. -/
theorem C14_false : ¬ ∀ d : Decimal, d.WF → d.negative = false → d.powInt 1 = .ok d := by
  intro h
  have h1 := h ⟨2 ^ 64, 0, false⟩ (by decide) rfl
  rw [show (Decimal.mk (2 ^ 64) 0 false).powInt 1 = .error .panic by decide +kernel] at h1
  cases h1

/-- C14, the parts that hold: `b^0 = 1`; a power with exponent below `2^j` is returned whenever
`x^(2^j)` (or one, when the base is smaller) fits at double scale in 128 bits; and if `b^1` is returned
it is `b`.  Missing: results that fit while that larger power does not (`C14_false`). -/
theorem C14_returns_partial (d : Decimal) (n j : Nat) (hneg : d.negative = false) (hs : d.scale ≤ 38)
    (hj : j ≤ 128) (hn : n < 2 ^ j) :
    (∃ c, d.powInt 0 = .ok c ∧ c.toRat = 1 ∧ c.scale = d.scale) ∧
    ((max 1 d.toRat) ^ (2 ^ j) * 10 ^ (2 * d.scale) < 2 ^ 128 → ∃ c, d.powInt n = .ok c) ∧
    (∀ c, d.powInt 1 = .ok c → c = d) := by
  refine ⟨?_, ?_, ?_⟩
  · refine ⟨⟨10 ^ d.scale, d.scale, d.negative⟩, ?_, ?_, rfl⟩
    · rw [powInt_eq _ hs, powLoop_zero]
    · rw [toRat_of_nonneg (d := ⟨10 ^ d.scale, d.scale, d.negative⟩) hneg, one_mag]
  · intro h
    rw [powInt_eq _ hs]
    rw [toRat_of_nonneg hneg] at h
    refine powLoop_returns j 128 n d _ (max 1 d.mag) ((max 1 d.mag) ^ (2 ^ j)) hj hn rfl hs
      (le_max_left _ _) (le_max_right _ _) le_rfl ?_ ?_
    · rw [one_mag, one_mul]
      exact pow_le_pow_right₀ (le_max_left _ _) (by omega)
    · rw [← pow_mul, mul_comm d.scale 2]; exact h
  · intro c h
    obtain ⟨_, hl⟩ := powInt_ok h
    obtain ⟨r', b', g1, g2, g3⟩ := powLoop_succ one_ne_zero hl
    rw [show 1 / 2 = 0 from rfl, powLoop_zero] at g3
    cases g3
    rcases g1 with ⟨_, hr⟩ | ⟨ho, _⟩
    · obtain ⟨_, _, rfl⟩ := mul_ok.1 hr
      obtain ⟨v, s, n⟩ := d
      simp only at hneg
      subst hneg
      simp [Nat.mul_div_cancel_left _ (pow10_pos s)]
    · simp at ho

example : (max 1 (Decimal.mk 1000050000000 12 false).toRat) ^ (2 ^ 4) * 10 ^ (2 * 12) < 2 ^ 128 ∧
    (Decimal.mk 1000050000000 12 false).powInt 10 = .ok ⟨1000500112514, 12, false⟩ := by
  refine ⟨?_, by decide +kernel⟩
  rw [toRat_of_nonneg rfl]; unfold mag; norm_num

/-- C14: the powering loop always terminates within its 128 rounds. -/
theorem C14_pow_terminates (d : Decimal) (n : Nat) (hn : n < 2 ^ 128) :
    d.powInt n ≠ .error .diverge := by
  by_cases hs : d.scale ≤ 38
  · rw [powInt_eq _ hs]
    exact powLoop_terminates _ _ _ _ hn
  · unfold powInt denominator
    have : pow10 d.scale = .error .panic := by
      rw [pow10_error]
      exact ⟨by rw [← not_lt, pow10_lt_iff]; exact hs, rfl⟩
    rw [this]
    simp [bind, Except.bind]

end Hmm
