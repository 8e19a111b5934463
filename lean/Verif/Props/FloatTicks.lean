import Verif.Proofs.FloatTicks
import Verif.Tests.FloatSample
import Verif.Spec.FloatReach

/-
C85: ticks of the floating-point pool are moved to the grid exactly.
-/

namespace Hmm.Flt

open F64

section
attribute [local irreducible] unit limit

/-- C85, downwards: the greatest multiple of the spacing that is not above the tick, for all `u32`. -/
theorem snap_down {t s : Nat} (ht : t < 2 ^ 32) (hs : 0 < s) (hs' : s < 2 ^ 32) :
    s ∣ tkToPossibleTk t s false ∧ tkToPossibleTk t s false ≤ t ∧ t < tkToPossibleTk t s false + s := by
  obtain ⟨v, hv, h1, h2, _, _⟩ := quot_is ht hs hs'
  have hfl : ⌊v⌋ = ((t / s : ℕ) : ℤ) := by
    rw [Int.floor_eq_iff, Int.cast_natCast]; exact ⟨h1, h2⟩
  have hF := floor_is hv
  rw [hfl] at hF
  have hle : t / s * s ≤ t := Nat.div_mul_le_self t s
  have hS : (ofNat s).IsInt s := by
    have := ofNat_is (k := s) (by omega)
    unfold IsInt; exact_mod_cast this
  have hM := mul_whole hF hS (by omega)
  have key : tkToPossibleTk t s false = t / s * s := by
    unfold tkToPossibleTk
    simp only [Bool.false_eq_true, if_false]
    rw [toU32_int hM, min_eq_left (by omega)]
  rw [key]
  refine ⟨Dvd.intro_left _ rfl, hle, ?_⟩
  have := Nat.lt_div_mul_add hs (a := t)
  omega

/-- C85, upwards: the least multiple of the spacing that is not below the tick, for all `u32`, as long as it is
one. -/
theorem snap_up {t s k : Nat} (ht : t < 2 ^ 32) (hs : 0 < s) (hs' : s < 2 ^ 32) (h1 : t ≤ k * s)
    (h2 : k * s < t + s) (h3 : k * s < 2 ^ 32) : tkToPossibleTk t s true = k * s := by
  obtain ⟨v, hv, hv1, hv2, hv3, hv4⟩ := quot_is ht hs hs'
  have hdm := Nat.div_add_mod t s
  have hml := Nat.mod_lt t hs
  have hc : ⌈v⌉ = (k : ℤ) := by
    by_cases hd : s ∣ t
    · obtain ⟨j, rfl⟩ := hd
      rw [Nat.mul_div_cancel_left _ hs] at hv4
      have hk : k = j := by
        have : j * s ≤ k * s := by rw [mul_comm j]; exact h1
        have a := Nat.le_of_mul_le_mul_right this hs
        have : k * s < (j + 1) * s := by rw [add_mul, one_mul, mul_comm j]; exact h2
        have b := Nat.lt_of_mul_lt_mul_right this
        omega
      rw [hv4 (Dvd.intro _ rfl), hk]
      exact_mod_cast Int.ceil_natCast j
    · have hm0 : 0 < t % s := Nat.pos_of_ne_zero fun h => hd (Nat.dvd_of_mod_eq_zero h)
      have hk : k = t / s + 1 := by
        have : t / s * s < k * s := by rw [mul_comm (t / s)]; omega
        have a := Nat.lt_of_mul_lt_mul_right this
        have : k * s < (t / s + 2) * s := by rw [add_mul, mul_comm (t / s)]; omega
        have b := Nat.lt_of_mul_lt_mul_right this
        omega
      have e : ((k : ℤ) : ℚ) = ((t / s : ℕ) : ℚ) + 1 := by rw [hk, Int.cast_natCast]; exact Nat.cast_succ _
      rw [Int.ceil_eq_iff, e]
      constructor
      · have := hv3 hd; linarith
      · linarith
  have hC := ceil_is hv
  rw [hc] at hC
  have hS : (ofNat s).IsInt s := by
    have := ofNat_is (k := s) (by omega)
    unfold IsInt; exact_mod_cast this
  have hM := mul_whole hC hS (by omega)
  unfold tkToPossibleTk
  simp only [if_true]
  rw [toU32_int hM, min_eq_left (by omega)]

/-- Multiples stay where they are. -/
theorem snap_multiple {s k : Nat} (hs : 0 < s) (hk : k * s < 2 ^ 32) (hs' : s < 2 ^ 32) (up : Bool) :
    tkToPossibleTk (k * s) s up = k * s := by
  cases up with
  | true => exact snap_up hk hs hs' (le_refl _) (by omega) hk
  | false =>
    obtain ⟨⟨j, hj⟩, h1, h2⟩ := snap_down hk hs hs'
    rw [hj] at h1 h2 ⊢
    have a : j * s ≤ k * s := by rw [mul_comm j]; exact h1
    have a := Nat.le_of_mul_le_mul_right a hs
    have b : k * s < (j + 1) * s := by rw [add_mul, one_mul, mul_comm j]; exact h2
    have b := Nat.lt_of_mul_lt_mul_right b
    have : j = k := by omega
    rw [this, mul_comm]

end

/-- Cases: ticks at spacing 10 and 3, and the largest `u32`. -/
theorem snap_case : tkToPossibleTk 76013 10 false = 76010 ∧ tkToPossibleTk 76013 10 true = 76020 ∧
    tkToPossibleTk 4294967295 3 false = 4294967295 ∧ tkToPossibleTk 4294967294 3 false = 4294967292 := by
  decide +kernel

end Hmm.Flt
