import Verif.Proofs.PowWhen

/-
Exactly when an integer power is returned: the rest of C14.
-/

namespace Hmm

open Decimal

/-- C14, exactly: for a base of magnitude at least one the power is returned if and only if the base squared once for every
binary digit of the exponent after the first, rounded down each time, is below `2^64` units of the last place. -/
theorem C14_when_large (d : Decimal) (n : Nat) (hs : d.scale ≤ 38) (h1 : 1 ≤ d.mag) (h0 : 0 < n) (hn : n < 2 ^ 128) :
    (∃ c, d.powInt n = .ok c) ↔ squared d.value d.scale (Nat.log2 n) < 2 ^ 64 := by
  have hv : 10 ^ d.scale ≤ d.value := by
    unfold mag at h1
    rw [le_div_iff₀ (by positivity), one_mul] at h1
    exact_mod_cast h1
  rw [powInt_eq _ hs, powLoop_large 128 n d ⟨10 ^ d.scale, d.scale, d.negative⟩ hn hs hv hv, sq_lt_u128]
  exact ⟨fun h => h.resolve_left (by omega), .inr⟩

/-- C14, exactly: for a base of magnitude at most one an odd power is returned if and only if the base at double scale fits
in 128 bits, an even one if and only if the base is below `2^64` units of the last place. -/
theorem C14_when_small (d : Decimal) (n : Nat) (hs : d.scale ≤ 38) (h1 : d.mag ≤ 1) (h0 : 0 < n) (hn : n < 2 ^ 128) :
    (∃ c, d.powInt n = .ok c) ↔ if n % 2 = 1 then 10 ^ d.scale * d.value < 2 ^ 128 else d.value < 2 ^ 64 := by
  have hv : d.value ≤ 10 ^ d.scale := by
    unfold mag at h1
    rw [div_le_iff₀ (by positivity), one_mul] at h1
    exact_mod_cast h1
  have hu : (2 : Nat) ^ 128 = u128Size := rfl
  rw [powInt_eq _ hs, hu]
  constructor
  · rintro ⟨c, h⟩
    obtain ⟨r', b', k1, k2, _⟩ := powLoop_succ (by omega) h
    split
    · next ho =>
      rcases k1 with ⟨_, k1⟩ | ⟨k1, _⟩
      · exact (mul_ok.1 k1).1
      · omega
    · exact sq_lt_u128.1 (mul_ok.1 k2).1
  · split
    · next ho =>
      intro h
      exact powLoop_small 128 n d ⟨10 ^ d.scale, d.scale, d.negative⟩ hn hs hv
        (lt_of_le_of_lt (Nat.mul_le_mul_right _ hv) h) h
    · next ho =>
      intro h
      have m1 := sq_lt_u128.2 h
      have hsq := square_le hv
      have m2 : 10 ^ d.scale * (d.value * d.value / 10 ^ d.scale) < u128Size :=
        lt_of_le_of_lt (Nat.mul_div_le _ _) m1
      obtain ⟨c, hc⟩ := powLoop_small 127 (n / 2) ⟨d.value * d.value / 10 ^ d.scale, d.scale, !(d.negative == d.negative)⟩
        ⟨10 ^ d.scale, d.scale, d.negative⟩ (by rw [pow_succ] at hn; omega) hs (hsq.trans hv)
        (lt_of_le_of_lt (Nat.mul_le_mul hsq hsq) m1) m2
      refine ⟨c, ?_⟩
      rw [powLoop, if_neg (by omega)]
      exact bind_ok.2 ⟨_, by rw [if_neg (by omega)], bind_ok.2 ⟨_, mul_eq m1 hs, hc⟩⟩

/-- C14, exactly: with more than 38 places nothing is returned, not even the power zero. -/
theorem C14_when_scale (d : Decimal) (n : Nat) (hs : 38 < d.scale) : d.powInt n = .error .panic := by
  unfold powInt denominator
  have : pow10 d.scale = .error .panic := by
    rw [pow10_error]
    exact ⟨by rw [← not_lt, pow10_lt_iff]; omega, rfl⟩
  rw [this]
  simp [bind, Except.bind]

/-- 2^7 with twelve places: 2 is squared twice for the digits 11 after the first. -/
example : 1 ≤ (Decimal.mk (2 * 10 ^ 12) 12 false).mag ∧ (Decimal.mk (2 * 10 ^ 12) 12 false).powInt 7 = .ok ⟨128 * 10 ^ 12, 12, false⟩ ∧
    squared (2 * 10 ^ 12) 12 (Nat.log2 7) = 16 * 10 ^ 12 := by
  refine ⟨by unfold mag; norm_num, by decide +kernel, by decide +kernel⟩

/-- 2^32 is not returned with twelve places, though it would fit: 2^32 is squared once more. -/
example : squared (2 * 10 ^ 12) 12 (Nat.log2 32) = 2 ^ 32 * 10 ^ 12 ∧ ¬ 2 ^ 32 * 10 ^ 12 < 2 ^ 64 ∧
    (Decimal.mk (2 * 10 ^ 12) 12 false).powInt 32 = .error .panic := by
  refine ⟨by decide +kernel, by norm_num, by decide +kernel⟩

/-- 0.5 with twenty places: the square is refused, the square of 0.1 with nineteen places is not. -/
example : (Decimal.mk (5 * 10 ^ 19) 20 false).mag ≤ 1 ∧ (Decimal.mk (5 * 10 ^ 19) 20 false).powInt 2 = .error .panic ∧
    (Decimal.mk (10 ^ 18) 19 false).powInt 2 = .ok ⟨10 ^ 17, 19, false⟩ := by
  refine ⟨by unfold mag; norm_num, by decide +kernel, by decide +kernel⟩

end Hmm
