import Verif.Props.DecimalArith
import Verif.Props.Convert
import Verif.Proofs.PoolMathBasic

/-
C116: decimals and token amounts.

A token amount `n` at a number of places `s` stands for `n / 10^s` tokens.
-/

namespace Hmm

open Decimal PoolMath

/-! ### C116 Token amounts and decimals -/

/-- C116: an amount becomes the number of tokens it stands for. -/
theorem C116_from (n s : Nat) : (fromScaledAmount n s).toRat = (n : ℚ) / 10 ^ s ∧ (fromScaledAmount n s).scale = s := by
  refine ⟨?_, rfl⟩
  unfold fromScaledAmount toRat
  simp

/-- C116: a decimal becomes its magnitude in units of the wanted scale, rounded down; it is refused exactly when that does not fit
64 bits. -/
theorem C116_to (d : Decimal) (s : Nat) (hs : d.scale ≤ s + 38) (hs' : s ≤ d.scale + 38) :
    d.toScaledAmount s = if ⌊d.mag * 10 ^ s⌋₊ < 2 ^ 64 then .ok ⌊d.mag * 10 ^ s⌋₊ else .error .panic := by
  obtain ⟨v, t, n⟩ := d
  simp only at hs hs'
  have hD : (0 : ℚ) < 10 ^ s := by positivity
  unfold toScaledAmount
  rcases Nat.lt_or_ge s t with h | h
  · have e : (Decimal.mk v t n).toScale s = .ok ⟨v / 10 ^ (t - s), s, n⟩ :=
      toScale_ok.2 (.inl ⟨h, pow10_lt_iff.2 (by simp only; omega), rfl⟩)
    have hf : ⌊(Decimal.mk v t n).mag * 10 ^ s⌋₊ = v / 10 ^ (t - s) := by
      rw [← Nat.floor_div_eq_div (K := ℚ)]
      congr 1
      unfold mag
      obtain ⟨k, rfl⟩ := Nat.exists_eq_add_of_lt h
      have : s + k + 1 - s = k + 1 := by omega
      simp only [this]
      push_cast
      rw [show s + k + 1 = s + (k + 1) by omega, pow_add]
      field_simp
    rw [e, hf]
    rfl
  · by_cases hb : v * 10 ^ (s - t) < u128Size
    · have e : (Decimal.mk v t n).toScale s = .ok ⟨v * 10 ^ (s - t), s, n⟩ :=
        toScale_ok.2 (.inr ⟨h, pow10_lt_iff.2 (by simp only; omega), hb, rfl⟩)
      have hf : ⌊(Decimal.mk v t n).mag * 10 ^ s⌋₊ = v * 10 ^ (s - t) := by
        have : (Decimal.mk v t n).mag * 10 ^ s = ((v * 10 ^ (s - t) : ℕ) : ℚ) := by
          unfold mag
          obtain ⟨k, rfl⟩ := Nat.exists_eq_add_of_le h
          simp only [Nat.add_sub_cancel_left]
          push_cast
          rw [pow_add]
          field_simp
        rw [this, Nat.floor_natCast]
      rw [e, hf]
      rfl
    · have e : (Decimal.mk v t n).toScale s = .error .panic :=
        toScale_error.2 ⟨rfl, .inr ⟨h, .inr (Nat.not_lt.1 hb)⟩⟩
      have hf : ⌊(Decimal.mk v t n).mag * 10 ^ s⌋₊ = v * 10 ^ (s - t) := by
        have : (Decimal.mk v t n).mag * 10 ^ s = ((v * 10 ^ (s - t) : ℕ) : ℚ) := by
          unfold mag
          obtain ⟨k, rfl⟩ := Nat.exists_eq_add_of_le h
          simp only [Nat.add_sub_cancel_left]
          push_cast
          rw [pow_add]
          field_simp
        rw [this, Nat.floor_natCast]
      rw [e, hf, if_neg]
      · rfl
      · unfold u128Size at hb
        have : (2 : ℕ) ^ 64 ≤ 2 ^ 128 := by decide
        omega

/-- C116: the rounding-up conversion returns the magnitude in units of the wanted scale, rounded up, and only what fits 64 bits. -/
theorem C116_to_up {d : Decimal} {s n : Nat} (h : d.toScaledAmountUp s = .ok n) :
    n = ⌈d.mag * 10 ^ s⌉₊ ∧ n < 2 ^ 64 := by
  unfold toScaledAmountUp toU64 u64 at h
  rw [bind_ok] at h
  obtain ⟨c, h1, h⟩ := h
  rw [ite_ok] at h
  rcases h with ⟨hn, h⟩ | ⟨_, h⟩
  swap; · cases h
  cases h
  refine ⟨?_, hn⟩
  obtain ⟨hs, _, hm⟩ := toScaleUp_mag h1
  have hm' : (c.value : ℚ) = (⌈d.mag * 10 ^ s⌉₊ : ℚ) := by
    unfold ceilAt at hm
    rw [mag.eq_1 c, hs, div_left_inj' (by positivity)] at hm
    exact hm
  exact_mod_cast hm'

/-- C116: when the rounding-up conversion returns: the amount and the intermediate sum fit. -/
theorem C116_to_up_returns (d : Decimal) (s : Nat) (hs : d.scale ≤ s + 38) (hs' : s ≤ d.scale + 38)
    (h64 : ⌈d.mag * 10 ^ s⌉₊ < 2 ^ 64) (hr : s < d.scale → d.value + 10 ^ (d.scale - s) ≤ 2 ^ 128) :
    d.toScaledAmountUp s = .ok ⌈d.mag * 10 ^ s⌉₊ := by
  suffices hx : ∃ c, d.toScaleUp s = .ok c by
    obtain ⟨c, hc⟩ := hx
    obtain ⟨hs, _, hm⟩ := toScaleUp_mag hc
    unfold ceilAt at hm
    have hm' : (c.value : ℚ) = (⌈d.mag * 10 ^ s⌉₊ : ℚ) := by
      rw [mag.eq_1 c, hs, div_left_inj' (by positivity)] at hm
      exact hm
    have hv : c.value = ⌈d.mag * 10 ^ s⌉₊ := by exact_mod_cast hm'
    unfold toScaledAmountUp toU64 u64
    rw [hc]
    show (if c.value < u64Size then _ else _) = _
    rw [hv]
    exact if_pos h64
  unfold toScaleUp new
  have hpp : ∀ k, k ≤ 38 → pow10 k = .ok (10 ^ k) := fun k hk => by
    unfold pow10 u128; rw [if_pos (pow10_lt_iff.2 hk)]
  by_cases hc : d.scale ≥ s
  · rw [if_pos hc, hpp _ (by omega), bind_eq]
    refine ⟨_, divUp_ok.2 ⟨?_, (by show 10 ^ 0 < u128Size; decide), (pow10_pos _).ne', rfl⟩⟩
    simp only [pow_zero, mul_one]
    have := pow10_pos (d.scale - s)
    rcases Nat.eq_or_lt_of_le hc with he | hl
    · rw [he, Nat.sub_self, pow_zero]
      have e : d.mag * 10 ^ s = ((d.value : ℕ) : ℚ) := by
        unfold mag; rw [he]; field_simp
      rw [e, Nat.ceil_natCast] at h64
      have : (2 : ℕ) ^ 64 ≤ 2 ^ 128 := by decide
      unfold u128Size; omega
    · have := hr hl
      unfold u128Size; omega
  · rw [if_neg hc, hpp _ (by omega), bind_eq]
    refine ⟨_, mulUp_ok.2 ⟨?_, (by show 10 ^ 0 < u128Size; decide), rfl⟩⟩
    simp only [pow_zero, Nat.sub_self, Nat.add_zero]
    have e : d.mag * 10 ^ s = ((d.value * 10 ^ (s - d.scale) : ℕ) : ℚ) := by
      unfold mag
      obtain ⟨k, hk⟩ := Nat.exists_eq_add_of_le (show d.scale ≤ s by omega)
      have : s - d.scale = k := by omega
      rw [this, hk]
      push_cast
      rw [pow_add]
      field_simp
    rw [e, Nat.ceil_natCast] at h64
    have : (2 : ℕ) ^ 64 ≤ 2 ^ 128 := by decide
    unfold u128Size; omega

/-- C116: an amount read back at the same scale is the same amount, whichever way it is rounded; at a coarser scale the
two conversions bracket it. -/
theorem C116_round_trip (n s : Nat) (hn : n < 2 ^ 64) :
    (fromScaledAmount n s).toScaledAmount s = .ok n ∧ (fromScaledAmount n s).toScaledAmountUp s = .ok n := by
  have e : (fromScaledAmount n s).mag * 10 ^ s = (n : ℚ) := by
    unfold fromScaledAmount mag; field_simp
  constructor
  · rw [C116_to _ _ (by show s ≤ _; omega) (by show s ≤ s + _; omega), e, Nat.floor_natCast, if_pos hn]
  · rw [C116_to_up_returns (fromScaledAmount n s) s (by show s ≤ _; omega) (by show s ≤ s + _; omega) (by rw [e, Nat.ceil_natCast]; exact hn)
      (fun h => absurd h (lt_irrefl _)), e, Nat.ceil_natCast]

/-- C116: the two conversions of a decimal differ by at most one unit, and agree only on whole units. -/
theorem C116_bracket {d : Decimal} {s lo hi : Nat} (hs : d.scale ≤ s + 38) (hs' : s ≤ d.scale + 38)
    (h1 : d.toScaledAmount s = .ok lo) (h2 : d.toScaledAmountUp s = .ok hi) :
    (lo : ℚ) ≤ |d.toRat| * 10 ^ s ∧ |d.toRat| * 10 ^ s ≤ hi ∧ hi ≤ lo + 1 ∧
    (hi = lo ↔ |d.toRat| * 10 ^ s = lo) := by
  rw [C116_to d s hs hs'] at h1
  obtain ⟨h2, _⟩ := C116_to_up h2
  rw [abs_toRat]
  have h0 : 0 ≤ d.mag * 10 ^ s := mul_nonneg (mag_nonneg d) (by positivity)
  rw [ite_ok] at h1
  rcases h1 with ⟨_, h1⟩ | ⟨_, h1⟩
  swap; · cases h1
  cases h1
  subst h2
  refine ⟨Nat.floor_le h0, Nat.le_ceil _, Nat.ceil_le_floor_add_one _, ?_, ?_⟩
  · intro h
    exact le_antisymm (h ▸ Nat.le_ceil _) (Nat.floor_le h0)
  · intro h
    generalize ⌊d.mag * 10 ^ s⌋₊ = m at *
    rw [h, Nat.ceil_natCast]

/-- C116: multiplying by a whole number is exact, and refused exactly when the product does not fit. -/
theorem C116_times (a : Decimal) (n : Nat) :
    (∀ c, a.mulInt n = .ok c → c.scale = a.scale ∧ c.toRat = a.toRat * n) ∧
    (∀ e, a.mulInt n = .error e ↔ e = .panic ∧ 2 ^ 128 ≤ a.value * n) := by
  constructor
  · intro c h
    obtain ⟨_, rfl⟩ := mulInt_ok.1 h
    refine ⟨rfl, ?_⟩
    unfold toRat
    push_cast
    ring
  · intro e
    unfold mulInt checkedMul u128
    by_cases h : a.value * n < u128Size
    · rw [if_pos h]
      refine ⟨fun hh => (nomatch hh), fun ⟨_, hh⟩ => ?_⟩
      unfold u128Size at h; omega
    · rw [if_neg h]
      refine ⟨fun hh => ?_, fun ⟨hh, _⟩ => hh ▸ rfl⟩
      cases hh
      exact ⟨rfl, by unfold u128Size at h; omega⟩

-- 12.345678 at two places: 1234 down, 1235 up; 2^64 units do not fit; -1.5 loses its sign; -0.25 times 3
example : (Decimal.mk 12345678 6 false).toScaledAmount 2 = .ok 1234 ∧
    (Decimal.mk 12345678 6 false).toScaledAmountUp 2 = .ok 1235 ∧
    (Decimal.mk (2 ^ 64) 6 false).toScaledAmount 6 = .error .panic ∧
    (Decimal.mk 15 1 true).toScaledAmount 0 = .ok 1 ∧ (Decimal.mk 15 1 true).toScaledAmountUp 3 = .ok 1500 ∧
    (Decimal.mk 25 2 true).mulInt 3 = .ok ⟨75, 2, true⟩ := by decide

end Hmm
