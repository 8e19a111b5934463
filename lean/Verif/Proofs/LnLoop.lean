import Verif.Proofs.LnTable
import Verif.Proofs.PoolMathBasic
import Verif.Spec.Decimal

/-
The table lookups of `Decimal::ln`: the sum they return is the logarithm of the quotient they start from.
-/

namespace Hmm.Decimal

/-- Logarithm of a number given in units of the twelfth place. -/
noncomputable def log12 (n : ℕ) : ℝ := Real.log ((n : ℝ) / 10 ^ 12)

theorem u128_big : 10 ^ 38 < u128Size := by decide

theorem lt_next (a : ℕ) {b : ℕ} (hb : 0 < b) : a < (a / b + 1) * b := by
  have h1 := Nat.div_add_mod a b
  have h2 := Nat.mod_lt a hb
  nlinarith

/-- The steps of a lookup. -/
theorem logTableValue_of {s t s1 u1 t1 u2 d : Decimal} {col place lx : ℕ} (e1 : s.div t = .ok s1) (e0 : pow10 (col + 1) = .ok place)
    (e2 : s1.mul (new place s1.scale false) = .ok u1) (e3 : u1.div (new place s1.scale false) = .ok t1)
    (e4 : t1.mul (new place s1.scale false) = .ok u2) (e5 : u2.sub (new place s1.scale false) = .ok d) (e6 : d.value < u64Size)
    (e7 : d.value = 0 → lx = 0) (e8 : ∀ r, d.value = r + 1 → r < 9 ∧ col < 12 ∧ logTable r col = .ok lx) :
    logTableValue s t col = .ok (s1, t1, lx) := by
  unfold logTableValue
  rw [e1, PoolMath.bind_eq, e0, PoolMath.bind_eq]
  dsimp only
  rw [e2, PoolMath.bind_eq, e3, PoolMath.bind_eq, e4, PoolMath.bind_eq, e5, PoolMath.unwrap_eq, PoolMath.bind_eq,
    u64_ok.2 ⟨e6, rfl⟩, PoolMath.bind_eq]
  rcases hr : d.value with _ | r
  · rw [e7 hr]; rfl
  · obtain ⟨a, b, c⟩ := e8 r hr
    dsimp only
    rw [if_pos ⟨a, b⟩, c]; rfl

/-- One lookup. -/
theorem logTableValue_step {a t col S : ℕ} (hcol : col < 10) (ht : t ≠ 0) (ha : a * 10 ^ 12 < u128Size)
    (hS : a * 10 ^ 12 / t = S) (h1 : 10 ^ 12 ≤ S) (h2 : S * 10 ^ col < 10 ^ 12 * 10 ^ col + 10 ^ 12) :
    ∃ T lx, logTableValue ⟨a, 12, false⟩ ⟨t, 12, false⟩ col = .ok (⟨S, 12, false⟩, ⟨T, 12, false⟩, lx) ∧
      10 ^ 12 ≤ T ∧ T ≤ S ∧ S * 10 ^ (col + 1) < T * 10 ^ (col + 1) + 10 ^ 12 ∧ lx ≤ 10 ^ 12 ∧
      (lx : ℝ) / 10 ^ 12 ≤ log12 T + 1 / 10 ^ 15 ∧ log12 T ≤ (lx : ℝ) / 10 ^ 12 + 1001 / 10 ^ 15 := by
  have hP : 10 ^ (col + 1) ∣ 10 ^ 12 := Nat.pow_dvd_pow 10 (by omega)
  have hP0 : 0 < 10 ^ (col + 1) := by positivity
  have hPle : 10 ^ (col + 1) ≤ 10 ^ 10 := Nat.pow_le_pow_right (by norm_num) (by omega)
  have hc1 : 1 ≤ 10 ^ col := Nat.one_le_pow _ _ (by norm_num)
  have hPc : 10 ^ (col + 1) = 10 * 10 ^ col := by rw [pow_succ, mul_comm]
  have hSle : S ≤ 2 * 10 ^ 12 := by
    by_contra hh
    have : (2 * 10 ^ 12 + 1) * 10 ^ col ≤ S * 10 ^ col := Nat.mul_le_mul_right _ (by omega)
    have : 10 ^ 12 * 1 ≤ 10 ^ 12 * 10 ^ col := Nat.mul_le_mul_left _ hc1
    omega
  obtain ⟨Q, hQ⟩ := hP
  generalize hp : 10 ^ (col + 1) = P at *
  have hQ0 : 0 < Q := by rcases Nat.eq_zero_or_pos Q with h | h; · rw [h] at hQ; norm_num at hQ
                         · exact h
  -- the lookup position
  obtain ⟨u, hu⟩ : ∃ u, u = S * P / 10 ^ 12 := ⟨_, rfl⟩
  have hu1 : u * 10 ^ 12 ≤ S * P := by rw [hu]; exact Nat.div_mul_le_self _ _
  have hu2 : S * P < (u + 1) * 10 ^ 12 := by have h := lt_next (S * P) (b := 10 ^ 12) (by norm_num); rwa [← hu] at h
  have huP : P ≤ u := by
    rw [hu, Nat.le_div_iff_mul_le (by norm_num), mul_comm]
    exact Nat.mul_le_mul_right _ h1
  have hSP : S * P = 10 * (S * 10 ^ col) := by rw [hPc]; ring
  have hu3 : u < P + 10 := by
    have h3 : S * P < P * 10 ^ 12 + 10 * 10 ^ 12 := by rw [hSP, hPc]; nlinarith
    by_contra hh
    have : (P + 10) * 10 ^ 12 ≤ u * 10 ^ 12 := Nat.mul_le_mul_right _ (by omega)
    omega
  have hT : u * 10 ^ 12 / P = u * Q := by rw [hQ, mul_left_comm, Nat.mul_div_cancel_left _ hP0]
  have hTP : u * Q * P = u * 10 ^ 12 := by rw [hQ]; ring
  have hT1 : u * Q * P / 10 ^ 12 = u := by rw [hTP, Nat.mul_div_cancel _ (by norm_num)]
  have hTS : u * Q ≤ S := by
    by_contra hh
    have : (S + 1) * P ≤ u * Q * P := Nat.mul_le_mul_right _ (by omega)
    nlinarith
  have hT12 : 10 ^ 12 ≤ u * Q := by rw [hQ]; exact Nat.mul_le_mul_right _ huP
  have big := u128_big
  have hSPb : S * P < u128Size := lt_of_le_of_lt (Nat.mul_le_mul hSle hPle) (lt_of_le_of_lt (by norm_num) big)
  have hTPb : u * Q * P < u128Size := lt_of_le_of_lt (by rw [hTP]; exact hu1) hSPb
  have hub : u * 10 ^ 12 < u128Size := lt_of_le_of_lt hu1 hSPb
  have h12 : 10 ^ 12 < u128Size := lt_of_le_of_lt (by norm_num) big
  -- its logarithm
  obtain ⟨lx, hlx, hlx', hl0, hl1, hl2⟩ : ∃ lx, (u - P = 0 → lx = 0) ∧
      (∀ r, u - P = r + 1 → r < 9 ∧ col < 12 ∧ logTable r col = .ok lx) ∧ lx ≤ 10 ^ 12 ∧
      (lx : ℝ) / 10 ^ 12 ≤ log12 (u * Q) + 1 / 10 ^ 15 ∧ log12 (u * Q) ≤ (lx : ℝ) / 10 ^ 12 + 1001 / 10 ^ 15 := by
    have hPr : (0 : ℝ) < P := by exact_mod_cast hP0
    have hval : ((u * Q : ℕ) : ℝ) / 10 ^ 12 = (u : ℝ) / P := by
      have : ((u * Q : ℕ) : ℝ) * P = u * 10 ^ 12 := by exact_mod_cast hTP
      rw [div_eq_div_iff (by positivity) hPr.ne', this]
    rcases hr : u - P with _ | r
    · refine ⟨0, fun _ => rfl, fun r h => (by omega), by norm_num, ?_⟩
      have : u = P := by omega
      unfold log12
      rw [hval, this, div_self hPr.ne', Real.log_one]
      norm_num
    · have hr9 : r < 9 := by omega
      obtain ⟨v, k1, k2, k3⟩ := logTable_near hr9 hcol
      have harg : ((u * Q : ℕ) : ℝ) / 10 ^ 12 = 1 + (tableArg r col : ℚ) := by
        rw [hval]
        unfold tableArg
        push_cast
        have hPc' : (10 : ℝ) ^ (col + 1) = P := by exact_mod_cast hp
        rw [hPc']
        have : (u : ℝ) = P + (r + 1) := by exact_mod_cast (by omega : u = P + (r + 1))
        rw [this]
        field_simp
      refine ⟨v, fun h => (by omega), fun r' h => ?_, ?_, ?_, ?_⟩
      · have : r = r' := by omega
        exact this ▸ ⟨hr9, by omega, k1⟩
      · have hle : Real.log (1 + (tableArg r col : ℚ)) ≤ (tableArg r col : ℚ) := by
          have hpos : (0 : ℝ) < 1 + (tableArg r col : ℚ) := by
            have : (0 : ℚ) ≤ tableArg r col := by unfold tableArg; positivity
            have : (0 : ℝ) ≤ (tableArg r col : ℚ) := by exact_mod_cast this
            linarith
          have := Real.log_le_sub_one_of_pos hpos
          linarith
        have hle2 : (tableArg r col : ℚ) ≤ 9 / 10 := by
          unfold tableArg
          rw [div_le_div_iff₀ (by positivity) (by norm_num)]
          have e1 : (r : ℚ) + 1 ≤ 9 := by exact_mod_cast hr9
          have e2 : (10 : ℚ) ≤ 10 ^ (col + 1) := by
            rw [pow_succ]; have : (1 : ℚ) ≤ 10 ^ col := by exact_mod_cast hc1
            linarith
          nlinarith
        have hle3 : ((tableArg r col : ℚ) : ℝ) ≤ 9 / 10 := by
          have := (Rat.cast_le (K := ℝ)).mpr hle2; push_cast at this; exact this
        have : (v : ℝ) ≤ 10 ^ 12 := by
          have := (div_le_iff₀ (by positivity)).1 (k2.trans (by linarith : _ ≤ (1 : ℝ)))
          linarith
        exact_mod_cast this
      · unfold log12; rw [harg]; exact k2
      · unfold log12; rw [harg]; exact k3
  refine ⟨u * Q, lx, ?_, hT12, hTS, by rw [hTP]; omega, hl0, hl1, hl2⟩
  have e1 : (Decimal.mk a 12 false).div ⟨t, 12, false⟩ = .ok ⟨S, 12, false⟩ := div_ok.2 ⟨ha, h12, ht, by rw [← hS]; rfl⟩
  have e2 : (Decimal.mk S 12 false).mul ⟨P, 12, false⟩ = .ok ⟨u, 12, false⟩ := mul_ok.2 ⟨hSPb, h12, by rw [hu]; rfl⟩
  have e3 : (Decimal.mk u 12 false).div ⟨P, 12, false⟩ = .ok ⟨u * Q, 12, false⟩ :=
    div_ok.2 ⟨hub, h12, hP0.ne', by rw [← hT]; rfl⟩
  have e4 : (Decimal.mk (u * Q) 12 false).mul ⟨P, 12, false⟩ = .ok ⟨u, 12, false⟩ :=
    mul_ok.2 ⟨hTPb, h12, by simp only [hT1]; rfl⟩
  have e5 : (Decimal.mk u 12 false).sub ⟨P, 12, false⟩ = .ok ⟨u - P, 12, false⟩ := sub_nn_le 12 huP
  have e0 : pow10 (col + 1) = .ok P := by rw [pow10_le (by omega), hp]
  have e6 : u - P < u64Size := by have : 100 < u64Size := by decide
                                  omega
  exact logTableValue_of e1 e0 e2 e3 e4 e5 e6 hlx hlx'

theorem log12_div {S T S' : ℕ} (hT : 0 < T) (hS : 0 < S) (h : S * 10 ^ 12 / T = S') (h1 : 10 ^ 12 ≤ S') :
    log12 T + log12 S' ≤ log12 S ∧ log12 S ≤ log12 T + log12 S' + 1 / 10 ^ 12 := by
  have hTr : (0 : ℝ) < T := by exact_mod_cast hT
  have hSr : (0 : ℝ) < S := by exact_mod_cast hS
  have hS' : (10 : ℝ) ^ 12 ≤ S' := by exact_mod_cast h1
  have hS'r : (0 : ℝ) < S' := lt_of_lt_of_le (by positivity) hS'
  have a1 : S' * T ≤ S * 10 ^ 12 := by rw [← h]; exact Nat.div_mul_le_self _ _
  have a2 : S * 10 ^ 12 < (S' + 1) * T := by
    have h0 := lt_next (S * 10 ^ 12) hT; rwa [h] at h0
  have b1 : (S' : ℝ) * T ≤ S * 10 ^ 12 := by exact_mod_cast a1
  have b2 : (S : ℝ) * 10 ^ 12 ≤ (S' + 1) * T := by exact_mod_cast a2.le
  unfold log12
  have p12 : (0 : ℝ) < 10 ^ 12 := by positivity
  rw [← Real.log_mul (by positivity) (by positivity)]
  have e : Real.log ((T : ℝ) / 10 ^ 12 * (S' / 10 ^ 12)) + 1 / 10 ^ 12 ≥ Real.log ((T : ℝ) / 10 ^ 12 * ((S' + 1) / 10 ^ 12)) := by
    have e1 : (T : ℝ) / 10 ^ 12 * ((S' + 1) / 10 ^ 12) = (T / 10 ^ 12 * (S' / 10 ^ 12)) * (1 + 1 / S') := by
      field_simp
    have e2 := Real.log_le_sub_one_of_pos (x := 1 + 1 / (S' : ℝ)) (by positivity)
    have e3 : 1 / (S' : ℝ) ≤ 1 / 10 ^ 12 := one_div_le_one_div_of_le p12 hS'
    rw [e1, Real.log_mul (x := (T : ℝ) / 10 ^ 12 * (S' / 10 ^ 12)) (by positivity) (by positivity)]
    linarith
  constructor
  · apply Real.log_le_log (by positivity)
    rw [div_mul_div_comm, div_le_div_iff₀ (by positivity) p12]
    nlinarith
  · refine le_trans (Real.log_le_log (by positivity) ?_) e
    rw [div_mul_div_comm, div_le_div_iff₀ p12 (by positivity)]
    nlinarith

/-- All lookups from a column on. -/
theorem lnLoop_near : ∀ (n col a t acc S : ℕ), col + n = 10 → t ≠ 0 → a * 10 ^ 12 < u128Size → a * 10 ^ 12 / t = S →
    10 ^ 12 ≤ S → S * 10 ^ col < 10 ^ 12 * 10 ^ col + 10 ^ 12 → acc + n * 10 ^ 12 < 10 ^ 38 →
    ∃ sum, lnLoop n col ⟨a, 12, false⟩ ⟨t, 12, false⟩ acc = .ok (acc + sum) ∧ sum ≤ n * 10 ^ 12 ∧
      (sum : ℝ) / 10 ^ 12 ≤ log12 S + n / 10 ^ 15 ∧ log12 S ≤ (sum : ℝ) / 10 ^ 12 + 1 / 10 ^ 10 + n * 2001 / 10 ^ 15 := by
  intro n
  induction n with
  | zero =>
    intro col a t acc S hc _ _ _ h1 h2 _
    refine ⟨0, rfl, by omega, ?_, ?_⟩
    · have : (1 : ℝ) ≤ (S : ℝ) / 10 ^ 12 := by rw [le_div_iff₀ (by positivity)]; norm_num; exact_mod_cast h1
      have := Real.log_nonneg this
      unfold log12
      push_cast
      linarith
    · have hcol : col = 10 := by omega
      subst hcol
      have h3 : (S : ℝ) / 10 ^ 12 ≤ 1 + 1 / 10 ^ 10 := by
        have : (S : ℝ) * 10 ^ 10 ≤ 10 ^ 12 * 10 ^ 10 + 10 ^ 12 := by exact_mod_cast h2.le
        rw [div_le_iff₀ (by positivity)]
        linarith
      have h0 : (0 : ℝ) < (S : ℝ) / 10 ^ 12 := by
        have : (10 : ℝ) ^ 12 ≤ S := by exact_mod_cast h1
        have : (0 : ℝ) < S := lt_of_lt_of_le (by positivity) this
        positivity
      have := Real.log_le_sub_one_of_pos h0
      unfold log12
      push_cast
      linarith
  | succ n ih =>
    intro col a t acc S hc ht ha hS h1 h2 hacc
    obtain ⟨T, lx, e, t1, t2, t3, l0, l1, l2⟩ := logTableValue_step (by omega) ht ha hS h1 h2
    have hT0 : 0 < T := lt_of_lt_of_le (by norm_num) t1
    obtain ⟨S', hS'⟩ : ∃ S', S * 10 ^ 12 / T = S' := ⟨_, rfl⟩
    have s1 : 10 ^ 12 ≤ S' := by
      rw [← hS', Nat.le_div_iff_mul_le hT0, mul_comm]
      exact Nat.mul_le_mul_right _ t2
    have s2 : S' * 10 ^ (col + 1) < 10 ^ 12 * 10 ^ (col + 1) + 10 ^ 12 := by
      have a1 : S' * T ≤ S * 10 ^ 12 := by rw [← hS']; exact Nat.div_mul_le_self _ _
      generalize 10 ^ (col + 1) = P at *
      by_contra hh
      have hh : 10 ^ 12 * P + 10 ^ 12 ≤ S' * P := by omega
      have b1 : (10 ^ 12 * P + 10 ^ 12) * T ≤ S' * P * T := Nat.mul_le_mul_right _ hh
      have b2 : S' * T * P ≤ S * 10 ^ 12 * P := Nat.mul_le_mul_right _ a1
      have b3 : S * P * 10 ^ 12 < (T * P + 10 ^ 12) * 10 ^ 12 := (Nat.mul_lt_mul_right (by norm_num)).2 t3
      nlinarith
    have hSle : S ≤ 2 * 10 ^ 12 := by
      have hc1 : 1 ≤ 10 ^ col := Nat.one_le_pow _ _ (by norm_num)
      by_contra hh
      have : (2 * 10 ^ 12 + 1) * 10 ^ col ≤ S * 10 ^ col := Nat.mul_le_mul_right _ (by omega)
      have : 10 ^ 12 * 1 ≤ 10 ^ 12 * 10 ^ col := Nat.mul_le_mul_left _ hc1
      omega
    have hsb : S * 10 ^ 12 < u128Size :=
      lt_of_le_of_lt (Nat.mul_le_mul_right _ hSle) (lt_of_le_of_lt (by norm_num) u128_big)
    obtain ⟨sum, k1, k2, k3, k4⟩ := ih (col + 1) S T (acc + lx) S' (by omega) hT0.ne' hsb hS' s1 s2 (by omega)
    obtain ⟨q1, q2⟩ := log12_div hT0 (lt_of_lt_of_le (by norm_num) h1) hS' s1
    refine ⟨lx + sum, ?_, by omega, ?_, ?_⟩
    · unfold lnLoop
      rw [e]
      simp only [PoolMath.bind_eq]
      have : checkedAdd acc lx = .ok (acc + lx) := checkedAdd_ok.2 ⟨lt_trans (by omega) u128_big, rfl⟩
      rw [this]
      simp only [PoolMath.bind_eq]
      rw [k1, add_assoc]
    · push_cast
      have e1 : ((lx : ℝ) + sum) / 10 ^ 12 = lx / 10 ^ 12 + sum / 10 ^ 12 := add_div _ _ _
      have e2 : ((n : ℝ) + 1) / 10 ^ 15 = n / 10 ^ 15 + 1 / 10 ^ 15 := add_div _ _ _
      rw [e1, e2]
      linarith
    · push_cast
      have e1 : ((lx : ℝ) + sum) / 10 ^ 12 = lx / 10 ^ 12 + sum / 10 ^ 12 := add_div _ _ _
      have e2 : ((n : ℝ) + 1) * 2001 / 10 ^ 15 = n * 2001 / 10 ^ 15 + 2001 / 10 ^ 15 := by ring
      rw [e1, e2]
      linarith

end Hmm.Decimal
