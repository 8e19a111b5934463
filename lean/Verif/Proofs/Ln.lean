import Verif.Proofs.LnLoop
import Verif.Props.DecimalArith

/-
`Decimal::ln`: accuracy, given the bit length.
-/

namespace Hmm.Decimal

/-- The steps of `ln`. -/
theorem ln_of {fl : FloatEnv} {d so bl two6 bl6 mx0 mx p r12 r : Decimal} {sum : ℕ} (h0 : d.isNegative = false)
    (e1 : d.toComputeScale = .ok so) (e2 : d.bitLength fl = .ok bl) (e9 : (fromInt 2).toScale 6 = .ok two6)
    (e3 : bl.toScale 6 = .ok bl6)
    (e4 : two6.powDec bl6 = .ok mx0) (e5 : mx0.toComputeScale = .ok mx) (e6 : lnLoop 10 0 so mx 0 = .ok sum)
    (e7 : (new 693147180559 12 false).mul bl = .ok p) (e8 : p.add (new sum 12 so.negative) = .ok r12)
    (e : r12.toScale d.scale = .ok r) : d.ln fl = .ok r := by
  unfold ln
  rw [h0, if_neg (by simp), e1, PoolMath.bind_eq]
  rw [e2, PoolMath.unwrap_eq, PoolMath.bind_eq, e9, PoolMath.bind_eq, e3, PoolMath.bind_eq, e4, PoolMath.bind_eq, e5,
    PoolMath.bind_eq, e6, PoolMath.bind_eq]
  dsimp only
  rw [e7, PoolMath.bind_eq, e8, PoolMath.unwrap_eq, PoolMath.bind_eq, e]

/-- The power of two `ln` divides by, as a check. -/
def powCheck (two bl : R Decimal) (v : ℕ) (n : Bool) : Bool :=
  match two, bl with
  | .ok t, .ok b =>
    match t.powDec b with
    | .ok c =>
      match c.toComputeScale with
      | .ok m => m.scale == 12 && !m.negative && (if n then m.value * 2 ^ v == 10 ^ 12 else m.value == 2 ^ v * 10 ^ 12)
      | _ => false
    | _ => false
  | _, _ => false

theorem pow_up : ∀ v < 48, powCheck ((fromInt 2).toScale 6) ((Decimal.mk v 0 false).toScale 6) v false = true := by
  decide +kernel

theorem pow_down : ∀ v < 7, powCheck ((fromInt 2).toScale 6) ((Decimal.mk v 0 true).toScale 6) v true = true := by
  decide +kernel

theorem powCheck_ok {two bl : R Decimal} {v : ℕ} {n : Bool} (h : powCheck two bl v n = true) : ∃ t b c M, two = .ok t ∧
    bl = .ok b ∧ t.powDec b = .ok c ∧ c.toComputeScale = .ok ⟨M, 12, false⟩ ∧
    (if n then M * 2 ^ v = 10 ^ 12 else M = 2 ^ v * 10 ^ 12) := by
  unfold powCheck at h
  split at h
  · rename_i t b
    split at h
    · rename_i c h3
      split at h
      · rename_i m h4
        obtain ⟨mv, ms, mn⟩ := m
        simp only [Bool.and_eq_true, beq_iff_eq, Bool.not_eq_true'] at h
        obtain ⟨⟨rfl, rfl⟩, h⟩ := h
        refine ⟨t, b, c, mv, rfl, rfl, h3, h4, ?_⟩
        cases n <;> simpa using h
      · cases h
    · cases h
  · cases h

/-- For exponents from -6 to 47 the power of two is exact. -/
theorem pow_two {bl : Decimal} {k : ℤ} (hs : bl.scale = 0) (hk : bl.toRat = k) (h1 : -6 ≤ k) (h2 : k < 48) :
    ∃ t b c M, (fromInt 2).toScale 6 = .ok t ∧ bl.toScale 6 = .ok b ∧ t.powDec b = .ok c ∧
      c.toComputeScale = .ok ⟨M, 12, false⟩ ∧ (M : ℝ) = 2 ^ k * 10 ^ 12 := by
  obtain ⟨v, s, n⟩ := bl
  simp only at hs
  subst hs
  cases n
  · rw [toRat_mk, pow_zero, div_one] at hk
    have hv : (v : ℤ) = k := by exact_mod_cast hk
    obtain ⟨t, b, c, M, a1, a2, a3, a4, a5⟩ := powCheck_ok (pow_up v (by omega))
    refine ⟨t, b, c, M, a1, a2, a3, a4, ?_⟩
    simp only [Bool.false_eq_true, if_false] at a5
    rw [← hv, zpow_natCast]
    exact_mod_cast a5
  · rw [toRat_mk_neg, pow_zero, div_one] at hk
    have hv : (v : ℤ) = -k := by have : ((-(v : ℤ) : ℤ) : ℚ) = k := by push_cast; exact hk
                                 have : -(v : ℤ) = k := by exact_mod_cast this
                                 omega
    obtain ⟨t, b, c, M, a1, a2, a3, a4, a5⟩ := powCheck_ok (pow_down v (by omega))
    refine ⟨t, b, c, M, a1, a2, a3, a4, ?_⟩
    simp only [if_true] at a5
    have : k = -(v : ℤ) := by omega
    rw [this, zpow_neg, zpow_natCast]
    have h5 : (M : ℝ) * 2 ^ v = 10 ^ 12 := by exact_mod_cast a5
    field_simp
    linarith

/-- The number to twelve places. -/
theorem compute_scale {d : Decimal} (hn : d.negative = false) (hs : d.scale ≤ 36)
    (hhi : (d.toRat : ℝ) < 2 ^ (48 : ℕ)) :
    ∃ v, d.toComputeScale = .ok ⟨v, 12, false⟩ ∧ (v : ℝ) ≤ d.toRat * 10 ^ 12 ∧ (d.toRat : ℝ) * 10 ^ 12 < v + 1 ∧
      v < 2 ^ 48 * 10 ^ 12 := by
  obtain ⟨w, s, n⟩ := d
  simp only at hn hs
  subst hn
  rw [toRat_mk] at hhi ⊢
  have big := u128_big
  unfold toComputeScale computeScale
  rcases Nat.lt_or_ge 12 s with h | h
  · have hq : (0 : ℝ) < 10 ^ (s - 12) := by positivity
    have e : (10 : ℝ) ^ s = 10 ^ 12 * 10 ^ (s - 12) := by rw [← pow_add]; congr 1; omega
    have ev : (((w : ℚ) / 10 ^ s : ℚ) : ℝ) * 10 ^ 12 = (w : ℝ) / 10 ^ (s - 12) := by
      push_cast; rw [e]; field_simp
    refine ⟨w / 10 ^ (s - 12), toScale_ok.2 (.inl ⟨h, ?_, rfl⟩), ?_, ?_, ?_⟩
    · exact lt_of_le_of_lt (Nat.pow_le_pow_right (by norm_num) (by simp only; omega)) big
    · rw [ev]
      exact_mod_cast Nat.cast_div_le (α := ℝ) (m := w) (n := 10 ^ (s - 12))
    · rw [ev, div_lt_iff₀ hq]
      exact_mod_cast lt_next w (pow10_pos (s - 12))
    · rw [Nat.div_lt_iff_lt_mul (pow10_pos _)]
      have : (w : ℝ) / 10 ^ (s - 12) < 2 ^ 48 * 10 ^ 12 := by rw [← ev]; nlinarith
      rw [div_lt_iff₀ hq] at this
      exact_mod_cast this
  · have e : (10 : ℝ) ^ 12 = 10 ^ s * 10 ^ (12 - s) := by rw [← pow_add]; congr 1; omega
    have ev : (((w : ℚ) / 10 ^ s : ℚ) : ℝ) * 10 ^ 12 = (w : ℝ) * 10 ^ (12 - s) := by
      push_cast; rw [e]; field_simp
    have hlt : w * 10 ^ (12 - s) < 2 ^ 48 * 10 ^ 12 := by
      have : (w : ℝ) * 10 ^ (12 - s) < 2 ^ 48 * 10 ^ 12 := by rw [← ev]; nlinarith
      exact_mod_cast this
    refine ⟨w * 10 ^ (12 - s), toScale_ok.2 (.inr ⟨h, ?_, lt_trans hlt (lt_of_le_of_lt (by norm_num) big), rfl⟩), ?_, ?_, hlt⟩
    · exact lt_of_le_of_lt (Nat.pow_le_pow_right (by norm_num) (by simp only; omega)) big
    · rw [ev]; push_cast; exact le_refl _
    · rw [ev]; push_cast; linarith

/-- Rescaling changes a decimal by less than a unit of the last place. -/
theorem toScale_near {d : Decimal} {s : ℕ} (h12 : d.scale = 12) (hs : s ≤ 36) (hv : d.value < 10 ^ 14) :
    ∃ r, d.toScale s = .ok r ∧ r.scale = s ∧ |r.toRat - d.toRat| ≤ 1 / 10 ^ s := by
  obtain ⟨v, sc, n⟩ := d
  simp only at h12 hv
  subst h12
  have big := u128_big
  rcases Nat.lt_or_ge s 12 with h | h
  · have hok := toScale_ok (d := ⟨v, 12, n⟩) (s := s) (c := ⟨v / 10 ^ (12 - s), s, n⟩)
    refine ⟨_, hok.2 (.inl ⟨h, lt_of_le_of_lt (Nat.pow_le_pow_right (by norm_num) (by simp only; omega)) big, rfl⟩), rfl, ?_⟩
    have hp : (0 : ℚ) < 10 ^ s := by positivity
    have hq : (0 : ℚ) < 10 ^ (12 - s) := by positivity
    have e : (10 : ℚ) ^ 12 = 10 ^ s * 10 ^ (12 - s) := by rw [← pow_add]; congr 1; omega
    have k1 : ((v / 10 ^ (12 - s) : ℕ) : ℚ) ≤ v / 10 ^ (12 - s) := by
      exact_mod_cast Nat.cast_div_le (α := ℚ) (m := v) (n := 10 ^ (12 - s))
    have k2 : (v : ℚ) / 10 ^ (12 - s) ≤ (v / 10 ^ (12 - s) : ℕ) + 1 := by
      rw [div_le_iff₀ hq]
      exact_mod_cast (lt_next v (pow10_pos (12 - s))).le
    have ev : (v : ℚ) / 10 ^ 12 = v / 10 ^ (12 - s) / 10 ^ s := by rw [e, div_div, mul_comm]
    have m1 : ((v / 10 ^ (12 - s) : ℕ) : ℚ) / 10 ^ s ≤ v / 10 ^ 12 := by
      rw [ev]; exact div_le_div_of_nonneg_right k1 hp.le
    have m2 : (v : ℚ) / 10 ^ 12 ≤ ((v / 10 ^ (12 - s) : ℕ) : ℚ) / 10 ^ s + 1 / 10 ^ s := by
      rw [ev, ← add_div]; exact div_le_div_of_nonneg_right k2 hp.le
    cases n
    · rw [toRat_mk, toRat_mk, abs_le]; constructor <;> linarith
    · rw [toRat_mk_neg, toRat_mk_neg, abs_le]; constructor <;> linarith
  · have hb : v * 10 ^ (s - 12) < u128Size := by
      have h1 : v * 10 ^ (s - 12) ≤ 10 ^ 14 * 10 ^ 24 :=
        Nat.mul_le_mul hv.le (Nat.pow_le_pow_right (by norm_num) (by omega))
      exact lt_of_le_of_lt (h1.trans (by norm_num)) big
    have hok := toScale_ok (d := ⟨v, 12, n⟩) (s := s) (c := ⟨v * 10 ^ (s - 12), s, n⟩)
    have hr := hok.2 (.inr ⟨h, lt_of_le_of_lt (Nat.pow_le_pow_right (by norm_num) (by simp only; omega)) big, hb, rfl⟩)
    refine ⟨_, hr, rfl, ?_⟩
    rw [((C06_up h).1 _ hr).2.2, sub_self, abs_zero]
    positivity

/-- C98 for a given bit length. -/
theorem ln_near {fl : FloatEnv} {d bl : Decimal} {k : ℤ} (hn : d.negative = false) (hs : d.scale ≤ 36) (h1 : -6 ≤ k) (h2 : k < 48)
    (hlo : (2 : ℝ) ^ k ≤ d.toRat) (hhi : (d.toRat : ℝ) < 2 ^ (k + 1)) (hb : d.bitLength fl = .ok bl) (hbs : bl.scale = 0)
    (hbk : bl.toRat = k) :
    ∃ r, d.ln fl = .ok r ∧ r.scale = d.scale ∧ |(r.toRat : ℝ) - Real.log d.toRat| ≤ 3 / 10 ^ 10 + 1 / 10 ^ d.scale := by
  obtain ⟨t, b, c, M, a1, a2, a3, a4, hM⟩ := pow_two hbs hbk h1 h2
  have hpk : (0 : ℝ) < 2 ^ k := by positivity
  have h64 : (1 : ℝ) / 64 ≤ 2 ^ k := by
    have := zpow_le_zpow_right₀ (by norm_num : (1 : ℝ) ≤ 2) h1
    norm_num at this ⊢
    exact this
  have h48 : (2 : ℝ) ^ (k + 1) ≤ 2 ^ (48 : ℕ) := by
    have := zpow_le_zpow_right₀ (by norm_num : (1 : ℝ) ≤ 2) (by omega : k + 1 ≤ 48)
    exact_mod_cast this
  obtain ⟨v, e1, v1, v2, v3⟩ := compute_scale hn hs (lt_of_lt_of_le hhi h48)
  have p12 : (0 : ℝ) < 10 ^ 12 := by positivity
  have hMr : (0 : ℝ) < M := by rw [hM]; positivity
  have hM0 : 0 < M := by exact_mod_cast hMr
  have hMv : M ≤ v := by
    have : (M : ℝ) < v + 1 := lt_of_le_of_lt (by rw [hM]; exact mul_le_mul_of_nonneg_right hlo p12.le) v2
    have : M < v + 1 := by exact_mod_cast this
    omega
  have hvM : v < 2 * M := by
    have : (v : ℝ) < 2 * M := by
      refine lt_of_le_of_lt v1 ?_
      rw [hM, zpow_add₀ (by norm_num)] at *
      norm_num at hhi ⊢
      linarith
    exact_mod_cast this
  obtain ⟨S, hS⟩ : ∃ S, v * 10 ^ 12 / M = S := ⟨_, rfl⟩
  have S1 : 10 ^ 12 ≤ S := by
    rw [← hS, Nat.le_div_iff_mul_le hM0, mul_comm]; exact Nat.mul_le_mul_right _ hMv
  have S2 : S < 2 * 10 ^ 12 := by
    rw [← hS, Nat.div_lt_iff_lt_mul hM0]
    have := (Nat.mul_lt_mul_right (by norm_num : 0 < 10 ^ 12)).2 hvM
    calc v * 10 ^ 12 < 2 * M * 10 ^ 12 := this
      _ = 2 * 10 ^ 12 * M := by ring
  have hvb : v * 10 ^ 12 < u128Size :=
    lt_of_lt_of_le ((Nat.mul_lt_mul_right (by norm_num)).2 v3) (by unfold u128Size; norm_num)
  obtain ⟨sum, l1, l2, l3, l4⟩ := lnLoop_near 10 0 v M 0 S rfl hM0.ne' hvb hS S1 (by rw [pow_zero, mul_one, mul_one]; omega)
    (by norm_num)
  rw [zero_add] at l1
  obtain ⟨q1, q2⟩ := log12_div hM0 (lt_of_lt_of_le hM0 hMv) hS S1
  -- the sum
  obtain ⟨bv, bs, bn⟩ := bl
  simp only at hbs
  subst hbs
  have hbv : bv < 48 := by
    have : |(Decimal.mk bv 0 bn).toRat| = bv := by rw [abs_toRat]; unfold Decimal.mag; simp
    rw [hbk] at this
    have h3 : |(k : ℚ)| < 48 := by
      rw [abs_lt]; constructor
      · have : (-6 : ℚ) ≤ k := by exact_mod_cast h1
        linarith
      · exact_mod_cast h2
    rw [this] at h3
    exact_mod_cast h3
  have h1u : 10 ^ 0 < u128Size := by decide
  have hpb : 693147180559 * bv < 10 ^ 14 - 10 ^ 13 - 1 := by
    have := Nat.mul_le_mul_left 693147180559 (by omega : bv ≤ 47)
    omega
  have e7 := mul_ok.2 ⟨(lt_trans (lt_trans hpb (by norm_num)) u128_big : (new 693147180559 12 false).value *
    (Decimal.mk bv 0 bn).value < u128Size), (h1u : 10 ^ (Decimal.mk bv 0 bn).scale < u128Size), rfl⟩
  obtain ⟨p, hp⟩ : ∃ p, p = Decimal.mk (693147180559 * bv / 10 ^ 0) 12 (!(false == bn)) := ⟨_, rfl⟩
  have e7' : (new 693147180559 12 false).mul ⟨bv, 0, bn⟩ = .ok p := by rw [hp]; exact e7
  have hpv : p.value = 693147180559 * bv := by rw [hp]; simp
  have hps : p.scale = 12 := by rw [hp]
  have hpr : p.toRat = 693147180559 / 10 ^ 12 * k := by
    rw [← hbk, hp]
    cases bn
    · have : (!(false == false)) = false := rfl
      rw [this, toRat_mk, toRat_mk, pow_zero, Nat.div_one]; push_cast; ring
    · have : (!(false == true)) = true := rfl
      rw [this, toRat_mk_neg, toRat_mk_neg, pow_zero, Nat.div_one]; push_cast; ring
  obtain ⟨r12, e8⟩ : ∃ r12, p.add (new sum 12 false) = .ok r12 := by
    rcases hh : p.add (new sum 12 false) with er | r
    · rcases (C01_add_fails _ _ _).1 hh with ⟨h, _⟩ | ⟨_, _, h, _⟩
      · exact absurd hps h
      · rw [hpv] at h
        simp only [new] at h
        have : 2 ^ 128 < 10 ^ 38 := by omega
        norm_num at this
    · exact ⟨r, rfl⟩
  obtain ⟨_, rs, rr, _⟩ := C01_add_exact e8
  rw [hps] at rs
  have hsum : (new sum 12 false).toRat = (sum : ℚ) / 10 ^ 12 := toRat_mk _ _
  rw [hpr, hsum] at rr
  have hrv : r12.value < 10 ^ 14 := by
    obtain ⟨_, _, _, h4, _⟩ := add_ok.1 e8
    have hp' : p.sval.natAbs = 693147180559 * bv := by rw [← hpv]; unfold sval; split <;> simp
    have hr' : r12.sval.natAbs = r12.value := by unfold sval; split <;> simp
    have hs' : (new sum 12 false).sval = sum := by unfold sval new; simp
    rw [hs'] at h4
    omega
  obtain ⟨r, er, ers, err⟩ := toScale_near rs hs hrv
  refine ⟨r, ln_of ?_ e1 hb a1 a2 a3 a4 l1 e7' e8 er, ers, ?_⟩
  · unfold isNegative; rw [hn]; rfl
  -- error
  obtain ⟨n1, n2⟩ := ln2_near
  have hlM : log12 M = k * Real.log 2 := by
    unfold log12
    rw [hM, mul_div_assoc, div_self p12.ne', mul_one, Real.log_zpow]
  have hv64 : (10 : ℝ) ^ 12 / 64 ≤ v := by
    have : (M : ℝ) ≤ v := by exact_mod_cast hMv
    rw [hM] at this
    nlinarith
  have hvr : (0 : ℝ) < v := lt_of_lt_of_le (by positivity) hv64
  have hdr : (0 : ℝ) < d.toRat := lt_of_lt_of_le hpk hlo
  have w1 : log12 v ≤ Real.log d.toRat := by
    unfold log12
    apply Real.log_le_log (by positivity)
    rw [div_le_iff₀ p12]; exact v1
  have w2 : Real.log d.toRat ≤ log12 v + 64 / 10 ^ 12 := by
    have a : (d.toRat : ℝ) ≤ v / 10 ^ 12 * (1 + 1 / v) := by
      have : (v : ℝ) / 10 ^ 12 * (1 + 1 / v) = (v + 1) / 10 ^ 12 := by field_simp
      rw [this, le_div_iff₀ p12]; exact v2.le
    have b := Real.log_le_log hdr a
    rw [Real.log_mul (by positivity) (by positivity)] at b
    have c := Real.log_le_sub_one_of_pos (x := 1 + 1 / (v : ℝ)) (by positivity)
    have d : 1 / (v : ℝ) ≤ 64 / 10 ^ 12 := by
      rw [div_le_div_iff₀ hvr p12]; linarith
    unfold log12
    linarith
  have hk1 : (-6 : ℝ) ≤ k := by exact_mod_cast h1
  have hk2 : (k : ℝ) ≤ 47 := by exact_mod_cast (by omega : k ≤ 47)
  have w3 : |(r12.toRat : ℝ) - Real.log d.toRat| ≤ 3 / 10 ^ 10 := by
    rw [rr]
    push_cast
    rw [hlM] at q1 q2
    have z1 : (k : ℝ) * (Real.log 2 - 693147180559 / 10 ^ 12) ≤ 47 / 10 ^ 12 := by
      have : 0 ≤ Real.log 2 - 693147180559 / 10 ^ 12 := by linarith
      have : Real.log 2 - 693147180559 / 10 ^ 12 ≤ 1 / 10 ^ 12 := by linarith
      nlinarith
    have z2 : -(6 / 10 ^ 12) ≤ (k : ℝ) * (Real.log 2 - 693147180559 / 10 ^ 12) := by
      have : 0 ≤ Real.log 2 - 693147180559 / 10 ^ 12 := by linarith
      have : Real.log 2 - 693147180559 / 10 ^ 12 ≤ 1 / 10 ^ 12 := by linarith
      nlinarith
    rw [_root_.abs_le]
    norm_num at l3 l4 z1 z2 q1 q2 w1 w2 ⊢
    constructor <;> linarith
  have er' : |(r.toRat : ℝ) - r12.toRat| ≤ 1 / 10 ^ d.scale := by
    have := (Rat.cast_le (K := ℝ)).mpr err
    push_cast at this
    exact this
  have := abs_sub_le (r.toRat : ℝ) r12.toRat (Real.log d.toRat)
  linarith

end Hmm.Decimal
