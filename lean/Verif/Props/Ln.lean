import Verif.Spec.Ln
import Verif.Proofs.LnFloat
import Verif.Tests.FloatSample

/-
C98: the natural logarithm is accurate.
-/

namespace Hmm.Decimal

open F64

/-- C98, whatever the floating-point step does: if the bit length it leads to is the right one, `2^k ≤ d < 2^(k+1)`, the
logarithm is accurate. -/
theorem C98_given_bits {fl : FloatEnv} {d bl : Decimal} {k : ℤ} (hn : d.negative = false) (hs : d.scale ≤ 36) (h1 : -6 ≤ k)
    (h2 : k < 48) (hlo : (2 : ℝ) ^ k ≤ d.toRat) (hhi : (d.toRat : ℝ) < 2 ^ (k + 1)) (hb : d.bitLength fl = .ok bl)
    (hbs : bl.scale = 0) (hbk : bl.toRat = k) : ∃ r, d.ln fl = .ok r ∧ LnNear d r := by
  obtain ⟨r, e, a, b⟩ := ln_near hn hs h1 h2 hlo hhi hb hbs hbk
  exact ⟨r, e, a, b⟩

/-- C98, the bit length: an accurate library gives the right one, clear of the powers of two. -/
theorem C98_bit_length {m : LibM} (hm : m.Accurate) {d : Decimal} {k : ℤ} (hn : d.negative = false) (hs : d.scale ≤ 36)
    (hv : d.value < u128Size) (h1 : -48 ≤ k) (h2 : k < 48) (hd : Between k d) :
    ∃ bl, d.bitLength (floatLog m) = .ok bl ∧ bl.scale = 0 ∧ bl.toRat = k :=
  bitLength_near hm hn hs hv h1 h2 hd.1 hd.2

/-- C98, the part that holds: for decimals from 1/64 up to `2^48`, clear of the powers of two, the logarithm is accurate with
any accurate math library.  Missing: smaller decimals (`C98_small_panics`, `C98_small_wrong`), decimals just below a power of
two (`C98_below_power`). -/
theorem C98_ln_partial {m : LibM} (hm : m.Accurate) {d : Decimal} {k : ℤ} (hn : d.negative = false) (hs : d.scale ≤ 36)
    (hv : d.value < u128Size) (h1 : -6 ≤ k) (h2 : k < 48) (hd : Between k d) :
    ∃ r, d.ln (floatLog m) = .ok r ∧ LnNear d r := by
  obtain ⟨bl, hb, hbs, hbk⟩ := C98_bit_length hm hn hs hv (by omega) h2 hd
  have pk : (0 : ℝ) < 2 ^ k := by positivity
  have pk1 : (0 : ℝ) < 2 ^ (k + 1) := by positivity
  refine C98_given_bits hn hs h1 h2 ?_ ?_ hb hbs hbk
  · have : (2 : ℝ) ^ k * 1 ≤ 2 ^ k * (1 + 1 / 2 ^ 40) := mul_le_mul_of_nonneg_left (by norm_num) pk.le
    linarith [hd.1]
  · have : (2 : ℝ) ^ (k + 1) * (1 - 1 / 2 ^ 40) < 2 ^ (k + 1) * 1 := mul_lt_mul_of_pos_left (by norm_num) pk1
    linarith [hd.2]

/-- Decimals with at most six places below `2^20` are clear of the powers of two, unless they are one. -/
theorem between_short {d : Decimal} {k : ℤ} (hn : d.negative = false) (hs : d.scale ≤ 6) (h1 : -6 ≤ k) (h2 : k < 20)
    (hlo : (2 : ℝ) ^ k < d.toRat) (hhi : (d.toRat : ℝ) < 2 ^ (k + 1)) : Between k d := by
  obtain ⟨v, s, n⟩ := d
  simp only at hn hs
  subst hn
  have hDr : (((Decimal.mk v s false).toRat : ℚ) : ℝ) = (v : ℝ) / 10 ^ s := by rw [toRat_mk]; push_cast; rfl
  unfold Between
  rw [hDr] at hlo hhi ⊢
  have p10 : (0 : ℝ) < 10 ^ s := by positivity
  have ps : (10 : ℝ) ^ s ≤ 10 ^ 6 := pow_le_pow_right₀ (by norm_num) hs
  -- sixty-four times every power is whole
  obtain ⟨j, hj⟩ : ∃ j : ℕ, k = (j : ℤ) - 6 := ⟨(k + 6).toNat, by omega⟩
  have hj26 : j < 26 := by omega
  have e1 : (2 : ℝ) ^ k = 2 ^ j / 64 := by
    rw [hj, zpow_sub₀ (by norm_num), zpow_natCast]; norm_num
  have e2 : (2 : ℝ) ^ (k + 1) = 2 * 2 ^ j / 64 := by rw [zpow_add₀ (by norm_num), e1]; norm_num; ring
  rw [e1] at hlo
  rw [e2] at hhi
  rw [e1, e2]
  have pj : (0 : ℝ) < 2 ^ j := by positivity
  have pj26 : (2 : ℝ) ^ j ≤ 2 ^ 25 := pow_le_pow_right₀ (by norm_num) (by omega)
  rw [lt_div_iff₀ p10] at hlo
  rw [div_lt_iff₀ p10] at hhi
  have a : 2 ^ j * 10 ^ s < 64 * v := by
    have : (2 : ℝ) ^ j * 10 ^ s < 64 * v := by linarith
    exact_mod_cast this
  have b : 64 * v < 2 * (2 ^ j * 10 ^ s) := by
    have : (64 : ℝ) * v < 2 * (2 ^ j * 10 ^ s) := by linarith
    exact_mod_cast this
  have key : ∃ g : ℝ, 2 ^ j * 10 ^ s + g ≤ 64 * v ∧ 64 * v + g ≤ 2 * (2 ^ j * 10 ^ s) ∧
      2 * (2 ^ j * 10 ^ s) * (1 / 2 ^ 40) ≤ g := by
    rcases Nat.lt_or_ge j 6 with h | h
    · refine ⟨1, by exact_mod_cast a, by exact_mod_cast b, ?_⟩
      have h5 : (2 : ℝ) ^ j ≤ 2 ^ 5 := pow_le_pow_right₀ (by norm_num) (by omega)
      have := mul_le_mul h5 ps p10.le (by positivity)
      norm_num at this ⊢
      linarith
    · obtain ⟨i, rfl⟩ : ∃ i, j = i + 6 := ⟨j - 6, by omega⟩
      have e : 2 ^ (i + 6) * 10 ^ s = 64 * (2 ^ i * 10 ^ s) := by rw [pow_add]; ring
      rw [e] at a b
      have a' : 64 * (2 ^ i * 10 ^ s) + 64 ≤ 64 * v := by omega
      have b' : 64 * v + 64 ≤ 2 * (64 * (2 ^ i * 10 ^ s)) := by omega
      rw [← e] at a' b'
      refine ⟨64, by exact_mod_cast a', by exact_mod_cast b', ?_⟩
      have := mul_le_mul pj26 ps p10.le (by positivity)
      norm_num at this ⊢
      linarith
  obtain ⟨g, g1, g2, g3⟩ := key
  have hp : (0 : ℝ) < 2 ^ j * 10 ^ s := by positivity
  have g4 : 2 ^ j * 10 ^ s * (1 / 2 ^ 40) ≤ g := by
    have : (0 : ℝ) < 2 ^ j * 10 ^ s * (1 / 2 ^ 40) := by positivity
    linarith
  constructor
  · rw [le_div_iff₀ p10]; linarith
  · rw [div_le_iff₀ p10]; linarith

/-- C98 for decimals with at most six places from 1/64 up to `2^20`, the powers of two excepted. -/
theorem C98_short {m : LibM} (hm : m.Accurate) {d : Decimal} {k : ℤ} (hn : d.negative = false) (hs : d.scale ≤ 6)
    (hv : d.value < u128Size) (h1 : -6 ≤ k) (h2 : k < 20) (hlo : (2 : ℝ) ^ k < d.toRat) (hhi : (d.toRat : ℝ) < 2 ^ (k + 1)) :
    ∃ r, d.ln (floatLog m) = .ok r ∧ LnNear d r :=
  C98_ln_partial hm hn (by omega) hv h1 (by omega) (between_short hn hs h1 h2 hlo hhi)

section
attribute [local irreducible] F64.unit F64.limit

/-- C98 for one, at every scale. -/
theorem C98_one {m : LibM} (hm : m.Accurate) {s : ℕ} (hs : s ≤ 36) :
    ∃ r, (Decimal.mk (10 ^ s) s false).ln (floatLog m) = .ok r ∧ LnNear ⟨10 ^ s, s, false⟩ r := by
  have hone : (Decimal.mk (10 ^ s) s false).toRat = 1 := by
    rw [toRat_mk]; push_cast; exact div_self (by positivity)
  have hpow : 10 ^ s < u128Size := lt_of_le_of_lt (Nat.pow_le_pow_right (by norm_num) (hs.trans (by norm_num : 36 ≤ 38))) u128_big
  have nt := ofNat_near (pow10_pos s) (lt_trans hpow (by unfold u128Size; norm_num))
  obtain ⟨T, hT, T0, _, _⟩ := nt.pos (by exact_mod_cast pow10_pos s)
  have hx : (F64.div (ofNat (10 ^ s)) (ofNat (10 ^ s))).Is 1 := by
    have := div_rounded hT hT T0.ne'
    rw [div_self T0.ne'] at this
    exact this.exact one_is (by have := Flt.whole_rep (k := 1) (by norm_num); rw [one_mul] at this; exact this)
  obtain ⟨_, A, hA, eA⟩ := hm.ln (div_rep _ _) hx ⟨by norm_num, by norm_num⟩
  rw [Rat.cast_one, Real.log_one, abs_zero, zero_div, sub_zero] at eA
  have hA0 : A = 0 := by
    have := abs_nonpos_iff.1 eA
    exact_mod_cast this
  subst hA0
  have h2 : (ofNat 2).Is (2 : ℚ) := by have := Flt.ofNat_is (k := 2) (by norm_num); exact_mod_cast this
  obtain ⟨_, B, hB, eB⟩ := hm.ln (ofNat_rep 2) h2 ⟨by norm_num, by norm_num⟩
  obtain ⟨g1, g2⟩ := log2_bounds
  have g0 : (0 : ℝ) < Real.log 2 := by linarith
  have hB0 : (0 : ℝ) < B := by
    rw [Rat.cast_ofNat, abs_of_pos g0] at eB
    have := (_root_.abs_le.1 eB).1
    have : Real.log 2 / 2 ^ 51 ≤ Real.log 2 / 2 := div_le_div_of_nonneg_left g0.le (by norm_num) (by norm_num)
    linarith
  have hBne : B ≠ 0 := by rintro rfl; simp at hB0
  have hl := div_rounded hA hB hBne
  rw [zero_div] at hl
  have hl0 := hl.exact zero_is zero_rep
  have hp := mul_rounded (mag_is hl0) hT
  rw [abs_zero, zero_mul] at hp
  have hp0 := hp.exact zero_is zero_rep
  obtain ⟨w1, _⟩ := toU128_is hp0 le_rfl (by norm_num)
  have w0 : (floatLog m (10 ^ s) s).1 = 0 := by
    have : (((floatLog m (10 ^ s) s).1 : ℕ) : ℚ) ≤ 0 := w1
    exact Nat.le_zero.1 (by exact_mod_cast this)
  obtain ⟨b, hb⟩ : ∃ b, floatLog m (10 ^ s) s = (0, b) := ⟨_, Prod.ext w0 rfl⟩
  have hbl : (Decimal.mk (10 ^ s) s false).bitLength (floatLog m) = .ok ⟨0, 0, b⟩ := by
    unfold bitLength
    have a1 : (Decimal.mk (10 ^ s) s false).isNegative = false := rfl
    have a2 : (Decimal.mk (10 ^ s) s false).isZero = false := by
      unfold isZero; simp
    rw [a1, if_neg (by simp), a2, if_neg (by simp)]
    show (do
      let (v', neg) := floatLog m (10 ^ s) s
      let v' ← u128 v'
      let _ ← (Decimal.mk (10 ^ s) s false).denominator
      let x := new v' s neg
      let r ← (if neg then x.toScaleUp 0 else x.toScale 0)
      return new r.value 0 neg) = _
    rw [hb]
    dsimp only
    have e1 : u128 0 = .ok 0 := rfl
    have e2 : (Decimal.mk (10 ^ s) s false).denominator = .ok (10 ^ s) := by
      unfold denominator pow10; exact u128_ok.2 ⟨hpow, rfl⟩
    rw [e1, PoolMath.bind_eq, e2, PoolMath.bind_eq]
    unfold new
    cases b
    · rw [if_neg (by simp), toScale_zero false hs (by decide), PoolMath.bind_eq, Nat.zero_div]; rfl
    · rw [if_pos rfl, toScaleUp_zero true hs (by rw [zero_add]; exact hpow), PoolMath.bind_eq, zero_add,
        Nat.div_eq_of_lt (by have := pow10_pos s; omega)]
      rfl
  refine C98_given_bits (k := 0) rfl hs (by norm_num) (by norm_num) ?_ ?_ hbl rfl ?_
  · rw [hone]; norm_num
  · rw [hone]; norm_num
  · cases b
    · rw [toRat_mk]; norm_num
    · rw [toRat_mk_neg]; norm_num

end

/-- The power of two `ln` divides by is zero. -/
def powZero (two bl : R Decimal) : Bool :=
  match two, bl with
  | .ok t, .ok b =>
    match t.powDec b with
    | .ok c =>
      match c.toComputeScale with
      | .ok m => m.value == 0 && m.scale == 12
      | _ => false
    | _ => false
  | _, _ => false

theorem pow_zero_table : ∀ v < 29, powZero ((fromInt 2).toScale 6) ((Decimal.mk (v + 20) 0 true).toScale 6) = true := by
  decide +kernel

theorem powZero_ok {two bl : R Decimal} (h : powZero two bl = true) : ∃ t b c mx, two = .ok t ∧ bl = .ok b ∧
    t.powDec b = .ok c ∧ c.toComputeScale = .ok mx ∧ mx.value = 0 ∧ mx.scale = 12 := by
  unfold powZero at h
  split at h
  · rename_i t b
    split at h
    · rename_i c e3
      split at h
      · rename_i mx e4
        simp only [Bool.and_eq_true, beq_iff_eq] at h
        exact ⟨t, b, c, mx, rfl, rfl, e3, e4, h⟩
      · cases h
    · cases h
  · cases h

/-- Dividing by zero. -/
theorem ln_zero {fl : FloatEnv} {d so bl two6 bl6 mx0 mx : Decimal} (h0 : d.isNegative = false)
    (e1 : d.toComputeScale = .ok so) (e2 : d.bitLength fl = .ok bl) (e9 : (fromInt 2).toScale 6 = .ok two6)
    (e3 : bl.toScale 6 = .ok bl6) (e4 : two6.powDec bl6 = .ok mx0) (e5 : mx0.toComputeScale = .ok mx)
    (hd : so.div mx = .error .panic) : d.ln fl = .error .panic := by
  unfold ln
  rw [h0, if_neg (by simp), e1, PoolMath.bind_eq, e2, PoolMath.unwrap_eq, PoolMath.bind_eq, e9, PoolMath.bind_eq, e3,
    PoolMath.bind_eq, e4, PoolMath.bind_eq, e5, PoolMath.bind_eq]
  unfold lnLoop logTableValue
  rw [hd]
  rfl

/-- C98 is false of small decimals: with every accurate library the logarithm of any decimal from `2^-48` up to `2^-19`, clear
of the powers of two, panics, because the power of two below it has no six-digit approximation but zero. -/
theorem C98_small_panics {m : LibM} (hm : m.Accurate) {d : Decimal} {k : ℤ} (hn : d.negative = false) (hs : d.scale ≤ 36)
    (hv : d.value < u128Size) (h1 : -48 ≤ k) (h2 : k ≤ -20) (hd : Between k d) : d.ln (floatLog m) = .error .panic := by
  obtain ⟨bl, hb, hbs, hbk⟩ := C98_bit_length hm hn hs hv h1 (by omega) hd
  obtain ⟨bv, bs, bn⟩ := bl
  simp only at hbs
  subst hbs
  have hbn : bn = true ∧ ∃ v < 29, bv = v + 20 := by
    cases bn
    · exfalso
      rw [toRat_mk, pow_zero, div_one] at hbk
      have : (bv : ℤ) = k := by exact_mod_cast hbk
      omega
    · rw [toRat_mk_neg, pow_zero, div_one] at hbk
      have : -(bv : ℤ) = k := by
        have : ((-(bv : ℤ) : ℤ) : ℚ) = k := by push_cast; exact hbk
        exact_mod_cast this
      exact ⟨rfl, bv - 20, by omega, by omega⟩
  obtain ⟨rfl, v, hv29, rfl⟩ := hbn
  obtain ⟨t, b, c, mx, e1, e2, e3, e4, z1, z2⟩ := powZero_ok (pow_zero_table v hv29)
  have hhi : (d.toRat : ℝ) < 2 ^ (48 : ℕ) := by
    have a := hd.2
    have b : (2 : ℝ) ^ (k + 1) ≤ 1 := by
      have := zpow_le_zpow_right₀ (by norm_num : (1 : ℝ) ≤ 2) (by omega : k + 1 ≤ 0)
      simpa using this
    have : (2 : ℝ) ^ (k + 1) * (1 - 1 / 2 ^ 40) ≤ 1 * 1 := mul_le_mul b (by norm_num) (by norm_num) (by norm_num)
    have : (1 : ℝ) < 2 ^ (48 : ℕ) := by norm_num
    linarith
  obtain ⟨w, e0, _, _, w3⟩ := compute_scale hn hs hhi
  refine ln_zero (by unfold isNegative; rw [hn]; rfl) e0 hb e1 e2 e3 e4 ?_
  unfold div denominator
  rw [z2]
  have q1 : pow10 12 = .ok (10 ^ 12) := by decide
  have q2 : checkedMul w (10 ^ 12) = .ok (w * 10 ^ 12) := checkedMul_ok.2 ⟨
    lt_of_lt_of_le ((Nat.mul_lt_mul_right (by norm_num)).2 w3) (by unfold u128Size; norm_num), rfl⟩
  have q3 : checkedDiv (w * 10 ^ 12) mx.value = .error .panic := by
    unfold checkedDiv; rw [if_pos z1]
  rw [q1, PoolMath.bind_eq]
  dsimp only
  rw [q2, PoolMath.bind_eq, q3]
  rfl

/-- The logarithm depends on the floating-point step through the bit length only. -/
theorem ln_congr {fl fl' : FloatEnv} {d : Decimal} (h : d.bitLength fl = d.bitLength fl') : d.ln fl = d.ln fl' := by
  unfold ln
  rw [h]

theorem between_intro {v s : ℕ} {k : ℤ} (h1 : (2 : ℚ) ^ k * (1 + 1 / 2 ^ 40) ≤ (v : ℚ) / 10 ^ s)
    (h2 : (v : ℚ) / 10 ^ s ≤ 2 ^ (k + 1) * (1 - 1 / 2 ^ 40)) : Between k ⟨v, s, false⟩ := by
  unfold Between
  rw [toRat_mk]
  have a := (Rat.cast_le (K := ℝ)).mpr h1
  have b := (Rat.cast_le (K := ℝ)).mpr h2
  push_cast at a b ⊢
  exact ⟨a, b⟩

/-- C98 is false of the code: an accurate library and a positive decimal, 0.0000019, whose logarithm panics. -/
theorem C98_false : ¬ ∀ (m : LibM) (d : Decimal), m.Accurate → d.WF → d.negative = false → 0 < d.toRat →
    ∃ r, d.ln (floatLog m) = .ok r ∧ LnNear d r := by
  intro h
  obtain ⟨r, hr, _⟩ := h someLib ⟨19, 7, false⟩ someLib_accurate (by decide) rfl (by rw [toRat_mk]; norm_num)
  rw [C98_small_panics (k := -20) someLib_accurate rfl (by norm_num) (by decide) (by norm_num) (by norm_num)
    (between_intro (by norm_num) (by norm_num))] at hr
  cases hr

/-- C98, small decimals that do not panic: with every accurate library the logarithm of 0.0000038 is too small by more than
0.4, because `2^-19` is cut to 0.000001. -/
theorem C98_small_wrong {m : LibM} (hm : m.Accurate) : ∃ r, (Decimal.mk 38 7 false).ln (floatLog m) = .ok r ∧
    (r.toRat : ℝ) + 4 / 10 < Real.log (Decimal.mk 38 7 false).toRat := by
  obtain ⟨bl, hb, hbs, hbk⟩ := C98_bit_length (d := ⟨38, 7, false⟩) (k := -19) hm rfl (by norm_num) (by decide) (by norm_num)
    (by norm_num) (between_intro (by norm_num) (by norm_num))
  have hbl : bl = ⟨19, 0, true⟩ := by
    obtain ⟨bv, bs, bn⟩ := bl
    simp only at hbs
    subst hbs
    cases bn
    · exfalso
      rw [toRat_mk, pow_zero, div_one] at hbk
      have : (bv : ℤ) = -19 := by exact_mod_cast hbk
      omega
    · rw [toRat_mk_neg, pow_zero, div_one] at hbk
      have : -(bv : ℤ) = -19 := by
        have : ((-(bv : ℤ) : ℤ) : ℚ) = ((-19 : ℤ) : ℚ) := by push_cast; push_cast at hbk; exact hbk
        exact_mod_cast this
      have : bv = 19 := by omega
      rw [this]
  subst hbl
  have e : (Decimal.mk 38 7 false).bitLength (fun _ _ => (190000000, true)) = .ok ⟨19, 0, true⟩ := by decide +kernel
  refine ⟨⟨131697964, 7, true⟩, ?_, ?_⟩
  · rw [ln_congr (hb.trans e.symm)]
    decide +kernel
  · rw [toRat_mk_neg, toRat_mk]
    have h1 : (((38 : ℕ) : ℚ) / 10 ^ 7 : ℚ) = (2 ^ 19)⁻¹ * (19922944 / 10 ^ 7) := by norm_num
    rw [h1]
    push_cast
    rw [Real.log_mul (by positivity) (by positivity), Real.log_inv, Real.log_pow]
    have h2 := Real.one_sub_inv_le_log_of_pos (show (0 : ℝ) < 19922944 / 10 ^ 7 by norm_num)
    obtain ⟨_, h3⟩ := ln2_near
    norm_num at h2 h3 ⊢
    linarith

/-- C98, decimals just below a power of two: with the correctly rounded sample library the quotient of logarithms for
8191.999999999999 rounds up to 13, and the logarithm is too large by more than 0.09. -/
theorem C98_below_power : (Decimal.mk 8191999999999999 12 false).ln (floatLog Flt.Sample.libm) = .ok ⟨9107224027403, 12, false⟩ ∧
    Real.log (Decimal.mk 8191999999999999 12 false).toRat + 9 / 100 < ((Decimal.mk 9107224027403 12 false).toRat : ℝ) := by
  constructor
  · decide +kernel
  · rw [toRat_mk, toRat_mk]
    have h1 : Real.log (((8191999999999999 : ℕ) : ℚ) / 10 ^ 12 : ℚ) ≤ Real.log (2 ^ 13) :=
      Real.log_le_log (by push_cast; positivity) (by push_cast; norm_num)
    rw [Real.log_pow] at h1
    obtain ⟨_, h3⟩ := ln2_near
    norm_num at h1 h3 ⊢
    linarith

/-- C98, a case: 1.5 with an accurate library. -/
theorem C98_case : someLib.Accurate ∧ Between 0 ⟨1500000000000, 12, false⟩ ∧
    ∃ r, (Decimal.mk 1500000000000 12 false).ln (floatLog someLib) = .ok r ∧ LnNear ⟨1500000000000, 12, false⟩ r := by
  have hb : Between 0 ⟨1500000000000, 12, false⟩ := between_intro (by norm_num) (by norm_num)
  exact ⟨someLib_accurate, hb, C98_ln_partial someLib_accurate rfl (by norm_num) (by decide) (by norm_num) (by norm_num) hb⟩

/-- C98, a case with fewer places: 0.3 and 1000.25. -/
theorem C98_short_case : (∃ r, (Decimal.mk 3 1 false).ln (floatLog someLib) = .ok r ∧ LnNear ⟨3, 1, false⟩ r) ∧
    ∃ r, (Decimal.mk 1000250000 6 false).ln (floatLog someLib) = .ok r ∧ LnNear ⟨1000250000, 6, false⟩ r := by
  refine ⟨C98_short (k := -2) someLib_accurate rfl (by norm_num) (by decide) (by norm_num) (by norm_num) ?_ ?_,
    C98_short (k := 9) someLib_accurate rfl (by norm_num) (by decide) (by norm_num) (by norm_num) ?_ ?_⟩
  all_goals rw [toRat_mk]; push_cast; norm_num

/-- C98, the powers of two with the sample library. -/
theorem C98_powers_case : ∀ k < 48, (Decimal.mk (2 ^ k * 10 ^ 12) 12 false).bitLength (floatLog Flt.Sample.libm) =
    .ok ⟨k, 0, false⟩ := by
  decide +kernel

end Hmm.Decimal
