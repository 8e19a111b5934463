import Verif.Proofs.FloatPrices

/-
An accurate math library whose values at some places are known, for concrete runs.  The tables hold the correctly rounded
values.
-/

namespace Hmm.Flt

open F64

/-- `n / 2^k`. -/
def dya (neg : Bool) (n k : ℕ) : F64 := fin neg (n * 2 ^ (1074 - k))

theorem dya_is {neg : Bool} (n : ℕ) {k : ℕ} (hk : k ≤ 1074) : (dya neg n k).Is ((if neg then -1 else 1) * ((n : ℚ) / 2 ^ k)) := by
  cases neg with
  | false =>
    simp only [Bool.false_eq_true, if_false, one_mul]
    exact dyadic_is n hk
  | true =>
    simp only [if_true, neg_one_mul]
    exact neg_is (dyadic_is n hk)

theorem dya_rep {neg : Bool} (n k : ℕ) (hn : n < 2 ^ 53) : (dya neg n k).Rep := by
  cases neg with
  | false => exact dyadic_rep n k hn
  | true => exact neg_rep (dyadic_rep n k hn)

/-- Powers of the root of the tick base: exponent, value times `2^52`. -/
def tickRows : List (ℕ × ℕ) := [(21, 4508330653786074), (9, 4505626601890835), (39, 4512389774752265)]

/-- Square roots: argument and value, times `2^52`. -/
def rootRows : List (ℕ × ℕ) := [(4506752147109655, 4505175611491102), (4508330653786074, 4505964519662128),
  (4509454306886078, 4506526016360764)]

/-- Inverse square roots: argument times `2^52`, value times `2^53`. -/
def invRows : List (ℕ × ℕ) := [(4509454306886078, 9001350277360959), (4508330653786074, 9002471952518842)]

/-- Natural logarithms: argument `n / 2^k`, sign, value `n / 2^k`. -/
def lnRows : List ((ℕ × ℕ) × Bool × ℕ × ℕ) := [((4508553586960604, 52), false, 5070066594594298, 62),
  ((4503824801722646, 52), false, 7378328719181482, 67), ((4505851427184181, 52), false, 4610533481085384, 63),
  ((4512606826625237, 52), false, 4607080472115017, 61), ((4506309908270686, 52), false, 5548985752175745, 63),
  ((4510348064653767, 52), false, 6905227485979346, 62), ((4504276804661879, 52), false, 5547019346660261, 65),
  ((4505177029865169, 52), false, 6459909380584116, 64), ((9004954866246027, 53), true, 4597080405239033, 64)]

/-- An accurate library. -/
noncomputable def tableLib : LibM where
  powf b e :=
    if e = dya false 1 1 then
      match rootRows.find? (fun r => decide (b = dya false r.1 52)) with
      | some r => dya false r.2 52
      | none => someLib.powf b e
    else if e = dya true 1 1 then
      match invRows.find? (fun r => decide (b = dya false r.1 52)) with
      | some r => dya false r.2 53
      | none => someLib.powf b e
    else if b = tickBase.sqrt then
      match tickRows.find? (fun r => decide (e = ofNat r.1)) with
      | some r => dya false r.2 52
      | none => someLib.powf b e
    else someLib.powf b e
  ln x :=
    match lnRows.find? (fun r => decide (x = dya false r.1.1 r.1.2)) with
    | some r => dya r.2.1 r.2.2.1 r.2.2.2
    | none => someLib.ln x

theorem tickRows_ok : ∀ r ∈ tickRows, r.1 ≤ 2 ^ 21 ∧ r.2 < 2 ^ 53 ∧
    |(r.2 : ℚ) / 2 ^ 52 - baseQ ^ r.1| ≤ baseQ ^ r.1 / 2 ^ 51 := by
  unfold baseQ
  decide +kernel

theorem rootRows_ok : ∀ r ∈ rootRows, r.2 < 2 ^ 53 ∧
    (r.1 : ℚ) / 2 ^ 52 * (1 - 1 / 2 ^ 51) ^ 2 ≤ ((r.2 : ℚ) / 2 ^ 52) ^ 2 ∧
    ((r.2 : ℚ) / 2 ^ 52) ^ 2 ≤ (r.1 : ℚ) / 2 ^ 52 * (1 + 1 / 2 ^ 51) ^ 2 := by decide +kernel

theorem invRows_ok : ∀ r ∈ invRows, r.2 < 2 ^ 53 ∧ 0 < r.1 ∧
    (1 - 1 / 2 ^ 51) ^ 2 ≤ ((r.2 : ℚ) / 2 ^ 53) ^ 2 * ((r.1 : ℚ) / 2 ^ 52) ∧
    ((r.2 : ℚ) / 2 ^ 53) ^ 2 * ((r.1 : ℚ) / 2 ^ 52) ≤ (1 + 1 / 2 ^ 51) ^ 2 := by decide +kernel

/-- Six terms of the series of `log (1 + y)`. -/
def logSum (y : ℚ) : ℚ := y - y ^ 2 / 2 + y ^ 3 / 3 - y ^ 4 / 4 + y ^ 5 / 5 - y ^ 6 / 6

theorem lnRows_ok : ∀ r ∈ lnRows, r.2.2.1 < 2 ^ 53 ∧ r.1.2 ≤ 1074 ∧ r.2.2.2 ≤ 1074 ∧
    |(r.1.1 : ℚ) / 2 ^ r.1.2 - 1| ≤ 1 / 256 ∧
    |(if r.2.1 then -1 else 1) * ((r.2.2.1 : ℚ) / 2 ^ r.2.2.2) - logSum ((r.1.1 : ℚ) / 2 ^ r.1.2 - 1)| +
      |(r.1.1 : ℚ) / 2 ^ r.1.2 - 1| ^ 7 / (1 - |(r.1.1 : ℚ) / 2 ^ r.1.2 - 1|) ≤ |(r.1.1 : ℚ) / 2 ^ r.1.2 - 1| / 2 ^ 52 := by
  decide +kernel

theorem log_table {x r : ℚ} (h : |x - 1| ≤ 1 / 256)
    (hc : |r - logSum (x - 1)| + |x - 1| ^ 7 / (1 - |x - 1|) ≤ |x - 1| / 2 ^ 52) : |(r : ℝ) - Real.log x| ≤ |Real.log x| / 2 ^ 51 := by
  obtain ⟨y, hy⟩ : ∃ y : ℚ, y = x - 1 := ⟨_, rfl⟩
  rw [← hy] at h hc
  have hx : (x : ℝ) = 1 - -(y : ℝ) := by rw [hy]; push_cast; ring
  have h' : |(y : ℝ)| ≤ 1 / 256 := by
    have := (Rat.cast_le (K := ℝ)).mpr h
    push_cast at this
    exact this
  have hy1 : |-(y : ℝ)| < 1 := by rw [abs_neg]; linarith
  have hs := Real.abs_log_sub_add_sum_range_le hy1 6
  rw [← hx, abs_neg] at hs
  have es : ∑ i ∈ Finset.range 6, (-(y : ℝ)) ^ (i + 1) / (i + 1) + Real.log x = Real.log x - (logSum y : ℚ) := by
    simp only [Finset.sum_range_succ, Finset.sum_range_zero]
    unfold logSum
    push_cast
    ring
  rw [es] at hs
  have hc' := (Rat.cast_le (K := ℝ)).mpr hc
  push_cast at hc'
  have h1 := abs_sub ((r : ℝ) - (logSum y : ℚ)) (Real.log x - (logSum y : ℚ))
  rw [sub_sub_sub_cancel_right] at h1
  have h2 : |(r : ℝ) - Real.log x| ≤ |(y : ℝ)| / 2 ^ 52 := by linarith
  refine h2.trans ?_
  have xp : (0 : ℝ) < x := by
    rw [hx]
    have := (_root_.abs_le.1 h').1
    linarith
  have h3 : |(y : ℝ)| ≤ 2 * |Real.log x| := by
    rcases le_or_gt 0 (y : ℝ) with h0 | h0
    · have k := Real.one_sub_inv_le_log_of_pos xp
      have k0 : 0 ≤ Real.log x := Real.log_nonneg (by rw [hx]; linarith)
      rw [abs_of_nonneg h0, abs_of_nonneg k0]
      have k1 : 1 - (x : ℝ)⁻¹ = y / x := by rw [eq_div_iff xp.ne', sub_mul, inv_mul_cancel₀ xp.ne', hx]; ring
      have k2 : (y : ℝ) / 2 ≤ y / x := by
        apply div_le_div_of_nonneg_left h0 xp
        rw [hx]; linarith [(_root_.abs_le.1 h').2]
      rw [k1] at k
      linarith
    · have k := Real.log_le_sub_one_of_pos xp
      have e : (x : ℝ) - 1 = y := by rw [hx]; ring
      rw [e] at k
      rw [abs_of_neg h0, abs_of_neg (lt_of_le_of_lt k h0)]
      linarith
  have e : |Real.log (x : ℝ)| / 2 ^ 51 = 2 * |Real.log x| / 2 ^ 52 := by ring
  rw [e]
  gcongr

theorem find_spec {α : Type} {l : List α} {p : α → Prop} [DecidablePred p] {r : α} (h : l.find? (fun x => decide (p x)) = some r) :
    r ∈ l ∧ p r :=
  ⟨List.mem_of_find?_eq_some h, of_decide_eq_true (p := p r) (List.find?_some (p := fun x => decide (p x)) h)⟩

section
attribute [local irreducible] unit limit

theorem root_near {x r : ℝ} (hx : 0 ≤ x) (hr : 0 ≤ r) (h0 : x * (1 - 1 / 2 ^ 51) ^ 2 ≤ r ^ 2) (h1 : r ^ 2 ≤ x * (1 + 1 / 2 ^ 51) ^ 2) :
    |r - Real.sqrt x| ≤ Real.sqrt x / 2 ^ 51 := by
  have s2 : Real.sqrt x ^ 2 = x := Real.sq_sqrt hx
  have s0 := Real.sqrt_nonneg x
  have a0 : Real.sqrt x * (1 - 1 / 2 ^ 51) ≤ r := by
    apply le_of_sq_le_sq _ hr
    rw [mul_pow, s2]; exact h0
  have a1 : r ≤ Real.sqrt x * (1 + 1 / 2 ^ 51) := by
    apply le_of_sq_le_sq _ (mul_nonneg s0 (by norm_num))
    rw [mul_pow, s2]; exact h1
  rw [_root_.abs_le]
  have e : Real.sqrt x / 2 ^ 51 = Real.sqrt x * (1 / 2 ^ 51) := by ring
  constructor <;> linarith

theorem tableLib_accurate : tableLib.Accurate where
  powf {b e β ε} hb he hB hE hs h0 h1 := by
    unfold tableLib
    simp only
    have some_ok := someLib_accurate.powf hb he hB hE hs h0 h1
    have hβ : (0 : ℝ) < β := by exact_mod_cast hs.pos
    split
    · rename_i h
      split
      · rename_i r hr
        obtain ⟨hm, hbb⟩ := find_spec hr
        obtain ⟨k0, k1, k2⟩ := rootRows_ok r hm
        have i1 := dya_is (neg := false) r.1 (k := 52) (by norm_num)
        have i2 := dya_is (neg := false) 1 (k := 1) (by norm_num)
        rw [← hbb] at i1
        rw [← h] at i2
        simp only [Bool.false_eq_true, if_false, one_mul] at i1 i2
        refine ⟨dya_rep _ _ k0, _, dya_is _ (by norm_num), ?_⟩
        simp only [Bool.false_eq_true, if_false, one_mul]
        rw [hB.unique i1, hE.unique i2]
        have e2 : (((((1 : ℕ) : ℚ) / 2 ^ 1 : ℚ)) : ℝ) = 1 / 2 := by norm_num
        rw [e2, ← Real.sqrt_eq_rpow]
        apply root_near
        · positivity
        · positivity
        · have := (Rat.cast_le (K := ℝ)).mpr k1
          push_cast at this ⊢
          exact this
        · have := (Rat.cast_le (K := ℝ)).mpr k2
          push_cast at this ⊢
          exact this
      · exact some_ok
    · split
      · rename_i h
        split
        · rename_i r hr
          obtain ⟨hm, hbb⟩ := find_spec hr
          obtain ⟨k0, kp, k1, k2⟩ := invRows_ok r hm
          have i1 := dya_is (neg := false) r.1 (k := 52) (by norm_num)
          have i2 := dya_is (neg := true) 1 (k := 1) (by norm_num)
          rw [← hbb] at i1
          rw [← h] at i2
          simp only [Bool.false_eq_true, if_false, one_mul, if_true] at i1 i2
          refine ⟨dya_rep _ _ k0, _, dya_is _ (by norm_num), ?_⟩
          simp only [Bool.false_eq_true, if_false, one_mul]
          rw [hE.unique i2, hB.unique i1]
          have e2 : ((-1 * (((1 : ℕ) : ℚ) / 2 ^ 1) : ℚ) : ℝ) = -(1 / 2) := by norm_num
          have xp : (0 : ℝ) < (((r.1 : ℚ) / 2 ^ 52 : ℚ) : ℝ) := by
            have : (0 : ℝ) < r.1 := by exact_mod_cast kp
            push_cast
            positivity
          rw [e2, Real.rpow_neg xp.le, ← Real.sqrt_eq_rpow, ← Real.sqrt_inv]
          apply root_near
          · positivity
          · positivity
          · have := (Rat.cast_le (K := ℝ)).mpr k1
            push_cast at this xp ⊢
            rw [inv_mul_le_iff₀ xp]
            linarith
          · have := (Rat.cast_le (K := ℝ)).mpr k2
            push_cast at this xp ⊢
            rw [inv_mul_eq_div, le_div_iff₀ xp]
            linarith
        · exact some_ok
      · split
        · rename_i h
          split
          · rename_i r hr
            obtain ⟨hm, hee⟩ := find_spec hr
            obtain ⟨k0, k1, k2⟩ := tickRows_ok r hm
            have i1 := base_is
            have i2 := ofNat_is (k := r.1) (k0.trans (by norm_num))
            rw [← h] at i1
            rw [← hee] at i2
            refine ⟨dya_rep _ _ k1, _, dya_is _ (by norm_num), ?_⟩
            simp only [Bool.false_eq_true, if_false, one_mul]
            rw [hE.unique i2, hB.unique i1, Rat.cast_natCast, Real.rpow_natCast]
            have := (Rat.cast_le (K := ℝ)).mpr k2
            push_cast at this ⊢
            exact this
          · exact some_ok
        · exact some_ok
  ln {x ξ} hr hx hs := by
    unfold tableLib
    simp only
    split
    · rename_i r hr'
      obtain ⟨hm, hxx⟩ := find_spec hr'
      obtain ⟨k0, k1, k2, k3, k4⟩ := lnRows_ok r hm
      have i1 := dya_is (neg := false) r.1.1 k1
      rw [← hxx] at i1
      simp only [Bool.false_eq_true, if_false, one_mul] at i1
      refine ⟨dya_rep _ _ k0, _, dya_is _ k2, ?_⟩
      rw [hx.unique i1]
      exact log_table k3 k4
    · exact someLib_accurate.ln hr hx hs

end

end Hmm.Flt
