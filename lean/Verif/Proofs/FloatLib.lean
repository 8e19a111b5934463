import Verif.Spec.FloatLib
import Verif.Proofs.FloatStage
import Mathlib.Analysis.SpecialFunctions.Log.Deriv

/-
Accurate math libraries exist; ticks and prices with one.
-/

namespace Hmm.F64

attribute [local irreducible] unit limit

/-- Every rational number can be rounded. -/
theorem exists_rounded (q : ℚ) : ∃ a, Rounded q a ∧ a.Rep := by
  obtain ⟨w, hw⟩ := exists_sign q.num
  refine ⟨ofRatio w (q.num.natAbs * unit) q.den, ⟨w, _, _, q.den_pos, rfl, ?_⟩, ofRatio_rep _ _ _⟩
  have hu := unitQ_ne
  have hd : (q.den : ℚ) ≠ 0 := by exact_mod_cast q.den_pos.ne'
  rw [signed_whole, hw]
  push_cast
  rw [div_div, mul_div_mul_right _ _ hu, Rat.num_div_den]

theorem Sized.real {e : ℕ} {q : ℚ} (h : Sized e q) : (1 : ℝ) / 2 ^ e ≤ q ∧ (q : ℝ) ≤ 2 ^ e := by
  have h1 := (Rat.cast_le (K := ℝ)).mpr h.1
  have h2 := (Rat.cast_le (K := ℝ)).mpr h.2
  push_cast at h1 h2
  exact ⟨h1, h2⟩

theorem Sized.of_real {e : ℕ} {q : ℚ} (h1 : (1 : ℝ) / 2 ^ e ≤ q) (h2 : (q : ℝ) ≤ 2 ^ e) : Sized e q :=
  ⟨(Rat.cast_le (K := ℝ)).mp (by push_cast; exact h1), (Rat.cast_le (K := ℝ)).mp (by push_cast; exact h2)⟩

/-- Real numbers of moderate size have doubles close to them. -/
theorem exists_double {y : ℝ} (h0 : 1 / 2 ^ 200 ≤ |y|) (h1 : |y| ≤ 2 ^ 200) :
    ∃ a : F64, a.Rep ∧ ∃ r : ℚ, a.Is r ∧ |(r : ℝ) - y| ≤ |y| / 2 ^ 51 := by
  have hy : 0 < |y| := lt_of_lt_of_le (by positivity) h0
  obtain ⟨q, q1, q2⟩ := exists_rat_btwn (show y < y + |y| / 2 ^ 60 by linarith [show 0 < |y| / 2 ^ 60 by positivity])
  have hq : |(q : ℝ) - y| ≤ |y| / 2 ^ 60 := by rw [_root_.abs_le]; constructor <;> linarith [show 0 < |y| / 2 ^ 60 by positivity]
  have e60 : |y| / 2 ^ 60 ≤ |y| / 2 := div_le_div_of_nonneg_left hy.le (by norm_num) (by norm_num)
  have hq1 : |(q : ℝ)| ≤ 2 * |y| := by
    have := abs_add_le ((q : ℝ) - y) y
    rw [sub_add_cancel] at this
    linarith
  have hq0 : |y| / 2 ≤ |(q : ℝ)| := by
    have := abs_sub (q : ℝ) ((q : ℝ) - y)
    rw [sub_sub_cancel] at this
    linarith
  obtain ⟨a, ha, rep⟩ := exists_rounded q
  have s : Sized 201 |q| := by
    constructor
    · refine (Rat.cast_le (K := ℝ)).mp ?_
      push_cast
      refine le_trans ?_ hq0
      have e : (1 : ℝ) / 2 ^ 201 = 1 / 2 ^ 200 / 2 := by norm_num
      linarith
    · refine (Rat.cast_le (K := ℝ)).mp ?_
      push_cast
      refine hq1.trans ?_
      have e : (2 : ℝ) ^ 201 = 2 * 2 ^ 200 := by norm_num
      linarith
  obtain ⟨r, hr, hrel⟩ := ha.rel_tame (Or.inr s) (by norm_num)
  refine ⟨a, rep, r, hr, ?_⟩
  unfold Rel at hrel
  have hrel' : |(r : ℝ) - q| ≤ |(q : ℝ)| / 2 ^ 53 := by
    have : ((|r - q| : ℚ) : ℝ) ≤ ((|q| * (1 : ℕ) / 2 ^ 53 : ℚ) : ℝ) := by exact_mod_cast hrel
    push_cast at this
    simpa using this
  have := abs_add_le ((r : ℝ) - q) (q - y)
  rw [sub_add_sub_cancel] at this
  have e1 : |(q : ℝ)| / 2 ^ 53 ≤ |y| / 2 ^ 52 := by
    rw [div_le_div_iff₀ (by positivity) (by positivity)]
    nlinarith
  have e2 : |y| / 2 ^ 60 ≤ |y| / 2 ^ 52 := div_le_div_of_nonneg_left hy.le (by norm_num) (by norm_num)
  have e3 : |y| / 2 ^ 51 = 2 * (|y| / 2 ^ 52) := by ring
  linarith

/-- Logarithms of doubles other than one are not tiny. -/
theorem log_sized {x : F64} {q : ℚ} (h : x.Is q) (hr : x.Rep) (hs : Sized 50 q) (h1 : q ≠ 1) :
    1 / 2 ^ 200 ≤ |Real.log q| ∧ |Real.log q| ≤ 2 ^ 200 := by
  have hpos : (0 : ℝ) < q := by exact_mod_cast hs.pos
  obtain ⟨z, hz⟩ := h.grid hr (e := 50) (by rw [abs_of_pos hs.pos]; exact hs.1) (by norm_num)
  have hgap : (1 : ℚ) / 2 ^ (50 + 53) ≤ |q - 1| := by
    have hne : z - 2 ^ (50 + 53) ≠ 0 := by
      intro hc
      apply h1
      rw [hz, div_eq_one_iff_eq (by positivity)]
      have : z = 2 ^ (50 + 53) := by omega
      rw [this]; norm_num
    have h2 : (1 : ℤ) ≤ |z - 2 ^ (50 + 53)| := Int.one_le_abs hne
    have h3 : q - 1 = ((z - 2 ^ (50 + 53) : ℤ) : ℚ) / 2 ^ (50 + 53) := by
      rw [hz]; push_cast; norm_num; ring
    rw [h3, abs_div, abs_of_pos (show (0 : ℚ) < 2 ^ (50 + 53) by positivity)]
    apply div_le_div_of_nonneg_right _ (by positivity)
    exact_mod_cast h2
  have hgapR : (1 : ℝ) / 2 ^ (50 + 53) ≤ |(q : ℝ) - 1| := by
    have := (Rat.cast_le (K := ℝ)).mpr hgap
    push_cast at this
    exact this
  obtain ⟨hlo, hup⟩ := hs.real
  have hl1 := Real.log_le_sub_one_of_pos hpos
  have hl2 := Real.one_sub_inv_le_log_of_pos hpos
  have hinv : (q : ℝ)⁻¹ ≤ 2 ^ 50 := by
    rw [inv_le_comm₀ hpos (by positivity), ← one_div]; exact hlo
  constructor
  · rcases le_total (1 : ℝ) q with h | h
    · have hl : 0 ≤ Real.log q := Real.log_nonneg h
      rw [abs_of_nonneg hl]
      rw [abs_of_nonneg (by linarith)] at hgapR
      have e : 1 - (q : ℝ)⁻¹ = (q - 1) / q := by field_simp
      rw [e] at hl2
      refine le_trans ?_ hl2
      rw [le_div_iff₀ hpos]
      calc 1 / 2 ^ 200 * (q : ℝ) ≤ 1 / 2 ^ 200 * 2 ^ 50 := mul_le_mul_of_nonneg_left hup (by positivity)
        _ ≤ 1 / 2 ^ (50 + 53) := by norm_num
        _ ≤ _ := hgapR
    · have hl : Real.log q ≤ 0 := Real.log_nonpos hpos.le h
      rw [abs_of_nonpos hl]
      rw [abs_of_nonpos (by linarith)] at hgapR
      have : (1 : ℝ) / 2 ^ 200 ≤ 1 / 2 ^ (50 + 53) := by norm_num
      linarith
  · have : (2 : ℝ) ^ 100 ≤ 2 ^ 200 := pow_le_pow_right₀ (by norm_num) (by norm_num)
    rw [_root_.abs_le]
    constructor <;> linarith

end Hmm.F64

namespace Hmm

open F64

open Classical in
/-- Some library that rounds well. -/
noncomputable def someLib : LibM where
  powf b e := if h : ∃ a : F64, a.Rep ∧ ∃ r : ℚ, a.Is r ∧ |(r : ℝ) - (b.val : ℝ) ^ (e.val : ℝ)| ≤ (b.val : ℝ) ^ (e.val : ℝ) / 2 ^ 51
    then h.choose else .nan
  ln x := if h : ∃ a : F64, a.Rep ∧ ∃ r : ℚ, a.Is r ∧ |(r : ℝ) - Real.log x.val| ≤ |Real.log x.val| / 2 ^ 51 then h.choose else .nan

theorem someLib_accurate : someLib.Accurate where
  powf {b e β ε} _ _ hb he hs h0 h1 := by
    have hpos : (0 : ℝ) < (β : ℝ) ^ (ε : ℝ) := lt_of_lt_of_le (by positivity) h0
    have h : ∃ a : F64, a.Rep ∧ ∃ r : ℚ, a.Is r ∧ |(r : ℝ) - (b.val : ℝ) ^ (e.val : ℝ)| ≤ (b.val : ℝ) ^ (e.val : ℝ) / 2 ^ 51 := by
      rw [hb.val, he.val]
      obtain ⟨a, k1, k2⟩ := exists_double (y := (β : ℝ) ^ (ε : ℝ)) (by rw [abs_of_pos hpos]; exact h0) (by rw [abs_of_pos hpos]; exact h1)
      rw [abs_of_pos hpos] at k2
      exact ⟨a, k1, k2⟩
    have := h.choose_spec
    unfold someLib
    simp only
    rw [dif_pos h]
    refine ⟨this.1, ?_⟩
    obtain ⟨r, r1, r2⟩ := this.2
    exact ⟨r, r1, by rwa [hb.val, he.val] at r2⟩
  ln {x ξ} hr hx hs := by
    have h : ∃ a : F64, a.Rep ∧ ∃ r : ℚ, a.Is r ∧ |(r : ℝ) - Real.log x.val| ≤ |Real.log x.val| / 2 ^ 51 := by
      rw [hx.val]
      by_cases h1 : ξ = 1
      · exact ⟨F64.zero, zero_rep, 0, zero_is, by rw [h1]; simp⟩
      · obtain ⟨s0, s1⟩ := log_sized hx hr hs h1
        exact exists_double s0 s1
    have := h.choose_spec
    unfold someLib
    simp only
    rw [dif_pos h]
    refine ⟨this.1, ?_⟩
    obtain ⟨r, r1, r2⟩ := this.2
    exact ⟨r, r1, by rwa [hx.val] at r2⟩

end Hmm
