import Verif.Spec.FloatStage
import Verif.Proofs.FloatAmounts
import Verif.Proofs.FloatTwin
import Verif.Proofs.FloatEnds

/-
Accuracy of one price move of a swap of the floating-point pool.
-/

namespace Hmm.F64

section
attribute [local irreducible] unit limit

/-- `r` is `x` up to `k` parts in `2^53`. -/
def Rel (k : ℕ) (r x : ℚ) : Prop := |r - x| ≤ |x| * k / 2 ^ 53

theorem Rel.refl (x : ℚ) : Rel 0 x x := by unfold Rel; simp

theorem Rel.mono {j k : ℕ} {r x : ℚ} (h : Rel j r x) (hk : j ≤ k) : Rel k r x := by
  unfold Rel at *
  refine le_trans h (div_le_div_of_nonneg_right ?_ (by positivity))
  exact mul_le_mul_of_nonneg_left (by exact_mod_cast hk) (abs_nonneg x)

theorem Rel.abs_le {j : ℕ} {r x : ℚ} (h : Rel j r x) (hj : j ≤ 1000) : |r| ≤ |x| * 2 ∧ |x| ≤ |r| * 2 := by
  unfold Rel at h
  have hjq : (j : ℚ) ≤ 1000 := by exact_mod_cast hj
  have h1 : |x| * j / 2 ^ 53 ≤ |x| / 2 := by
    rw [div_le_div_iff₀ (by positivity) (by norm_num)]
    have := mul_le_mul_of_nonneg_left hjq (abs_nonneg x)
    nlinarith [abs_nonneg x]
  have h2 : |r| ≤ |x| + |r - x| := by
    have := abs_add_le x (r - x); rwa [add_sub_cancel] at this
  have h3 : |x| ≤ |r| + |r - x| := by
    have := abs_add_le r (x - r); rw [add_sub_cancel, abs_sub_comm x r] at this; exact this
  have := abs_nonneg x
  constructor <;> linarith

theorem Rel.mul {j k : ℕ} {r s x y : ℚ} (h1 : Rel j r x) (h2 : Rel k s y) (hj : j ≤ 1000) (hk : k ≤ 1000) :
    Rel (j + k + 1) (r * s) (x * y) := by
  unfold Rel at *
  have hjq : (j : ℚ) ≤ 1000 := by exact_mod_cast hj
  have hkq : (k : ℚ) ≤ 1000 := by exact_mod_cast hk
  have e : r * s - x * y = (r - x) * (s - y) + x * (s - y) + (r - x) * y := by ring
  have t1 : |r * s - x * y| ≤ |r - x| * |s - y| + |x| * |s - y| + |r - x| * |y| := by
    rw [e]
    refine le_trans (abs_add_le _ _) ?_
    refine add_le_add (le_trans (abs_add_le _ _) ?_) (abs_mul _ _).le
    rw [abs_mul, abs_mul]
  have hx := abs_nonneg x
  have hy := abs_nonneg y
  have t2 : |r - x| * |s - y| ≤ (|x| * j / 2 ^ 53) * (|y| * k / 2 ^ 53) :=
    mul_le_mul h1 h2 (abs_nonneg _) (by positivity)
  have t3 : |x| * |s - y| ≤ |x| * (|y| * k / 2 ^ 53) := mul_le_mul_of_nonneg_left h2 hx
  have t4 : |r - x| * |y| ≤ (|x| * j / 2 ^ 53) * |y| := mul_le_mul_of_nonneg_right h1 hy
  have t5 : (|x| * j / 2 ^ 53) * (|y| * k / 2 ^ 53) ≤ |x| * |y| / 2 ^ 53 := by
    have : (|x| * j / 2 ^ 53) * (|y| * k / 2 ^ 53) = |x| * |y| * ((j : ℚ) * k / 2 ^ 53) / 2 ^ 53 := by ring
    rw [this]
    refine div_le_div_of_nonneg_right ?_ (by positivity)
    have hjk : (j : ℚ) * k / 2 ^ 53 ≤ 1 := by
      rw [div_le_one (by positivity)]
      have : (j : ℚ) * k ≤ 1000 * 1000 := mul_le_mul hjq hkq (by positivity) (by norm_num)
      norm_num at this ⊢; linarith
    calc |x| * |y| * ((j : ℚ) * k / 2 ^ 53) ≤ |x| * |y| * 1 := mul_le_mul_of_nonneg_left hjk (by positivity)
      _ = |x| * |y| := mul_one _
  rw [abs_mul]
  have e2 : |x| * |y| * ((j + k + 1 : ℕ) : ℚ) / 2 ^ 53 =
      |x| * |y| / 2 ^ 53 + |x| * (|y| * k / 2 ^ 53) + (|x| * j / 2 ^ 53) * |y| := by push_cast; ring
  rw [e2]
  linarith

theorem Rel.trans {j k : ℕ} {r s x : ℚ} (h1 : Rel j r x) (h2 : Rel k s r) (hj : j ≤ 1000) (hk : k ≤ 1000) :
    Rel (j + k + 1) s x := by
  unfold Rel at *
  have hjq : (j : ℚ) ≤ 1000 := by exact_mod_cast hj
  have hkq : (k : ℚ) ≤ 1000 := by exact_mod_cast hk
  have hx := abs_nonneg x
  have e : s - x = (s - r) + (r - x) := by ring
  have t1 : |s - x| ≤ |s - r| + |r - x| := by rw [e]; exact abs_add_le _ _
  have h3 : |r| ≤ |x| + |r - x| := by
    have := abs_add_le x (r - x); rwa [add_sub_cancel] at this
  have t2 : |r| * k / 2 ^ 53 ≤ (|x| + |x| * j / 2 ^ 53) * k / 2 ^ 53 :=
    div_le_div_of_nonneg_right (mul_le_mul_of_nonneg_right (by linarith) (by positivity)) (by positivity)
  have hjk : (j : ℚ) * k / 2 ^ 53 ≤ 1 := by
    rw [div_le_one (by positivity)]
    have : (j : ℚ) * k ≤ 1000 * 1000 := mul_le_mul hjq hkq (by positivity) (by norm_num)
    norm_num at this ⊢; linarith
  have t3 : |x| * ((j : ℚ) * k / 2 ^ 53) / 2 ^ 53 ≤ |x| * 1 / 2 ^ 53 :=
    div_le_div_of_nonneg_right (mul_le_mul_of_nonneg_left hjk hx) (by positivity)
  have e2 : (|x| + |x| * j / 2 ^ 53) * k / 2 ^ 53 = |x| * k / 2 ^ 53 + |x| * ((j : ℚ) * k / 2 ^ 53) / 2 ^ 53 := by ring
  have e3 : |x| * ((j + k + 1 : ℕ) : ℚ) / 2 ^ 53 = |x| * k / 2 ^ 53 + |x| * 1 / 2 ^ 53 + |x| * j / 2 ^ 53 := by
    push_cast; ring
  rw [e3]
  linarith

/-- Rounding zero or a number of normal size, of either sign. -/
theorem Rounded.rel_of {x : ℚ} {a : F64} (h : Rounded x a) (h0 : x = 0 ∨ 1 / 2 ^ 1000 ≤ |x|) (h1 : |x| ≤ 2 ^ 1000) :
    ∃ r, a.Is r ∧ Rel 1 r x := by
  obtain ⟨r, hr⟩ := h.finite pow1000.1 pow1000.2 (by rw [abs_of_pos (show (0 : ℚ) < 2 ^ 1000 by positivity)]; exact h1)
  refine ⟨r, hr, ?_⟩
  unfold Rel
  rcases h0 with rfl | h0
  · have : r = 0 := by rw [← hr.val, (h.exact zero_is zero_rep).val]
    rw [this]; simp
  · have := h.rel hr h0
    simpa using this

theorem Rounded.rel_tame {x : ℚ} {a : F64} {e : ℕ} (h : Rounded x a) (ht : Tame e |x|) (he : e ≤ 1000) :
    ∃ r, a.Is r ∧ Rel 1 r x := by
  rcases ht with h0 | h0
  · exact h.rel_of (Or.inl (abs_eq_zero.1 h0)) (by rw [h0]; positivity)
  · have := h0.mono he
    exact h.rel_of (Or.inr this.1) this.2

/-- Numbers close to one of moderate size are of moderate size. -/
theorem Rel.tame {k e : ℕ} {r x : ℚ} (h : Rel k r x) (hk : k ≤ 1000) (ht : Tame e |x|) : Tame (e + 1) |r| := by
  obtain ⟨m1, m2⟩ := h.abs_le hk
  rcases ht with h0 | h0
  · left
    rw [h0, zero_mul] at m1
    exact le_antisymm m1 (abs_nonneg _)
  · right
    have h1 := h0.1
    have h2 := h0.2
    constructor
    · have : (1 : ℚ) / 2 ^ e = 1 / 2 ^ (e + 1) * 2 := by rw [pow_succ]; field_simp
      linarith
    · rw [pow_succ]; linarith

theorem Near.rel {k : ℕ} {a : F64} {x r : ℚ} (h : Near k a x) (hr : a.Is r) (hk : k ≤ 1000) : Rel (2 * k) r x := by
  obtain ⟨r', hr', hb⟩ := h.within hk
  rw [← hr.val, hr'.val]
  unfold Rel
  refine le_trans hb (le_of_eq ?_)
  push_cast
  ring

end

end Hmm.F64

namespace Hmm.Flt

open F64

section
attribute [local irreducible] unit limit

/-- Reciprocals of prices. -/
theorem recip_rel {v : F64} {a : ℚ} (h : v.Is a) (hs : Sized 100 a) :
    ∃ r, (div F64.one v).Is r ∧ Rel 1 r (1 / a) := by
  have hi := hs.inv
  have hi' := hi.mono (show 100 ≤ 1000 by norm_num)
  exact (div_rounded one_is h hs.pos.ne').rel_of (Or.inr (by rw [abs_of_pos hi.pos]; exact hi'.1))
    (by rw [abs_of_pos hi.pos]; exact hi'.2)

/-- The tiny absolute error of rounding is negligible. -/
theorem tiny {S : ℚ} (h : 1 / 2 ^ 400 ≤ S) : 1 / (2 * (unit : ℚ)) ≤ S / 2 ^ 53 := by
  rw [unit_mul_pow]
  calc (1 : ℚ) / (2 * 2 ^ 1074) ≤ 1 / (2 ^ 400 * 2 ^ 53) := by
        apply one_div_le_one_div_of_le (by positivity)
        rw [← pow_add, ← pow_succ']
        exact pow_le_pow_right₀ (by norm_num) (by norm_num)
    _ = 1 / 2 ^ 400 / 2 ^ 53 := by rw [div_div]
    _ ≤ S / 2 ^ 53 := div_le_div_of_nonneg_right h (by positivity)

theorem rounded_finite {x : ℚ} {a : F64} (h : Rounded x a) (hx : |x| ≤ 2 ^ 1000) : a.Finite :=
  h.finite pow1000.1 pow1000.2 (by rw [abs_of_pos (show (0 : ℚ) < 2 ^ 1000 by positivity)]; exact hx)

/-- A product of moderate size, rounded, with an error relative to a bound. -/
theorem mul_abs {l d : F64} {L D S : ℚ} (hl : l.Is L) (hd : d.Is D) (h : |L * D| ≤ S) (h0 : 1 / 2 ^ 400 ≤ S)
    (h1 : S ≤ 2 ^ 1000) : ∃ r, (mul l d).Is r ∧ |r - L * D| ≤ 2 * (S / 2 ^ 53) := by
  obtain ⟨r, hr⟩ := rounded_finite (mul_rounded hl hd) (le_trans h h1)
  refine ⟨r, hr, ?_⟩
  have := (mul_rounded hl hd).error hr
  have h2 := tiny h0
  have h3 : |L * D| / 2 ^ 53 ≤ S / 2 ^ 53 := div_le_div_of_nonneg_right h (by positivity)
  linarith

theorem sub_abs {l d : F64} {L D S : ℚ} (hl : l.Is L) (hd : d.Is D) (h : |L - D| ≤ S) (h1 : S ≤ 2 ^ 1000) :
    ∃ r, (sub l d).Is r ∧ |r - (L - D)| ≤ S / 2 ^ 53 := by
  obtain ⟨r, hr⟩ := rounded_finite (sub_rounded hl hd) (le_trans h h1)
  exact ⟨r, hr, le_trans (sub_error hl hd hr) (div_le_div_of_nonneg_right h (by positivity))⟩

/-- The sum of two reciprocals, times liquidity, is of moderate size. -/
theorem sum_sized {L a b : ℚ} (hL : Sized 200 L) (ha : Sized 100 a) (hb : Sized 100 b) :
    1 / 2 ^ 400 ≤ L * (a + b) ∧ L * (a + b) ≤ 2 ^ 400 := by
  have h1 := (hL.mul ha).mono (show 200 + 100 ≤ 399 by norm_num)
  have h2 := (hL.mul hb).mono (show 200 + 100 ≤ 399 by norm_num)
  have h3 := h1.pos
  have h4 := h2.pos
  rw [mul_add]
  constructor
  · have := (h1.mono (show 399 ≤ 400 by norm_num)).1
    linarith
  · calc L * a + L * b ≤ 2 * 2 ^ 399 := by linarith [h1.2, h2.2]
      _ = 2 ^ 400 := (pow_succ' 2 399).symm

/-- `dx_from_l_drp`, with an error relative to the reciprocals. -/
theorem dxFromLDrp_abs {l old new : F64} {L a b : ℚ} (hl : l.Is L) (ha : old.Is a) (hb : new.Is b) (sl : Sized 200 L)
    (sa : Sized 100 a) (sb : Sized 100 b) :
    ∃ r, (dxFromLDrp l old new).Is r ∧ |r - L * (1 / b - 1 / a)| ≤ L * (1 / a + 1 / b) * 8 / 2 ^ 53 := by
  obtain ⟨rb, hrb, eb⟩ := recip_rel hb sb
  obtain ⟨ra, hra, ea⟩ := recip_rel ha sa
  have hL := sl.pos
  have pa := sa.inv.pos
  have pb := sb.inv.pos
  obtain ⟨hS0, hS1⟩ := sum_sized sl sa.inv sb.inv
  obtain ⟨S, hS⟩ : ∃ S, S = 1 / a + 1 / b := ⟨_, rfl⟩
  rw [← hS] at hS0 hS1 ⊢
  unfold Rel at ea eb
  rw [abs_of_pos pa, Nat.cast_one, mul_one] at ea
  rw [abs_of_pos pb, Nat.cast_one, mul_one] at eb
  have hSp : 0 < S := by rw [hS]; linarith
  have hd : |(rb - ra) - (1 / b - 1 / a)| ≤ S / 2 ^ 53 := by
    have : (rb - ra) - (1 / b - 1 / a) = (rb - 1 / b) - (ra - 1 / a) := by ring
    rw [this]
    refine le_trans (abs_sub _ _) ?_
    rw [hS, add_div]; linarith
  have hd0 : |1 / b - 1 / a| ≤ S := by
    rw [hS]
    rw [_root_.abs_le]; constructor <;> linarith
  have hd1 : |rb - ra| ≤ 2 * S := by
    have : |rb - ra| ≤ |(rb - ra) - (1 / b - 1 / a)| + |1 / b - 1 / a| := by
      have := abs_add_le ((rb - ra) - (1 / b - 1 / a)) (1 / b - 1 / a); rwa [sub_add_cancel] at this
    have h5 : S / 2 ^ 53 ≤ S := div_le_self hSp.le (by norm_num)
    linarith
  have hS2 : 2 * S ≤ 2 ^ 1000 := by
    have h6 : S ≤ 2 * 2 ^ 100 := by rw [hS]; linarith [sa.inv.2, sb.inv.2]
    refine le_trans (by linarith : 2 * S ≤ 2 ^ 2 * 2 ^ 100) ?_
    rw [← pow_add]; exact pow_le_pow_right₀ (by norm_num) (by norm_num)
  obtain ⟨d, hdi, hde⟩ := sub_abs hrb hra hd1 hS2
  have hd2 : |d - (1 / b - 1 / a)| ≤ 3 * (S / 2 ^ 53) := by
    have e : d - (1 / b - 1 / a) = (d - (rb - ra)) + ((rb - ra) - (1 / b - 1 / a)) := by ring
    rw [e]
    refine le_trans (abs_add_le _ _) ?_
    have : 2 * S / 2 ^ 53 = 2 * (S / 2 ^ 53) := by ring
    linarith
  have hd3 : |d| ≤ 2 * S := by
    have h4 : |d| ≤ |d - (1 / b - 1 / a)| + |1 / b - 1 / a| := by
      have := abs_add_le (d - (1 / b - 1 / a)) (1 / b - 1 / a); rwa [sub_add_cancel] at this
    have h5 : 3 * (S / 2 ^ 53) ≤ S := by
      have : 3 * (S / 2 ^ 53) = S * (3 / 2 ^ 53) := by ring
      rw [this]
      calc S * (3 / 2 ^ 53) ≤ S * 1 := mul_le_mul_of_nonneg_left (by norm_num) hSp.le
        _ = S := mul_one S
    linarith
  have hLd : |L * d| ≤ 2 * (L * S) := by
    rw [abs_mul, abs_of_pos hL]
    calc L * |d| ≤ L * (2 * S) := mul_le_mul_of_nonneg_left hd3 hL.le
      _ = 2 * (L * S) := by ring
  obtain ⟨r, hr, he⟩ := mul_abs hl hdi hLd (by linarith [mul_pos hL hSp]) (by
    calc 2 * (L * S) ≤ 2 * 2 ^ 400 := by linarith
      _ = 2 ^ 401 := (pow_succ' 2 400).symm
      _ ≤ 2 ^ 1000 := pow_le_pow_right₀ (by norm_num) (by norm_num))
  refine ⟨r, hr, ?_⟩
  have e : r - L * (1 / b - 1 / a) = (r - L * d) + L * (d - (1 / b - 1 / a)) := by ring
  rw [e]
  refine le_trans (abs_add_le _ _) ?_
  rw [abs_mul, abs_of_pos hL]
  have h7 : L * |d - (1 / b - 1 / a)| ≤ L * (3 * (S / 2 ^ 53)) := mul_le_mul_of_nonneg_left hd2 hL.le
  have e2 : L * S * 8 / 2 ^ 53 = 4 * (L * S / 2 ^ 53) + L * (3 * (S / 2 ^ 53)) + L * S / 2 ^ 53 := by ring
  have e3 : 2 * (2 * (L * S) / 2 ^ 53) = 4 * (L * S / 2 ^ 53) := by ring
  have h8 : 0 ≤ L * S / 2 ^ 53 := by positivity
  rw [e2]; linarith

/-- Differences of prices. -/
theorem sub_tame {s t : F64} {a b : ℚ} (ha : s.Is a) (hb : t.Is b) (sa : Sized 100 a) (sb : Sized 100 b) (ra : s.Rep)
    (rb : t.Rep) : Tame 153 |b - a| := by
  rcases lt_trichotomy a b with h | h | h
  · right
    have := (sized_sub hb ha rb ra sb sa (by norm_num) h).mono (show 100 + 53 ≤ 153 by norm_num)
    rw [abs_of_pos this.pos]; exact this
  · left; rw [h, sub_self, abs_zero]
  · right
    have := (sized_sub ha hb ra rb sa sb (by norm_num) h).mono (show 100 + 53 ≤ 153 by norm_num)
    rw [abs_sub_comm, abs_of_pos this.pos]; exact this

theorem _root_.Hmm.F64.Rel.scale {k : ℕ} {r x : ℚ} (L : ℚ) (h : Rel k r x) : Rel k (L * r) (L * x) := by
  unfold Rel at h ⊢
  rw [← mul_sub, abs_mul, abs_mul]
  calc |L| * |r - x| ≤ |L| * (|x| * k / 2 ^ 53) := mul_le_mul_of_nonneg_left h (abs_nonneg L)
    _ = |L| * |x| * k / 2 ^ 53 := by ring

/-- `dy_from_l_drp`, with a relative error. -/
theorem dyFromLDrp_rel {l old new : F64} {L a b : ℚ} (hl : l.Is L) (ha : old.Is a) (hb : new.Is b) (sl : Sized 200 L)
    (sa : Sized 100 a) (sb : Sized 100 b) (ra : old.Rep) (rb : new.Rep) :
    ∃ r, (dyFromLDrp l old new).Is r ∧ Rel 3 r (L * (b - a)) ∧ Tame 355 |r| := by
  have hd0 := sub_tame ha hb sa sb ra rb
  obtain ⟨d, hdi, hdr⟩ := (sub_rounded hb ha).rel_tame hd0 (by norm_num)
  have hd1 := hdr.tame (by norm_num) hd0
  have hL := sl.pos
  have hm : Tame 354 |L * d| := by
    rw [abs_mul, abs_of_pos hL]
    exact (Tame.mul (Or.inr sl) hd1).mono (by norm_num)
  obtain ⟨r, hr, hrr⟩ := (mul_rounded hl hdi).rel_tame hm (by norm_num)
  have h1 := (hdr.scale L).trans hrr (by norm_num) (by norm_num)
  have h2 := hrr.tame (by norm_num) hm
  exact ⟨r, hr, h1, h2.mono (by norm_num)⟩

theorem whole_is' : ∃ w, adjWholeFill.Is w ∧ Rel 2 w (1 - 1 / 10 ^ 12) ∧ 0 < w ∧ w ≤ 1 := by
  have h : Near 1 adjWholeFill (1 - 1 / 10 ^ 12) := adj_near
  obtain ⟨w, hw, h0, h1, h2⟩ := h.pos (by norm_num)
  refine ⟨w, hw, h.rel hw (by norm_num), h0, ?_⟩
  rw [pow_one] at h2
  by_contra hc
  have : shrink ≤ w * shrink := by
    have := mul_le_mul_of_nonneg_right (not_le.1 hc).le shrink_pos.le
    linarith
  have h3 : shrink ≤ 1 - 1 / 10 ^ 12 := le_trans this h2
  unfold shrink at h3
  norm_num at h3

/-- Taking off what is held back recovers the constant-product amount. -/
theorem held_back {send cp : F64} {C : ℚ} (hc : cp.Is C) (hS : send.Finite) (hC : |C| ≤ 2 ^ 999)
    (h1 : lt (sub send cp) F64.zero = false) (h2 : lt F64.zero send = false) (h3 : lt F64.zero cp = false) :
    ∃ q, (sub send (sub send cp)).Is q ∧ Rel 3 q C := by
  obtain ⟨S, hs⟩ := hS
  have hS0 : S ≤ 0 := by
    by_contra h
    rw [(lt_is zero_is hs).2 (not_le.1 h)] at h2; cases h2
  have hC0 : C ≤ 0 := by
    by_contra h
    rw [(lt_is zero_is hc).2 (not_le.1 h)] at h3; cases h3
  have hp : (2 : ℚ) ^ 999 ≤ 2 ^ 1000 := pow_le_pow_right₀ (by norm_num) (by norm_num)
  have hCS : C ≤ S := by
    by_contra h
    rw [not_le] at h
    rcases (sub_rounded hs hc).cases with ⟨A, hA⟩ | hA | hA
    · have he := sub_error hs hc hA
      have hA0 : 0 ≤ A := by
        by_contra h4
        rw [(lt_is hA zero_is).2 (not_le.1 h4)] at h1; cases h1
      rw [abs_of_neg (show S - C < 0 by linarith), abs_of_nonneg (show 0 ≤ A - (S - C) by linarith)] at he
      have : -(S - C) / 2 ^ 53 ≤ -(S - C) / 2 := div_le_div_of_nonneg_left (by linarith) (by norm_num) (by norm_num)
      linarith
    · linarith [hA.1]
    · rw [hA.2] at h1; cases h1
  have hb : |S - C| ≤ |C| := by
    rw [abs_of_nonneg (show 0 ≤ S - C by linarith), abs_of_nonpos hC0]; linarith
  obtain ⟨A, hA, he⟩ := sub_abs hs hc hb (le_trans hC hp)
  have hb2 : |S - A| ≤ 2 * |C| := by
    have e : S - A = C - (A - (S - C)) := by ring
    rw [e]
    refine le_trans (abs_sub _ _) ?_
    have : |C| / 2 ^ 53 ≤ |C| := div_le_self (abs_nonneg _) (by norm_num)
    linarith
  obtain ⟨q, hq, hqe⟩ := sub_abs hs hA hb2 (by
    calc 2 * |C| ≤ 2 * 2 ^ 999 := by linarith
      _ = 2 ^ 1000 := (pow_succ' 2 999).symm)
  refine ⟨q, hq, ?_⟩
  unfold Rel
  have e : q - C = (q - (S - A)) - (A - (S - C)) := by ring
  rw [e]
  refine le_trans (abs_sub _ _) ?_
  have e2 : |C| * (3 : ℕ) / 2 ^ 53 = 2 * |C| / 2 ^ 53 + |C| / 2 ^ 53 := by push_cast; ring
  rw [e2]; linarith

/-- `rp_new_from_l_dx` inverts the formula for the amount of X. -/
theorem rpNewFromLDx_abs {l old dx : F64} {L a b D : ℚ} (hl : l.Is L) (ha : old.Is a) (hd : dx.Is D)
    (hb : (rpNewFromLDx l old dx).Is b) (sl : Sized 200 L) (sa : Sized 100 a) (sd : Tame 300 D) (sb : 0 < b) :
    |D - L * (1 / b - 1 / a)| ≤ L * (1 / a + 1 / b) * 8 / 2 ^ 53 := by
  have n1 : Near 1 (div dx l) (D / L) :=
    (near_is hd sd.nonneg).div (near_is hl sl.pos.le) sl.pos (sd.div sl) (by norm_num) (by norm_num)
  have n2 : Near 1 (div F64.one old) (1 / a) :=
    (near_is one_is zero_le_one).div (near_is ha sa.pos.le) sa.pos (Or.inr sa.inv) (by norm_num) (by norm_num)
  have hD := sd.nonneg
  have hL := sl.pos
  have hT0 : 0 ≤ D / L := div_nonneg hD hL.le
  have sT : Sized 501 (D / L + 1 / a) := by
    have h1 := sa.inv.mono (show 100 ≤ 500 by norm_num)
    have h2 : D / L ≤ 2 ^ 500 := by
      rcases (sd.div sl).mono (show 300 + 200 ≤ 500 by norm_num) with h | h
      · rw [h]; positivity
      · exact h.2
    constructor
    · have := (sa.inv.mono (show 100 ≤ 501 by norm_num)).1
      linarith
    · rw [pow_succ]
      linarith [h1.2]
  have n3 := n1.add n2 (Or.inr sT) (by norm_num) (by norm_num)
  have n4 : Near 3 (rpNewFromLDx l old dx) (1 / (D / L + 1 / a)) :=
    (near_is one_is zero_le_one).div n3 sT.pos (Or.inr sT.inv) (by norm_num) (by norm_num)
  obtain ⟨r, hr, _, h1, h2⟩ := n4.val
  have e : r = b := by rw [← hr.val, hb.val]
  subst e
  obtain ⟨T, hT⟩ : ∃ T, T = D / L + 1 / a := ⟨_, rfl⟩
  rw [← hT] at h1 h2 sT
  have hTp := sT.pos
  rw [le_div_iff₀ hTp] at h2
  rw [one_div, inv_mul_le_iff₀ hTp] at h1
  have hs := shrink_pow_ge 3
  have hh := shrink_pow_half (k := 3) (by norm_num)
  have hs0 := shrink_pow_pos 3
  have e1 : D - L * (1 / r - 1 / a) = L * (T - 1 / r) := by rw [hT]; field_simp; ring
  rw [e1, abs_mul, abs_of_pos hL]
  have key : |T - 1 / r| ≤ 1 / r * 8 / 2 ^ 53 := by
    have hr0 : 0 < 1 / r := by positivity
    have e2 : T - 1 / r = 1 / r * (r * T - 1) := by field_simp
    rw [e2, abs_mul, abs_of_pos hr0, mul_div_assoc]
    refine mul_le_mul_of_nonneg_left ?_ hr0.le
    push_cast at hs
    have hrT : 0 < r * T := mul_pos sb hTp
    rw [_root_.abs_le]
    constructor
    · have : shrink ^ 3 ≤ r * T := by linarith
      norm_num at hs ⊢; linarith
    · have h3 : r * T * shrink ^ 3 ≤ 1 := by linarith
      have h4 : r * T ≤ 2 := by
        have := mul_le_mul_of_nonneg_left hh hrT.le
        linarith
      have h5 := mul_le_mul_of_nonneg_left hs hrT.le
      norm_num at h5 ⊢; linarith
  have hb0 : 0 < 1 / a := sa.inv.pos
  calc L * |T - 1 / r| ≤ L * (1 / r * 8 / 2 ^ 53) := mul_le_mul_of_nonneg_left key hL.le
    _ = L * (1 / r) * 8 / 2 ^ 53 := by ring
    _ ≤ L * (1 / a + 1 / r) * 8 / 2 ^ 53 := by
      refine div_le_div_of_nonneg_right (mul_le_mul_of_nonneg_right (mul_le_mul_of_nonneg_left ?_ hL.le) (by norm_num)) (by positivity)
      linarith

/-- `rp_new_from_l_dy` inverts the formula for the amount of Y. -/
theorem rpNewFromLDy_abs {l old dy : F64} {L a b D : ℚ} (hl : l.Is L) (ha : old.Is a) (hd : dy.Is D)
    (hb : (rpNewFromLDy l old dy).Is b) (sl : Sized 200 L) (sa : Sized 100 a) (sd : Tame 300 D) (sb : 0 < b) :
    |D - L * (b - a)| ≤ L * (a + b) * 8 / 2 ^ 53 := by
  have n1 : Near 1 (div dy l) (D / L) :=
    (near_is hd sd.nonneg).div (near_is hl sl.pos.le) sl.pos (sd.div sl) (by norm_num) (by norm_num)
  have hD := sd.nonneg
  have hL := sl.pos
  have hT0 : 0 ≤ D / L := div_nonneg hD hL.le
  have sT : Sized 501 (D / L + a) := by
    have h1 := sa.mono (show 100 ≤ 500 by norm_num)
    have h2 : D / L ≤ 2 ^ 500 := by
      rcases (sd.div sl).mono (show 300 + 200 ≤ 500 by norm_num) with h | h
      · rw [h]; positivity
      · exact h.2
    constructor
    · have := (sa.mono (show 100 ≤ 501 by norm_num)).1
      linarith
    · rw [pow_succ]
      linarith [h1.2]
  have n4 : Near 2 (rpNewFromLDy l old dy) (D / L + a) :=
    n1.add ((near_is ha sa.pos.le).mono (show 0 ≤ 1 by norm_num)) (Or.inr sT) (by norm_num) (by norm_num)
  obtain ⟨r, hr, hr0, h1, h2⟩ := n4.val
  have e : r = b := by rw [← hr.val, hb.val]
  subst e
  have hs := shrink_pow_ge 2
  have hh := shrink_pow_half (k := 2) (by norm_num)
  have hTp := sT.pos
  have ha0 := sa.pos
  have e1 : D - L * (r - a) = L * (D / L + a - r) := by field_simp; ring
  rw [e1, abs_mul, abs_of_pos hL]
  have key : |D / L + a - r| ≤ (a + r) * 8 / 2 ^ 53 := by
    push_cast at hs
    have h5 := mul_le_mul_of_nonneg_left hs hTp.le
    have h6 := mul_le_mul_of_nonneg_left hs hr0
    have h7 : D / L + a ≤ 2 * r := by
      have := mul_le_mul_of_nonneg_left hh hTp.le
      linarith
    rw [_root_.abs_le]
    norm_num at h5 h6 ⊢
    constructor <;> linarith
  calc L * |D / L + a - r| ≤ L * ((a + r) * 8 / 2 ^ 53) := mul_le_mul_of_nonneg_left key hL.le
    _ = L * (a + r) * 8 / 2 ^ 53 := by ring

/-! ### Fees -/

theorem one_rep : F64.one.Rep := by
  refine rep_fin.2 ⟨?_, 1, 1074, by norm_num, ?_⟩
  · rw [unit_eq, limit_eq]; exact Nat.pow_lt_pow_right (by decide) (by decide)
  · rw [unit_eq, one_mul]

theorem mul_finite {a b : F64} (h : (mul a b).Finite) : a.Finite := by
  obtain ⟨q, s, n, h, _⟩ := h
  match a, b, h with
  | .fin s n, _, _ => exact finite_fin _ _
  | .nan, .nan, h | .nan, .inf _, h | .nan, .fin _ _, h => cases h
  | .inf _, .nan, h | .inf _, .inf _, h => cases h
  | .inf _, .fin _ k, h =>
    unfold mul at h
    simp only at h
    split at h <;> cases h

/-- What is left after the fee rate. -/
theorem rest_near {f : F64} {r : ℚ} (hf : f.Is r) (rf : f.Rep) (hr : Tame 100 r) (h1 : r < 1) :
    Near 1 (sub F64.one f) (1 - r) ∧ Sized 153 (1 - r) := by
  have o : Sized 100 (1 : ℚ) := by
    constructor
    · rw [div_le_one (by positivity)]; exact one_le_pow₀ (by norm_num)
    · exact one_le_pow₀ (by norm_num)
  rcases hr with rfl | hr
  · rw [sub_zero]
    have o' := o.mono (show 100 ≤ 1000 by norm_num)
    have := sub_rounded one_is hf
    rw [sub_zero] at this
    exact ⟨this.near o'.1 o'.2, o.mono (by norm_num)⟩
  · exact ⟨near_sub one_is hf one_rep rf o hr (by norm_num) h1,
      (sized_sub one_is hf one_rep rf o hr (by norm_num) h1).mono (by norm_num)⟩

/-- The fee of a move that ends on a tick. -/
theorem fee_cross {f recv : F64} {r R F : ℚ} (hf : f.Is r) (rf : f.Rep) (hr : Tame 100 r) (h1 : r < 1) (hR : recv.Is R)
    (tR : Tame 300 R) (hF : (mul (div recv (sub F64.one f)) f).Is F) : FeePart r R F := by
  obtain ⟨n1, s1⟩ := rest_near hf rf hr h1
  have n2 := (near_is hR tR.nonneg).div n1 s1.pos (tR.div s1) (by norm_num) (by norm_num)
  have n3 := n2.mul (near_is hf hr.nonneg) ((tR.div s1).mul hr) (by norm_num) (by norm_num)
  have h := n3.rel hF (by norm_num)
  unfold Rel at h
  have hp := s1.pos
  have hR0 := tR.nonneg
  have hr0 := hr.nonneg
  have hx : 0 ≤ R / (1 - r) * r := mul_nonneg (div_nonneg hR0 hp.le) hr0
  rw [abs_of_nonneg hx] at h
  unfold FeePart
  have e : F * (1 - r) - R * r = (F - R / (1 - r) * r) * (1 - r) := by field_simp
  rw [e, abs_mul, abs_of_pos hp]
  have h2 := mul_le_mul_of_nonneg_right h hp.le
  have e2 : R / (1 - r) * r * (2 * (0 + 1 + 1 + 0 + 1) : ℕ) / 2 ^ 53 * (1 - r) = R * r * 6 / 2 ^ 53 := by
    push_cast; field_simp
  rw [e2] at h2
  have hF0 : 0 ≤ F := by
    obtain ⟨F', hF', h0, _⟩ := n3.val
    rwa [← hF.val, hF'.val]
  have h3 : R * r ≤ R := by
    calc R * r ≤ R * 1 := mul_le_mul_of_nonneg_left h1.le hR0
      _ = R := mul_one R
  refine le_trans h2 ?_
  norm_num
  linarith

/-- The fee of a move that fills the order. -/
theorem fee_fill {f dx : F64} {r R F : ℚ} (hf : f.Is r) (rf : f.Rep) (hr : Tame 100 r) (h1 : r < 1)
    (hd : le dx F64.zero = false) (hR : (mul dx (sub F64.one f)).Is R) (tR : Tame 300 R)
    (hF : (sub dx (mul dx (sub F64.one f))).Is F) (tF : Tame 300 F) : FeePart r R F := by
  obtain ⟨n1, s1⟩ := rest_near hf rf hr h1
  obtain ⟨g, hg, g0, g1, g2⟩ := n1.pos s1.pos
  have rg := n1.rel hg (by norm_num)
  obtain ⟨D, hD⟩ := mul_finite ⟨R, hR⟩
  have hD0 : 0 < D := by
    by_contra h
    rw [(le_is hD zero_is).2 (not_lt.1 h)] at hd; cases hd
  have hp := s1.pos
  have hR0 := tR.nonneg
  have hF0 := tF.nonneg
  have e1 := sub_error hD hR hF
  -- the order is not tiny
  have hDn : 1 / 2 ^ 301 ≤ D := by
    have ip : (1 : ℚ) / 2 ^ 300 = 2 * (1 / 2 ^ 301) := by rw [pow_succ (2 : ℚ) 300]; field_simp
    have hpos : (0 : ℚ) < 1 / 2 ^ 301 := by positivity
    rcases tF with hF' | hF'
    · rw [hF', zero_sub, abs_neg] at e1
      have : |D - R| = 0 := by
        have h2 : |D - R| / 2 ^ 53 ≤ |D - R| / 2 := div_le_div_of_nonneg_left (abs_nonneg _) (by norm_num) (by norm_num)
        have := abs_nonneg (D - R)
        linarith
      have hDR : D = R := by linarith [abs_eq_zero.1 this]
      rcases tR with h | h
      · rw [hDR, h] at hD0; exact absurd hD0 (lt_irrefl _)
      · rw [hDR]; linarith [h.1]
    · have hF1 := hF'.1
      have hDR : 0 ≤ D - R := by
        by_contra h
        rw [abs_of_neg (not_le.1 h), abs_of_nonneg (show 0 ≤ F - (D - R) by linarith [not_le.1 h, hF'.pos])] at e1
        have h2 : -(D - R) / 2 ^ 53 ≤ -(D - R) / 2 :=
          div_le_div_of_nonneg_left (by linarith [not_le.1 h]) (by norm_num) (by norm_num)
        linarith [hF'.pos, not_le.1 h]
      rw [abs_of_nonneg hDR] at e1
      have h3 := (_root_.abs_le.1 e1).2
      have h2 : (D - R) / 2 ^ 53 ≤ D - R := div_le_self hDR (by norm_num)
      linarith
  have hDg : 1 / 2 ^ 1000 ≤ |D * g| := by
    rw [abs_of_pos (mul_pos hD0 g0)]
    have hs := shrink_pow_half (k := 1) (by norm_num)
    have h3 : 1 / 2 ^ 154 ≤ g := by
      have e : (1 : ℚ) / 2 ^ 154 = 1 / 2 ^ 153 * (1 / 2) := by rw [pow_succ (2 : ℚ) 153]; field_simp
      rw [e]
      exact le_trans (mul_le_mul s1.1 hs (by norm_num) hp.le) g1
    calc (1 : ℚ) / 2 ^ 1000 ≤ 1 / 2 ^ (301 + 154) :=
          one_div_le_one_div_of_le (by positivity) (pow_le_pow_right₀ (by norm_num) (by norm_num))
      _ = 1 / 2 ^ 301 * (1 / 2 ^ 154) := by rw [pow_add, div_mul_div_comm, one_mul]
      _ ≤ D * g := mul_le_mul hDn h3 (by positivity) hD0.le
  have e2 := (mul_rounded hD hg).rel hR hDg
  rw [abs_of_pos (mul_pos hD0 g0)] at e2
  unfold Rel at rg
  rw [abs_of_pos hp] at rg
  push_cast at rg
  have hr0 := hr.nonneg
  have q1 := _root_.abs_le.1 e2
  have q2 := _root_.abs_le.1 rg
  have hg1 : g ≤ 2 := by linarith [div_le_self (show 0 ≤ (1 - r) * 2 by linarith) (show (1 : ℚ) ≤ 2 ^ 53 by norm_num)]
  -- products with the order
  have q3 : D * g - D * (1 - r) ≤ D * ((1 - r) * 2 / 2 ^ 53) := by
    rw [← mul_sub]; exact mul_le_mul_of_nonneg_left q2.2 hD0.le
  have q4 : -(D * ((1 - r) * 2 / 2 ^ 53)) ≤ D * g - D * (1 - r) := by
    rw [← mul_sub, ← mul_neg]; exact mul_le_mul_of_nonneg_left q2.1 hD0.le
  have q5 : D * (1 - r) ≤ D := by
    calc D * (1 - r) ≤ D * 1 := mul_le_mul_of_nonneg_left (by linarith) hD0.le
      _ = D := mul_one D
  have e3 : D * ((1 - r) * 2 / 2 ^ 53) = D * (1 - r) * (2 / 2 ^ 53) := by ring
  rw [e3] at q3 q4
  have q6 : D * (1 - r) * (2 / 2 ^ 53) ≤ D * (2 / 2 ^ 53) := mul_le_mul_of_nonneg_right q5 (by positivity)
  have q7 : D * g ≤ D * (1 + 2 / 2 ^ 53) := by linarith
  have q8 : D * g / 2 ^ 53 ≤ D * (1 + 2 / 2 ^ 53) / 2 ^ 53 := div_le_div_of_nonneg_right q7 (by positivity)
  have hRD : R ≤ D * (1 + 4 / 2 ^ 53) := by
    norm_num at q8 q7 q1 ⊢
    linarith
  have hDRa : |D - R| ≤ D * (1 + 4 / 2 ^ 53) := by
    rw [_root_.abs_le]
    constructor
    · norm_num at hRD ⊢; linarith
    · norm_num; linarith
  have q9 : |F - (D - R)| ≤ D * (1 + 4 / 2 ^ 53) / 2 ^ 53 := le_trans e1 (div_le_div_of_nonneg_right hDRa (by positivity))
  obtain ⟨q10, q11⟩ := _root_.abs_le.1 q9
  have hDsum : D ≤ 2 * (R + F) := by
    norm_num at q10 ⊢; linarith
  unfold FeePart
  have e4 : F * (1 - r) - R * r = (F - (D - R)) * (1 - r) + (D * (1 - r) - R) := by ring
  have q12 : |(F - (D - R)) * (1 - r)| ≤ D * (1 + 4 / 2 ^ 53) / 2 ^ 53 := by
    rw [abs_mul, abs_of_pos hp]
    calc |F - (D - R)| * (1 - r) ≤ |F - (D - R)| * 1 := mul_le_mul_of_nonneg_left (by linarith) (abs_nonneg _)
      _ ≤ _ := by rw [mul_one]; exact q9
  have q13 : |D * (1 - r) - R| ≤ D * 4 / 2 ^ 53 := by
    rw [_root_.abs_le]
    norm_num at q8 q1 q3 q4 q6 ⊢
    constructor <;> linarith
  rw [e4]
  refine le_trans (abs_add_le _ _) ?_
  norm_num at q12 q13 ⊢
  linarith

end

end Hmm.Flt

namespace Hmm.Flt.Pool

open F64

section
attribute [local irreducible] unit limit

theorem swapWithinX_pos {m : LibM} {p : Pool} {s : F64} {goal : Nat} {liq dx o : F64} {r : SwapWithinResult}
    (h : p.swapWithinX m s goal liq dx o = .ok r) : le dx F64.zero = false := by
  unfold swapWithinX at h
  rw [ite_eq_ok] at h
  rcases h with ⟨_, h⟩ | ⟨h0, _⟩
  · exact absurd h (by simp [rpanic])
  · exact h0

theorem swapWithinY_pos {m : LibM} {p : Pool} {s : F64} {goal : Nat} {liq dx o : F64} {r : SwapWithinResult}
    (h : p.swapWithinY m s goal liq dx o = .ok r) : le dx F64.zero = false := by
  unfold swapWithinY at h
  rw [ite_eq_ok] at h
  rcases h with ⟨_, h⟩ | ⟨h0, _⟩
  · exact absurd h (by simp [rpanic])
  · exact h0

theorem fillX_parts {m : LibM} {p : Pool} {s : F64} {goal : Nat} {liq dx a b e : F64} {c : Bool} {t : Nat}
    (h : p.fillX m s goal liq dx = .ok (a, b, c, t, e)) :
    lt s e = false ∧
    ((c = true ∧ e = tickToRp m goal ∧ a = dxFromLDrp liq s e ∧ b = mul (div a (sub F64.one p.feeRate)) p.feeRate) ∨
     (c = false ∧ a = mul dx (sub F64.one p.feeRate) ∧ b = sub dx a ∧ e = rpNewFromLDx liq s a)) := by
  unfold fillX at h
  simp only at h
  rw [ite_eq_ok] at h
  rcases h with ⟨_, h⟩ | ⟨h0, h⟩
  · exact absurd h (by simp [rpanic])
  rw [ite_eq_ok] at h
  rcases h with ⟨_, h⟩ | ⟨_, h⟩
  · exact absurd h (by simp [rpanic])
  rw [ite_eq_ok] at h
  rcases h with ⟨_, h⟩ | ⟨_, h⟩
  · rw [ok_inj] at h
    simp only [Prod.mk.injEq] at h
    obtain ⟨rfl, rfl, rfl, rfl, rfl⟩ := h
    exact ⟨h0, Or.inl ⟨rfl, rfl, rfl, rfl⟩⟩
  rw [ite_eq_ok] at h
  rcases h with ⟨_, h⟩ | ⟨h1, h⟩
  · exact absurd h (by simp [rpanic])
  rw [ite_eq_ok] at h
  rcases h with ⟨_, h⟩ | ⟨_, h⟩
  · exact absurd h (by simp [rpanic])
  rw [ok_inj] at h
  simp only [Prod.mk.injEq] at h
  obtain ⟨rfl, rfl, rfl, rfl, rfl⟩ := h
  exact ⟨h1, Or.inr ⟨rfl, rfl, rfl, rfl⟩⟩

theorem fillY_parts {m : LibM} {p : Pool} {s : F64} {goal : Nat} {liq dx a b e : F64} {c : Bool} {t : Nat}
    (h : p.fillY m s goal liq dx = .ok (a, b, c, t, e)) :
    lt e s = false ∧
    ((c = true ∧ e = tickToRp m goal ∧ a = dyFromLDrp liq s e ∧ b = mul (div a (sub F64.one p.feeRate)) p.feeRate) ∨
     (c = false ∧ a = mul dx (sub F64.one p.feeRate) ∧ b = sub dx a ∧ e = rpNewFromLDy liq s a)) := by
  unfold fillY at h
  simp only at h
  rw [ite_eq_ok] at h
  rcases h with ⟨_, h⟩ | ⟨h0, h⟩
  · exact absurd h (by simp [rpanic])
  rw [ite_eq_ok] at h
  rcases h with ⟨_, h⟩ | ⟨_, h⟩
  · exact absurd h (by simp [rpanic])
  rw [ite_eq_ok] at h
  rcases h with ⟨_, h⟩ | ⟨_, h⟩
  · rw [ok_inj] at h
    simp only [Prod.mk.injEq] at h
    obtain ⟨rfl, rfl, rfl, rfl, rfl⟩ := h
    exact ⟨h0, Or.inl ⟨rfl, rfl, rfl, rfl⟩⟩
  rw [ite_eq_ok] at h
  rcases h with ⟨_, h⟩ | ⟨h1, h⟩
  · exact absurd h (by simp [rpanic])
  rw [ite_eq_ok] at h
  rcases h with ⟨_, h⟩ | ⟨_, h⟩
  · exact absurd h (by simp [rpanic])
  rw [ok_inj] at h
  simp only [Prod.mk.injEq] at h
  obtain ⟨rfl, rfl, rfl, rfl, rfl⟩ := h
  exact ⟨h1, Or.inr ⟨rfl, rfl, rfl, rfl⟩⟩

/-- The record of one round. -/
def stageOf (liq start : F64) (r : SwapWithinResult) : Stage :=
  ⟨liq, start, r.endRp, r.recv, r.recvFee, r.send, r.sendHmmAdj⟩

theorem le_of_not_lt {s t : F64} {a b : ℚ} (hs : s.Is a) (ht : t.Is b) (h : lt s t = false) : b ≤ a := by
  by_contra hc
  rw [(lt_is hs ht).2 (not_le.1 hc)] at h; cases h

theorem sixteen (S : ℚ) (k : ℕ) (hS : 0 ≤ S) (hk : k ≤ 16) : S * k / 2 ^ 53 ≤ S / 2 ^ 49 := by
  have h1 : S * k ≤ S * 16 := mul_le_mul_of_nonneg_left (by exact_mod_cast hk) hS
  have e : S / 2 ^ 49 = S * 16 / 2 ^ 53 := by ring
  rw [e]
  exact div_le_div_of_nonneg_right h1 (by positivity)

/-- One round of a sale of X. -/
theorem moveX {m : LibM} {p : Pool} {s : F64} {goal : Nat} {liq dx o : F64} {r : SwapWithinResult} {f L a b R F : ℚ}
    (h : p.swapWithinX m s goal liq dx o = .ok r) (hf : p.feeRate.Is f) (rf : p.feeRate.Rep) (tf : Tame 100 f)
    (f1 : f < 1) (u : (stageOf liq s r).Usual L a b R F) : (stageOf liq s r).MoveX f L a b R F := by
  obtain ⟨hfill, dy, _, _, hadj, ha0, hs0, hc0⟩ := swapWithinX_parts h
  obtain ⟨hle, hcase⟩ := fillX_parts hfill
  obtain ⟨il, ia, ib, ir, ifee, ra, rb, sl, sa, sb, sr, sf, fs⟩ := u
  simp only [stageOf] at il ia ib ir ifee ra rb fs
  have hba := le_of_not_lt ia ib hle
  have hL := sl.pos
  have hpa := sa.inv.pos
  have hpb := sb.inv.pos
  refine ⟨hba, ?_, ?_, ?_⟩
  · refine le_trans ?_ (sixteen _ 8 (mul_nonneg hL.le (by linarith)) (by norm_num))
    push_cast
    rcases hcase with ⟨_, _, h1, _⟩ | ⟨_, _, _, h1⟩
    · obtain ⟨q, hq, he⟩ := dxFromLDrp_abs il ia ib sl sa sb
      rw [← h1] at hq
      have : q = R := by rw [← hq.val, ir.val]
      rw [← this]; exact he
    · rw [h1] at ib
      exact rpNewFromLDx_abs il ia ir ib sl sa sr sb.pos
  · obtain ⟨C, hC, relC, tC⟩ := dyFromLDrp_rel il ia ib sl sa sb ra rb
    obtain ⟨w, hw, relw, w0, w1⟩ := whole_is'
    have tCw : Tame 357 |C * w| := by
      have sw : Sized 2 w := by
        obtain ⟨_, m2⟩ := relw.abs_le (by norm_num)
        rw [abs_of_pos w0, abs_of_pos (by norm_num)] at m2
        constructor
        · norm_num at m2 ⊢; linarith
        · norm_num; linarith
      rw [abs_mul, abs_of_pos w0]
      exact (tC.mul (Or.inr sw)).mono (by norm_num)
    obtain ⟨c, hc, relc⟩ := (mul_rounded hC hw).rel_tame tCw (by norm_num)
    have relc' := (relC.mul relw (by norm_num) (by norm_num)).trans relc (by norm_num) (by norm_num)
    have tc := relc.tame (by norm_num) tCw
    have hcb : |c| ≤ 2 ^ 999 := by
      rcases tc with h | h
      · rw [h]; positivity
      · exact (h.mono (show 357 + 1 ≤ 999 by norm_num)).2
    rw [hadj] at ha0
    obtain ⟨q, hq, relq⟩ := held_back hc fs hcb ha0 hs0 hc0
    rw [← hadj] at hq
    refine ⟨q, hq, ?_⟩
    have rel := relc'.trans relq (by norm_num) (by norm_num)
    unfold Rel at rel
    have hx : |L * (b - a) * (1 - 1 / 10 ^ 12)| ≤ L * (a - b) := by
      rw [abs_mul, abs_mul, abs_of_pos hL, abs_sub_comm, abs_of_nonneg (sub_nonneg.2 hba)]
      refine mul_le_of_le_one_right (mul_nonneg hL.le (sub_nonneg.2 hba)) ?_
      rw [abs_of_pos (by norm_num)]; norm_num
    have e : -q - L * (a - b) * (1 - 1 / 10 ^ 12) = -(q - L * (b - a) * (1 - 1 / 10 ^ 12)) := by ring
    rw [e, abs_neg]
    refine le_trans rel (le_trans ?_ (sixteen _ 12 (mul_nonneg hL.le (sub_nonneg.2 hba)) (by norm_num)))
    exact div_le_div_of_nonneg_right (mul_le_mul_of_nonneg_right hx (by positivity)) (by positivity)
  · rcases hcase with ⟨_, _, _, h1⟩ | ⟨_, h1, h2, _⟩
    · rw [h1] at ifee
      exact fee_cross hf rf tf f1 ir sr ifee
    · rw [h2] at ifee
      rw [h1] at ir ifee
      exact fee_fill hf rf tf f1 (swapWithinX_pos h) ir sr ifee sf

/-- One round of a sale of Y. -/
theorem moveY {m : LibM} {p : Pool} {s : F64} {goal : Nat} {liq dx o : F64} {r : SwapWithinResult} {f L a b R F : ℚ}
    (h : p.swapWithinY m s goal liq dx o = .ok r) (hf : p.feeRate.Is f) (rf : p.feeRate.Rep) (tf : Tame 100 f)
    (f1 : f < 1) (u : (stageOf liq s r).Usual L a b R F) : (stageOf liq s r).MoveY f L a b R F := by
  obtain ⟨hfill, dy, _, _, hadj, ha0, hs0, hc0⟩ := swapWithinY_parts h
  obtain ⟨hle, hcase⟩ := fillY_parts hfill
  obtain ⟨il, ia, ib, ir, ifee, ra, rb, sl, sa, sb, sr, sf, fs⟩ := u
  simp only [stageOf] at il ia ib ir ifee ra rb fs
  have hab := le_of_not_lt ib ia hle
  have hL := sl.pos
  have hpa := sa.inv.pos
  have hpb := sb.inv.pos
  refine ⟨hab, ?_, ?_, ?_⟩
  · refine le_trans ?_ (sixteen _ 8 (mul_nonneg hL.le (by linarith [sa.pos, sb.pos])) (by norm_num))
    push_cast
    rcases hcase with ⟨_, _, h1, _⟩ | ⟨_, _, _, h1⟩
    · obtain ⟨q, hq, rel, _⟩ := dyFromLDrp_rel il ia ib sl sa sb ra rb
      rw [← h1] at hq
      have : q = R := by rw [← hq.val, ir.val]
      rw [← this]
      unfold Rel at rel
      refine le_trans rel ?_
      rw [abs_mul, abs_of_pos hL, abs_of_nonneg (sub_nonneg.2 hab)]
      refine div_le_div_of_nonneg_right ?_ (by positivity)
      push_cast
      have h2 : L * (b - a) ≤ L * (a + b) := mul_le_mul_of_nonneg_left (by linarith [sa.pos]) hL.le
      have h3 : 0 ≤ L * (b - a) := mul_nonneg hL.le (sub_nonneg.2 hab)
      linarith
    · rw [h1] at ib
      exact rpNewFromLDy_abs il ia ir ib sl sa sr sb.pos
  · obtain ⟨C, hC, heC⟩ := dxFromLDrp_abs il ia ib sl sa sb
    obtain ⟨w, hw, relw, w0, w1⟩ := whole_is'
    obtain ⟨hS0, hS1⟩ := sum_sized sl sa.inv sb.inv
    obtain ⟨S, hS⟩ : ∃ S, S = L * (1 / a + 1 / b) := ⟨_, rfl⟩
    rw [← hS] at heC hS0 hS1 ⊢
    have hSp : 0 < S := lt_of_lt_of_le (by positivity) hS0
    obtain ⟨D, hD⟩ : ∃ D, D = L * (1 / b - 1 / a) := ⟨_, rfl⟩
    rw [← hD] at heC
    have hDS : |D| ≤ S := by
      rw [hD, hS, abs_mul, abs_of_pos hL]
      refine mul_le_mul_of_nonneg_left ?_ hL.le
      rw [_root_.abs_le]; constructor <;> linarith
    have hCS : |C| ≤ 11 / 10 * S := by
      have h4 : |C| ≤ |C - D| + |D| := by
        have := abs_add_le (C - D) D; rwa [sub_add_cancel] at this
      norm_num at heC ⊢; linarith
    have hCw : |C * w| ≤ 11 / 10 * S := by
      rw [abs_mul, abs_of_pos w0]
      exact le_trans (mul_le_of_le_one_right (abs_nonneg _) w1) hCS
    obtain ⟨c, hc, hec⟩ := mul_abs hC hw hCw (by linarith) (by
      calc 11 / 10 * S ≤ 2 * S := by linarith
        _ ≤ 2 * 2 ^ 400 := by linarith
        _ = 2 ^ 401 := (pow_succ' 2 400).symm
        _ ≤ 2 ^ 1000 := pow_le_pow_right₀ (by norm_num) (by norm_num))
    unfold Rel at relw
    have e1 : c - D * (1 - 1 / 10 ^ 12) = (c - C * w) + (C - D) * w + D * (w - (1 - 1 / 10 ^ 12)) := by ring
    have h1 : |c - D * (1 - 1 / 10 ^ 12)| ≤ S * (122 / 10) / 2 ^ 53 := by
      rw [e1]
      refine le_trans (abs_add_le _ _) ?_
      have h2 : |(c - C * w) + (C - D) * w| ≤ 2 * (11 / 10 * S / 2 ^ 53) + S * 8 / 2 ^ 53 := by
        refine le_trans (abs_add_le _ _) (add_le_add hec ?_)
        rw [abs_mul, abs_of_pos w0]
        exact le_trans (mul_le_of_le_one_right (abs_nonneg _) w1) heC
      have h3 : |D * (w - (1 - 1 / 10 ^ 12))| ≤ S * (2 / 2 ^ 53) := by
        rw [abs_mul]
        refine mul_le_mul hDS (le_trans relw ?_) (abs_nonneg _) hSp.le
        rw [abs_of_pos (by norm_num)]; norm_num
      norm_num at h2 h3 ⊢; linarith
    have hcS : |c| ≤ 11 / 10 * S := by
      have h4 : |c| ≤ |c - D * (1 - 1 / 10 ^ 12)| + |D * (1 - 1 / 10 ^ 12)| := by
        have := abs_add_le (c - D * (1 - 1 / 10 ^ 12)) (D * (1 - 1 / 10 ^ 12)); rwa [sub_add_cancel] at this
      have h5 : |D * (1 - 1 / 10 ^ 12)| ≤ S := by
        rw [abs_mul, abs_of_pos (show (0 : ℚ) < 1 - 1 / 10 ^ 12 by norm_num)]
        exact le_trans (mul_le_of_le_one_right (abs_nonneg _) (by norm_num)) hDS
      norm_num at h1 h4 h5 ⊢; linarith
    have hcb : |c| ≤ 2 ^ 999 := by
      refine le_trans hcS ?_
      calc 11 / 10 * S ≤ 2 * S := by linarith
        _ ≤ 2 * 2 ^ 400 := by linarith
        _ = 2 ^ 401 := (pow_succ' 2 400).symm
        _ ≤ 2 ^ 999 := pow_le_pow_right₀ (by norm_num) (by norm_num)
    rw [hadj] at ha0
    obtain ⟨q, hq, relq⟩ := held_back hc fs hcb ha0 hs0 hc0
    rw [← hadj] at hq
    refine ⟨q, hq, ?_⟩
    unfold Rel at relq
    have e : -q - L * (1 / a - 1 / b) * (1 - 1 / 10 ^ 12) = -((q - c) + (c - D * (1 - 1 / 10 ^ 12))) := by rw [hD]; ring
    rw [e, abs_neg]
    refine le_trans (abs_add_le _ _) ?_
    have h6 : |c| * (3 : ℕ) / 2 ^ 53 ≤ 11 / 10 * S * (3 : ℕ) / 2 ^ 53 :=
      div_le_div_of_nonneg_right (mul_le_mul_of_nonneg_right hcS (by positivity)) (by positivity)
    norm_num at h6 h1 relq ⊢
    linarith
  · rcases hcase with ⟨_, _, _, h1⟩ | ⟨_, h1, h2, _⟩
    · rw [h1] at ifee
      exact fee_cross hf rf tf f1 ir sr ifee
    · rw [h2] at ifee
      rw [h1] at ir ifee
      exact fee_fill hf rf tf f1 (swapWithinY_pos h) ir sr ifee sf

theorem crossTick_rp {p p' : Pool} {t : Nat} {d : Bool} (h : p.crossTick t d = .ok p') :
    p'.keys = p.keys ∧ p'.gs.rp = p.gs.rp := by
  have hk := crossTick_keys h
  obtain ⟨_, _, _, _, _, _, _, rfl⟩ := crossTick_ok h
  exact ⟨hk, rfl⟩

theorem tryInRangeLeft_price {m : LibM} {q : Pool} {g : Option Nat} {rp : F64} : ∀ (tks : List Nat) (p : Pool),
    (∀ k ∈ tks, k ∈ p.keys) → tryInRangeLeft m tks p = .ok (q, g, rp) →
    q.keys = p.keys ∧ rp = q.gs.rp ∧ (q.gs.rp = p.gs.rp ∨ ∃ k ∈ p.keys, q.gs.rp = tickToRp m k) ∧
      ∀ t, g = some t → lt F64.zero q.gs.liq = true
  | [], p, _, h => by
    unfold tryInRangeLeft at h
    rw [ok_inj, Prod.mk.injEq, Prod.mk.injEq] at h
    obtain ⟨rfl, rfl, rfl⟩ := h
    exact ⟨rfl, rfl, Or.inl rfl, fun t ht => by cases ht⟩
  | tk :: tks, p, hs, h => by
    unfold tryInRangeLeft at h
    rw [ite_ok] at h
    rcases h with ⟨_, h⟩ | ⟨hle, h⟩
    · exact tryInRangeLeft_price tks p (fun k hk => hs k (List.mem_cons_of_mem _ hk)) h
    · simp only at h
      rw [bind_ok] at h
      obtain ⟨p1, h1, h⟩ := h
      obtain ⟨k1, r1⟩ := crossTick_rp h1
      have k1' : p1.keys = p.keys := k1
      have r1' : p1.gs.rp = tickToRp m tk := r1
      have htk := hs tk List.mem_cons_self
      rw [ite_eq_ok] at h
      rcases h with ⟨_, h⟩ | ⟨_, h⟩
      · exact absurd h (by simp [rpanic])
      · rw [ite_eq_ok] at h
        rcases h with ⟨hl, h⟩ | ⟨_, h⟩
        · rw [pure_ok, Prod.mk.injEq, Prod.mk.injEq] at h
          obtain ⟨rfl, _, rfl⟩ := h
          exact ⟨k1', rfl, Or.inr ⟨tk, htk, r1'⟩, fun _ _ => hl⟩
        · obtain ⟨e1, e2, e3, e4⟩ := tryInRangeLeft_price tks p1
            (fun k hk => by rw [k1']; exact hs k (List.mem_cons_of_mem _ hk)) h
          rw [k1', r1'] at e3
          refine ⟨e1.trans k1', e2, ?_, e4⟩
          rcases e3 with e3 | e3
          · exact Or.inr ⟨tk, htk, e3⟩
          · exact Or.inr e3

theorem tryInRangeRight_price {m : LibM} {q : Pool} {g : Option Nat} {rp : F64} : ∀ (tks : List Nat) (p : Pool),
    (∀ k ∈ tks, k ∈ p.keys) → tryInRangeRight m tks p = .ok (q, g, rp) →
    q.keys = p.keys ∧ rp = q.gs.rp ∧ (q.gs.rp = p.gs.rp ∨ ∃ k ∈ p.keys, q.gs.rp = tickToRp m k) ∧
      ∀ t, g = some t → lt F64.zero q.gs.liq = true
  | [], p, _, h => by
    unfold tryInRangeRight at h
    rw [ok_inj, Prod.mk.injEq, Prod.mk.injEq] at h
    obtain ⟨rfl, rfl, rfl⟩ := h
    exact ⟨rfl, rfl, Or.inl rfl, fun t ht => by cases ht⟩
  | tk :: tks, p, hs, h => by
    unfold tryInRangeRight at h
    rw [ite_ok] at h
    rcases h with ⟨_, h⟩ | ⟨hle, h⟩
    · exact tryInRangeRight_price tks p (fun k hk => hs k (List.mem_cons_of_mem _ hk)) h
    · simp only at h
      rw [bind_ok] at h
      obtain ⟨p1, h1, h⟩ := h
      obtain ⟨k1, r1⟩ := crossTick_rp h1
      have k1' : p1.keys = p.keys := k1
      have r1' : p1.gs.rp = tickToRp m tk := r1
      have htk := hs tk List.mem_cons_self
      rw [bind_ok] at h
      obtain ⟨goal, h2, h⟩ := h
      rw [ite_eq_ok] at h
      rcases h with ⟨_, h⟩ | ⟨_, h⟩
      · exact absurd h (by simp [rpanic])
      · rw [ite_eq_ok] at h
        rcases h with ⟨hl, h⟩ | ⟨_, h⟩
        · rw [pure_ok, Prod.mk.injEq, Prod.mk.injEq] at h
          obtain ⟨rfl, _, rfl⟩ := h
          exact ⟨k1', rfl, Or.inr ⟨tk, htk, r1'⟩, fun _ _ => hl⟩
        · obtain ⟨e1, e2, e3, e4⟩ := tryInRangeRight_price tks p1
            (fun k hk => by rw [k1']; exact hs k (List.mem_cons_of_mem _ hk)) h
          rw [k1', r1'] at e3
          refine ⟨e1.trans k1', e2, ?_, e4⟩
          rcases e3 with e3 | e3
          · exact Or.inr ⟨tk, htk, e3⟩
          · exact Or.inr e3

theorem tryGetInRange_price {m : LibM} {p q : Pool} {d : Bool} {g : Option Nat} {rp : F64}
    (h : p.tryGetInRange m d = .ok (q, g, rp)) :
    q.keys = p.keys ∧ rp = q.gs.rp ∧ (q.gs.rp = p.gs.rp ∨ ∃ k ∈ p.keys, q.gs.rp = tickToRp m k) ∧
      ∀ t, g = some t → lt F64.zero q.gs.liq = true := by
  unfold tryGetInRange at h
  rw [ite_eq_ok] at h
  rcases h with ⟨_, h⟩ | ⟨_, h⟩
  · exact absurd h (by simp [rpanic])
  · rw [bind_ok] at h
    obtain ⟨⟨q1, g1, r1⟩, h1, h⟩ := h
    simp only at h
    rw [ite_eq_ok] at h
    rcases h with ⟨_, h⟩ | ⟨_, h⟩
    · exact absurd h (by simp [rpanic])
    · rw [pure_ok, Prod.mk.injEq, Prod.mk.injEq] at h
      obtain ⟨rfl, rfl, rfl⟩ := h
      cases d
      · exact tryInRangeLeft_price _ p (fun k hk => by simpa [tickKeys, keys] using hk) h1
      · exact tryInRangeRight_price _ p (fun k hk => by simpa [tickKeys, keys] using hk) h1

theorem finishX_avg {p p' : Pool} {a : SwapAcc} {out : SwapOutput} (h : finishX p a = .ok (p', out)) :
    out.avgPrice = if F64.eq out.recv F64.zero then F64.zero else div out.send.neg out.recv := by
  unfold finishX SwapOutput.new at h
  simp only at h
  rw [bind_ok] at h
  obtain ⟨_, h1, h⟩ := h
  rw [pure_ok, Prod.mk.injEq] at h
  obtain ⟨rfl, rfl⟩ := h
  generalize hv : (if F64.eq a.recv F64.zero then F64.zero else div a.send.neg a.recv) = v at h1
  repeat' rw [ite_eq_ok] at h1
  simp only [rpanic, reduceCtorEq, and_false, false_or, ok_inj] at h1
  obtain ⟨_, _, _, _, h1⟩ := h1
  rw [← h1]
  exact hv.symm

/-- What a stretch of the loop of a sale of X does, move by move. -/
structure WalkX (m : LibM) (o : F64) (p : Pool) (a : SwapAcc) (p' : Pool) (out : SwapOutput) (ts : List Stage) : Prop where
  recv : out.recv = Flt.total (fun t => add t.recv t.fee) a.recv ts
  fee : out.recvFee = Flt.total (·.fee) a.fee ts
  send : out.send = Flt.total (·.send) a.send ts
  adj : out.sendHmmAdj = Flt.total (·.adj) a.adj ts
  x : p'.x = Flt.total (·.recv) p.x ts
  y : p'.y = Flt.total (fun t => sub t.send t.adj) p.y ts
  xFee : p'.xFee = Flt.total (·.fee) p.xFee ts
  yAdj : p'.yAdj = Flt.total (·.adj) p.yAdj ts
  yFee : p'.yFee = p.yFee
  xAdj : p'.xAdj = p.xAdj
  growth : p'.gs.fees = { p.gs.fees with
    fx := Flt.total (fun t => div t.fee t.liq) p.gs.fees.fx ts, hy := Flt.total (fun t => div t.adj t.liq) p.gs.fees.hy ts }
  price : Follows m p.keys p.gs.rp ts p'.gs.rp
  endPrice : out.endPrice = mul p'.gs.rp p'.gs.rp
  avg : out.avgPrice = if F64.eq out.recv F64.zero then F64.zero else div out.send.neg out.recv
  positive : ∀ t ∈ ts, lt F64.zero t.liq = true
  move : ∀ t ∈ ts, ∃ (q : Pool) (goal : Nat) (dx : F64) (r : SwapWithinResult), q.feeRate = p.feeRate ∧ q.c = p.c ∧
    q.swapWithinX m t.start goal t.liq dx o = .ok r ∧
    t = stageOf t.liq t.start r

theorem loopX_walk {m : LibM} {dx o : F64} : ∀ {n : Nat} {p p' : Pool} {a : SwapAcc} {out : SwapOutput},
    a.currRp = p.gs.rp → loopX m dx o n p a = .ok (p', out) → ∃ ts, WalkX m o p a p' out ts ∧ ts.length ≤ n := by
  intro n
  induction n with
  | zero => intro p p' a out _ h; cases h
  | succ n ih =>
    intro p p' a out hrp h
    have stop : ∀ {q : Pool} {rp : F64}, (∃ ticks liq tick r, q = { p with ticks := ticks, gs := { p.gs with liq := liq, tick := tick, rp := r } }) →
        (q.gs.rp = p.gs.rp ∨ ∃ k ∈ p.keys, q.gs.rp = tickToRp m k) →
        finishX q { a with currRp := rp } = .ok (p', out) → ∃ ts, WalkX m o p a p' out ts ∧ ts.length ≤ n + 1 := by
      intro q rp hq hr hf
      have f6 := finishX_avg hf
      obtain ⟨rfl, f1, f2, f3, f4, f5⟩ := finishX_ok hf
      obtain ⟨_, _, _, _, rfl⟩ := hq
      exact ⟨[], ⟨f1, f4, f2, f3, rfl, rfl, rfl, rfl, rfl, rfl, rfl, hr, f5, f6, by simp, by simp⟩, Nat.zero_le _⟩
    rcases loopX_succ h with ⟨_, h⟩ | ⟨_, q, goal, rp, hq, h⟩
    · exact stop (rp := a.currRp) ⟨p.ticks, p.gs.liq, p.gs.tick, p.gs.rp, rfl⟩ (Or.inl rfl) h
    have key : (∃ ticks liq tick r, q = { p with ticks := ticks, gs := { p.gs with liq := liq, tick := tick, rp := r } }) ∧
        q.keys = p.keys ∧ rp = q.gs.rp ∧ (q.gs.rp = p.gs.rp ∨ ∃ k ∈ p.keys, q.gs.rp = tickToRp m k) ∧
        ∀ t, goal = some t → lt F64.zero q.gs.liq = true := by
      rcases hq with ⟨k, rfl, _, rfl⟩ | ⟨k, hq⟩
      · exact ⟨⟨_, _, _, _, rfl⟩, rfl, hrp, Or.inl rfl, fun _ _ => k⟩
      · exact ⟨tryGetInRange_frame hq, tryGetInRange_price hq⟩
    obtain ⟨hframe, hkeys, hr, hprice, hpos⟩ := key
    rcases h with ⟨_, h⟩ | ⟨gtk, q', a', hg, hs, h⟩
    · exact stop hframe hprice h
    have hl := hpos _ hg
    obtain ⟨ticks, liq, tick, r', hq'⟩ := hframe
    obtain ⟨r, hw, _, _, ha', hc⟩ := stepX_ok hs
    -- the pool after the round
    have hmid : q'.keys = q.keys ∧ q'.gs.rp = r.endRp ∧ (q'.feeRate = p.feeRate ∧ q'.c = p.c) ∧ q'.x = add p.x r.recv ∧
        q'.y = add p.y (sub r.send r.sendHmmAdj) ∧ q'.xFee = add p.xFee r.recvFee ∧
        q'.yAdj = add p.yAdj r.sendHmmAdj ∧ q'.yFee = p.yFee ∧ q'.xAdj = p.xAdj ∧
        q'.gs.fees = { p.gs.fees with
          fx := add p.gs.fees.fx (div r.recvFee q.gs.liq), hy := add p.gs.fees.hy (div r.sendHmmAdj q.gs.liq) } := by
      have hm : (q.midX r).keys = q.keys ∧ (q.midX r).gs.rp = r.endRp ∧ ((q.midX r).feeRate = p.feeRate ∧ (q.midX r).c = p.c) ∧
          (q.midX r).x = add p.x r.recv ∧
          (q.midX r).y = add p.y (sub r.send r.sendHmmAdj) ∧ (q.midX r).xFee = add p.xFee r.recvFee ∧
          (q.midX r).yAdj = add p.yAdj r.sendHmmAdj ∧ (q.midX r).yFee = p.yFee ∧ (q.midX r).xAdj = p.xAdj ∧
          (q.midX r).gs.fees = { p.gs.fees with
            fx := add p.gs.fees.fx (div r.recvFee q.gs.liq), hy := add p.gs.fees.hy (div r.sendHmmAdj q.gs.liq) } := by
        unfold midX
        rw [hl]
        subst hq'
        exact ⟨rfl, rfl, ⟨rfl, rfl⟩, rfl, rfl, rfl, rfl, rfl, rfl, rfl⟩
      rcases hc with ⟨_, rfl⟩ | ⟨_, _, ⟨_, rfl⟩ | ⟨_, hc⟩⟩
      · exact hm
      · exact hm
      · have hk := crossTick_keys hc
        obtain ⟨_, _, _, _, _, _, _, rfl⟩ := crossTick_ok hc
        exact ⟨hk.trans hm.1, hm.2⟩
    obtain ⟨k1, k2, k3, k4, k5, k6, k7, k8, k9, k10⟩ := hmid
    obtain ⟨ts, w, hlen⟩ := ih (by rw [ha', k2]) h
    rw [ha'] at w
    refine ⟨stageOf q.gs.liq q.gs.rp r :: ts, ⟨w.recv, w.fee, w.send, w.adj, ?_, ?_, ?_, ?_, w.yFee.trans k8, w.xAdj.trans k9, ?_,
      ⟨hprice, ?_⟩, w.endPrice, w.avg, ?_, ?_⟩, Nat.succ_le_succ hlen⟩
    · rw [w.x, k4]; rfl
    · rw [w.y, k5]; rfl
    · rw [w.xFee, k6]; rfl
    · rw [w.yAdj, k7]; rfl
    · rw [w.growth, k10]; rfl
    · have := w.price
      rw [k1, hkeys, k2] at this
      exact this
    · intro t ht
      rcases List.mem_cons.1 ht with rfl | ht
      · exact hl
      · exact w.positive t ht
    · intro t ht
      rcases List.mem_cons.1 ht with rfl | ht
      · exact ⟨q, gtk, _, r, by rw [hq'], by rw [hq'], by rw [← hr]; exact hw, rfl⟩
      · obtain ⟨q1, g1, d1, r1, e1, e2, e3⟩ := w.move t ht
        exact ⟨q1, g1, d1, r1, e1.trans k3.1, e2.trans k3.2, e3⟩

theorem finishY_avg {p p' : Pool} {a : SwapAcc} {out : SwapOutput} (h : finishY p a = .ok (p', out)) :
    out.avgPrice = if F64.eq out.send F64.zero then F64.zero else div out.recv.neg out.send := by
  unfold finishY SwapOutput.new at h
  simp only at h
  rw [bind_ok] at h
  obtain ⟨_, h1, h⟩ := h
  rw [pure_ok, Prod.mk.injEq] at h
  obtain ⟨rfl, rfl⟩ := h
  generalize hv : (if F64.eq a.send F64.zero then F64.zero else div a.recv.neg a.send) = v at h1
  repeat' rw [ite_eq_ok] at h1
  simp only [rpanic, reduceCtorEq, and_false, false_or, ok_inj] at h1
  obtain ⟨_, _, _, _, h1⟩ := h1
  rw [← h1]
  exact hv.symm

/-- What a stretch of the loop of a sale of Y does, move by move. -/
structure WalkY (m : LibM) (o : F64) (p : Pool) (a : SwapAcc) (p' : Pool) (out : SwapOutput) (ts : List Stage) : Prop where
  recv : out.recv = Flt.total (fun t => add t.recv t.fee) a.recv ts
  fee : out.recvFee = Flt.total (·.fee) a.fee ts
  send : out.send = Flt.total (·.send) a.send ts
  adj : out.sendHmmAdj = Flt.total (·.adj) a.adj ts
  y : p'.y = Flt.total (·.recv) p.y ts
  x : p'.x = Flt.total (fun t => sub t.send t.adj) p.x ts
  yFee : p'.yFee = Flt.total (·.fee) p.yFee ts
  xAdj : p'.xAdj = Flt.total (·.adj) p.xAdj ts
  xFee : p'.xFee = p.xFee
  yAdj : p'.yAdj = p.yAdj
  growth : p'.gs.fees = { p.gs.fees with
    fy := Flt.total (fun t => div t.fee t.liq) p.gs.fees.fy ts, hx := Flt.total (fun t => div t.adj t.liq) p.gs.fees.hx ts }
  price : Follows m p.keys p.gs.rp ts p'.gs.rp
  endPrice : out.endPrice = mul p'.gs.rp p'.gs.rp
  avg : out.avgPrice = if F64.eq out.send F64.zero then F64.zero else div out.recv.neg out.send
  positive : ∀ t ∈ ts, lt F64.zero t.liq = true
  move : ∀ t ∈ ts, ∃ (q : Pool) (goal : Nat) (dx : F64) (r : SwapWithinResult), q.feeRate = p.feeRate ∧ q.c = p.c ∧
    q.swapWithinY m t.start goal t.liq dx o = .ok r ∧
    t = stageOf t.liq t.start r

theorem loopY_walk {m : LibM} {dx o : F64} : ∀ {n : Nat} {p p' : Pool} {a : SwapAcc} {out : SwapOutput},
    a.currRp = p.gs.rp → loopY m dx o n p a = .ok (p', out) → ∃ ts, WalkY m o p a p' out ts ∧ ts.length ≤ n := by
  intro n
  induction n with
  | zero => intro p p' a out _ h; cases h
  | succ n ih =>
    intro p p' a out hrp h
    have stop : ∀ {q : Pool} {rp : F64}, (∃ ticks liq tick r, q = { p with ticks := ticks, gs := { p.gs with liq := liq, tick := tick, rp := r } }) →
        (q.gs.rp = p.gs.rp ∨ ∃ k ∈ p.keys, q.gs.rp = tickToRp m k) →
        finishY q { a with currRp := rp } = .ok (p', out) → ∃ ts, WalkY m o p a p' out ts ∧ ts.length ≤ n + 1 := by
      intro q rp hq hr hf
      have f6 := finishY_avg hf
      obtain ⟨rfl, f1, f2, f3, f4, f5⟩ := finishY_ok hf
      obtain ⟨_, _, _, _, rfl⟩ := hq
      exact ⟨[], ⟨f1, f4, f2, f3, rfl, rfl, rfl, rfl, rfl, rfl, rfl, hr, f5, f6, by simp, by simp⟩, Nat.zero_le _⟩
    rcases loopY_succ h with ⟨_, h⟩ | ⟨_, q, goal, rp, hq, h⟩
    · exact stop (rp := a.currRp) ⟨p.ticks, p.gs.liq, p.gs.tick, p.gs.rp, rfl⟩ (Or.inl rfl) h
    have key : (∃ ticks liq tick r, q = { p with ticks := ticks, gs := { p.gs with liq := liq, tick := tick, rp := r } }) ∧
        q.keys = p.keys ∧ rp = q.gs.rp ∧ (q.gs.rp = p.gs.rp ∨ ∃ k ∈ p.keys, q.gs.rp = tickToRp m k) ∧
        ∀ t, goal = some t → lt F64.zero q.gs.liq = true := by
      rcases hq with ⟨k, rfl, _, rfl⟩ | ⟨k, hq⟩
      · exact ⟨⟨_, _, _, _, rfl⟩, rfl, hrp, Or.inl rfl, fun _ _ => k⟩
      · exact ⟨tryGetInRange_frame hq, tryGetInRange_price hq⟩
    obtain ⟨hframe, hkeys, hr, hprice, hpos⟩ := key
    rcases h with ⟨_, h⟩ | ⟨gtk, q', a', hg, hs, h⟩
    · exact stop hframe hprice h
    have hl := hpos _ hg
    obtain ⟨ticks, liq, tick, r', hq'⟩ := hframe
    obtain ⟨r, hw, _, _, ha', hc⟩ := stepY_ok hs
    -- the pool after the round
    have hmid : q'.keys = q.keys ∧ q'.gs.rp = r.endRp ∧ (q'.feeRate = p.feeRate ∧ q'.c = p.c) ∧ q'.y = add p.y r.recv ∧
        q'.x = add p.x (sub r.send r.sendHmmAdj) ∧ q'.yFee = add p.yFee r.recvFee ∧
        q'.xAdj = add p.xAdj r.sendHmmAdj ∧ q'.xFee = p.xFee ∧ q'.yAdj = p.yAdj ∧
        q'.gs.fees = { p.gs.fees with
          fy := add p.gs.fees.fy (div r.recvFee q.gs.liq), hx := add p.gs.fees.hx (div r.sendHmmAdj q.gs.liq) } := by
      have hm : (q.midY r).keys = q.keys ∧ (q.midY r).gs.rp = r.endRp ∧ ((q.midY r).feeRate = p.feeRate ∧ (q.midY r).c = p.c) ∧
          (q.midY r).y = add p.y r.recv ∧
          (q.midY r).x = add p.x (sub r.send r.sendHmmAdj) ∧ (q.midY r).yFee = add p.yFee r.recvFee ∧
          (q.midY r).xAdj = add p.xAdj r.sendHmmAdj ∧ (q.midY r).xFee = p.xFee ∧ (q.midY r).yAdj = p.yAdj ∧
          (q.midY r).gs.fees = { p.gs.fees with
            fy := add p.gs.fees.fy (div r.recvFee q.gs.liq), hx := add p.gs.fees.hx (div r.sendHmmAdj q.gs.liq) } := by
        unfold midY
        rw [hl]
        subst hq'
        exact ⟨rfl, rfl, ⟨rfl, rfl⟩, rfl, rfl, rfl, rfl, rfl, rfl, rfl⟩
      rcases hc with ⟨_, rfl⟩ | ⟨_, _, ⟨_, rfl⟩ | ⟨_, hc⟩⟩
      · exact hm
      · exact hm
      · have hk := crossTick_keys hc
        obtain ⟨_, _, _, _, _, _, _, rfl⟩ := crossTick_ok hc
        exact ⟨hk.trans hm.1, hm.2⟩
    obtain ⟨k1, k2, k3, k4, k5, k6, k7, k8, k9, k10⟩ := hmid
    obtain ⟨ts, w, hlen⟩ := ih (by rw [ha', k2]) h
    rw [ha'] at w
    refine ⟨stageOf q.gs.liq q.gs.rp r :: ts, ⟨w.recv, w.fee, w.send, w.adj, ?_, ?_, ?_, ?_, w.xFee.trans k8, w.yAdj.trans k9, ?_,
      ⟨hprice, ?_⟩, w.endPrice, w.avg, ?_, ?_⟩, Nat.succ_le_succ hlen⟩
    · rw [w.y, k4]; rfl
    · rw [w.x, k5]; rfl
    · rw [w.yFee, k6]; rfl
    · rw [w.xAdj, k7]; rfl
    · rw [w.growth, k10]; rfl
    · have := w.price
      rw [k1, hkeys, k2] at this
      exact this
    · intro t ht
      rcases List.mem_cons.1 ht with rfl | ht
      · exact hl
      · exact w.positive t ht
    · intro t ht
      rcases List.mem_cons.1 ht with rfl | ht
      · exact ⟨q, gtk, _, r, by rw [hq'], by rw [hq'], by rw [← hr]; exact hw, rfl⟩
      · obtain ⟨q1, g1, d1, r1, e1, e2, e3⟩ := w.move t ht
        exact ⟨q1, g1, d1, r1, e1.trans k3.1, e2.trans k3.2, e3⟩

end

end Hmm.Flt.Pool
