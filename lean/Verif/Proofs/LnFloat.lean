import Verif.Model.LnFloat
import Verif.Proofs.Ln
import Verif.Proofs.FloatLib
import Verif.Proofs.FloatTicks

/-
The floating-point step of `bit_length` with an accurate math library.
-/

namespace Hmm.F64

attribute [local irreducible] unit limit

/-- One rounding, over the reals. -/
noncomputable def sh : ℝ := 1 - 1 / 2 ^ 53

theorem sh_pos : 0 < sh := by unfold sh; norm_num

theorem sh_eq : ((shrink : ℚ) : ℝ) = sh := by unfold shrink sh; push_cast; ring

/-- `a` is `x`, not negative, up to `k` roundings. -/
def Close (k : ℕ) (a x : ℝ) : Prop := 0 ≤ x ∧ x * sh ^ k ≤ a ∧ a * sh ^ k ≤ x

theorem Close.nonneg {k : ℕ} {a x : ℝ} (h : Close k a x) : 0 ≤ a :=
  le_trans (mul_nonneg h.1 (pow_nonneg sh_pos.le k)) h.2.1

theorem Close.trans {j k : ℕ} {a b x : ℝ} (h : Close j a b) (h' : Close k b x) : Close (j + k) a x := by
  refine ⟨h'.1, ?_, ?_⟩
  · calc x * sh ^ (j + k) = x * sh ^ k * sh ^ j := by rw [pow_add]; ring
      _ ≤ b * sh ^ j := mul_le_mul_of_nonneg_right h'.2.1 (pow_nonneg sh_pos.le j)
      _ ≤ a := h.2.1
  · calc a * sh ^ (j + k) = a * sh ^ j * sh ^ k := by rw [pow_add]; ring
      _ ≤ b * sh ^ k := mul_le_mul_of_nonneg_right h.2.2 (pow_nonneg sh_pos.le k)
      _ ≤ x := h'.2.2

theorem Close.mul {j k : ℕ} {a b x y : ℝ} (h : Close j a x) (h' : Close k b y) : Close (j + k) (a * b) (x * y) := by
  refine ⟨mul_nonneg h.1 h'.1, ?_, ?_⟩
  · calc x * y * sh ^ (j + k) = (x * sh ^ j) * (y * sh ^ k) := by rw [pow_add]; ring
      _ ≤ a * b := mul_le_mul h.2.1 h'.2.1 (mul_nonneg h'.1 (pow_nonneg sh_pos.le k)) h.nonneg
  · calc a * b * sh ^ (j + k) = (a * sh ^ j) * (b * sh ^ k) := by rw [pow_add]; ring
      _ ≤ x * y := mul_le_mul h.2.2 h'.2.2 (mul_nonneg h'.nonneg (pow_nonneg sh_pos.le k)) h.1

theorem Close.pos {k : ℕ} {a x : ℝ} (h : Close k a x) (hx : 0 < x) : 0 < a :=
  lt_of_lt_of_le (mul_pos hx (pow_pos sh_pos k)) h.2.1

theorem Close.div {j k : ℕ} {a b x y : ℝ} (h : Close j a x) (h' : Close k b y) (hy : 0 < y) :
    Close (j + k) (a / b) (x / y) := by
  have hb := h'.pos hy
  refine ⟨div_nonneg h.1 hy.le, ?_, ?_⟩
  · rw [div_mul_eq_mul_div, div_le_div_iff₀ hy hb]
    calc x * sh ^ (j + k) * b = (x * sh ^ j) * (b * sh ^ k) := by rw [pow_add]; ring
      _ ≤ a * y := mul_le_mul h.2.1 h'.2.2 (mul_nonneg hb.le (pow_nonneg sh_pos.le k)) h.nonneg
  · rw [div_mul_eq_mul_div, div_le_div_iff₀ hb hy]
    calc a * sh ^ (j + k) * y = (a * sh ^ j) * (y * sh ^ k) := by rw [pow_add]; ring
      _ ≤ x * b := mul_le_mul h.2.2 h'.2.1 (mul_nonneg hy.le (pow_nonneg sh_pos.le k)) h.1

/-- A relative error of `2^-51`. -/
theorem close_of_rel {a x : ℝ} (h : |a - x| ≤ |x| / 2 ^ 51) : Close 5 |a| |x| := by
  have h1 := abs_abs_sub_abs_le a x
  have h2 := (_root_.abs_le.1 (h1.trans h))
  have hx := abs_nonneg x
  have e1 : sh ^ 5 ≤ 1 - 1 / 2 ^ 51 := by unfold sh; norm_num
  have e2 : (1 + 1 / 2 ^ 51) * sh ^ 5 ≤ 1 := by unfold sh; norm_num
  refine ⟨hx, ?_, ?_⟩
  · have := mul_le_mul_of_nonneg_left e1 hx
    linarith
  · have h3 : |a| ≤ |x| * (1 + 1 / 2 ^ 51) := by linarith
    calc |a| * sh ^ 5 ≤ |x| * (1 + 1 / 2 ^ 51) * sh ^ 5 := mul_le_mul_of_nonneg_right h3 (pow_nonneg sh_pos.le 5)
      _ = |x| * ((1 + 1 / 2 ^ 51) * sh ^ 5) := by ring
      _ ≤ |x| * 1 := mul_le_mul_of_nonneg_left e2 hx
      _ = |x| := mul_one _

theorem Near.close {k : ℕ} {a : F64} {x r : ℚ} (h : Near k a x) (hr : a.Is r) : Close k (r : ℝ) (x : ℝ) := by
  obtain ⟨r', hr', h1, h2, h3⟩ := h.val
  obtain rfl := hr.unique hr'
  have a1 := (Rat.cast_le (K := ℝ)).mpr h2
  have a2 := (Rat.cast_le (K := ℝ)).mpr h3
  push_cast at a1 a2
  rw [sh_eq] at a1 a2
  exact ⟨by exact_mod_cast h.1, a1, a2⟩

/-- A quotient or product of doubles, in absolute value. -/
theorem rounded_close {x : ℚ} {a : F64} (h : Rounded x a) (h0 : 1 / 2 ^ 1000 ≤ |x|) (h1 : |x| ≤ 2 ^ 1000) :
    ∃ r : ℚ, a.Is r ∧ Close 1 |(r : ℝ)| |(x : ℝ)| ∧ (0 < x → 0 < r) ∧ (x < 0 → r < 0) := by
  obtain ⟨r, hr, hrel⟩ := h.rel_of (Or.inr h0) h1
  refine ⟨r, hr, ?_, ?_, ?_⟩
  all_goals unfold Rel at hrel
  · have hb : ((|r - x| : ℚ) : ℝ) ≤ ((|x| * (1 : ℕ) / 2 ^ 53 : ℚ) : ℝ) := by exact_mod_cast hrel
    push_cast at hb
    have h1 := abs_abs_sub_abs_le (r : ℝ) x
    have h2 := _root_.abs_le.1 (h1.trans hb)
    have hx := abs_nonneg (x : ℝ)
    refine ⟨hx, ?_, ?_⟩
    · rw [pow_one]; unfold sh; linarith
    · have h3 : |(r : ℝ)| ≤ |(x : ℝ)| * (1 + 1 / 2 ^ 53) := by linarith
      calc |(r : ℝ)| * sh ^ 1 ≤ |(x : ℝ)| * (1 + 1 / 2 ^ 53) * sh ^ 1 :=
            mul_le_mul_of_nonneg_right h3 (pow_nonneg sh_pos.le 1)
        _ = |(x : ℝ)| * ((1 + 1 / 2 ^ 53) * sh ^ 1) := by ring
        _ ≤ |(x : ℝ)| * 1 := mul_le_mul_of_nonneg_left (by unfold sh; norm_num) hx
        _ = _ := mul_one _
  · intro hx
    rw [abs_of_pos hx] at hrel
    have := _root_.abs_le.1 hrel
    have e : x * (1 : ℕ) / 2 ^ 53 ≤ x / 2 := by push_cast; rw [mul_one]; exact div_le_div_of_nonneg_left hx.le (by norm_num) (by norm_num)
    linarith
  · intro hx
    rw [abs_of_neg hx] at hrel
    have := _root_.abs_le.1 hrel
    have e : -x * (1 : ℕ) / 2 ^ 53 ≤ -x / 2 := by push_cast; rw [mul_one]; exact div_le_div_of_nonneg_left (by linarith) (by norm_num) (by norm_num)
    linarith

/-- Natural numbers, rounded. -/
theorem ofNat_near {n : ℕ} (h0 : 0 < n) (h : n < 2 ^ 200) : Near 1 (ofNat n) (n : ℚ) := by
  have hr : Rounded (n : ℚ) (ofNat n) := by
    refine ⟨false, n * unit, 1, one_pos, rfl, ?_⟩
    rw [signed_whole]
    have hu := unitQ_ne
    simp only [signed, Bool.false_eq_true, if_false]
    push_cast
    rw [div_one, mul_div_assoc, div_self hu, mul_one]
  refine hr.near ?_ ?_
  · have : (1 : ℚ) ≤ n := by exact_mod_cast h0
    refine le_trans ?_ this
    rw [div_le_one (by positivity)]
    exact one_le_pow₀ (by norm_num)
  · have : (n : ℚ) ≤ 2 ^ 200 := by exact_mod_cast h.le
    exact this.trans (pow_le_pow_right₀ (by norm_num) (by norm_num))

theorem ofNat_rep (n : ℕ) : (ofNat n).Rep := ofRatio_rep _ _ _

theorem mag_is {a : F64} {r : ℚ} (h : a.Is r) : a.mag.Is |r| := by
  obtain ⟨s, n, rfl, rfl⟩ := h
  refine ⟨false, n, rfl, ?_⟩
  rw [abs_div, abs_of_pos unitQ_pos]
  congr 1
  cases s <;> simp [signed]

theorem signBit_neg {a : F64} {r : ℚ} (h : a.Is r) (hr : r < 0) : a.signBit = true := by
  obtain ⟨s, n, rfl, rfl⟩ := h
  cases s
  · exfalso
    have : (0 : ℚ) ≤ (signed false n : ℚ) / unit := by
      apply div_nonneg _ unitQ_pos.le
      simp [signed]
    linarith
  · rfl

theorem signBit_pos {a : F64} {r : ℚ} (h : a.Is r) (hr : 0 < r) : a.signBit = false := by
  obtain ⟨s, n, rfl, rfl⟩ := h
  cases s
  · rfl
  · exfalso
    have : (signed true n : ℚ) / unit ≤ 0 := by
      apply div_nonpos_of_nonpos_of_nonneg _ unitQ_pos.le
      simp [signed]
    linarith

/-- Conversion to `u128` rounds down. -/
theorem toU128_is {a : F64} {r : ℚ} (h : a.Is r) (hr : 0 ≤ r) (hb : r < 2 ^ 128 - 1) :
    (a.toU128 : ℚ) ≤ r ∧ r < a.toU128 + 1 := by
  obtain ⟨s, n, rfl, rfl⟩ := h
  have hu := unitQ_pos
  cases s
  · have e : (signed false n : ℚ) = n := by simp [signed]
    rw [e] at hb ⊢
    have h1 : ((n / unit : ℕ) : ℚ) ≤ n / unit := Nat.cast_div_le
    have h2 : (n / unit : ℕ) ≤ u128Size - 1 := by
      have : ((n / unit : ℕ) : ℚ) < 2 ^ 128 - 1 := lt_of_le_of_lt h1 hb
      have h3 : ((n / unit : ℕ) : ℚ) < ((2 ^ 128 - 1 : ℕ) : ℚ) := by
        rw [Nat.cast_sub (by norm_num)]; push_cast; exact this
      have h4 : n / unit < 2 ^ 128 - 1 := by exact_mod_cast h3
      exact h4.le
    have e2 : (fin false n).toU128 = n / unit := by
      show (if false = true then 0 else Nat.min (n / unit) (u128Size - 1)) = _
      rw [if_neg (by simp)]; exact Nat.min_eq_left h2
    rw [e2]
    refine ⟨h1, ?_⟩
    rw [div_lt_iff₀ hu]
    exact_mod_cast Nat.lt_mul_of_div_lt (Nat.lt_succ_self (n / unit)) unit_pos
  · have e : (signed true n : ℚ) = -n := by simp [signed]
    rw [e] at hr ⊢
    have hn : (n : ℚ) = 0 := by
      have h0 : (0 : ℚ) ≤ n := Nat.cast_nonneg n
      have : (0 : ℚ) ≤ -n := by
        by_contra hc
        have := div_neg_of_neg_of_pos (not_le.1 hc) hu
        linarith
      linarith
    rw [hn]
    simp [toU128]

end Hmm.F64

namespace Hmm.Decimal

open F64

attribute [local irreducible] F64.unit F64.limit

theorem log2_bounds : (69 : ℝ) / 100 ≤ Real.log 2 ∧ Real.log 2 ≤ 7 / 10 := by
  obtain ⟨h1, h2⟩ := ln2_near
  norm_num at h1 h2 ⊢
  constructor <;> linarith

theorem log_sh : -(2 / 2 ^ 53) ≤ Real.log sh := by
  have := Real.one_sub_inv_le_log_of_pos sh_pos
  refine le_trans ?_ this
  unfold sh; norm_num

/-- Roundings change the logarithm little. -/
theorem Close.log {k : ℕ} {a x : ℝ} (h : Close k a x) (hx : 0 < x) : |Real.log a - Real.log x| ≤ k * (2 / 2 ^ 53) := by
  have ha := h.pos hx
  have hs := pow_pos sh_pos k
  have h1 := Real.log_le_log (mul_pos hx hs) h.2.1
  have h2 := Real.log_le_log (mul_pos ha hs) h.2.2
  rw [Real.log_mul hx.ne' hs.ne', Real.log_pow] at h1
  rw [Real.log_mul ha.ne' hs.ne', Real.log_pow] at h2
  have := mul_le_mul_of_nonneg_left log_sh (Nat.cast_nonneg (α := ℝ) k)
  rw [_root_.abs_le]
  constructor <;> linarith

theorem close_err {q P t : ℝ} (ht : 0 < t) (h0 : 0 ≤ q) (h1 : q ≤ 60) (hP : 0 < P) (pb : P ≤ 2 * (60 * t))
    (f1 : q * t * sh ^ 13 ≤ P) (f2 : P * sh ^ 13 ≤ q * t) : |P / t - q| ≤ 1680 / 2 ^ 53 := by
  have e13 : 1 - 14 / 2 ^ 53 ≤ sh ^ 13 := by unfold sh; norm_num
  have a := mul_le_mul_of_nonneg_left e13 (mul_nonneg h0 ht.le)
  have b := mul_le_mul_of_nonneg_left e13 hP.le
  have c := mul_le_mul_of_nonneg_right h1 ht.le
  rw [_root_.abs_le]
  constructor
  · have : q - 1680 / 2 ^ 53 ≤ P / t := by
      rw [le_div_iff₀ ht]
      linarith
    linarith
  · have : P / t ≤ q + 1680 / 2 ^ 53 := by
      rw [div_le_iff₀ ht]
      linarith
    linarith

set_option maxHeartbeats 800000 in
/-- The floating-point step gives the binary logarithm's magnitude, cut to the scale, and its sign. -/
theorem floatLog_near {m : LibM} (hm : m.Accurate) {v s : ℕ} (hv : 0 < v) (hv2 : v < u128Size) (hs : s ≤ 36)
    {D : ℝ} (hD : D = (v : ℝ) / 10 ^ s) (hlo : 1 / 2 ^ 49 ≤ D) (hhi : D ≤ 2 ^ 49) (hfar : 1 / 2 ^ 45 ≤ |Real.log D|) :
    ∃ p : ℚ, 0 ≤ p ∧ |(p : ℝ) / 10 ^ s - _root_.abs (Real.log D / Real.log 2)| ≤ 1 / 2 ^ 42 ∧ (((floatLog m v s).1 : ℕ) : ℚ) ≤ p ∧
      p < (floatLog m v s).1 + 1 ∧ (floatLog m v s).2 = decide (Real.log D < 0) := by
  have p10 : (0 : ℝ) < 10 ^ s := by positivity
  have hD0 : 0 < D := lt_of_lt_of_le (by positivity) hlo
  have hs200 : 10 ^ s < 2 ^ 200 := lt_of_le_of_lt (Nat.pow_le_pow_right (by norm_num) hs) (by norm_num)
  have hv200 : v < 2 ^ 200 := lt_trans hv2 (by unfold u128Size; norm_num)
  have nv := ofNat_near hv hv200
  have nt := ofNat_near (pow10_pos s) hs200
  have hDq : ((((v : ℚ) / ((10 ^ s : ℕ) : ℚ)) : ℚ) : ℝ) = D := by rw [hD]; push_cast; rfl
  have sD : Sized 49 ((v : ℚ) / ((10 ^ s : ℕ) : ℚ)) := Sized.of_real (by rw [hDq]; exact hlo) (by rw [hDq]; exact hhi)
  have nx := Near.div nv nt (by exact_mod_cast pow10_pos s) (.inr sD) (by norm_num) (by norm_num)
  obtain ⟨X, hX, X0, _, _⟩ := nx.pos sD.pos
  have cX := nx.close hX
  rw [hDq] at cX
  have rX : (F64.div (ofNat v) (ofNat (10 ^ s))).Rep := div_rep _ _
  have sX : Sized 50 X := by
    apply Sized.of_real
    · refine le_trans ?_ cX.2.1
      have : (1 / 2 : ℝ) ≤ sh ^ (1 + 1 + 1) := by unfold sh; norm_num
      calc (1 : ℝ) / 2 ^ 50 = 1 / 2 ^ 49 * (1 / 2) := by norm_num
        _ ≤ D * sh ^ (1 + 1 + 1) := mul_le_mul hlo this (by norm_num) hD0.le
    · have h3 := cX.2.2
      have : (1 / 2 : ℝ) ≤ sh ^ (1 + 1 + 1) := by unfold sh; norm_num
      have hXr : (0 : ℝ) < X := by exact_mod_cast X0
      have : (X : ℝ) * (1 / 2) ≤ X * sh ^ (1 + 1 + 1) := mul_le_mul_of_nonneg_left this hXr.le
      have := this.trans h3
      norm_num at hhi ⊢
      linarith
  have hl := Close.log cX hD0
  have hl' : |Real.log X - Real.log D| ≤ 6 / 2 ^ 53 := by refine hl.trans (by norm_num)
  have X1 : X ≠ 1 := by
    rintro rfl
    rw [Rat.cast_one, Real.log_one, zero_sub, abs_neg] at hl'
    have : (6 : ℝ) / 2 ^ 53 < 1 / 2 ^ 45 := by norm_num
    linarith
  obtain ⟨_, A, hA, eA⟩ := hm.ln rX hX sX
  obtain ⟨b1, b2⟩ := log_sized hX rX sX X1
  have h2 : (ofNat 2).Is (2 : ℚ) := by have := Flt.ofNat_is (k := 2) (by norm_num); exact_mod_cast this
  obtain ⟨_, B, hB, eB⟩ := hm.ln (ofNat_rep 2) h2 ⟨by norm_num, by norm_num⟩
  obtain ⟨g1, g2⟩ := log2_bounds
  have g0 : (0 : ℝ) < Real.log 2 := by linarith
  have cA := close_of_rel eA
  have cB := close_of_rel eB
  have hB0 : (0 : ℝ) < B := by
    rw [Rat.cast_ofNat, abs_of_pos g0] at eB
    have := (_root_.abs_le.1 eB).1
    have : Real.log 2 / 2 ^ 51 ≤ Real.log 2 / 2 := div_le_div_of_nonneg_left g0.le (by norm_num) (by norm_num)
    linarith
  rw [abs_of_pos hB0, Rat.cast_ofNat, abs_of_pos g0] at cB
  have hLX : |Real.log X| ≤ 40 := by
    have a1 : Real.log X ≤ 50 * Real.log 2 := by
      have := Real.log_le_log (by exact_mod_cast X0) sX.real.2
      rw [Real.log_pow] at this; exact_mod_cast this
    have a2 : -(50 * Real.log 2) ≤ Real.log X := by
      have := Real.log_le_log (by positivity) sX.real.1
      rw [one_div, Real.log_inv, Real.log_pow] at this; exact_mod_cast this
    rw [_root_.abs_le]
    constructor <;> linarith
  have cq := cA.div cB g0
  have hq1 : |Real.log X| / Real.log 2 ≤ 60 := by
    rw [div_le_iff₀ g0]; linarith
  have hLXlo : 1 / 2 ^ 46 ≤ |Real.log X| := by
    have := abs_sub (Real.log D) (Real.log D - Real.log X)
    rw [sub_sub_cancel, abs_sub_comm (Real.log D) (Real.log X)] at this
    have e1 : (1 : ℝ) / 2 ^ 46 + 6 / 2 ^ 53 ≤ 1 / 2 ^ 45 := by norm_num
    have := abs_sub_abs_le_abs_sub (Real.log D) (Real.log X)
    rw [abs_sub_comm] at this
    linarith
  have hq0 : 1 / 2 ^ 46 ≤ |Real.log X| / Real.log 2 := by
    rw [le_div_iff₀ g0]
    calc (1 : ℝ) / 2 ^ 46 * Real.log 2 ≤ 1 / 2 ^ 46 * 1 := mul_le_mul_of_nonneg_left (by linarith) (by positivity)
      _ ≤ _ := by linarith
  have s12 : (1 / 2 : ℝ) ≤ sh ^ 13 := by unfold sh; norm_num
  have hs1 : sh ≤ 1 := by unfold sh; norm_num
  have pw : ∀ {j : ℕ}, j ≤ 13 → (1 / 2 : ℝ) ≤ sh ^ j := fun hj => s12.trans (pow_le_pow_of_le_one sh_pos.le hs1 hj)
  have bnd : ∀ {j : ℕ} {a x lo hi : ℝ}, j ≤ 13 → Close j a x → lo ≤ x → x ≤ hi → 0 ≤ lo → lo / 2 ≤ a ∧ a ≤ 2 * hi := by
    intro j a x lo hi hj hc h1 h2 h0
    have k := pw hj
    constructor
    · refine le_trans ?_ hc.2.1
      calc lo / 2 = lo * (1 / 2) := by ring
        _ ≤ x * sh ^ j := mul_le_mul h1 k (by norm_num) hc.1
    · have := mul_le_mul_of_nonneg_left k hc.nonneg
      linarith [hc.2.2]
  obtain ⟨q1, q2⟩ := bnd (by norm_num) cq hq0 hq1 (by positivity)
  have eqq : ((|A / B| : ℚ) : ℝ) = |(A : ℝ)| / B := by push_cast; rw [abs_div, abs_of_pos hB0]
  have big : (1 : ℚ) / 2 ^ 1000 ≤ 1 / 2 ^ 100 :=
    one_div_le_one_div_of_le (by positivity) (pow_le_pow_right₀ (by norm_num) (by norm_num))
  have big' : (2 : ℚ) ^ 200 ≤ 2 ^ 1000 := pow_le_pow_right₀ (by norm_num) (by norm_num)
  have hBne : B ≠ 0 := by rintro rfl; simp at hB0
  obtain ⟨lam, hlam, cl, sp, sn⟩ := rounded_close (div_rounded hA hB hBne)
    (big.trans ((Rat.cast_le (K := ℝ)).mp (by rw [eqq]; push_cast; refine le_trans ?_ q1; norm_num)))
    (le_trans ((Rat.cast_le (K := ℝ)).mp (by rw [eqq]; push_cast; refine le_trans q2 ?_; norm_num)) big')
  have eqr : |((A / B : ℚ) : ℝ)| = |(A : ℝ)| / B := by push_cast; rw [abs_div, abs_of_pos hB0]
  rw [eqr] at cl
  have cl := cl.trans cq
  obtain ⟨T, hT, T0, _, _⟩ := nt.pos (by exact_mod_cast pow10_pos s)
  have cT := nt.close hT
  have cp := cl.mul cT
  have e10 : (((10 ^ s : ℕ) : ℚ) : ℝ) = 10 ^ s := by push_cast; rfl
  rw [e10] at cp
  have ts1 : (1 : ℝ) ≤ 10 ^ s := one_le_pow₀ (by norm_num)
  have ts2 : (10 : ℝ) ^ s ≤ 10 ^ 36 := pow_le_pow_right₀ (by norm_num) hs
  obtain ⟨r1, r2⟩ := bnd (by norm_num) cp
    (show 1 / 2 ^ 46 * 1 ≤ |Real.log X| / Real.log 2 * 10 ^ s from mul_le_mul hq0 ts1 (by norm_num) (by positivity))
    (show |Real.log X| / Real.log 2 * 10 ^ s ≤ 60 * 10 ^ 36 from mul_le_mul hq1 ts2 p10.le (by norm_num)) (by norm_num)
  have eqp : ((|(|lam| * T)| : ℚ) : ℝ) = |(lam : ℝ)| * T := by
    push_cast; rw [abs_mul, abs_abs, abs_of_pos (show (0 : ℝ) < T by exact_mod_cast T0)]
  have eqp' : |((|lam| * T : ℚ) : ℝ)| = |(lam : ℝ)| * T := by
    rw [← eqp]; push_cast; rfl
  obtain ⟨P, hP, cP, spp, _⟩ := rounded_close (mul_rounded (mag_is hlam) hT)
    (big.trans ((Rat.cast_le (K := ℝ)).mp (by rw [eqp]; push_cast; refine le_trans ?_ r1; norm_num)))
    (le_trans ((Rat.cast_le (K := ℝ)).mp (by rw [eqp]; push_cast; refine le_trans r2 ?_; norm_num)) big')
  have hlt0 : (0 : ℝ) < |(lam : ℝ)| * T := lt_of_lt_of_le (by norm_num) r1
  have hP0 : 0 < P := spp (by
    have : ((0 : ℚ) : ℝ) < ((|lam| * T : ℚ) : ℝ) := by push_cast; exact hlt0
    exact_mod_cast this)
  have hPr : (0 : ℝ) < P := by exact_mod_cast hP0
  rw [eqp', abs_of_pos hPr] at cP
  have cF := cP.trans cp
  norm_num at cF
  obtain ⟨_, f1, f2⟩ := cF
  have sg : |Real.log X| / Real.log 2 * 10 ^ s ≤ 60 * 10 ^ s := mul_le_mul_of_nonneg_right hq1 p10.le
  have pb : (P : ℝ) ≤ 2 * (60 * 10 ^ s) := by
    have := mul_le_mul_of_nonneg_left s12 hPr.le
    linarith
  obtain ⟨w1, w2⟩ := toU128_is hP hP0.le (by
    refine (Rat.cast_lt (K := ℝ)).mp ?_
    push_cast
    refine lt_of_le_of_lt (pb.trans (by linarith)) (show (2 : ℝ) * (60 * 10 ^ 36) < 2 ^ 128 - 1 by norm_num))
  refine ⟨P, hP0.le, ?_, w1, w2, ?_⟩
  · -- the error
    have z : |(P : ℝ) / 10 ^ s - _root_.abs (Real.log X) / Real.log 2| ≤ 1680 / 2 ^ 53 :=
      close_err p10 (div_nonneg (abs_nonneg _) g0.le) hq1 hPr pb f1 f2
    have y : |_root_.abs (Real.log X) / Real.log 2 - _root_.abs (Real.log D / Real.log 2)| ≤ 10 / 2 ^ 53 := by
      rw [abs_div (Real.log D), abs_of_pos g0, ← sub_div, abs_div, abs_of_pos g0, div_le_iff₀ g0]
      refine (abs_abs_sub_abs_le _ _).trans (hl'.trans ?_)
      norm_num
      linarith
    have := abs_sub_le ((P : ℝ) / 10 ^ s) (|Real.log X| / Real.log 2) |Real.log D / Real.log 2|
    refine this.trans ((add_le_add z y).trans ?_)
    norm_num
  · -- the sign
    have hne : Real.log X ≠ 0 := by intro h; rw [h, abs_zero] at hLXlo; norm_num at hLXlo
    have small : |Real.log X| / 2 ^ 51 ≤ |Real.log X| / 2 := div_le_div_of_nonneg_left (abs_nonneg _) (by norm_num) (by norm_num)
    have t6 : (6 : ℝ) / 2 ^ 53 < 1 / 2 ^ 45 := by norm_num
    have hB0q : 0 < B := by exact_mod_cast hB0
    obtain ⟨u1, u2⟩ := _root_.abs_le.1 hl'
    obtain ⟨v1, v2⟩ := _root_.abs_le.1 eA
    by_cases hneg : Real.log D < 0
    · rw [abs_of_neg hneg] at hfar
      have hXn : Real.log X < 0 := by linarith
      rw [abs_of_neg hXn] at v1 v2 small
      have hAr : (A : ℝ) < 0 := by linarith
      have hAq : A < 0 := by exact_mod_cast hAr
      rw [decide_eq_true hneg]
      exact signBit_neg hlam (sn (div_neg_of_neg_of_pos hAq hB0q))
    · rw [abs_of_nonneg (not_lt.1 hneg)] at hfar
      have hXp : 0 < Real.log X := by linarith
      rw [abs_of_pos hXp] at v1 v2 small
      have hAr : (0 : ℝ) < A := by linarith
      have hAq : 0 < A := by exact_mod_cast hAr
      rw [decide_eq_false hneg]
      exact signBit_pos hlam (sp (div_pos hAq hB0q))

/-- Rounding down and up to whole numbers. -/
theorem toScale_zero {w s : ℕ} (n : Bool) (hs : s ≤ 36) (hw : w < u128Size) :
    (Decimal.mk w s n).toScale 0 = .ok ⟨w / 10 ^ s, 0, n⟩ := by
  have big : 10 ^ s < u128Size := lt_of_le_of_lt (Nat.pow_le_pow_right (by norm_num) (hs.trans (by norm_num : 36 ≤ 38))) u128_big
  rcases Nat.eq_zero_or_pos s with rfl | h
  · refine toScale_ok.2 (.inr ⟨le_refl 0, by simpa using big, ?_, ?_⟩)
    · simpa using hw
    · simp
  · exact toScale_ok.2 (.inl ⟨h, big, rfl⟩)

theorem toScaleUp_zero {w s : ℕ} (n : Bool) (hs : s ≤ 36) (hw : w + 10 ^ s < u128Size) :
    (Decimal.mk w s n).toScaleUp 0 = .ok ⟨(w + (10 ^ s - 1)) / 10 ^ s, 0, !(n == n)⟩ := by
  have big : 10 ^ s < u128Size := lt_of_le_of_lt (Nat.pow_le_pow_right (by norm_num) (hs.trans (by norm_num : 36 ≤ 38))) u128_big
  have hp := pow10_pos s
  unfold toScaleUp
  dsimp only
  rw [if_pos (Nat.zero_le _)]
  have e1 : pow10 (s - 0) = .ok (10 ^ s) := by unfold pow10; rw [Nat.sub_zero]; exact u128_ok.2 ⟨big, rfl⟩
  rw [e1, PoolMath.bind_eq]
  unfold divUp denominator
  have e2 : pow10 (new (10 ^ s) 0 n).scale = .ok 1 := by
    unfold pow10 new; exact u128_ok.2 ⟨by norm_num [u128Size], rfl⟩
  have e3 : checkedMul (new w 0 n).value 1 = .ok w := checkedMul_ok.2 ⟨by rw [mul_one]; exact lt_of_le_of_lt (Nat.le_add_right _ _) hw, by simp [new]⟩
  have e4 : checkedSub (new (10 ^ s) 0 n).value 1 = .ok (10 ^ s - 1) := checkedSub_ok.2 ⟨hp, rfl⟩
  have e5 : checkedAdd w (10 ^ s - 1) = .ok (w + (10 ^ s - 1)) := checkedAdd_ok.2 ⟨lt_of_le_of_lt (by omega) hw, rfl⟩
  have e6 : checkedDiv (w + (10 ^ s - 1)) (new (10 ^ s) 0 n).value = .ok ((w + (10 ^ s - 1)) / 10 ^ s) := checkedDiv_ok.2 ⟨hp.ne', rfl⟩
  rw [e2, PoolMath.bind_eq, e3, PoolMath.bind_eq, e4, PoolMath.bind_eq, e5, PoolMath.bind_eq, e6, PoolMath.bind_eq]
  rfl

/-- The bit length found by an accurate library, away from the powers of two. -/
theorem bitLength_near {m : LibM} (hm : m.Accurate) {d : Decimal} {k : ℤ} (hn : d.negative = false) (hs : d.scale ≤ 36)
    (hv : d.value < u128Size) (h1 : -48 ≤ k) (h2 : k < 48) (hlo : (2 : ℝ) ^ k * (1 + 1 / 2 ^ 40) ≤ d.toRat)
    (hhi : (d.toRat : ℝ) ≤ 2 ^ (k + 1) * (1 - 1 / 2 ^ 40)) :
    ∃ bl, d.bitLength (floatLog m) = .ok bl ∧ bl.scale = 0 ∧ bl.toRat = k := by
  obtain ⟨v, s, n⟩ := d
  simp only at hn hs hv
  subst hn
  obtain ⟨D, hD⟩ : ∃ D : ℝ, D = (v : ℝ) / 10 ^ s := ⟨_, rfl⟩
  have hDr : (((Decimal.mk v s false).toRat : ℚ) : ℝ) = D := by rw [toRat_mk, hD]; push_cast; rfl
  rw [hDr] at hlo hhi
  have pk : (0 : ℝ) < 2 ^ k := by positivity
  have pk1 : (2 : ℝ) ^ (k + 1) = 2 * 2 ^ k := by rw [zpow_add₀ (by norm_num)]; norm_num; ring
  have hD0 : 0 < D := lt_of_lt_of_le (by positivity) hlo
  have p10 : (0 : ℝ) < 10 ^ s := by positivity
  have hv0 : 0 < v := by
    rcases Nat.eq_zero_or_pos v with rfl | h
    · rw [hD] at hD0; simp at hD0
    · exact h
  obtain ⟨g1, g2⟩ := log2_bounds
  have g0 : (0 : ℝ) < Real.log 2 := by linarith
  -- the binary logarithm
  have L1 : k * Real.log 2 + 99 / 100 / 2 ^ 40 ≤ Real.log D := by
    have := Real.log_le_log (by positivity) hlo
    rw [Real.log_mul pk.ne' (by positivity), Real.log_zpow] at this
    have h3 := Real.one_sub_inv_le_log_of_pos (show (0 : ℝ) < 1 + 1 / 2 ^ 40 by positivity)
    have h4 : (99 : ℝ) / 100 / 2 ^ 40 ≤ 1 - (1 + 1 / 2 ^ 40)⁻¹ := by norm_num
    linarith
  -- distance from the power above
  obtain ⟨t, ht⟩ : ∃ t : ℝ, D = 2 ^ (k + 1) * (1 - t) := ⟨1 - D / 2 ^ (k + 1), by field_simp; ring⟩
  have t40 : 1 / 2 ^ 40 ≤ t := by
    rw [ht] at hhi
    have := le_of_mul_le_mul_left hhi (by positivity : (0 : ℝ) < 2 ^ (k + 1))
    linarith
  have t1 : t < 1 := by
    rw [ht] at hD0
    have := (mul_pos_iff_of_pos_left (show (0 : ℝ) < 2 ^ (k + 1) by positivity)).1 hD0
    linarith
  have L2 : Real.log D ≤ (k + 1) * Real.log 2 - t := by
    rw [ht, Real.log_mul (by positivity) (by linarith), Real.log_zpow]
    have := Real.log_le_sub_one_of_pos (show 0 < 1 - t by linarith)
    push_cast
    linarith
  have kr1 : (-48 : ℝ) ≤ k := by exact_mod_cast h1
  have kr2 : (k : ℝ) ≤ 47 := by exact_mod_cast (by omega : k ≤ 47)
  have D1 : 1 / 2 ^ 49 ≤ D := by
    have h3 := zpow_le_zpow_right₀ (by norm_num : (1 : ℝ) ≤ 2) (by omega : (-49 : ℤ) ≤ k)
    have h4 : (2 : ℝ) ^ (-49 : ℤ) = 1 / 2 ^ 49 := by norm_num
    rw [h4] at h3
    have : (2 : ℝ) ^ k * 1 ≤ 2 ^ k * (1 + 1 / 2 ^ 40) := mul_le_mul_of_nonneg_left (by norm_num) pk.le
    linarith
  have D2 : D ≤ 2 ^ 49 := by
    have h3 := zpow_le_zpow_right₀ (by norm_num : (1 : ℝ) ≤ 2) (by omega : k + 1 ≤ (49 : ℤ))
    have h4 : (2 : ℝ) ^ (49 : ℤ) = 2 ^ 49 := by norm_cast
    rw [h4] at h3
    have : (2 : ℝ) ^ (k + 1) * (1 - 1 / 2 ^ 40) ≤ 2 ^ (k + 1) * 1 := mul_le_mul_of_nonneg_left (by norm_num) (by positivity)
    linarith
  have far : 1 / 2 ^ 45 ≤ |Real.log D| := by
    have e45 : (1 : ℝ) / 2 ^ 45 ≤ 99 / 100 / 2 ^ 40 := by norm_num
    have e45' : (1 : ℝ) / 2 ^ 45 ≤ 1 / 2 ^ 40 := by norm_num
    rcases le_or_gt 0 k with h | h
    · have : (0 : ℝ) ≤ k := by exact_mod_cast h
      have := mul_nonneg this g0.le
      exact le_trans (by linarith) (le_abs_self _)
    · have : (k : ℝ) + 1 ≤ 0 := by exact_mod_cast (by omega : k + 1 ≤ 0)
      have := mul_nonpos_of_nonpos_of_nonneg this g0.le
      exact le_trans (by linarith) (neg_le_abs _)
  obtain ⟨p, p0, pe, w1, w2, sg⟩ := floatLog_near hm hv0 hv hs hD D1 D2 far
  obtain ⟨w, hw⟩ : ∃ w, w = (floatLog m v s).1 := ⟨_, rfl⟩
  rw [← hw] at w1 w2
  have w1r : (w : ℝ) ≤ p := by exact_mod_cast (Rat.cast_le (K := ℝ)).mpr w1
  have w2r : (p : ℝ) < w + 1 := by exact_mod_cast (Rat.cast_lt (K := ℝ)).mpr w2
  obtain ⟨pe1, pe2⟩ := _root_.abs_le.1 pe
  have hL1 : (k : ℝ) + 1 / 2 ^ 40 ≤ Real.log D / Real.log 2 := by
    rw [le_div_iff₀ g0]
    have : (1 : ℝ) / 2 ^ 40 * Real.log 2 ≤ 1 / 2 ^ 40 * (7 / 10) := mul_le_mul_of_nonneg_left g2 (by positivity)
    norm_num at this L1 ⊢
    linarith
  have hL2 : Real.log D / Real.log 2 ≤ k + 1 - 10 / 7 * t := by
    rw [div_le_iff₀ g0]
    have : t * Real.log 2 ≤ t * (7 / 10) := mul_le_mul_of_nonneg_left g2 (by linarith [show (0 : ℝ) < 1 / 2 ^ 40 by norm_num])
    linarith
  have hwb : w < 49 * 10 ^ s := by
    have a : |Real.log D / Real.log 2| ≤ 48 := by
      rw [_root_.abs_le]
      have : (0 : ℝ) < 1 / 2 ^ 40 := by norm_num
      constructor <;> linarith
    have b : (p : ℝ) / 10 ^ s < 49 := by
      have : (1 : ℝ) / 2 ^ 42 < 1 := by norm_num
      linarith
    rw [div_lt_iff₀ p10] at b
    have : (w : ℝ) < 49 * 10 ^ s := lt_of_le_of_lt w1r b
    exact_mod_cast this
  have hws : w + 10 ^ s < u128Size := by
    have : 10 ^ s ≤ 10 ^ 36 := Nat.pow_le_pow_right (by norm_num) hs
    exact lt_of_le_of_lt (by omega : w + 10 ^ s ≤ 10 ^ 38) u128_big
  have hwu : w < u128Size := lt_of_le_of_lt (Nat.le_add_right _ _) hws
  have hpow : 10 ^ s < u128Size := lt_of_le_of_lt (Nat.le_add_left _ _) hws
  -- the steps of `bit_length`
  have run : ∀ {r : Decimal}, (if decide (Real.log D < 0) then (Decimal.mk w s (decide (Real.log D < 0))).toScaleUp 0 else
      (Decimal.mk w s (decide (Real.log D < 0))).toScale 0) = .ok r →
      (Decimal.mk v s false).bitLength (floatLog m) = .ok ⟨r.value, 0, decide (Real.log D < 0)⟩ := by
    intro r hr
    unfold bitLength
    have a1 : (Decimal.mk v s false).isNegative = false := rfl
    have a2 : (Decimal.mk v s false).isZero = false := by
      unfold isZero; simp; omega
    rw [a1, if_neg (by simp), a2, if_neg (by simp)]
    have e : floatLog m v s = (w, decide (Real.log D < 0)) := by rw [hw, ← sg]
    show (do
      let (v', neg) := floatLog m v s
      let v' ← u128 v'
      let _ ← (Decimal.mk v s false).denominator
      let x := new v' s neg
      let r ← (if neg then x.toScaleUp 0 else x.toScale 0)
      return new r.value 0 neg) = _
    rw [e]
    dsimp only
    have e1 : u128 w = .ok w := u128_ok.2 ⟨hwu, rfl⟩
    have e2 : (Decimal.mk v s false).denominator = .ok (10 ^ s) := by
      unfold denominator pow10; exact u128_ok.2 ⟨hpow, rfl⟩
    rw [e1, PoolMath.bind_eq, e2, PoolMath.bind_eq]
    unfold new
    rw [hr, PoolMath.bind_eq]
    rfl
  rcases le_or_gt 0 k with hk | hk
  · have hkr : (0 : ℝ) ≤ k := by exact_mod_cast hk
    have hpos : 0 < Real.log D / Real.log 2 := by
      have : (0 : ℝ) < 1 / 2 ^ 40 := by norm_num
      linarith
    have hlp : ¬ Real.log D < 0 := by
      have := (div_pos_iff_of_pos_right g0).1 hpos
      linarith
    rw [decide_eq_false hlp] at run
    refine ⟨_, run (toScale_zero false hs hwu), rfl, ?_⟩
    rw [toRat_mk, pow_zero, div_one]
    rw [abs_of_pos hpos] at pe1 pe2
    have a : (k : ℝ) ≤ p / 10 ^ s := by
      have : (1 : ℝ) / 2 ^ 42 ≤ 1 / 2 ^ 40 := by norm_num
      linarith
    have b : (p : ℝ) / 10 ^ s < k + 1 := by
      have : (1 : ℝ) / 2 ^ 42 < 10 / 7 * (1 / 2 ^ 40) := by norm_num
      linarith
    rw [le_div_iff₀ p10] at a
    rw [div_lt_iff₀ p10] at b
    obtain ⟨j, rfl⟩ := Int.eq_ofNat_of_zero_le hk
    have a' : j * 10 ^ s ≤ w := by
      have : ((j * 10 ^ s : ℕ) : ℝ) < ((w + 1 : ℕ) : ℝ) := by push_cast; push_cast at a; linarith
      have : j * 10 ^ s < w + 1 := by exact_mod_cast this
      omega
    have b' : w < (j + 1) * 10 ^ s := by
      have : ((w : ℕ) : ℝ) < (((j + 1) * 10 ^ s : ℕ) : ℝ) := by push_cast; push_cast at b; linarith
      exact_mod_cast this
    have : w / 10 ^ s = j := by
      apply Nat.div_eq_of_lt_le a' b'
    rw [this]; norm_num
  · have hk1 : (k : ℝ) + 1 ≤ 0 := by exact_mod_cast (by omega : k + 1 ≤ 0)
    have hneg : Real.log D / Real.log 2 < 0 := by
      have : (0 : ℝ) < 10 / 7 * (1 / 2 ^ 40) := by norm_num
      linarith
    have hln : Real.log D < 0 := by
      by_contra hc
      have := div_nonneg (not_lt.1 hc) g0.le
      linarith
    rw [decide_eq_true hln] at run
    refine ⟨_, run (toScaleUp_zero true hs hws), rfl, ?_⟩
    rw [toRat_mk_neg, pow_zero, div_one]
    rw [abs_of_neg hneg] at pe1 pe2
    obtain ⟨j, hj⟩ : ∃ j : ℕ, k = -((j : ℤ) + 1) := ⟨(-k - 1).toNat, by omega⟩
    have hkj : (k : ℝ) = -((j : ℝ) + 1) := by rw [hj]; push_cast; ring
    rw [hkj] at hL1 hL2
    -- at least a unit of the last place away from the power above
    have ts : 1 / 10 ^ s ≤ t := by
      have e : (2 : ℝ) ^ (k + 1) = 1 / 2 ^ j := by
        rw [show k + 1 = -(j : ℤ) by omega, zpow_neg, zpow_natCast, one_div]
      rw [e, hD] at ht
      have ht' : (v : ℝ) * 2 ^ j = 10 ^ s * (1 - t) := by
        field_simp at ht
        linarith
      have tpos : (0 : ℝ) < t := lt_of_lt_of_le (by norm_num) t40
      have hlt : v * 2 ^ j < 10 ^ s := by
        have : (v : ℝ) * 2 ^ j < 10 ^ s := by rw [ht']; nlinarith
        exact_mod_cast this
      have hle : (v : ℝ) * 2 ^ j + 1 ≤ 10 ^ s := by exact_mod_cast hlt
      rw [div_le_iff₀ p10]
      rw [ht'] at hle
      linarith
    have a : (j : ℝ) + 1 / 10 ^ s ≤ p / 10 ^ s := by
      have : (1 : ℝ) / 2 ^ 42 ≤ 3 / 7 * (1 / 2 ^ 40) := by norm_num
      linarith
    have b : (p : ℝ) / 10 ^ s ≤ j + 1 := by
      have : (1 : ℝ) / 2 ^ 42 ≤ 1 / 2 ^ 40 := by norm_num
      linarith
    have a2 : ((j : ℝ) * 10 ^ s + 1) ≤ p := by
      rw [le_div_iff₀ p10, add_mul, one_div, inv_mul_cancel₀ p10.ne'] at a
      exact a
    rw [div_le_iff₀ p10] at b
    have a' : j * 10 ^ s < w := by
      have : ((j * 10 ^ s + 1 : ℕ) : ℝ) < ((w + 1 : ℕ) : ℝ) := by push_cast; linarith
      have : j * 10 ^ s + 1 < w + 1 := by exact_mod_cast this
      omega
    have b' : w ≤ (j + 1) * 10 ^ s := by
      have : ((w : ℕ) : ℝ) ≤ (((j + 1) * 10 ^ s : ℕ) : ℝ) := by push_cast; linarith
      exact_mod_cast this
    have hp := pow10_pos s
    have : (w + (10 ^ s - 1)) / 10 ^ s = j + 1 := by
      apply Nat.div_eq_of_lt_le
      · rw [add_mul, one_mul]; omega
      · rw [add_mul (j + 1), one_mul]; omega
    rw [this, hj]; push_cast; ring

end Hmm.Decimal
