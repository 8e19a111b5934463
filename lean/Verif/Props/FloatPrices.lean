import Verif.Proofs.FloatPrices
import Verif.Props.FloatTicks

/-
C96: ticks and prices of the floating-point pool.
-/

namespace Hmm.Flt

open F64

section
attribute [local irreducible] unit limit

theorem ofNat_rep (n : ℕ) : (ofNat n).Rep := ofRatio_rep _ _ _

theorem lam_pos : 0 < lam := lt_trans (by positivity) lam_bounds.1

theorem lam_root : |lam - Real.log (10001 / 10000) / 2| ≤ 1 / 2 ^ 53 := by
  have hu : (0 : ℝ) < (baseQ : ℝ) ^ 2 / (10001 / 10000) := div_pos (pow_pos baseQ_pos 2) (by norm_num)
  have e : lam - Real.log (10001 / 10000) / 2 = Real.log ((baseQ : ℝ) ^ 2 / (10001 / 10000)) / 2 := by
    rw [Real.log_div (pow_pos baseQ_pos 2).ne' (by norm_num), Real.log_pow]
    unfold lam
    push_cast
    ring
  have h1 := Real.one_sub_inv_le_log_of_pos hu
  have h2 := Real.log_le_sub_one_of_pos hu
  rw [e, _root_.abs_le]
  rw [baseQ_real] at *
  norm_num at h1 h2 ⊢
  constructor <;> linarith

/-- The price of a tick is `1.0001^(t/2)`, up to `t + 4` parts in `2^52`. -/
theorem tick_price {m : LibM} (ha : m.Accurate) {t : ℕ} (ht : t ≤ 2 ^ 21) : ∃ r : ℚ, (tickToRp m t).Is r ∧
    |(r : ℝ) - rootPrice t| ≤ rootPrice t * (t + 4) / 2 ^ 52 := by
  obtain ⟨_, r, hr, h1⟩ := tick_value ha ht
  refine ⟨r, hr, ?_⟩
  have hR : rootPrice t = Real.exp (t * (Real.log (10001 / 10000) / 2)) := by
    unfold rootPrice
    rw [Real.rpow_def_of_pos (by norm_num)]
    congr 1; ring
  set k := Real.log (10001 / 10000) / 2 with hk
  have hpos : 0 < rootPrice t := by rw [hR]; exact Real.exp_pos _
  set y := (t : ℝ) * (lam - k) with hy
  have hyb : |y| ≤ t / 2 ^ 53 := by
    rw [hy, abs_mul, abs_of_nonneg (by positivity : (0 : ℝ) ≤ t)]
    have := mul_le_mul_of_nonneg_left lam_root (by positivity : (0 : ℝ) ≤ t)
    rw [mul_one_div] at this
    exact this
  have htr : (t : ℝ) ≤ 2 ^ 21 := by exact_mod_cast ht
  have hy1 : |y| ≤ 1 / 2 := hyb.trans (by rw [div_le_iff₀ (by positivity)]; norm_num; linarith)
  have hexp := Real.abs_exp_sub_one_le (hy1.trans (by norm_num))
  have hE : Real.exp (t * lam) = rootPrice t * Real.exp y := by
    rw [hR, ← Real.exp_add]; congr 1; rw [hy]; ring
  rw [hE] at h1
  have hy2 : Real.exp y ≤ 2 := by linarith [(_root_.abs_le.1 hexp).2]
  have h2 : |rootPrice t * Real.exp y - rootPrice t| ≤ rootPrice t * (t / 2 ^ 52) := by
    rw [show rootPrice t * Real.exp y - rootPrice t = rootPrice t * (Real.exp y - 1) by ring, abs_mul, abs_of_pos hpos]
    refine mul_le_mul_of_nonneg_left (hexp.trans ?_) hpos.le
    have : (t : ℝ) / 2 ^ 52 = 2 * (t / 2 ^ 53) := by ring
    linarith
  have h3 : rootPrice t * Real.exp y / 2 ^ 51 ≤ rootPrice t * 2 / 2 ^ 51 := by gcongr
  have h4 := abs_add_le ((r : ℝ) - rootPrice t * Real.exp y) (rootPrice t * Real.exp y - rootPrice t)
  rw [sub_add_sub_cancel] at h4
  have h5 : rootPrice t * (t + 4) / 2 ^ 52 = rootPrice t * 2 / 2 ^ 51 + rootPrice t * (t / 2 ^ 52) := by ring
  linarith

/-- The logarithm of the price of a tick. -/
theorem tick_log {m : LibM} (ha : m.Accurate) {t : ℕ} (ht : t ≤ 2 ^ 21) : (tickToRp m t).Rep ∧
    ∃ r : ℚ, (tickToRp m t).Is r ∧ (0 : ℝ) < r ∧ |Real.log r - t * lam| ≤ 1 / 2 ^ 50 := by
  obtain ⟨hrep, r, hr, h1⟩ := tick_value ha ht
  have hE := Real.exp_pos (t * lam)
  set E := Real.exp (t * lam) with hEd
  have h2 := _root_.abs_le.1 h1
  have h3 : E / 2 ^ 51 = E * (1 / 2 ^ 51) := by ring
  rw [h3] at h2
  have hr0 : (0 : ℝ) < r := by
    have : E * (1 / 2 ^ 51) < E := by rw [mul_lt_iff_lt_one_right hE]; norm_num
    linarith
  refine ⟨hrep, r, hr, hr0, ?_⟩
  have hq : (0 : ℝ) < r / E := div_pos hr0 hE
  have e : Real.log r - t * lam = Real.log (r / E) := by
    rw [Real.log_div hr0.ne' hE.ne', hEd, Real.log_exp]
  have q1 : (r : ℝ) / E ≤ 1 + 1 / 2 ^ 51 := by rw [div_le_iff₀ hE]; linarith
  have q0 : 1 - 1 / 2 ^ 51 ≤ (r : ℝ) / E := by rw [le_div_iff₀ hE]; linarith
  have l1 := Real.log_le_sub_one_of_pos hq
  have l0 := Real.one_sub_inv_le_log_of_pos hq
  have q2 : ((r : ℝ) / E)⁻¹ ≤ (1 - 1 / 2 ^ 51)⁻¹ := inv_anti₀ (by norm_num) q0
  have q3 : (1 - 1 / 2 ^ 51 : ℝ)⁻¹ ≤ 1 + 1 / 2 ^ 50 := by norm_num
  have q4 : (1 : ℝ) / 2 ^ 51 ≤ 1 / 2 ^ 50 := by norm_num
  rw [e, _root_.abs_le]
  constructor <;> linarith

/-- Higher ticks have higher prices. -/
theorem price_increases {m : LibM} (ha : m.Accurate) {t t' : ℕ} (h : t < t') (ht : t' ≤ 2 ^ 21) :
    lt (tickToRp m t) (tickToRp m t') = true := by
  obtain ⟨_, r, hr, r0, r1⟩ := tick_log ha (t := t) (by omega)
  obtain ⟨_, s, hs, s0, s1⟩ := tick_log ha (t := t') (by omega)
  rw [lt_is hr hs]
  have : Real.log r < Real.log s := by
    have h1 := (_root_.abs_le.1 r1).2
    have h2 := (_root_.abs_le.1 s1).1
    have h3 : ((t : ℝ) + 1) * lam ≤ t' * lam := mul_le_mul_of_nonneg_right (by exact_mod_cast h) lam_pos.le
    have h4 := lam_bounds.1
    have h5 : (1 : ℝ) / 2 ^ 50 + 1 / 2 ^ 50 < 1 / 2 ^ 15 := by norm_num
    linarith
  rw [Real.log_lt_log_iff r0 s0] at this
  exact_mod_cast this

theorem up_of_log {u v : ℚ} (hu : (0 : ℝ) < u) (hv : (0 : ℝ) < v) (h : Real.log u ≤ Real.log v + 3 / 2 ^ 42) :
    u ≤ v * (1 + 1 / 2 ^ 40) := by
  have h1 := Real.one_sub_inv_le_log_of_pos (show (0 : ℝ) < 1 + 1 / 2 ^ 40 by norm_num)
  have h2 : (3 : ℝ) / 2 ^ 42 ≤ 1 - (1 + 1 / 2 ^ 40)⁻¹ := by norm_num
  have h3 : Real.log u ≤ Real.log (v * (1 + 1 / 2 ^ 40)) := by
    rw [Real.log_mul hv.ne' (by norm_num)]; linarith
  rw [Real.log_le_log_iff hu (by positivity)] at h3
  exact (Rat.cast_le (K := ℝ)).mp (by push_cast; exact h3)

/-- A number at least one lies between the prices of the tick found for it and of the next one, up to one part in `2^40`. -/
theorem tick_of_price {m : LibM} (ha : m.Accurate) {a : F64} {v : ℚ} (hr : a.Rep) (hv : a.Is v) (hs : Sized 50 v) (h1 : 1 ≤ v) :
    ∃ x y : ℚ, (tickToRp m (rpToTick m a false)).Is x ∧ (tickToRp m (rpToTick m a false + 1)).Is y ∧
      x ≤ v * (1 + 1 / 2 ^ 40) ∧ v ≤ y * (1 + 1 / 2 ^ 40) := by
  obtain ⟨l, hl, hf, _⟩ := tick_quotient ha hr hv hs
  have hv0 : (0 : ℝ) < v := by exact_mod_cast hs.pos
  have hX : 0 ≤ Real.log v / lam := div_nonneg (Real.log_nonneg (by exact_mod_cast h1)) lam_pos.le
  have hX1 : Real.log v / lam ≤ 2 ^ 21 - 2 := by
    rw [div_le_iff₀ lam_pos]
    have := Real.log_le_log hv0 hs.real.2
    rw [Real.log_pow] at this
    push_cast at this
    have h2 := Real.log_two_lt_d9
    have h3 : ((2 : ℝ) ^ 21 - 2) * (1 / 2 ^ 15) ≤ (2 ^ 21 - 2) * lam := mul_le_mul_of_nonneg_left lam_bounds.1.le (by norm_num)
    norm_num at h3 ⊢
    linarith
  set X := Real.log v / lam with hXd
  have hlog : Real.log v = X * lam := by rw [hXd, div_mul_cancel₀ _ lam_pos.ne']
  have hl2 := _root_.abs_le.1 hl
  have ht : ((rpToTick m a false : ℕ) : ℝ) ≤ X + 1 / 2 ^ 27 := by
    rw [hf]
    rcases le_or_gt 0 ⌊l⌋ with h | h
    · have e : ((⌊l⌋.toNat : ℕ) : ℝ) = ((⌊l⌋ : ℤ) : ℝ) := by exact_mod_cast Int.toNat_of_nonneg h
      have : ((⌊l⌋ : ℤ) : ℝ) ≤ l := by exact_mod_cast Int.floor_le l
      rw [e]; linarith
    · rw [Int.toNat_of_nonpos h.le]; push_cast; linarith [show (0 : ℝ) < 1 / 2 ^ 27 by positivity]
  have ht2 : X ≤ ((rpToTick m a false : ℕ) : ℝ) + 1 + 1 / 2 ^ 27 := by
    rw [hf]
    have e : ((⌊l⌋ : ℤ) : ℝ) ≤ ((⌊l⌋.toNat : ℕ) : ℝ) := by exact_mod_cast Int.self_le_toNat _
    have : (l : ℝ) ≤ ((⌊l⌋ : ℤ) : ℝ) + 1 := by exact_mod_cast (Int.lt_floor_add_one l).le
    linarith
  set t := rpToTick m a false
  have htn : t + 1 ≤ 2 ^ 21 := by
    have : ((t + 1 : ℕ) : ℝ) ≤ (2 ^ 21 : ℕ) := by
      push_cast
      have : (1 : ℝ) / 2 ^ 27 ≤ 1 := by norm_num
      linarith
    exact_mod_cast this
  obtain ⟨_, x, hx, x0, x1⟩ := tick_log ha (t := t) (by omega)
  obtain ⟨_, y, hy, y0, y1⟩ := tick_log ha (t := t + 1) htn
  have hb : (1 : ℝ) / 2 ^ 27 * lam ≤ 1 / 2 ^ 41 := by
    have := mul_le_mul_of_nonneg_left lam_bounds.2.le (show (0 : ℝ) ≤ 1 / 2 ^ 27 by positivity)
    norm_num at this ⊢
    linarith
  have hc : (1 : ℝ) / 2 ^ 41 + 1 / 2 ^ 50 ≤ 3 / 2 ^ 42 := by norm_num
  refine ⟨x, y, hx, hy, up_of_log x0 hv0 ?_, up_of_log hv0 y0 ?_⟩
  · have h2 := mul_le_mul_of_nonneg_right ht lam_pos.le
    rw [add_mul] at h2
    linarith [(_root_.abs_le.1 x1).2]
  · have h2 := mul_le_mul_of_nonneg_right ht2 lam_pos.le
    rw [add_mul] at h2
    have h3 := (_root_.abs_le.1 y1).1
    push_cast at h3
    linarith

/-- Seen from the left: a number at least one lies between the prices of the tick found for it and of the one before, up to
one part in `2^40`. -/
theorem tick_of_price_up {m : LibM} (ha : m.Accurate) {a : F64} {v : ℚ} (hr : a.Rep) (hv : a.Is v) (hs : Sized 50 v) (h1 : 1 ≤ v) :
    (∃ x, (tickToRp m (rpToTick m a true)).Is x ∧ v ≤ x * (1 + 1 / 2 ^ 40)) ∧
    ∀ t, rpToTick m a true = t + 1 → ∃ y, (tickToRp m t).Is y ∧ y ≤ v * (1 + 1 / 2 ^ 40) := by
  obtain ⟨l, hl, _, hf⟩ := tick_quotient ha hr hv hs
  have hv0 : (0 : ℝ) < v := by exact_mod_cast hs.pos
  have hX : 0 ≤ Real.log v / lam := div_nonneg (Real.log_nonneg (by exact_mod_cast h1)) lam_pos.le
  have hX1 : Real.log v / lam ≤ 2 ^ 21 - 2 := by
    rw [div_le_iff₀ lam_pos]
    have := Real.log_le_log hv0 hs.real.2
    rw [Real.log_pow] at this
    push_cast at this
    have h2 := Real.log_two_lt_d9
    have h3 : ((2 : ℝ) ^ 21 - 2) * (1 / 2 ^ 15) ≤ (2 ^ 21 - 2) * lam := mul_le_mul_of_nonneg_left lam_bounds.1.le (by norm_num)
    norm_num at h3 ⊢
    linarith
  set X := Real.log v / lam with hXd
  have hlog : Real.log v = X * lam := by rw [hXd, div_mul_cancel₀ _ lam_pos.ne']
  have hl2 := _root_.abs_le.1 hl
  have ht : X ≤ ((rpToTick m a true : ℕ) : ℝ) + 1 / 2 ^ 27 := by
    rw [hf]
    have e : ((⌈l⌉ : ℤ) : ℝ) ≤ ((⌈l⌉.toNat : ℕ) : ℝ) := by exact_mod_cast Int.self_le_toNat _
    have : (l : ℝ) ≤ ((⌈l⌉ : ℤ) : ℝ) := by exact_mod_cast Int.le_ceil l
    linarith
  have ht2 : ((rpToTick m a true : ℕ) : ℝ) ≤ X + 1 + 1 / 2 ^ 27 := by
    rw [hf]
    rcases le_or_gt 0 ⌈l⌉ with h | h
    · have e : ((⌈l⌉.toNat : ℕ) : ℝ) = ((⌈l⌉ : ℤ) : ℝ) := by exact_mod_cast Int.toNat_of_nonneg h
      have : ((⌈l⌉ : ℤ) : ℝ) ≤ l + 1 := by exact_mod_cast (Int.ceil_lt_add_one l).le
      rw [e]; linarith
    · rw [Int.toNat_of_nonpos h.le]; push_cast; linarith [show (0 : ℝ) < 1 / 2 ^ 27 by positivity]
  set t := rpToTick m a true
  have htn : t ≤ 2 ^ 21 := by
    have : ((t : ℕ) : ℝ) ≤ (2 ^ 21 : ℕ) := by
      push_cast
      have : (1 : ℝ) / 2 ^ 27 ≤ 1 := by norm_num
      linarith
    exact_mod_cast this
  have hb : (1 : ℝ) / 2 ^ 27 * lam ≤ 1 / 2 ^ 41 := by
    have := mul_le_mul_of_nonneg_left lam_bounds.2.le (show (0 : ℝ) ≤ 1 / 2 ^ 27 by positivity)
    norm_num at this ⊢
    linarith
  have hc : (1 : ℝ) / 2 ^ 41 + 1 / 2 ^ 50 ≤ 3 / 2 ^ 42 := by norm_num
  constructor
  · obtain ⟨_, x, hx, x0, x1⟩ := tick_log ha htn
    refine ⟨x, hx, up_of_log hv0 x0 ?_⟩
    have h2 := mul_le_mul_of_nonneg_right ht lam_pos.le
    rw [add_mul] at h2
    linarith [(_root_.abs_le.1 x1).1]
  · intro s hst
    obtain ⟨_, y, hy, y0, y1⟩ := tick_log ha (t := s) (by omega)
    refine ⟨y, hy, up_of_log y0 hv0 ?_⟩
    rw [hst] at ht2
    push_cast at ht2
    have h2 := mul_le_mul_of_nonneg_right (show (s : ℝ) ≤ X + 1 / 2 ^ 27 by linarith) lam_pos.le
    rw [add_mul] at h2
    linarith [(_root_.abs_le.1 y1).2]

/-- Strictly between the prices of two neighbouring ticks, the ticks found are these. -/
theorem tick_between {m : LibM} (ha : m.Accurate) {a : F64} {v x y : ℚ} (hr : a.Rep) (hv : a.Is v) (hs : Sized 50 v) {t : ℕ}
    (ht : t < 2 ^ 21) (hx : (tickToRp m t).Is x) (hy : (tickToRp m (t + 1)).Is y) (h1 : x * (1 + 1 / 2 ^ 40) ≤ v)
    (h2 : v ≤ y * (1 - 1 / 2 ^ 40)) : rpToTick m a false = t ∧ rpToTick m a true = t + 1 := by
  obtain ⟨l, hl, hf, hc⟩ := tick_quotient ha hr hv hs
  have hv0 : (0 : ℝ) < v := by exact_mod_cast hs.pos
  obtain ⟨_, x', hx', x0, x1⟩ := tick_log ha (t := t) (by omega)
  obtain ⟨_, y', hy', y0, y1⟩ := tick_log ha (t := t + 1) (by omega)
  obtain rfl := hx.unique hx'
  obtain rfl := hy.unique hy'
  have g1 : (x : ℝ) * (1 + 1 / 2 ^ 40) ≤ v := by
    have := (Rat.cast_le (K := ℝ)).mpr h1
    push_cast at this
    exact this
  have g2 : (v : ℝ) ≤ y * (1 - 1 / 2 ^ 40) := by
    have := (Rat.cast_le (K := ℝ)).mpr h2
    push_cast at this
    exact this
  have k1 := Real.log_le_log (by positivity) g1
  have k2 := Real.log_le_log hv0 g2
  rw [Real.log_mul x0.ne' (by norm_num)] at k1
  rw [Real.log_mul y0.ne' (by norm_num)] at k2
  have j1 := Real.one_sub_inv_le_log_of_pos (show (0 : ℝ) < 1 + 1 / 2 ^ 40 by norm_num)
  have j2 := Real.log_le_sub_one_of_pos (show (0 : ℝ) < 1 - 1 / 2 ^ 40 by norm_num)
  have j3 : (3 : ℝ) / 2 ^ 42 ≤ 1 - (1 + 1 / 2 ^ 40)⁻¹ := by norm_num
  have hb : (1 : ℝ) / 2 ^ 27 * lam ≤ 1 / 2 ^ 41 := by
    have := mul_le_mul_of_nonneg_left lam_bounds.2.le (show (0 : ℝ) ≤ 1 / 2 ^ 27 by positivity)
    norm_num at this ⊢
    linarith
  have hg : (1 : ℝ) / 2 ^ 41 + 1 / 2 ^ 50 < 3 / 2 ^ 42 := by norm_num
  have hg2 : (3 : ℝ) / 2 ^ 42 < 1 / 2 ^ 40 := by norm_num
  have x2 := _root_.abs_le.1 x1
  have y2 := _root_.abs_le.1 y1
  push_cast at y2
  set X := Real.log v / lam with hXd
  have hlog : Real.log v = X * lam := by rw [hXd, div_mul_cancel₀ _ lam_pos.ne']
  have b1 : (t : ℝ) + 1 / 2 ^ 27 < X := by
    have : ((t : ℝ) + 1 / 2 ^ 27) * lam < X * lam := by rw [add_mul]; linarith
    exact lt_of_mul_lt_mul_right this lam_pos.le
  have b2 : X < (t : ℝ) + 1 - 1 / 2 ^ 27 := by
    have : X * lam < ((t : ℝ) + 1 - 1 / 2 ^ 27) * lam := by rw [sub_mul]; linarith
    exact lt_of_mul_lt_mul_right this lam_pos.le
  have hl2 := _root_.abs_le.1 hl
  have c1 : (t : ℚ) < l := (Rat.cast_lt (K := ℝ)).mp (by push_cast; linarith)
  have c2 : l < (t : ℚ) + 1 := (Rat.cast_lt (K := ℝ)).mp (by push_cast; linarith)
  constructor
  · rw [hf, Int.floor_eq_iff.2 ⟨(by exact_mod_cast c1.le : (((t : ℕ) : ℤ) : ℚ) ≤ l), by exact_mod_cast c2⟩, Int.toNat_natCast]
  · have : ⌈l⌉ = ((t + 1 : ℕ) : ℤ) := by
      rw [Int.ceil_eq_iff]; push_cast; constructor <;> linarith
    rw [hc, this, Int.toNat_natCast]

/-- The tick of a price is small. -/
theorem tick_le {m : LibM} (ha : m.Accurate) {a : F64} {v : ℚ} (hr : a.Rep) (hv : a.Is v) (hs : Sized 50 v) :
    rpToTick m a false ≤ 2 ^ 20 + 2 ^ 17 := by
  obtain ⟨l, hl, hf, _⟩ := tick_quotient ha hr hv hs
  have hv0 : (0 : ℝ) < v := by exact_mod_cast hs.pos
  have hX1 : Real.log v / lam ≤ 2 ^ 20 + 2 ^ 17 - 1 := by
    rw [div_le_iff₀ lam_pos]
    have := Real.log_le_log hv0 hs.real.2
    rw [Real.log_pow] at this
    push_cast at this
    have h2 := Real.log_two_lt_d9
    have h3 : ((2 : ℝ) ^ 20 + 2 ^ 17 - 1) * (1 / 2 ^ 15) ≤ (2 ^ 20 + 2 ^ 17 - 1) * lam :=
      mul_le_mul_of_nonneg_left lam_bounds.1.le (by norm_num)
    norm_num at h3 ⊢
    linarith
  have h1 := (_root_.abs_le.1 hl).2
  have e : (1 : ℝ) / 2 ^ 27 ≤ 1 := by norm_num
  have h2 : l ≤ 2 ^ 20 + 2 ^ 17 := (Rat.cast_le (K := ℝ)).mp (by push_cast; linarith)
  have h3 : ⌊l⌋ ≤ 2 ^ 20 + 2 ^ 17 := by
    have : ((⌊l⌋ : ℤ) : ℚ) ≤ ((2 ^ 20 + 2 ^ 17 : ℤ) : ℚ) := (Int.floor_le l).trans (by push_cast; linarith)
    exact_mod_cast this
  rw [hf]
  omega

/-- The lower bound of the range a provider gets: the last tick of the grid at or below the price asked for, up to one part in
`2^40`. -/
theorem lower_bound {m : LibM} (ha : m.Accurate) {a : F64} {v : ℚ} (hr : a.Rep) (hv : a.Is v) (hs : Sized 50 v) (h1 : 1 ≤ v)
    {s : ℕ} (s0 : 0 < s) (s1 : s ≤ 2 ^ 16) : ∃ x y : ℚ, s ∣ rpToPossibleTk m a s false ∧
      (tickToRp m (rpToPossibleTk m a s false)).Is x ∧ (tickToRp m (rpToPossibleTk m a s false + s)).Is y ∧
      x ≤ v * (1 + 1 / 2 ^ 40) ∧ v ≤ y * (1 + 1 / 2 ^ 40) := by
  obtain ⟨x, y, hx, hy, b1, b2⟩ := tick_of_price ha hr hv hs h1
  have ht := tick_le ha hr hv hs
  obtain ⟨d, e1, e2⟩ := snap_down (t := rpToTick m a false) (s := s) (by omega) s0 (by omega)
  change s ∣ rpToPossibleTk m a s false at d
  change rpToPossibleTk m a s false ≤ _ at e1
  change _ < rpToPossibleTk m a s false + s at e2
  set T := rpToPossibleTk m a s false
  obtain ⟨_, x', hx', _⟩ := tick_log ha (t := T) (by omega)
  obtain ⟨_, y', hy', _⟩ := tick_log ha (t := T + s) (by omega)
  have mono : ∀ {i j : ℕ} {p q : ℚ}, i ≤ j → j ≤ 2 ^ 21 → (tickToRp m i).Is p → (tickToRp m j).Is q → p ≤ q := by
    intro i j p q hij hj hp hq
    rcases hij.eq_or_lt with rfl | hlt
    · exact (hp.unique hq).le
    · exact ((lt_is hp hq).1 (price_increases ha hlt hj)).le
  refine ⟨x', y', d, hx', hy', (mono e1 (by omega) hx' hx).trans b1, b2.trans ?_⟩
  exact mul_le_mul_of_nonneg_right (mono (by omega) (by omega) hy hy') (by norm_num)

theorem tick_whole {m : LibM} (ha : m.Accurate) {n : ℕ} (h0 : 0 < n) (h1 : n ≤ 2 ^ 50) : ∃ l : ℚ,
    |(l : ℝ) - Real.log n / lam| ≤ 1 / 2 ^ 27 ∧ rpToTick m (ofNat n) false = ⌊l⌋.toNat ∧ rpToTick m (ofNat n) true = ⌈l⌉.toNat := by
  have hs : Sized 50 (n : ℚ) := by
    constructor
    · have : (1 : ℚ) ≤ n := by exact_mod_cast h0
      exact le_trans (by norm_num) this
    · exact_mod_cast h1
  have := tick_quotient ha (ofNat_rep n) (ofNat_is (h1.trans (by norm_num))) hs
  rwa [Rat.cast_natCast] at this

/-- From a tick to its price and back, one may end one tick off, not more. -/
theorem there_and_back {m : LibM} (ha : m.Accurate) {t : ℕ} (ht : t ≤ 2 ^ 19) :
    (rpToTick m (tickToRp m t) false = t ∨ rpToTick m (tickToRp m t) false + 1 = t) ∧
    (rpToTick m (tickToRp m t) true = t ∨ rpToTick m (tickToRp m t) true = t + 1) := by
  obtain ⟨hrep, r, hr, r0, r1⟩ := tick_log ha (t := t) (by omega)
  have r2 := _root_.abs_le.1 r1
  have htr : (t : ℝ) ≤ 2 ^ 19 := by exact_mod_cast ht
  have htl : (t : ℝ) * lam ≤ 32 := by
    have : (t : ℝ) * lam ≤ 2 ^ 19 * (1 / 2 ^ 14) := mul_le_mul htr lam_bounds.2.le lam_pos.le (by positivity)
    norm_num at this
    exact this
  have ht0 : 0 ≤ (t : ℝ) * lam := mul_nonneg (by positivity) lam_pos.le
  have l2 := Real.log_two_gt_d9
  have e50 : (1 : ℝ) / 2 ^ 50 ≤ 1 / 2 := by norm_num
  have hs : Sized 50 r := by
    apply Sized.of_real
    · rw [← Real.log_le_log_iff (by positivity) r0, one_div, Real.log_inv, Real.log_pow]
      push_cast; linarith
    · rw [← Real.log_le_log_iff r0 (by positivity), Real.log_pow]
      push_cast; linarith
  obtain ⟨l, hl, hf, hc⟩ := tick_quotient ha hrep hr hs
  have hX : |Real.log r / lam - t| ≤ 1 / 2 ^ 35 := by
    rw [show Real.log r / lam - t = (Real.log r - t * lam) / lam by rw [sub_div, mul_div_assoc, div_self lam_pos.ne', mul_one],
      abs_div, abs_of_pos lam_pos, div_le_iff₀ lam_pos]
    refine r1.trans ?_
    have := mul_le_mul_of_nonneg_left lam_bounds.1.le (show (0 : ℝ) ≤ 1 / 2 ^ 35 by positivity)
    refine le_trans ?_ this
    norm_num
  have hX2 := _root_.abs_le.1 hX
  have hl2 := _root_.abs_le.1 hl
  have e : (1 : ℝ) / 2 ^ 35 + 1 / 2 ^ 27 < 1 / 2 := by norm_num
  have c1 : (t : ℚ) - 1 / 2 < l := (Rat.cast_lt (K := ℝ)).mp (by push_cast; linarith)
  have c2 : l < (t : ℚ) + 1 / 2 := (Rat.cast_lt (K := ℝ)).mp (by push_cast; linarith)
  have f1 : (t : ℤ) - 1 ≤ ⌊l⌋ := Int.le_floor.2 (by push_cast; linarith)
  have f2 : ⌊l⌋ < (t : ℤ) + 1 := Int.floor_lt.2 (by push_cast; linarith)
  have g1 : ⌈l⌉ ≤ (t : ℤ) + 1 := Int.ceil_le.2 (by push_cast; linarith)
  have g2 : (t : ℤ) - 1 < ⌈l⌉ := Int.lt_ceil.2 (by push_cast; linarith)
  rw [hf, hc]
  omega

end

/-- The price of tick 20, correctly rounded. -/
def price20 : F64 := fin false (4508105254158216 * 2 ^ (1074 - 52))

/-- Its logarithm, correctly rounded. -/
def log20 : F64 := fin false (4611455449488031 * 2 ^ (1074 - 62))

/-- The logarithm of the root of the tick base, correctly rounded. -/
def logBase : F64 := fin false (7378328719181482 * 2 ^ (1074 - 67))

theorem price20_is : price20.Is ((4508105254158216 : ℕ) / 2 ^ 52) ∧ price20.Rep := by
  unfold price20
  exact ⟨dyadic_is 4508105254158216 (by norm_num), dyadic_rep 4508105254158216 52 (by norm_num)⟩

theorem logBase_is : logBase.Is ((7378328719181482 : ℕ) / 2 ^ 67) ∧ logBase.Rep := by
  unfold logBase
  exact ⟨dyadic_is 7378328719181482 (by norm_num), dyadic_rep 7378328719181482 67 (by norm_num)⟩

theorem log20_is : log20.Is ((4611455449488031 : ℕ) / 2 ^ 62) ∧ log20.Rep := by
  unfold log20
  exact ⟨dyadic_is 4611455449488031 (by norm_num), dyadic_rep 4611455449488031 62 (by norm_num)⟩

/-- A library that rounds some values as well as possible. -/
noncomputable def fineLib : LibM where
  powf b e := if b = tickBase.sqrt ∧ e = ofNat 20 then price20 else someLib.powf b e
  ln x := if x = tickBase.sqrt then logBase else if x = price20 then log20 else someLib.ln x

theorem fine_powf : fineLib.powf tickBase.sqrt (ofNat 20) = price20 := by unfold fineLib; simp

theorem fine_base : fineLib.ln tickBase.sqrt = logBase := by unfold fineLib; simp

theorem fine_ln : fineLib.ln price20 = log20 := by
  have : price20 ≠ tickBase.sqrt := by decide +kernel
  unfold fineLib
  simp [this]

theorem fine_ticks : rpToPossibleTk fineLib (tickToRp fineLib 20) 10 false = 10 := by
  unfold rpToPossibleTk rpToTick tickToRp
  rw [fine_powf, fine_ln, fine_base]
  decide +kernel

/-- Five terms of the series of the logarithm. -/
theorem log_series {y : ℝ} (h0 : 0 < y) (h1 : y < 1) :
    |Real.log (1 + y) - (y - y ^ 2 / 2 + y ^ 3 / 3 - y ^ 4 / 4 + y ^ 5 / 5 - y ^ 6 / 6)| ≤ y ^ 7 / (1 - y) := by
  have := Real.abs_log_sub_add_sum_range_le (x := -y) (by rwa [abs_neg, abs_of_pos h0]) 6
  rw [abs_neg, abs_of_pos h0, sub_neg_eq_add] at this
  refine le_trans (le_of_eq ?_) this
  congr 1
  simp only [Finset.sum_range_succ, Finset.sum_range_zero]
  push_cast
  ring

theorem fine_accurate : fineLib.Accurate where
  powf {b e β ε} hb he hB hE hs h0 h1 := by
    by_cases h : b = tickBase.sqrt ∧ e = ofNat 20
    · rw [h.1] at hB
      rw [h.2] at hE
      rw [h.1, h.2]
      rw [fine_powf]
      obtain rfl := hB.unique base_is
      obtain rfl := hE.unique (ofNat_is (k := 20) (by norm_num))
      refine ⟨price20_is.2, _, price20_is.1, ?_⟩
      have e2 : (baseQ : ℝ) ^ (((20 : ℕ) : ℚ) : ℝ) = (4503824801722646 / 2 ^ 52) ^ 20 := by
        rw [Rat.cast_natCast, Real.rpow_natCast, baseQ_real]
      rw [e2, _root_.abs_le]
      push_cast
      constructor <;> norm_num
    · have e1 : fineLib.powf b e = someLib.powf b e := by unfold fineLib; simp only; rw [if_neg h]
      rw [e1]
      exact someLib_accurate.powf hb he hB hE hs h0 h1
  ln {x ξ} hr hx hs := by
    by_cases h : x = tickBase.sqrt
    · rw [h] at hx ⊢
      rw [fine_base]
      obtain rfl := hx.unique base_is
      refine ⟨logBase_is.2, _, logBase_is.1, ?_⟩
      have := log_series (y := 4503824801722646 / 2 ^ 52 - 1) (by norm_num) (by norm_num)
      rw [add_sub_cancel] at this
      have hl := _root_.abs_le.1 this
      have hp := lam_pos
      unfold lam at hp
      rw [abs_of_pos hp, baseQ_real, _root_.abs_le]
      push_cast
      norm_num at hl ⊢
      constructor <;> linarith
    · by_cases h' : x = price20
      · rw [h'] at hx h ⊢
        rw [fine_ln]
        obtain rfl := hx.unique price20_is.1
        refine ⟨log20_is.2, _, log20_is.1, ?_⟩
        have := log_series (y := 4508105254158216 / 2 ^ 52 - 1) (by norm_num) (by norm_num)
        rw [add_sub_cancel] at this
        have hl := _root_.abs_le.1 this
        have e2 : ((((4508105254158216 : ℕ) : ℚ) / 2 ^ 52 : ℚ) : ℝ) = 4508105254158216 / 2 ^ 52 := by push_cast; norm_num
        rw [e2]
        have hp : 0 < Real.log (4508105254158216 / 2 ^ 52) := Real.log_pos (by norm_num)
        rw [abs_of_pos hp, _root_.abs_le]
        push_cast
        norm_num at hl ⊢
        constructor <;> linarith
      · have e1 : fineLib.ln x = someLib.ln x := by unfold fineLib; simp only; rw [if_neg h, if_neg h']
        rw [e1]
        exact someLib_accurate.ln hr hx hs

/-- An accurate library does not make the way back exact: someone who asks for a range that starts at the price of tick 20 may
get one that starts at tick 10. -/
theorem back_false : ∃ m : LibM, m.Accurate ∧ rpToPossibleTk m (tickToRp m 20) 10 false = 10 :=
  ⟨fineLib, fine_accurate, fine_ticks⟩

/-- The root price 2: ticks 13863 and 13864 with every accurate library. -/
theorem prices_case : (∃ m : LibM, m.Accurate) ∧ ∀ m : LibM, m.Accurate →
    rpToTick m (ofNat 2) false = 13863 ∧ rpToTick m (ofNat 2) true = 13864 ∧ rpToPossibleTk m (ofNat 2) 10 false = 13860 := by
  refine ⟨⟨_, someLib_accurate⟩, fun m ha => ?_⟩
  obtain ⟨l, hl, hf, hc⟩ := tick_whole ha (n := 2) (by norm_num) (by norm_num)
  have hb := log_series (y := 4503824801722646 / 2 ^ 52 - 1) (by norm_num) (by norm_num)
  have hlam : Real.log (4503824801722646 / 2 ^ 52) = lam := by unfold lam; rw [baseQ_real]
  rw [add_sub_cancel, hlam] at hb
  have hb2 := _root_.abs_le.1 hb
  have g1 := Real.log_two_gt_d9
  have g2 := Real.log_two_lt_d9
  have l0 : (0.00004999750016 : ℝ) < lam := by norm_num at hb2 ⊢; linarith
  have l1 : lam < (0.00004999750018 : ℝ) := by norm_num at hb2 ⊢; linarith
  push_cast at hl
  have hl2 := _root_.abs_le.1 hl
  have x0 : 13863.5 < Real.log 2 / lam := by rw [lt_div_iff₀ lam_pos]; linarith
  have x1 : Real.log 2 / lam < 13863.8 := by rw [div_lt_iff₀ lam_pos]; linarith
  have e : (1 : ℝ) / 2 ^ 27 ≤ 1 / 10 := by norm_num
  have c1 : (13863 : ℚ) < l := (Rat.cast_lt (K := ℝ)).mp (by push_cast; linarith)
  have c2 : l < (13864 : ℚ) := (Rat.cast_lt (K := ℝ)).mp (by push_cast; linarith)
  have f1 : ⌊l⌋ = 13863 := by rw [Int.floor_eq_iff]; push_cast; constructor <;> linarith
  have f2 : ⌈l⌉ = 13864 := by rw [Int.ceil_eq_iff]; push_cast; constructor <;> linarith
  rw [f1] at hf
  rw [f2] at hc
  refine ⟨hf, hc, ?_⟩
  unfold rpToPossibleTk
  rw [hf]
  decide +kernel

end Hmm.Flt
