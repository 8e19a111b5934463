import Verif.Proofs.OracleIntegral
import Verif.Proofs.FloatPrices

/-
The oracle-adjusted amounts of the floating-point pool with an accurate math library.
-/

namespace Hmm.Flt

open F64

section
attribute [local irreducible] unit limit

/-- Rounding, with an error relative to a bound. -/
theorem round_real {x : ℚ} {a : F64} (h : Rounded x a) {S : ℝ} (hS : |(x : ℝ)| ≤ S) (h0 : 1 / 2 ^ 400 ≤ S) (h1 : S ≤ 2 ^ 900) :
    ∃ r : ℚ, a.Is r ∧ |(r : ℝ) - x| ≤ 2 * (S / 2 ^ 53) := by
  have hx : |x| ≤ 2 ^ 1000 := by
    refine (Rat.cast_le (K := ℝ)).mp ?_
    push_cast
    exact hS.trans (h1.trans (pow_le_pow_right₀ (by norm_num) (by norm_num)))
  obtain ⟨r, hr⟩ := rounded_finite h hx
  refine ⟨r, hr, ?_⟩
  have e1 := h.error hr
  have e2 := tiny (S := 1 / 2 ^ 400) le_rfl
  have e3 : |r - x| ≤ |x| / 2 ^ 53 + 1 / 2 ^ 400 / 2 ^ 53 := by linarith
  have e4 := (Rat.cast_le (K := ℝ)).mpr e3
  push_cast at e4
  have e5 : |(x : ℝ)| / 2 ^ 53 ≤ S / 2 ^ 53 := div_le_div_of_nonneg_right hS (by positivity)
  have e6 : (1 : ℝ) / 2 ^ 400 / 2 ^ 53 ≤ S / 2 ^ 53 := div_le_div_of_nonneg_right h0 (by positivity)
  linarith

theorem abs_of_near {x y e : ℝ} (h : |x - y| ≤ e) : |x| ≤ |y| + e := by
  have := abs_add_le (x - y) y
  rw [sub_add_cancel] at this
  linarith

/-- The last steps of both formulas: a factor, a difference of two powers, and a division. -/
theorem hmm_core {k u v w : F64} {k' u' v' d : ℚ} {K A B g : ℝ} (hk : k.Is k') (hu : u.Is u') (hv : v.Is v') (hw : w.Is d)
    (K0 : 1 / 2 ^ 200 ≤ K) (K1 : K ≤ 2 ^ 200) (A0 : 1 / 2 ^ 60 ≤ A) (A1 : A ≤ 2 ^ 60) (B0 : 1 / 2 ^ 60 ≤ B) (B1 : B ≤ 2 ^ 60)
    (g0 : 1 / 2 ^ 60 ≤ |g|) (g1 : |g| ≤ 1) (ek : |(k' : ℝ) - K| ≤ K * 10 / 2 ^ 53) (eu : |(u' : ℝ) - A| ≤ A * 75 / 2 ^ 53)
    (ev : |(v' : ℝ) - B| ≤ B * 75 / 2 ^ 53) (ed : |(d : ℝ) - g| ≤ |g| / 2 ^ 53) :
    ∃ r : ℚ, (div (mul k (sub v u)) w).Is r ∧ |(r : ℝ) - K * ((B - A) / g)| ≤ K * (A + B) / |g| / 2 ^ 45 := by
  have Kp : 0 < K := lt_of_lt_of_le (by positivity) K0
  have Ap : 0 < A := lt_of_lt_of_le (by positivity) A0
  have Bp : 0 < B := lt_of_lt_of_le (by positivity) B0
  have gp : 0 < |g| := lt_of_lt_of_le (by positivity) g0
  have gne : g ≠ 0 := abs_pos.1 gp
  obtain ⟨T, hT⟩ : ∃ T, T = A + B := ⟨_, rfl⟩
  have Tp : 0 < T := by rw [hT]; linarith
  have T0 : 1 / 2 ^ 60 ≤ T := by rw [hT]; linarith
  have T1 : T ≤ 2 ^ 61 := by rw [hT]; norm_num at A1 B1 ⊢; linarith
  -- the difference
  have ed1 : |((v' - u' : ℚ) : ℝ) - (B - A)| ≤ T * 75 / 2 ^ 53 := by
    push_cast
    have := abs_sub ((v' : ℝ) - B) ((u' : ℝ) - A)
    rw [show (v' : ℝ) - B - (u' - A) = v' - u' - (B - A) by ring] at this
    rw [hT]
    have e : (A + B) * 75 / 2 ^ 53 = A * 75 / 2 ^ 53 + B * 75 / 2 ^ 53 := by ring
    linarith
  have hBA : |B - A| ≤ T := by rw [_root_.abs_le, hT]; constructor <;> linarith
  have hd2 : |((v' - u' : ℚ) : ℝ)| ≤ 2 * T := by
    have := abs_of_near ed1
    have e : T * 75 / 2 ^ 53 ≤ T := by rw [div_le_iff₀ (by positivity)]; nlinarith
    linarith
  obtain ⟨D, hD, eD⟩ := round_real (sub_rounded hv hu) hd2 (by
      have : (1 : ℝ) / 2 ^ 400 ≤ 1 / 2 ^ 60 := one_div_le_one_div_of_le (by positivity) (pow_le_pow_right₀ (by norm_num) (by norm_num))
      linarith) (by
      have e : 2 * T ≤ 2 ^ 62 := by norm_num at T1 ⊢; linarith
      exact e.trans (pow_le_pow_right₀ (by norm_num) (by norm_num)))
  have eD' : |(D : ℝ) - (B - A)| ≤ T * 79 / 2 ^ 53 := by
    have := abs_add_le ((D : ℝ) - (v' - u' : ℚ)) ((v' - u' : ℚ) - (B - A))
    rw [sub_add_sub_cancel] at this
    have e : T * 79 / 2 ^ 53 = 2 * (2 * T / 2 ^ 53) + T * 75 / 2 ^ 53 := by ring
    linarith
  have hDb : |(D : ℝ)| ≤ 2 * T := by
    have := abs_of_near eD'
    have e : T * 79 / 2 ^ 53 ≤ T := by rw [div_le_iff₀ (by positivity)]; nlinarith
    linarith
  -- the product
  have hkb : |(k' : ℝ)| ≤ 2 * K := by
    have := abs_of_near ek
    rw [abs_of_pos Kp] at this
    have e : K * 10 / 2 ^ 53 ≤ K := by rw [div_le_iff₀ (by positivity)]; nlinarith
    linarith
  have hKT : 0 < K * T := mul_pos Kp Tp
  have hP2 : |((k' * D : ℚ) : ℝ)| ≤ 4 * (K * T) := by
    push_cast
    rw [abs_mul]
    calc |(k' : ℝ)| * |(D : ℝ)| ≤ 2 * K * (2 * T) := mul_le_mul hkb hDb (abs_nonneg _) (by positivity)
      _ = _ := by ring
  have KT0 : 1 / 2 ^ 260 ≤ K * T := by
    have := mul_le_mul K0 T0 (by positivity) Kp.le
    rw [div_mul_div_comm, one_mul, ← pow_add] at this
    exact this
  have KT1 : K * T ≤ 2 ^ 261 := by
    have := mul_le_mul K1 T1 Tp.le (by positivity)
    rw [← pow_add] at this
    exact this
  obtain ⟨P, hP, eP⟩ := round_real (mul_rounded hk hD) hP2 (by
      have : (1 : ℝ) / 2 ^ 400 ≤ 1 / 2 ^ 260 := one_div_le_one_div_of_le (by positivity) (pow_le_pow_right₀ (by norm_num) (by norm_num))
      linarith) (by
      refine (mul_le_mul_of_nonneg_left KT1 (by norm_num)).trans ?_
      rw [show (4 : ℝ) = 2 ^ 2 by norm_num, ← pow_add]
      exact pow_le_pow_right₀ (by norm_num) (by norm_num))
  have eP' : |(P : ℝ) - K * (B - A)| ≤ K * T * 107 / 2 ^ 53 := by
    have h1 : |((k' * D : ℚ) : ℝ) - K * (B - A)| ≤ K * T * 99 / 2 ^ 53 := by
      push_cast
      have := abs_add_le (((k' : ℝ) - K) * D) (K * (D - (B - A)))
      rw [show ((k' : ℝ) - K) * D + K * (D - (B - A)) = k' * D - K * (B - A) by ring] at this
      rw [abs_mul, abs_mul, abs_of_pos Kp] at this
      have e1 : |(k' : ℝ) - K| * |(D : ℝ)| ≤ K * 10 / 2 ^ 53 * (2 * T) := mul_le_mul ek hDb (abs_nonneg _) (by positivity)
      have e2 : K * |(D : ℝ) - (B - A)| ≤ K * (T * 79 / 2 ^ 53) := mul_le_mul_of_nonneg_left eD' Kp.le
      have e3 : K * T * 99 / 2 ^ 53 = K * 10 / 2 ^ 53 * (2 * T) + K * (T * 79 / 2 ^ 53) := by ring
      linarith
    have := abs_add_le ((P : ℝ) - (k' * D : ℚ)) ((k' * D : ℚ) - K * (B - A))
    rw [sub_add_sub_cancel] at this
    have e : K * T * 107 / 2 ^ 53 = 2 * (4 * (K * T) / 2 ^ 53) + K * T * 99 / 2 ^ 53 := by ring
    linarith
  have hPb : |(P : ℝ)| ≤ 2 * (K * T) := by
    have := abs_of_near eP'
    rw [abs_mul, abs_of_pos Kp] at this
    have e : K * T * 107 / 2 ^ 53 ≤ K * T := by rw [div_le_iff₀ (by positivity)]; nlinarith
    have e2 : K * |B - A| ≤ K * T := mul_le_mul_of_nonneg_left hBA Kp.le
    linarith
  -- the quotient
  have hdb : |g| / 2 ≤ |(d : ℝ)| := by
    have := abs_sub_abs_le_abs_sub g (d : ℝ)
    rw [abs_sub_comm] at this
    have e : |g| / 2 ^ 53 ≤ |g| / 2 := div_le_div_of_nonneg_left gp.le (by norm_num) (by norm_num)
    linarith
  have hdp : 0 < |(d : ℝ)| := by linarith
  have hd0 : (d : ℝ) ≠ 0 := abs_pos.1 hdp
  have hdq : d ≠ 0 := by exact_mod_cast hd0
  have inv_le : 1 / |(d : ℝ)| ≤ 2 / |g| := by rw [div_le_div_iff₀ hdp gp]; linarith
  obtain ⟨S, hS⟩ : ∃ S, S = K * T / |g| := ⟨_, rfl⟩
  have Sp : 0 < S := by rw [hS]; positivity
  have hQ2 : |((P / d : ℚ) : ℝ)| ≤ 4 * S := by
    push_cast
    rw [abs_div, div_eq_mul_one_div]
    calc |(P : ℝ)| * (1 / |(d : ℝ)|) ≤ 2 * (K * T) * (2 / |g|) := mul_le_mul hPb inv_le (by positivity) (by positivity)
      _ = 4 * S := by rw [hS]; ring
  have S0 : K * T ≤ S := by rw [hS, le_div_iff₀ gp]; exact mul_le_of_le_one_right hKT.le g1
  have S1 : S ≤ 2 ^ 321 := by
    rw [hS, div_le_iff₀ gp]
    have : (2 : ℝ) ^ 321 * (1 / 2 ^ 60) ≤ 2 ^ 321 * |g| := mul_le_mul_of_nonneg_left g0 (by positivity)
    have e : (2 : ℝ) ^ 321 * (1 / 2 ^ 60) = 2 ^ 261 := by
      rw [show 321 = 261 + 60 by norm_num, pow_add]; field_simp
    exact KT1.trans (e.symm.le.trans this)
  obtain ⟨r, hr, er⟩ := round_real (div_rounded hP hw hdq) hQ2 (by
      have : (1 : ℝ) / 2 ^ 400 ≤ 1 / 2 ^ 260 := one_div_le_one_div_of_le (by positivity) (pow_le_pow_right₀ (by norm_num) (by norm_num))
      linarith) (by
      refine (mul_le_mul_of_nonneg_left S1 (by norm_num)).trans ?_
      rw [show (4 : ℝ) = 2 ^ 2 by norm_num, ← pow_add]
      exact pow_le_pow_right₀ (by norm_num) (by norm_num))
  refine ⟨r, hr, ?_⟩
  have h1 : |((P / d : ℚ) : ℝ) - K * ((B - A) / g)| ≤ S * 216 / 2 ^ 53 := by
    push_cast
    have e0 : (P : ℝ) / d - K * ((B - A) / g) = (P - K * (B - A)) * (1 / d) + K * (B - A) * ((g - d) / g * (1 / d)) := by
      field_simp; ring
    rw [e0]
    refine (abs_add_le _ _).trans ?_
    rw [abs_mul, abs_mul, abs_mul, abs_mul, abs_div, abs_div, abs_one, abs_of_pos Kp]
    have e1 : |(P : ℝ) - K * (B - A)| * (1 / |(d : ℝ)|) ≤ K * T * 107 / 2 ^ 53 * (2 / |g|) := mul_le_mul eP' inv_le (by positivity) (by positivity)
    have e2 : |g - (d : ℝ)| / |g| * (1 / |(d : ℝ)|) ≤ 1 / 2 ^ 53 * (2 / |g|) := by
      refine mul_le_mul ?_ inv_le (by positivity) (by positivity)
      rw [div_le_iff₀ gp, abs_sub_comm]
      linarith [show |g| / 2 ^ 53 = 1 / 2 ^ 53 * |g| by ring]
    have e3 : K * |B - A| * (|g - (d : ℝ)| / |g| * (1 / |(d : ℝ)|)) ≤ K * T * (1 / 2 ^ 53 * (2 / |g|)) :=
      mul_le_mul (mul_le_mul_of_nonneg_left hBA Kp.le) e2 (by positivity) (by positivity)
    have e4 : S * 216 / 2 ^ 53 = K * T * 107 / 2 ^ 53 * (2 / |g|) + K * T * (1 / 2 ^ 53 * (2 / |g|)) := by rw [hS]; ring
    linarith
  have := abs_add_le ((r : ℝ) - (P / d : ℚ)) ((P / d : ℚ) - K * ((B - A) / g))
  rw [sub_add_sub_cancel] at this
  rw [← hT, ← hS]
  have e : S / 2 ^ 45 = S * 256 / 2 ^ 53 := by ring
  have e2 : 2 * (4 * S / 2 ^ 53) + S * 216 / 2 ^ 53 ≤ S * 256 / 2 ^ 53 := by
    have : 2 * (4 * S / 2 ^ 53) + S * 216 / 2 ^ 53 = S * 224 / 2 ^ 53 := by ring
    rw [this]
    apply div_le_div_of_nonneg_right _ (by positivity)
    linarith
  linarith

theorem log_35 {v : ℚ} (hs : Sized 50 v) : |Real.log v| ≤ 35 := by
  obtain ⟨v0, v1⟩ := hs.real
  have vpos : (0 : ℝ) < v := lt_of_lt_of_le (by positivity) v0
  have hl2 : Real.log 2 ≤ 0.7 := by linarith [Real.log_two_lt_d9]
  rw [_root_.abs_le]
  constructor
  · have := Real.log_le_log (by positivity) v0
    rw [one_div, Real.log_inv, Real.log_pow] at this
    push_cast at this
    linarith
  · have := Real.log_le_log vpos v1
    rw [Real.log_pow] at this
    push_cast at this
    linarith

theorem exp_range {y : ℝ} (n : ℕ) (h : |y| ≤ 2 * n) : 1 / 2 ^ (3 * n) ≤ Real.exp y ∧ Real.exp y ≤ 2 ^ (3 * n) := by
  have e2 : Real.exp 2 ≤ 8 := by
    have h3 : Real.exp 1 ≤ 2.7182818286 := Real.exp_one_lt_d9.le
    have : Real.exp 2 = Real.exp 1 * Real.exp 1 := by rw [← Real.exp_add]; norm_num
    rw [this]
    have := mul_le_mul h3 h3 (Real.exp_pos 1).le (by norm_num)
    norm_num at this ⊢
    linarith
  have key : ∀ z : ℝ, z ≤ 2 * n → Real.exp z ≤ 2 ^ (3 * n) := by
    intro z hz
    calc Real.exp z ≤ Real.exp (n * 2) := Real.exp_le_exp.2 (by linarith)
      _ = Real.exp 2 ^ n := Real.exp_nat_mul _ _
      _ ≤ 8 ^ n := pow_le_pow_left₀ (Real.exp_pos _).le e2 n
      _ = 2 ^ (3 * n) := by rw [pow_mul]; norm_num
  have h1 := _root_.abs_le.1 h
  refine ⟨?_, key y h1.2⟩
  rw [one_div, inv_le_comm₀ (by positivity) (Real.exp_pos _), ← Real.exp_neg]
  exact key (-y) (by linarith)

/-- A power with a rounded exponent. -/
theorem pow_near {m : LibM} (ha : m.Accurate) {x e : F64} {v d : ℚ} {g : ℝ} (hx : x.Is v) (rx : x.Rep) (sx : Sized 50 v)
    (he : e.Is d) (re : e.Rep) (g1 : |g| ≤ 1) (hd : |(d : ℝ) - g| ≤ |g| / 2 ^ 53) : ∃ r : ℚ, (m.powf x e).Is r ∧
      |(r : ℝ) - (v : ℝ) ^ g| ≤ (v : ℝ) ^ g * 75 / 2 ^ 53 ∧ 1 / 2 ^ 60 ≤ (v : ℝ) ^ g ∧ (v : ℝ) ^ g ≤ 2 ^ 60 := by
  have vp : (0 : ℝ) < v := by exact_mod_cast sx.pos
  have hl := log_35 sx
  set y := Real.log v with hy
  have eq : ∀ t : ℝ, (v : ℝ) ^ t = Real.exp (y * t) := fun t => Real.rpow_def_of_pos vp t
  have hdg : |(d : ℝ) - g| ≤ 1 / 2 ^ 53 := hd.trans (div_le_div_of_nonneg_right g1 (by positivity))
  have hyg : |y * g| ≤ 35 := by
    rw [abs_mul]
    calc |y| * |g| ≤ 35 * 1 := mul_le_mul hl g1 (abs_nonneg _) (by norm_num)
      _ = 35 := by norm_num
  have hyd : |y * (d - g)| ≤ 35 / 2 ^ 53 := by
    rw [abs_mul]
    calc |y| * |(d : ℝ) - g| ≤ 35 * (1 / 2 ^ 53) := mul_le_mul hl hdg (abs_nonneg _) (by norm_num)
      _ = 35 / 2 ^ 53 := by ring
  have hyd' : |y * d| ≤ 36 := by
    have := abs_add_le (y * g) (y * (d - g))
    rw [show y * g + y * (d - g) = y * d by ring] at this
    have e : (35 : ℝ) / 2 ^ 53 ≤ 1 := by norm_num
    linarith
  obtain ⟨b0, b1⟩ := exp_range 18 (y := y * g) (hyg.trans (by norm_num))
  obtain ⟨c0, c1⟩ := exp_range 18 (y := y * d) (hyd'.trans (by norm_num))
  rw [← eq] at b0 b1 c0 c1
  obtain ⟨_, r, hr, er⟩ := ha.powf rx re hx he sx (le_trans (by norm_num) c0) (c1.trans (by norm_num))
  refine ⟨r, hr, ?_, le_trans (by norm_num) b0, b1.trans (by norm_num)⟩
  have hG : 0 < (v : ℝ) ^ g := Real.rpow_pos_of_pos vp g
  have split : (v : ℝ) ^ (d : ℝ) = (v : ℝ) ^ g * Real.exp (y * (d - g)) := by
    rw [eq, eq, ← Real.exp_add]; congr 1; ring
  have hexp := Real.abs_exp_sub_one_le (hyd.trans (by norm_num))
  have hexp' : |Real.exp (y * (d - g)) - 1| ≤ 70 / 2 ^ 53 := by
    have : (70 : ℝ) / 2 ^ 53 = 2 * (35 / 2 ^ 53) := by ring
    linarith
  set E := Real.exp (y * (d - g))
  set G := (v : ℝ) ^ g
  rw [split] at er
  have hE : E ≤ 1 + 1 / 16 := by
    have := (_root_.abs_le.1 hexp').2
    have e : (70 : ℝ) / 2 ^ 53 ≤ 1 / 16 := by norm_num
    linarith
  have h1 : |G * E - G| ≤ G * (70 / 2 ^ 53) := by
    rw [show G * E - G = G * (E - 1) by ring, abs_mul, abs_of_pos hG]
    exact mul_le_mul_of_nonneg_left hexp' hG.le
  have h2 : G * E / 2 ^ 51 ≤ G * (1 + 1 / 16) / 2 ^ 51 := by gcongr
  have h3 := abs_add_le ((r : ℝ) - G * E) (G * E - G)
  rw [sub_add_sub_cancel] at h3
  have h4 : G * (1 + 1 / 16) / 2 ^ 51 + G * (70 / 2 ^ 53) ≤ G * 75 / 2 ^ 53 := by
    have : G * (1 + 1 / 16) / 2 ^ 51 + G * (70 / 2 ^ 53) = G * 74.25 / 2 ^ 53 := by ring
    rw [this]
    apply div_le_div_of_nonneg_right _ (by positivity)
    linarith
  linarith

/-- One minus the exponent, rounded. -/
theorem omc_near {c : F64} {γ : ℚ} (hc : c.Is γ) (rc : c.Rep) (h0 : 0 ≤ γ) (h2 : γ ≤ 2) (h1 : γ ≠ 1) :
    ∃ d : ℚ, (sub F64.one c).Is d ∧ (sub F64.one c).Rep ∧ |(d : ℝ) - (1 - γ)| ≤ |(1 : ℝ) - γ| / 2 ^ 53 ∧
      1 / 2 ^ 60 ≤ |(1 : ℝ) - γ| ∧ |(1 : ℝ) - γ| ≤ 1 := by
  have up : |1 - γ| ≤ 1 := by rw [_root_.abs_le]; constructor <;> linarith
  have lo : 1 / 2 ^ 54 ≤ |1 - γ| := by
    rcases le_or_gt (1 / 2) γ with h | h
    · obtain ⟨z, hz⟩ := hc.grid rc (e := 1) (by rw [abs_of_nonneg h0]; norm_num; linarith) (by norm_num)
      have hne : (2 : ℤ) ^ (1 + 53) - z ≠ 0 := by
        intro hcon
        apply h1
        have : z = 2 ^ (1 + 53) := by omega
        rw [hz, this]; norm_num
      have h3 : (1 : ℤ) ≤ |(2 : ℤ) ^ (1 + 53) - z| := Int.one_le_abs hne
      have h4 : 1 - γ = (((2 : ℤ) ^ (1 + 53) - z : ℤ) : ℚ) / 2 ^ (1 + 53) := by rw [hz]; push_cast; norm_num; ring
      rw [h4, abs_div, abs_of_pos (show (0 : ℚ) < 2 ^ (1 + 53) by positivity)]
      apply div_le_div_of_nonneg_right _ (by positivity)
      exact_mod_cast h3
    · rw [abs_of_pos (by linarith)]; norm_num; linarith
  have ht : Tame 54 |1 - γ| := Or.inr ⟨lo, up.trans (by norm_num)⟩
  obtain ⟨d, hd, hrel⟩ := (sub_rounded one_is hc).rel_tame ht (by norm_num)
  refine ⟨d, hd, add_rep _ _, ?_, ?_, ?_⟩
  · unfold F64.Rel at hrel
    have := (Rat.cast_le (K := ℝ)).mpr hrel
    push_cast at this
    simpa using this
  · have := (Rat.cast_le (K := ℝ)).mpr lo
    push_cast at this
    refine le_trans ?_ this
    norm_num
  · have := (Rat.cast_le (K := ℝ)).mpr up
    push_cast at this
    exact this

/-- The power of the oracle price. -/
theorem oracle_pow {m : LibM} (ha : m.Accurate) {o c : F64} {O γ : ℚ} (ho : o.Is O) (ro : o.Rep) (so : Sized 50 O)
    (hc : c.Is γ) (rc : c.Rep) (h0 : 0 ≤ γ) (h2 : γ ≤ 2) : ∃ r : ℚ, (m.powf o c).Is r ∧
      |(r : ℝ) - (O : ℝ) ^ (γ : ℝ)| ≤ (O : ℝ) ^ (γ : ℝ) / 2 ^ 51 ∧ 1 / 2 ^ 105 ≤ (O : ℝ) ^ (γ : ℝ) ∧ (O : ℝ) ^ (γ : ℝ) ≤ 2 ^ 105 := by
  have vp : (0 : ℝ) < O := by exact_mod_cast so.pos
  have hγ : |(γ : ℝ)| ≤ 2 := by
    rw [abs_of_nonneg (by exact_mod_cast h0)]; exact_mod_cast h2
  have hb : |Real.log O * γ| ≤ 70 := by
    rw [abs_mul]
    calc |Real.log O| * |(γ : ℝ)| ≤ 35 * 2 := mul_le_mul (log_35 so) hγ (abs_nonneg _) (by norm_num)
      _ = 70 := by norm_num
  obtain ⟨c0, c1⟩ := exp_range 35 (y := Real.log O * γ) (hb.trans (by norm_num))
  rw [← Real.rpow_def_of_pos vp] at c0 c1
  obtain ⟨_, r, hr, er⟩ := ha.powf ro rc ho hc so (le_trans (by norm_num) c0) (c1.trans (by norm_num))
  exact ⟨r, hr, er, c0, c1⟩

/-- Y for a price move under an oracle price, with `c` other than 1. -/
theorem dyHmm_near {m : LibM} (ha : m.Accurate) {l old new c o : F64} {L a b γ O : ℚ} (hl : l.Is L) (hA : old.Is a) (hB : new.Is b)
    (hc : c.Is γ) (ho : o.Is O) (ra : old.Rep) (rb : new.Rep) (rc : c.Rep) (ro : o.Rep) (sl : Sized 90 L) (sa : Sized 50 a)
    (sb : Sized 50 b) (so : Sized 50 O) (h0 : 0 ≤ γ) (h2 : γ ≤ 2) (h1 : γ ≠ 1) :
    ∃ r : ℚ, (dyFromLDrpHmm m l old new c o).Is r ∧
      |(r : ℝ) - L * (O : ℝ) ^ (γ : ℝ) * (((b : ℝ) ^ (1 - γ : ℝ) - (a : ℝ) ^ (1 - γ : ℝ)) / (1 - γ))| ≤
        L * (O : ℝ) ^ (γ : ℝ) * ((a : ℝ) ^ (1 - γ : ℝ) + (b : ℝ) ^ (1 - γ : ℝ)) / |(1 : ℝ) - γ| / 2 ^ 45 := by
  obtain ⟨d, hd, rd, ed, g0, g1⟩ := omc_near hc rc h0 h2 h1
  obtain ⟨P, hP, eP, P0, P1⟩ := oracle_pow ha ho ro so hc rc h0 h2
  obtain ⟨u, hu, eu, u0, u1⟩ := pow_near ha hA ra sa hd rd g1 ed
  obtain ⟨v, hv, ev, v0, v1⟩ := pow_near ha hB rb sb hd rd g1 ed
  have hne : F64.eq c F64.one = false := by
    cases h : F64.eq c F64.one with
    | false => rfl
    | true => exact absurd ((eq_is hc one_is).1 h) h1
  unfold dyFromLDrpHmm
  rw [hne]
  simp only [Bool.false_eq_true, if_false]
  obtain ⟨l0, l1⟩ := sl.real
  have Lp : (0 : ℝ) < L := lt_of_lt_of_le (by positivity) l0
  set Q := (O : ℝ) ^ (γ : ℝ)
  have Qp : 0 < Q := lt_of_lt_of_le (by positivity) P0
  have K0 : 1 / 2 ^ 200 ≤ (L : ℝ) * Q := by
    have := mul_le_mul l0 P0 (by positivity) Lp.le
    exact le_trans (by norm_num) this
  have K1 : (L : ℝ) * Q ≤ 2 ^ 200 := by
    have := mul_le_mul l1 P1 Qp.le (by positivity)
    exact this.trans (by norm_num)
  have LQ : 0 < (L : ℝ) * Q := mul_pos Lp Qp
  have eLP : |((L * P : ℚ) : ℝ) - L * Q| ≤ L * Q * 4 / 2 ^ 53 := by
    push_cast
    rw [← mul_sub, abs_mul, abs_of_pos Lp]
    have := mul_le_mul_of_nonneg_left eP Lp.le
    have e : (L : ℝ) * Q * 4 / 2 ^ 53 = L * (Q / 2 ^ 51) := by ring
    linarith
  have bLP : |((L * P : ℚ) : ℝ)| ≤ 2 * (L * Q) := by
    have := abs_of_near eLP
    rw [abs_of_pos LQ] at this
    have e : (L : ℝ) * Q * 4 / 2 ^ 53 ≤ L * Q := by rw [div_le_iff₀ (by positivity)]; nlinarith
    linarith
  obtain ⟨k, hk, ek⟩ := round_real (mul_rounded hl hP) bLP (by
      have : (1 : ℝ) / 2 ^ 400 ≤ 1 / 2 ^ 200 := one_div_le_one_div_of_le (by positivity) (pow_le_pow_right₀ (by norm_num) (by norm_num))
      linarith) (by
      have e : 2 * ((L : ℝ) * Q) ≤ 2 ^ 201 := by norm_num at K1 ⊢; linarith
      exact e.trans (pow_le_pow_right₀ (by norm_num) (by norm_num)))
  refine hmm_core hk hu hv hd K0 K1 u0 u1 v0 v1 g0 g1 ?_ eu ev ed
  have := abs_add_le ((k : ℝ) - (L * P : ℚ)) ((L * P : ℚ) - L * Q)
  rw [sub_add_sub_cancel] at this
  have e : 2 * (2 * ((L : ℝ) * Q) / 2 ^ 53) + L * Q * 4 / 2 ^ 53 ≤ L * Q * 10 / 2 ^ 53 := by
    have : 2 * (2 * ((L : ℝ) * Q) / 2 ^ 53) + L * Q * 4 / 2 ^ 53 = L * Q * 8 / 2 ^ 53 := by ring
    rw [this]
    apply div_le_div_of_nonneg_right _ (by positivity)
    linarith
  linarith

/-- X for a price move under an oracle price, with `c` other than 1. -/
theorem dxHmm_near {m : LibM} (ha : m.Accurate) {l old new c o : F64} {L a b γ O : ℚ} (hl : l.Is L) (hA : old.Is a) (hB : new.Is b)
    (hc : c.Is γ) (ho : o.Is O) (ra : old.Rep) (rb : new.Rep) (rc : c.Rep) (ro : o.Rep) (sl : Sized 90 L) (sa : Sized 50 a)
    (sb : Sized 50 b) (so : Sized 50 O) (h0 : 0 ≤ γ) (h2 : γ ≤ 2) (h1 : γ ≠ 1) :
    ∃ r : ℚ, (dxFromLDrpHmm m l old new c o).Is r ∧
      |(r : ℝ) - L / (O : ℝ) ^ (γ : ℝ) * (((b : ℝ) ^ (γ - 1 : ℝ) - (a : ℝ) ^ (γ - 1 : ℝ)) / (1 - γ))| ≤
        L / (O : ℝ) ^ (γ : ℝ) * ((a : ℝ) ^ (γ - 1 : ℝ) + (b : ℝ) ^ (γ - 1 : ℝ)) / |(1 : ℝ) - γ| / 2 ^ 45 := by
  obtain ⟨d, hd, rd, ed, g0, g1⟩ := omc_near hc rc h0 h2 h1
  obtain ⟨P, hP, eP, P0, P1⟩ := oracle_pow ha ho ro so hc rc h0 h2
  have hn := neg_is hd
  have rn : (sub F64.one c).neg.Rep := neg_rep rd
  have en : |((-d : ℚ) : ℝ) - (γ - 1)| ≤ |(γ : ℝ) - 1| / 2 ^ 53 := by
    rw [abs_sub_comm (γ : ℝ) 1]
    push_cast
    rw [show -(d : ℝ) - (γ - 1) = -(d - (1 - γ)) by ring, abs_neg]
    exact ed
  have gn : |(γ : ℝ) - 1| ≤ 1 := by rw [abs_sub_comm]; exact g1
  obtain ⟨u, hu, eu, u0, u1⟩ := pow_near ha hA ra sa hn rn gn en
  obtain ⟨v, hv, ev, v0, v1⟩ := pow_near ha hB rb sb hn rn gn en
  have hne : F64.eq c F64.one = false := by
    cases h : F64.eq c F64.one with
    | false => rfl
    | true => exact absurd ((eq_is hc one_is).1 h) h1
  unfold dxFromLDrpHmm
  rw [hne]
  simp only [Bool.false_eq_true, if_false]
  obtain ⟨l0, l1⟩ := sl.real
  have Lp : (0 : ℝ) < L := lt_of_lt_of_le (by positivity) l0
  set Q := (O : ℝ) ^ (γ : ℝ)
  have Qp : 0 < Q := lt_of_lt_of_le (by positivity) P0
  have K0 : 1 / 2 ^ 200 ≤ (L : ℝ) / Q := by
    rw [le_div_iff₀ Qp]
    have : 1 / 2 ^ 200 * Q ≤ 1 / 2 ^ 200 * 2 ^ 105 := mul_le_mul_of_nonneg_left P1 (by positivity)
    refine this.trans (le_trans ?_ l0)
    norm_num
  have K1 : (L : ℝ) / Q ≤ 2 ^ 200 := by
    rw [div_le_iff₀ Qp]
    have : (2 : ℝ) ^ 200 * (1 / 2 ^ 105) ≤ 2 ^ 200 * Q := mul_le_mul_of_nonneg_left P0 (by positivity)
    refine l1.trans (le_trans ?_ this)
    norm_num
  have LQ : 0 < (L : ℝ) / Q := div_pos Lp Qp
  have Pb : Q / 2 ≤ (P : ℝ) := by
    have := (_root_.abs_le.1 eP).1
    have e : Q / 2 ^ 51 ≤ Q / 2 := div_le_div_of_nonneg_left Qp.le (by norm_num) (by norm_num)
    linarith
  have Pp : (0 : ℝ) < P := by linarith
  have Pq : P ≠ 0 := by
    have : (0 : ℚ) < P := by exact_mod_cast Pp
    exact this.ne'
  have eLP : |((L / P : ℚ) : ℝ) - L / Q| ≤ L / Q * 5 / 2 ^ 53 := by
    push_cast
    have e : (L : ℝ) / P - L / Q = L / Q * ((Q - P) / P) := by field_simp
    rw [e, abs_mul, abs_of_pos LQ, abs_div, abs_of_pos Pp, mul_div_assoc]
    refine mul_le_mul_of_nonneg_left ?_ LQ.le
    rw [div_le_iff₀ Pp, abs_sub_comm]
    have h3 := (_root_.abs_le.1 eP).1
    have h4 : Q * (1 - 1 / 2 ^ 51) ≤ P := by linarith [show Q * (1 - 1 / 2 ^ 51) = Q - Q / 2 ^ 51 by ring]
    have h5 : 5 / 2 ^ 53 * (Q * (1 - 1 / 2 ^ 51)) ≤ 5 / 2 ^ 53 * (P : ℝ) := mul_le_mul_of_nonneg_left h4 (by positivity)
    have h6 : Q / 2 ^ 51 ≤ 5 / 2 ^ 53 * (Q * (1 - 1 / 2 ^ 51)) := by
      rw [show Q / 2 ^ 51 = Q * (1 / 2 ^ 51) by ring,
        show 5 / 2 ^ 53 * (Q * (1 - 1 / 2 ^ 51)) = Q * (5 / 2 ^ 53 * (1 - 1 / 2 ^ 51)) by ring]
      refine mul_le_mul_of_nonneg_left ?_ Qp.le
      norm_num
    linarith
  have bLP : |((L / P : ℚ) : ℝ)| ≤ 2 * (L / Q) := by
    have := abs_of_near eLP
    rw [abs_of_pos LQ] at this
    have e : (L : ℝ) / Q * 5 / 2 ^ 53 ≤ L / Q := by
      rw [div_le_iff₀ (by positivity)]
      have : (L : ℝ) / Q * 5 ≤ L / Q * 2 ^ 53 := mul_le_mul_of_nonneg_left (by norm_num) LQ.le
      exact this
    linarith
  obtain ⟨k, hk, ek⟩ := round_real (div_rounded hl hP Pq) bLP (by
      have : (1 : ℝ) / 2 ^ 400 ≤ 1 / 2 ^ 200 := one_div_le_one_div_of_le (by positivity) (pow_le_pow_right₀ (by norm_num) (by norm_num))
      linarith) (by
      have e : 2 * ((L : ℝ) / Q) ≤ 2 ^ 201 := by norm_num at K1 ⊢; linarith
      exact e.trans (pow_le_pow_right₀ (by norm_num) (by norm_num)))
  refine hmm_core hk hu hv hd K0 K1 u0 u1 v0 v1 g0 g1 ?_ eu ev ed
  have := abs_add_le ((k : ℝ) - (L / P : ℚ)) ((L / P : ℚ) - L / Q)
  rw [sub_add_sub_cancel] at this
  have e : 2 * (2 * ((L : ℝ) / Q) / 2 ^ 53) + L / Q * 5 / 2 ^ 53 ≤ L / Q * 10 / 2 ^ 53 := by
    have : 2 * (2 * ((L : ℝ) / Q) / 2 ^ 53) + L / Q * 5 / 2 ^ 53 = L / Q * 9 / 2 ^ 53 := by ring
    rw [this]
    apply div_le_div_of_nonneg_right _ (by positivity)
    linarith
  linarith

end

end Hmm.Flt
