import Verif.Proofs.FloatOracle

/-
One price move of the floating-point pool under an oracle price.
-/

namespace Hmm.Flt

open F64

section
attribute [local irreducible] unit limit

theorem scale_real {L a : ℚ} (sl : Sized 90 L) (sa : Sized 50 a) : (1 : ℝ) / 2 ^ 140 ≤ (L : ℝ) * a ∧ (L : ℝ) * a ≤ 2 ^ 140 :=
  (sl.mul sa).real.imp (fun h => by push_cast at h; exact h) (fun h => by push_cast at h; exact h)

theorem scale_real' {L a : ℚ} (sl : Sized 90 L) (sa : Sized 50 a) :
    (1 : ℝ) / 2 ^ 140 ≤ (L : ℝ) * (1 / a) ∧ (L : ℝ) * (1 / a) ≤ 2 ^ 140 :=
  (sl.mul sa.inv).real.imp (fun h => by push_cast at h; exact h) (fun h => by push_cast at h; exact h)

/-- `O^g a^(1-g)` lies between `O` and `a`. -/
theorem pow_mid {O a g : ℝ} (ho : 0 < O) (hoa : O ≤ a) (h0 : 0 ≤ g) : O ^ g * a ^ (1 - g) ≤ a := by
  have ha : 0 < a := lt_of_lt_of_le ho hoa
  have h1 : O ^ g ≤ a ^ g := Real.rpow_le_rpow ho.le hoa h0
  calc O ^ g * a ^ (1 - g) ≤ a ^ g * a ^ (1 - g) := mul_le_mul_of_nonneg_right h1 (Real.rpow_nonneg ha.le _)
    _ = a := by rw [← Real.rpow_add ha]; norm_num

theorem pow_mid' {O a g : ℝ} (ha : 0 < a) (hoa : a ≤ O) (h0 : 0 ≤ g) : a ^ (g - 1) / O ^ g ≤ 1 / a := by
  have ho : 0 < O := lt_of_lt_of_le ha hoa
  have h1 : a ^ g ≤ O ^ g := Real.rpow_le_rpow ha.le hoa h0
  rw [div_le_div_iff₀ (Real.rpow_pos_of_pos ho _) ha, one_mul]
  calc a ^ (g - 1) * a = a ^ g := by
        conv_lhs => rw [← Real.rpow_one a]
        rw [← Real.rpow_mul ha.le, one_mul, ← Real.rpow_add ha]; norm_num
    _ ≤ O ^ g := h1

/-- The formula used above the oracle's price. -/
theorem dyHmm_oracle {m : LibM} (ha : m.Accurate) {l old new c o : F64} {L a b γ O : ℚ} (hl : l.Is L) (hA : old.Is a) (hB : new.Is b)
    (hc : c.Is γ) (ho : o.Is O) (ra : old.Rep) (rb : new.Rep) (rc : c.Rep) (ro : o.Rep) (sl : Sized 90 L) (sa : Sized 50 a)
    (sb : Sized 50 b) (so : Sized 50 O) (h0 : 0 ≤ γ) (h2 : γ ≤ 2) (h1 : γ ≠ 1) (hOb : O ≤ b) (hba : b ≤ a) :
    ∃ r : ℚ, (dyFromLDrpHmm m l old new c o).Is r ∧
      |-(r : ℝ) - oracleY L a b O γ| ≤ L * a / |(1 : ℝ) - γ| / 2 ^ 44 := by
  obtain ⟨r, hr, e⟩ := dyHmm_near ha hl hA hB hc ho ra rb rc ro sl sa sb so h0 h2 h1
  refine ⟨r, hr, ?_⟩
  have Op : (0 : ℝ) < O := by exact_mod_cast so.pos
  have Lp : (0 : ℝ) < L := by exact_mod_cast sl.pos
  have hOb' : (O : ℝ) ≤ b := by exact_mod_cast hOb
  have hba' : (b : ℝ) ≤ a := by exact_mod_cast hba
  have g0 : (0 : ℝ) ≤ γ := by exact_mod_cast h0
  have g1 : (γ : ℝ) ≠ 1 := by exact_mod_cast h1
  have gp : 0 < |(1 : ℝ) - γ| := abs_pos.2 (sub_ne_zero.2 g1.symm)
  rw [oracleY_above Op hOb' hba' g1]
  have e1 : -(r : ℝ) - L * ((O : ℝ) ^ (γ : ℝ) * (((a : ℝ) ^ (1 - γ : ℝ) - (b : ℝ) ^ (1 - γ : ℝ)) / (1 - γ))) =
      -((r : ℝ) - L * (O : ℝ) ^ (γ : ℝ) * (((b : ℝ) ^ (1 - γ : ℝ) - (a : ℝ) ^ (1 - γ : ℝ)) / (1 - γ))) := by ring
  rw [e1, abs_neg]
  refine e.trans ?_
  have m1 := pow_mid Op (hOb'.trans hba') g0
  have m2 := (pow_mid Op hOb' g0).trans hba'
  have h3 : L * (O : ℝ) ^ (γ : ℝ) * ((a : ℝ) ^ (1 - γ : ℝ) + (b : ℝ) ^ (1 - γ : ℝ)) ≤ L * (2 * a) := by
    rw [mul_assoc, mul_add]
    exact mul_le_mul_of_nonneg_left (by linarith) Lp.le
  have h4 : L * (2 * (a : ℝ)) / |(1 : ℝ) - γ| / 2 ^ 45 = L * a / |(1 : ℝ) - γ| / 2 ^ 44 := by ring
  rw [← h4]
  gcongr

theorem dxHmm_oracle {m : LibM} (ha : m.Accurate) {l old new c o : F64} {L a b γ O : ℚ} (hl : l.Is L) (hA : old.Is a) (hB : new.Is b)
    (hc : c.Is γ) (ho : o.Is O) (ra : old.Rep) (rb : new.Rep) (rc : c.Rep) (ro : o.Rep) (sl : Sized 90 L) (sa : Sized 50 a)
    (sb : Sized 50 b) (so : Sized 50 O) (h0 : 0 ≤ γ) (h2 : γ ≤ 2) (h1 : γ ≠ 1) (hbO : b ≤ O) (hab : a ≤ b) :
    ∃ r : ℚ, (dxFromLDrpHmm m l old new c o).Is r ∧
      |-(r : ℝ) - oracleX L a b O γ| ≤ L * (1 / a) / |(1 : ℝ) - γ| / 2 ^ 44 := by
  obtain ⟨r, hr, e⟩ := dxHmm_near ha hl hA hB hc ho ra rb rc ro sl sa sb so h0 h2 h1
  refine ⟨r, hr, ?_⟩
  have ap : (0 : ℝ) < a := by exact_mod_cast sa.pos
  have Lp : (0 : ℝ) < L := by exact_mod_cast sl.pos
  have hbO' : (b : ℝ) ≤ O := by exact_mod_cast hbO
  have hab' : (a : ℝ) ≤ b := by exact_mod_cast hab
  have bp : (0 : ℝ) < b := lt_of_lt_of_le ap hab'
  have Op : (0 : ℝ) < O := lt_of_lt_of_le bp hbO'
  have g0 : (0 : ℝ) ≤ γ := by exact_mod_cast h0
  have g1 : (γ : ℝ) ≠ 1 := by exact_mod_cast h1
  have gp : 0 < |(1 : ℝ) - γ| := abs_pos.2 (sub_ne_zero.2 g1.symm)
  have gne : (1 : ℝ) - γ ≠ 0 := sub_ne_zero.2 g1.symm
  have gne' : (γ : ℝ) - 1 ≠ 0 := sub_ne_zero.2 g1
  have Qne : (O : ℝ) ^ (γ : ℝ) ≠ 0 := (Real.rpow_pos_of_pos Op _).ne'
  rw [oracleX_below ap hab' hbO' g1]
  have e1 : -(r : ℝ) - L * (((b : ℝ) ^ (γ - 1 : ℝ) - (a : ℝ) ^ (γ - 1 : ℝ)) / (γ - 1) / (O : ℝ) ^ (γ : ℝ)) =
      -((r : ℝ) - L / (O : ℝ) ^ (γ : ℝ) * (((b : ℝ) ^ (γ - 1 : ℝ) - (a : ℝ) ^ (γ - 1 : ℝ)) / (1 - γ))) := by
    have : (((b : ℝ) ^ (γ - 1 : ℝ) - (a : ℝ) ^ (γ - 1 : ℝ)) / (γ - 1)) = -(((b : ℝ) ^ (γ - 1 : ℝ) - (a : ℝ) ^ (γ - 1 : ℝ)) / (1 - γ)) := by
      rw [← neg_sub (1 : ℝ) γ, div_neg]
    rw [this]
    field_simp
    ring
  rw [e1, abs_neg]
  refine e.trans ?_
  have m1 := pow_mid' ap (hab'.trans hbO') g0
  have m2 := (pow_mid' bp hbO' g0).trans (one_div_le_one_div_of_le ap hab')
  have h3 : L / (O : ℝ) ^ (γ : ℝ) * ((a : ℝ) ^ (γ - 1 : ℝ) + (b : ℝ) ^ (γ - 1 : ℝ)) ≤ L * (2 * (1 / a)) := by
    rw [div_mul_eq_mul_div, mul_div_assoc, add_div]
    exact mul_le_mul_of_nonneg_left (by linarith) Lp.le
  have h4 : L * (2 * (1 / (a : ℝ))) / |(1 : ℝ) - γ| / 2 ^ 45 = L * (1 / a) / |(1 : ℝ) - γ| / 2 ^ 44 := by ring
  rw [← h4]
  gcongr

/-- The constant-product amount of Y. -/
theorem dyPlain {l old new : F64} {L a b : ℚ} (hl : l.Is L) (ha : old.Is a) (hb : new.Is b) (sl : Sized 90 L)
    (sa : Sized 50 a) (sb : Sized 50 b) (ra : old.Rep) (rb : new.Rep) (hba : b ≤ a) :
    ∃ r : ℚ, (dyFromLDrp l old new).Is r ∧ |-(r : ℝ) - L * (a - b)| ≤ L * a * 3 / 2 ^ 53 := by
  obtain ⟨r, hr, rel, _⟩ := dyFromLDrp_rel hl ha hb (sl.mono (by norm_num)) (sa.mono (by norm_num)) (sb.mono (by norm_num)) ra rb
  refine ⟨r, hr, ?_⟩
  unfold F64.Rel at rel
  have h1 : |L * (b - a)| ≤ L * a := by
    rw [abs_mul, abs_of_pos sl.pos, abs_sub_comm, abs_of_nonneg (by linarith)]
    exact mul_le_mul_of_nonneg_left (by linarith [sb.pos]) sl.pos.le
  have h2 : |r - L * (b - a)| ≤ L * a * 3 / 2 ^ 53 := by
    refine rel.trans ?_
    push_cast
    gcongr
  have h3 := (Rat.cast_le (K := ℝ)).mpr h2
  push_cast at h3
  rw [show -(r : ℝ) - L * (a - b) = -(r - L * (b - a)) by ring, abs_neg]
  exact h3

/-- The constant-product amount of X. -/
theorem dxPlain {l old new : F64} {L a b : ℚ} (hl : l.Is L) (ha : old.Is a) (hb : new.Is b) (sl : Sized 90 L)
    (sa : Sized 50 a) (sb : Sized 50 b) (hab : a ≤ b) :
    ∃ r : ℚ, (dxFromLDrp l old new).Is r ∧ |-(r : ℝ) - L * (1 / a - 1 / b)| ≤ L * (1 / a) * 16 / 2 ^ 53 := by
  obtain ⟨r, hr, e⟩ := dxFromLDrp_abs hl ha hb (sl.mono (by norm_num)) (sa.mono (by norm_num)) (sb.mono (by norm_num))
  refine ⟨r, hr, ?_⟩
  have h0 : 1 / b ≤ 1 / a := one_div_le_one_div_of_le sa.pos hab
  have h2 : |r - L * (1 / b - 1 / a)| ≤ L * (1 / a) * 16 / 2 ^ 53 := by
    refine e.trans ?_
    have e1 : L * (1 / a) * 16 / 2 ^ 53 = L * (2 * (1 / a)) * 8 / 2 ^ 53 := by ring
    rw [e1]
    have := sl.pos
    gcongr
    linarith
  have h3 := (Rat.cast_le (K := ℝ)).mpr h2
  push_cast at h3
  rw [show -(r : ℝ) - L * (1 / a - 1 / b) = -(r - L * (1 / b - 1 / a)) by ring, abs_neg]
  exact h3

/-- The sum of the two parts of a move across the oracle's price. -/
theorem two_parts {x y : F64} {u v : ℚ} {A B E1 E2 S : ℝ} (hx : x.Is u) (hy : y.Is v) (e1 : |-(u : ℝ) - A| ≤ E1)
    (e2 : |-(v : ℝ) - B| ≤ E2) (hS : |(u : ℝ) + v| ≤ S) (S0 : 1 / 2 ^ 400 ≤ S) (S1 : S ≤ 2 ^ 900) :
    ∃ r : ℚ, (add x y).Is r ∧ |-(r : ℝ) - (A + B)| ≤ E1 + E2 + 2 * (S / 2 ^ 53) := by
  obtain ⟨r, hr, er⟩ := round_real (add_rounded hx hy) (by push_cast; exact hS) S0 S1
  refine ⟨r, hr, ?_⟩
  push_cast at er
  have h1 := abs_add_le (-(u : ℝ) - A) (-(v : ℝ) - B)
  have h2 := abs_add_le (-((r : ℝ) - (u + v))) (-(u : ℝ) - A + (-(v : ℝ) - B))
  rw [abs_neg, show -((r : ℝ) - (u + v)) + (-(u : ℝ) - A + (-(v : ℝ) - B)) = -(r : ℝ) - (A + B) by ring] at h2
  linarith

/-- The choice of the Y amount. -/
theorem doneDyX_general {m : LibM} {p : Pool} {s e l o dy : F64} {L a b γ O : ℚ} {κ σ : ℝ} (w0 : 1 / 2 ^ 60 ≤ κ) (w1 : κ ≤ 1)
    (hσ : |σ| ≤ 1) (hz : γ = 0 → σ = 1) (hh : ∀ {n : F64} {b : ℚ}, n.Is b → n.Rep → Sized 50 b → O ≤ b → b ≤ a →
      ∃ r : ℚ, (dyFromLDrpHmm m l s n p.c o).Is r ∧ |-(r : ℝ) - σ * oracleY L a b O γ| ≤ L * a / κ / 2 ^ 44)
    (h : p.doneDyX m s e l o (dyFromLDrp l s e) = .ok dy) (hl : l.Is L) (hA : s.Is a) (hB : e.Is b)
    (hc : p.c.Is γ) (ho : o.Is O) (ra : s.Rep) (rb : e.Rep) (ro : o.Rep) (sl : Sized 90 L) (sa : Sized 50 a)
    (sb : Sized 50 b) (so : Sized 50 O) (h0 : 0 ≤ γ) (hba : b ≤ a) :
    ∃ r : ℚ, dy.Is r ∧ 
      |-(r : ℝ) - (σ * oracleY L a (Max.max (b : ℝ) (Min.min (a : ℝ) O)) O γ + oracleY L (Max.max (b : ℝ) (Min.min (a : ℝ) O)) b O γ)| ≤
        L * a / κ / 2 ^ 43 := by
  have ap : (0 : ℝ) < a := by exact_mod_cast sa.pos
  have bp : (0 : ℝ) < b := by exact_mod_cast sb.pos
  have Op : (0 : ℝ) < O := by exact_mod_cast so.pos
  have Lp : (0 : ℝ) < L := by exact_mod_cast sl.pos
  have hba' : (b : ℝ) ≤ a := by exact_mod_cast hba
  have g0 : (0 : ℝ) ≤ γ := by exact_mod_cast h0
  have gp : 0 < κ := lt_of_lt_of_le (by positivity) w0
  obtain ⟨S0, S1⟩ := scale_real sl sa
  obtain ⟨S, hS⟩ : ∃ S : ℝ, S = L * a := ⟨_, rfl⟩
  rw [← hS] at S0 S1 ⊢
  have Sp : 0 < S := lt_of_lt_of_le (by positivity) S0
  obtain ⟨G, hG⟩ : ∃ G : ℝ, G = S / κ := ⟨_, rfl⟩
  have SG : S ≤ G := by rw [hG, le_div_iff₀ gp]; exact mul_le_of_le_one_right Sp.le w1
  have Gp : 0 < G := lt_of_lt_of_le Sp SG
  have G1 : G ≤ 2 ^ 200 := by
    rw [hG, div_le_iff₀ gp]
    have : (2 : ℝ) ^ 200 * (1 / 2 ^ 60) ≤ 2 ^ 200 * κ := mul_le_mul_of_nonneg_left w0 (by positivity)
    refine S1.trans (le_trans ?_ this)
    norm_num
  unfold Pool.doneDyX at h
  rw [Pool.ite_eq_ok] at h
  rcases h with ⟨hcond, h⟩ | ⟨hcond, h⟩
  · rw [ok_inj] at h
    obtain ⟨r, hr, er⟩ := dyPlain hl hA hB sl sa sb ra rb hba
    rw [h] at hr
    refine ⟨r, hr, ?_⟩
    have ho' : σ * oracleY L a (Max.max (b : ℝ) (Min.min (a : ℝ) O)) O γ + oracleY L (Max.max (b : ℝ) (Min.min (a : ℝ) O)) b O γ =
        L * (a - b) := by
      rw [Bool.or_eq_true] at hcond
      rcases hcond with hz' | hle
      · have : γ = 0 := (eq_is hc zero_is).1 hz'
        rw [hz this, this, Rat.cast_zero, oracleY_zero, oracleY_zero]
        ring
      · have hle' : (a : ℝ) ≤ O := by exact_mod_cast (le_is hA ho).1 hle
        rw [min_eq_left hle', max_eq_right hba', oracleY_below bp hba' hle', oracleY_below ap le_rfl hle']
        ring
    rw [ho', ← hG]
    refine er.trans ?_
    rw [← hS]
    calc S * 3 / 2 ^ 53 ≤ G * 1024 / 2 ^ 53 := by gcongr; norm_num
      _ = G / 2 ^ 43 := by ring
  · rw [Pool.ite_eq_ok] at h
    rcases h with ⟨hmid, h⟩ | ⟨_, h⟩
    · rw [ok_inj] at h
      rw [Bool.and_eq_true] at hmid
      have hOa : O < a := (lt_is ho hA).1 hmid.1
      have hbO : b ≤ O := (le_is hB ho).1 hmid.2
      have hOa' : (O : ℝ) ≤ a := by exact_mod_cast hOa.le
      have hbO' : (b : ℝ) ≤ O := by exact_mod_cast hbO
      obtain ⟨u, hu, eu⟩ := hh ho ro so le_rfl hOa.le
      obtain ⟨v, hv, ev⟩ := dyPlain hl ho hB sl so sb ro rb hbO
      have c1 := oracleY_range (L := L) (a := a) (b := O) (o := O) (c := γ) Lp.le Op Op hOa' g0
      rw [← hS, ← hG] at eu
      have hOS : (L : ℝ) * O ≤ S := by rw [hS]; gcongr
      have ev' : |-(v : ℝ) - L * (O - b)| ≤ S * 3 / 2 ^ 53 := ev.trans (by gcongr)
      have hLa : (L : ℝ) * (a - O) ≤ S := by rw [hS]; gcongr; linarith
      have hLb : (L : ℝ) * (O - b) ≤ S := by rw [hS]; gcongr; linarith
      have hLb0 : 0 ≤ (L : ℝ) * (O - b) := mul_nonneg Lp.le (by linarith)
      have bu : |-(u : ℝ)| ≤ 2 * G := by
        have := abs_of_near eu
        rw [abs_mul, abs_of_nonneg c1.1] at this
        have e0 : |σ| * oracleY L a O O γ ≤ oracleY L a O O γ := mul_le_of_le_one_left c1.1 hσ
        have e : G / 2 ^ 44 ≤ G := div_le_self Gp.le (by norm_num)
        linarith [c1.2]
      have bv : |-(v : ℝ)| ≤ 2 * G := by
        have := abs_of_near ev'
        rw [abs_of_nonneg hLb0] at this
        have e : S * 3 / 2 ^ 53 ≤ S := by rw [mul_div_assoc]; exact mul_le_of_le_one_right Sp.le (by norm_num)
        linarith
      rw [abs_neg] at bu bv
      obtain ⟨r, hr, er⟩ := two_parts hu hv eu ev' (S := 4 * G) ((abs_add_le _ _).trans (by linarith))
        (by
          have : (1 : ℝ) / 2 ^ 400 ≤ 1 / 2 ^ 140 := one_div_le_one_div_of_le (by positivity) (pow_le_pow_right₀ (by norm_num) (by norm_num))
          linarith) (by
          refine (mul_le_mul_of_nonneg_left G1 (by norm_num)).trans ?_
          rw [show (4 : ℝ) = 2 ^ 2 by norm_num, ← pow_add]
          exact pow_le_pow_right₀ (by norm_num) (by norm_num))
      rw [h] at hr
      refine ⟨r, hr, ?_⟩
      rw [min_eq_right hOa', max_eq_right hbO', oracleY_below (a := (O : ℝ)) bp hbO' le_rfl, ← hG]
      refine er.trans ?_
      calc G / 2 ^ 44 + S * 3 / 2 ^ 53 + 2 * (4 * G / 2 ^ 53) ≤ G / 2 ^ 44 + G * 3 / 2 ^ 53 + 2 * (4 * G / 2 ^ 53) := by gcongr
        _ = G * 523 / 2 ^ 53 := by ring
        _ ≤ G * 1024 / 2 ^ 53 := by gcongr; norm_num
        _ = G / 2 ^ 43 := by ring
    · rw [Pool.ite_eq_ok] at h
      rcases h with ⟨hlt, h⟩ | ⟨_, h⟩
      · rw [ok_inj] at h
        have hOb : O < b := (lt_is ho hB).1 hlt
        obtain ⟨r, hr, er⟩ := hh hB rb sb hOb.le hba
        rw [h] at hr
        refine ⟨r, hr, ?_⟩
        rw [← hS, ← hG] at er
        have hOb' : (O : ℝ) ≤ b := by exact_mod_cast hOb.le
        rw [min_eq_right (hOb'.trans hba'), max_eq_left hOb', ← hG]
        have z : oracleY L b b O γ = 0 := by unfold oracleY; rw [intervalIntegral.integral_same, mul_zero]
        rw [z, add_zero]
        exact er.trans (by gcongr <;> norm_num)
      · exact absurd h (by simp [rpanic])

theorem doneDyX_oracle {m : LibM} (hm : m.Accurate) {p : Pool} {s e l o dy : F64} {L a b γ O : ℚ}
    (h : p.doneDyX m s e l o (dyFromLDrp l s e) = .ok dy) (hl : l.Is L) (hA : s.Is a) (hB : e.Is b)
    (hc : p.c.Is γ) (ho : o.Is O) (ra : s.Rep) (rb : e.Rep) (rc : p.c.Rep) (ro : o.Rep) (sl : Sized 90 L) (sa : Sized 50 a)
    (sb : Sized 50 b) (so : Sized 50 O) (h0 : 0 ≤ γ) (h2 : γ ≤ 2) (h1 : γ ≠ 1) (hba : b ≤ a) :
    ∃ r : ℚ, dy.Is r ∧ |-(r : ℝ) - oracleY L a b O γ| ≤ L * a / |(1 : ℝ) - γ| / 2 ^ 43 := by
  obtain ⟨_, _, _, _, w0, w1⟩ := omc_near hc rc h0 h2 h1
  obtain ⟨r, hr, e⟩ := doneDyX_general (σ := 1) w0 w1 (by norm_num) (fun _ => rfl) (fun hn rn sn h3 h4 => by
    rw [one_mul]
    exact dyHmm_oracle hm hl hA hn hc ho ra rn rc ro sl sa sn so h0 h2 h1 h3 h4) h hl hA hB hc ho ra rb ro sl sa sb so h0 hba
  refine ⟨r, hr, ?_⟩
  have ap : (0 : ℝ) < a := by exact_mod_cast sa.pos
  have bp : (0 : ℝ) < b := by exact_mod_cast sb.pos
  have Op : (0 : ℝ) < O := by exact_mod_cast so.pos
  rw [one_mul, ← oracleY_split Op ap bp (lt_max_of_lt_left bp)] at e
  exact e

/-- The choice of the X amount. -/
theorem doneDxY_general {m : LibM} {p : Pool} {s e l o dy : F64} {L a b γ O : ℚ} {κ : ℝ} (w0 : 1 / 2 ^ 60 ≤ κ) (w1 : κ ≤ 1)
    (hh : ∀ {n : F64} {b : ℚ}, n.Is b → n.Rep → Sized 50 b → b ≤ O → a ≤ b →
      ∃ r : ℚ, (dxFromLDrpHmm m l s n p.c o).Is r ∧ |-(r : ℝ) - oracleX L a b O γ| ≤ L * (1 / a) / κ / 2 ^ 44)
    (h : p.doneDxY m s e l o (dxFromLDrp l s e) = .ok dy) (hl : l.Is L) (hA : s.Is a) (hB : e.Is b)
    (hc : p.c.Is γ) (ho : o.Is O) (rb : e.Rep) (ro : o.Rep) (sl : Sized 90 L) (sa : Sized 50 a)
    (sb : Sized 50 b) (so : Sized 50 O) (h0 : 0 ≤ γ) (hba : a ≤ b) :
    ∃ r : ℚ, dy.Is r ∧ |-(r : ℝ) - oracleX L a b O γ| ≤ L * (1 / a) / κ / 2 ^ 43 := by
  have ap : (0 : ℝ) < a := by exact_mod_cast sa.pos
  have bp : (0 : ℝ) < b := by exact_mod_cast sb.pos
  have Op : (0 : ℝ) < O := by exact_mod_cast so.pos
  have Lp : (0 : ℝ) < L := by exact_mod_cast sl.pos
  have hba' : (a : ℝ) ≤ b := by exact_mod_cast hba
  have g0 : (0 : ℝ) ≤ γ := by exact_mod_cast h0
  have gp : 0 < κ := lt_of_lt_of_le (by positivity) w0
  obtain ⟨S0, S1⟩ := scale_real' sl sa
  obtain ⟨S, hS⟩ : ∃ S : ℝ, S = L * (1 / a) := ⟨_, rfl⟩
  rw [← hS] at S0 S1 ⊢
  have Sp : 0 < S := lt_of_lt_of_le (by positivity) S0
  obtain ⟨G, hG⟩ : ∃ G : ℝ, G = S / κ := ⟨_, rfl⟩
  have SG : S ≤ G := by rw [hG, le_div_iff₀ gp]; exact mul_le_of_le_one_right Sp.le w1
  have Gp : 0 < G := lt_of_lt_of_le Sp SG
  have G1 : G ≤ 2 ^ 200 := by
    rw [hG, div_le_iff₀ gp]
    have : (2 : ℝ) ^ 200 * (1 / 2 ^ 60) ≤ 2 ^ 200 * κ := mul_le_mul_of_nonneg_left w0 (by positivity)
    refine S1.trans (le_trans ?_ this)
    norm_num
  unfold Pool.doneDxY at h
  rw [Pool.ite_eq_ok] at h
  rcases h with ⟨hcond, h⟩ | ⟨hcond, h⟩
  · rw [ok_inj] at h
    obtain ⟨r, hr, er⟩ := dxPlain hl hA hB sl sa sb hba
    rw [h] at hr
    refine ⟨r, hr, ?_⟩
    have ho' : oracleX L a b O γ = L * (1 / a - 1 / b) := by
      rw [Bool.or_eq_true] at hcond
      rcases hcond with hz | hle
      · have : γ = 0 := (eq_is hc zero_is).1 hz
        rw [this, Rat.cast_zero, oracleX_zero ap hba']
      · exact oracleX_above Op (by exact_mod_cast (le_is ho hA).1 hle) hba'
    rw [ho', ← hG]
    refine er.trans ?_
    rw [← hS]
    calc S * 16 / 2 ^ 53 ≤ G * 1024 / 2 ^ 53 := by gcongr; norm_num
      _ = G / 2 ^ 43 := by ring
  · rw [Pool.ite_eq_ok] at h
    rcases h with ⟨hmid, h⟩ | ⟨_, h⟩
    · rw [ok_inj] at h
      rw [Bool.and_eq_true] at hmid
      have hOa : a < O := (lt_is hA ho).1 hmid.1
      have hbO : O ≤ b := (le_is ho hB).1 hmid.2
      have hOa' : (a : ℝ) ≤ O := by exact_mod_cast hOa.le
      have hbO' : (O : ℝ) ≤ b := by exact_mod_cast hbO
      obtain ⟨u, hu, eu⟩ := hh ho ro so le_rfl hOa.le
      obtain ⟨v, hv, ev⟩ := dxPlain hl ho hB sl so sb hbO
      have c1 := oracleX_range (L := L) (a := a) (b := O) (o := O) (c := γ) Lp.le Op ap hOa' g0
      rw [← hS, ← hG] at eu
      have hOS : (L : ℝ) * (1 / O) ≤ S := by rw [hS]; gcongr
      have ev' : |-(v : ℝ) - L * (1 / O - 1 / b)| ≤ S * 16 / 2 ^ 53 := ev.trans (by gcongr)
      have hLa : (L : ℝ) * (1 / a - 1 / O) ≤ S := by rw [hS]; gcongr; linarith [one_div_pos.2 Op]
      have hLb : (L : ℝ) * (1 / O - 1 / b) ≤ S := by rw [hS]; gcongr; linarith [one_div_pos.2 bp, one_div_le_one_div_of_le ap hOa']
      have hLb0 : 0 ≤ (L : ℝ) * (1 / O - 1 / b) := mul_nonneg Lp.le (by linarith [one_div_le_one_div_of_le Op hbO'])
      have bu : |-(u : ℝ)| ≤ 2 * G := by
        have := abs_of_near eu
        rw [abs_of_nonneg c1.1] at this
        have e : G / 2 ^ 44 ≤ G := div_le_self Gp.le (by norm_num)
        linarith [c1.2]
      have bv : |-(v : ℝ)| ≤ 2 * G := by
        have := abs_of_near ev'
        rw [abs_of_nonneg hLb0] at this
        have e : S * 16 / 2 ^ 53 ≤ S := by rw [mul_div_assoc]; exact mul_le_of_le_one_right Sp.le (by norm_num)
        linarith
      rw [abs_neg] at bu bv
      obtain ⟨r, hr, er⟩ := two_parts hu hv eu ev' (S := 4 * G) ((abs_add_le _ _).trans (by linarith))
        (by
          have : (1 : ℝ) / 2 ^ 400 ≤ 1 / 2 ^ 140 := one_div_le_one_div_of_le (by positivity) (pow_le_pow_right₀ (by norm_num) (by norm_num))
          linarith) (by
          refine (mul_le_mul_of_nonneg_left G1 (by norm_num)).trans ?_
          rw [show (4 : ℝ) = 2 ^ 2 by norm_num, ← pow_add]
          exact pow_le_pow_right₀ (by norm_num) (by norm_num))
      rw [h] at hr
      refine ⟨r, hr, ?_⟩
      rw [oracleX_split (k := O) Op ap bp Op, oracleX_above (a := (O : ℝ)) Op le_rfl hbO', ← hG]
      refine er.trans ?_
      calc G / 2 ^ 44 + S * 16 / 2 ^ 53 + 2 * (4 * G / 2 ^ 53) ≤ G / 2 ^ 44 + G * 16 / 2 ^ 53 + 2 * (4 * G / 2 ^ 53) := by gcongr
        _ = G * 536 / 2 ^ 53 := by ring
        _ ≤ G * 1024 / 2 ^ 53 := by gcongr; norm_num
        _ = G / 2 ^ 43 := by ring
    · rw [Pool.ite_eq_ok] at h
      rcases h with ⟨hlt, h⟩ | ⟨_, h⟩
      · rw [ok_inj] at h
        have hOb : b < O := (lt_is hB ho).1 hlt
        obtain ⟨r, hr, er⟩ := hh hB rb sb hOb.le hba
        rw [h] at hr
        refine ⟨r, hr, ?_⟩
        rw [← hS, ← hG] at er
        rw [← hG]
        exact er.trans (by gcongr <;> norm_num)
      · exact absurd h (by simp [rpanic])

theorem doneDxY_oracle {m : LibM} (hm : m.Accurate) {p : Pool} {s e l o dx : F64} {L a b γ O : ℚ}
    (h : p.doneDxY m s e l o (dxFromLDrp l s e) = .ok dx) (hl : l.Is L) (hA : s.Is a) (hB : e.Is b)
    (hc : p.c.Is γ) (ho : o.Is O) (ra : s.Rep) (rb : e.Rep) (rc : p.c.Rep) (ro : o.Rep) (sl : Sized 90 L) (sa : Sized 50 a)
    (sb : Sized 50 b) (so : Sized 50 O) (h0 : 0 ≤ γ) (h2 : γ ≤ 2) (h1 : γ ≠ 1) (hba : a ≤ b) :
    ∃ r : ℚ, dx.Is r ∧ |-(r : ℝ) - oracleX L a b O γ| ≤ L * (1 / a) / |(1 : ℝ) - γ| / 2 ^ 43 := by
  obtain ⟨_, _, _, _, w0, w1⟩ := omc_near hc rc h0 h2 h1
  exact doneDxY_general w0 w1 (fun hn rn sn h3 h4 =>
    dxHmm_oracle hm hl hA hn hc ho ra rn rc ro sl sa sn so h0 h2 h1 h3 h4) h hl hA hB hc ho rb ro sl sa sb so h0 hba

/-- The logarithm of a quotient of prices. -/
theorem log_near {m : LibM} (hm : m.Accurate) {x y : F64} {a b : ℚ} (hx : x.Is a) (hy : y.Is b) (sa : Sized 24 a) (sb : Sized 24 b) :
    ∃ t : ℚ, (m.ln (div x y)).Is t ∧ |(t : ℝ) - Real.log (a / b)| ≤ 150 / 2 ^ 53 ∧ |Real.log ((a : ℝ) / b)| ≤ 35 := by
  have sq : Sized 48 (a / b) := sa.div sb
  have qp := sq.pos
  obtain ⟨d, hd, rel⟩ := (div_rounded hx hy sb.pos.ne').rel_tame (e := 48) (by rw [abs_of_pos qp]; exact Or.inr sq) (by norm_num)
  unfold F64.Rel at rel
  rw [abs_of_pos qp] at rel
  push_cast at rel
  have hlo : a / b / 2 ≤ d := by
    have := (_root_.abs_le.1 rel).1
    have e : a / b * 1 / 2 ^ 53 ≤ a / b / 2 := by rw [mul_one]; exact div_le_div_of_nonneg_left qp.le (by norm_num) (by norm_num)
    linarith
  have hhi : d ≤ a / b * 2 := by
    have := (_root_.abs_le.1 rel).2
    have e : a / b * 1 / 2 ^ 53 ≤ a / b := by rw [mul_one]; exact div_le_self qp.le (by norm_num)
    linarith
  have sd : Sized 50 d := by
    obtain ⟨q0, q1⟩ := sq
    refine ⟨?_, ?_⟩
    · refine le_trans ?_ hlo
      norm_num at q0 ⊢
      linarith
    · refine hhi.trans ?_
      norm_num at q1 ⊢
      linarith
  obtain ⟨_, t, ht, et⟩ := hm.ln (div_rep _ _) hd sd
  refine ⟨t, ht, ?_, ?_⟩
  · have qr : (0 : ℝ) < (a : ℝ) / b := by exact_mod_cast qp
    have dp : (0 : ℝ) < d := by exact_mod_cast sd.pos
    have rel' := (Rat.cast_le (K := ℝ)).mpr rel
    push_cast at rel'
    set Q := (a : ℝ) / b
    have hl : |Real.log d - Real.log Q| ≤ 2 / 2 ^ 53 := by
      rw [← Real.log_div dp.ne' qr.ne']
      have h1 : |(d : ℝ) / Q - 1| ≤ 1 / 2 ^ 53 := by
        rw [div_sub_one qr.ne', abs_div, abs_of_pos qr, div_le_iff₀ qr]
        linarith
      obtain ⟨l1, l2⟩ := _root_.abs_le.1 h1
      have zp : 0 < (d : ℝ) / Q := div_pos dp qr
      rw [_root_.abs_le]
      constructor
      · have := Real.one_sub_inv_le_log_of_pos zp
        have h3 : ((d : ℝ) / Q)⁻¹ ≤ 1 + 2 / 2 ^ 53 := by
          rw [inv_le_comm₀ zp (by positivity)]
          refine le_trans ?_ (show 1 - 1 / 2 ^ 53 ≤ (d : ℝ) / Q by linarith)
          norm_num
        linarith
      · have := Real.log_le_sub_one_of_pos zp
        linarith [show (1 : ℝ) / 2 ^ 53 ≤ 2 / 2 ^ 53 by norm_num]
    have h35 := log_35 sd
    have h4 : |Real.log d| / 2 ^ 51 ≤ 35 / 2 ^ 51 := by gcongr
    have h5 := abs_add_le ((t : ℝ) - Real.log d) (Real.log d - Real.log Q)
    rw [sub_add_sub_cancel] at h5
    have h6 : (35 : ℝ) / 2 ^ 51 + 2 / 2 ^ 53 ≤ 150 / 2 ^ 53 := by norm_num
    linarith
  · have := log_35 (sq.mono (show 48 ≤ 50 by norm_num))
    push_cast at this
    exact this

/-- A factor times a logarithm. -/
theorem log_core {k x : F64} {k' t : ℚ} {K l : ℝ} (hk : k.Is k') (hx : x.Is t) (K0 : 1 / 2 ^ 200 ≤ K) (K1 : K ≤ 2 ^ 200)
    (ek : |(k' : ℝ) - K| ≤ K / 2 ^ 53) (el : |(t : ℝ) - l| ≤ 150 / 2 ^ 53) (hl : |l| ≤ 35) :
    ∃ r : ℚ, (mul k x).Is r ∧ |(r : ℝ) - K * l| ≤ K / 2 ^ 44 := by
  have Kp : 0 < K := lt_of_lt_of_le (by positivity) K0
  have hkb : |(k' : ℝ)| ≤ 2 * K := by
    have := abs_of_near ek
    rw [abs_of_pos Kp] at this
    have e : K / 2 ^ 53 ≤ K := div_le_self Kp.le (by norm_num)
    linarith
  have htb : |(t : ℝ)| ≤ 36 := by
    have := abs_of_near el
    have e : (150 : ℝ) / 2 ^ 53 ≤ 1 := by norm_num
    linarith
  have hp : |((k' * t : ℚ) : ℝ)| ≤ 72 * K := by
    push_cast
    rw [abs_mul]
    calc |(k' : ℝ)| * |(t : ℝ)| ≤ 2 * K * 36 := mul_le_mul hkb htb (abs_nonneg _) (by positivity)
      _ = 72 * K := by ring
  obtain ⟨r, hr, er⟩ := round_real (mul_rounded hk hx) hp (by
      have : (1 : ℝ) / 2 ^ 400 ≤ 1 / 2 ^ 200 := one_div_le_one_div_of_le (by positivity) (pow_le_pow_right₀ (by norm_num) (by norm_num))
      linarith) (by
      have e : 72 * K ≤ 2 ^ 210 := by norm_num at K1 ⊢; linarith
      exact e.trans (pow_le_pow_right₀ (by norm_num) (by norm_num)))
  refine ⟨r, hr, ?_⟩
  have h1 : |((k' * t : ℚ) : ℝ) - K * l| ≤ K * 200 / 2 ^ 53 := by
    push_cast
    have := abs_add_le (((k' : ℝ) - K) * t) (K * (t - l))
    rw [show ((k' : ℝ) - K) * t + K * (t - l) = k' * t - K * l by ring, abs_mul, abs_mul, abs_of_pos Kp] at this
    have e1 : |(k' : ℝ) - K| * |(t : ℝ)| ≤ K / 2 ^ 53 * 36 := mul_le_mul ek htb (abs_nonneg _) (by positivity)
    have e2 : K * |(t : ℝ) - l| ≤ K * (150 / 2 ^ 53) := mul_le_mul_of_nonneg_left el Kp.le
    have e3 : K * 200 / 2 ^ 53 = K / 2 ^ 53 * 36 + K * (150 / 2 ^ 53) + K * 14 / 2 ^ 53 := by ring
    have e4 : 0 ≤ K * 14 / 2 ^ 53 := by positivity
    linarith
  have h2 := abs_add_le ((r : ℝ) - (k' * t : ℚ)) ((k' * t : ℚ) - K * l)
  rw [sub_add_sub_cancel] at h2
  have h3 : 2 * (72 * K / 2 ^ 53) + K * 200 / 2 ^ 53 ≤ K / 2 ^ 44 := by
    have : 2 * (72 * K / 2 ^ 53) + K * 200 / 2 ^ 53 = K * 344 / 2 ^ 53 := by ring
    rw [this, show K / 2 ^ 44 = K * 512 / 2 ^ 53 by ring]
    gcongr
    norm_num
  linarith

/-- The formula for Y with `c = 1` has the wrong sign. -/
theorem dyHmm_one {m : LibM} (hm : m.Accurate) {l old new c o : F64} {L a b O : ℚ} (hl : l.Is L) (hA : old.Is a) (hB : new.Is b)
    (hc : c.Is 1) (ho : o.Is O) (sl : Sized 90 L) (sa : Sized 24 a) (sb : Sized 24 b) (so : Sized 50 O) (hOb : O ≤ b) (hba : b ≤ a) :
    ∃ r : ℚ, (dyFromLDrpHmm m l old new c o).Is r ∧ |(r : ℝ) - oracleY L a b O 1| ≤ L * a / 2 ^ 44 := by
  unfold dyFromLDrpHmm
  rw [(eq_is hc one_is).2 rfl, if_pos rfl]
  have Lp : (0 : ℝ) < L := by exact_mod_cast sl.pos
  have Op : (0 : ℝ) < O := by exact_mod_cast so.pos
  have hOb' : (O : ℝ) ≤ b := by exact_mod_cast hOb
  have hba' : (b : ℝ) ≤ a := by exact_mod_cast hba
  obtain ⟨t, ht, et, el⟩ := log_near hm hA hB sa sb
  have sk := sl.mul so
  obtain ⟨k, hk, rel⟩ := (mul_rounded hl ho).rel_tame (e := 140) (by rw [abs_of_pos sk.pos]; exact Or.inr sk) (by norm_num)
  unfold F64.Rel at rel
  rw [abs_of_pos sk.pos] at rel
  have rel' := (Rat.cast_le (K := ℝ)).mpr rel
  push_cast at rel'
  rw [mul_one] at rel'
  obtain ⟨S0, S1⟩ := scale_real sl so
  obtain ⟨r, hr, er⟩ := log_core hk ht (S0.trans' (by norm_num)) (S1.trans (by norm_num)) rel' et el
  refine ⟨r, hr, ?_⟩
  rw [oracleY_above_one Op hOb' hba', ← mul_assoc]
  refine er.trans ?_
  gcongr
  linarith

theorem dxHmm_one {m : LibM} (hm : m.Accurate) {l old new c o : F64} {L a b O : ℚ} (hl : l.Is L) (hA : old.Is a) (hB : new.Is b)
    (hc : c.Is 1) (ho : o.Is O) (sl : Sized 90 L) (sa : Sized 24 a) (sb : Sized 24 b) (so : Sized 50 O) (hbO : b ≤ O) (hab : a ≤ b) :
    ∃ r : ℚ, (dxFromLDrpHmm m l old new c o).Is r ∧ |-(r : ℝ) - oracleX L a b O 1| ≤ L * (1 / a) / 2 ^ 44 := by
  unfold dxFromLDrpHmm
  rw [(eq_is hc one_is).2 rfl, if_pos rfl]
  have Lp : (0 : ℝ) < L := by exact_mod_cast sl.pos
  have Op : (0 : ℝ) < O := by exact_mod_cast so.pos
  have ap : (0 : ℝ) < a := by exact_mod_cast sa.pos
  have bp : (0 : ℝ) < b := by exact_mod_cast sb.pos
  have hbO' : (b : ℝ) ≤ O := by exact_mod_cast hbO
  have hab' : (a : ℝ) ≤ b := by exact_mod_cast hab
  obtain ⟨t, ht, et, el⟩ := log_near hm hA hB sa sb
  have sk : Sized 140 (L / O) := sl.div so
  obtain ⟨k, hk, rel⟩ := (div_rounded hl ho so.pos.ne').rel_tame (e := 140) (by rw [abs_of_pos sk.pos]; exact Or.inr sk) (by norm_num)
  unfold F64.Rel at rel
  rw [abs_of_pos sk.pos] at rel
  have rel' := (Rat.cast_le (K := ℝ)).mpr rel
  push_cast at rel'
  rw [mul_one] at rel'
  obtain ⟨S0, S1⟩ := sk.real
  push_cast at S0 S1
  obtain ⟨r, hr, er⟩ := log_core hk ht (S0.trans' (by norm_num)) (S1.trans (by norm_num)) rel' et el
  refine ⟨r, hr, ?_⟩
  rw [oracleX_below_one ap hab' hbO']
  have e1 : Real.log ((b : ℝ) / a) = -Real.log (a / b) := by rw [← Real.log_inv, inv_div]
  rw [e1, show -(r : ℝ) - L * (-Real.log (a / b) / O) = -(r - L / O * Real.log (a / b)) by ring, abs_neg]
  refine er.trans ?_
  rw [div_eq_mul_one_div (L : ℝ) O]
  gcongr
  linarith

theorem doneDyX_one {m : LibM} (hm : m.Accurate) {p : Pool} {s e l o dy : F64} {L a b O : ℚ}
    (h : p.doneDyX m s e l o (dyFromLDrp l s e) = .ok dy) (hl : l.Is L) (hA : s.Is a) (hB : e.Is b)
    (hc : p.c.Is 1) (ho : o.Is O) (ra : s.Rep) (rb : e.Rep) (ro : o.Rep) (sl : Sized 90 L) (sa : Sized 24 a)
    (sb : Sized 50 b) (so : Sized 24 O) (hba : b ≤ a) :
    ∃ r : ℚ, dy.Is r ∧ |-(r : ℝ) - (oracleY L (Max.max (b : ℝ) (Min.min (a : ℝ) O)) b O 1 - oracleY L a (Max.max (b : ℝ) (Min.min (a : ℝ) O)) O 1)| ≤
      L * a / 2 ^ 43 := by
  have h24 : 24 ≤ 50 := by norm_num
  obtain ⟨r, hr, e⟩ := doneDyX_general (σ := -1) (κ := 1) (by norm_num) le_rfl (by norm_num) (fun h => absurd h (by norm_num))
    (fun {n b'} hn rn sn h3 h4 => by
      obtain ⟨r, hr, er⟩ := dyHmm_one hm hl hA hn hc ho sl sa ⟨so.1.trans h3, h4.trans sa.2⟩ (so.mono h24) h3 h4
      refine ⟨r, hr, ?_⟩
      rw [Rat.cast_one, div_one, show -(r : ℝ) - -1 * oracleY L a b' O 1 = -(r - oracleY L a b' O 1) by ring, abs_neg]
      exact er) h hl hA hB hc ho ra rb ro sl (sa.mono h24) sb (so.mono h24) zero_le_one hba
  refine ⟨r, hr, ?_⟩
  rw [div_one, Rat.cast_one] at e
  rw [sub_eq_add_neg _ (oracleY L a _ O 1), add_comm (oracleY L _ b O 1), ← neg_one_mul (oracleY L a _ O 1)]
  exact e

theorem doneDxY_one {m : LibM} (hm : m.Accurate) {p : Pool} {s e l o dx : F64} {L a b O : ℚ}
    (h : p.doneDxY m s e l o (dxFromLDrp l s e) = .ok dx) (hl : l.Is L) (hA : s.Is a) (hB : e.Is b)
    (hc : p.c.Is 1) (ho : o.Is O) (rb : e.Rep) (ro : o.Rep) (sl : Sized 90 L) (sa : Sized 24 a)
    (sb : Sized 50 b) (so : Sized 24 O) (hba : a ≤ b) :
    ∃ r : ℚ, dx.Is r ∧ |-(r : ℝ) - oracleX L a b O 1| ≤ L * (1 / a) / 2 ^ 43 := by
  have h24 : 24 ≤ 50 := by norm_num
  obtain ⟨r, hr, e⟩ := doneDxY_general (κ := 1) (by norm_num) le_rfl
    (fun {n b'} hn rn sn h3 h4 => by
      obtain ⟨r, hr, er⟩ := dxHmm_one hm hl hA hn hc ho sl sa ⟨sa.1.trans h4, h3.trans so.2⟩ (so.mono h24) h3 h4
      refine ⟨r, hr, ?_⟩
      rw [Rat.cast_one, div_one]
      exact er) h hl hA hB hc ho rb ro sl (sa.mono h24) sb (so.mono h24) zero_le_one hba
  refine ⟨r, hr, ?_⟩
  rw [div_one, Rat.cast_one] at e
  exact e

/-- An amount times the factor that is just below 1. -/
theorem pay {d : F64} {r : ℚ} {T E S : ℝ} (hr : d.Is r) (e : |-(r : ℝ) - T| ≤ E) (hT : |T| ≤ S) (hE : E ≤ S)
    (S0 : 1 / 2 ^ 400 ≤ S) (S1 : S ≤ 2 ^ 400) :
    ∃ q : ℚ, (mul d adjWholeFill).Is q ∧ |-(q : ℝ) - T * (1 - 1 / 10 ^ 12)| ≤ E + S * 6 / 2 ^ 53 := by
  obtain ⟨w, hw, rel, w0, w1⟩ := whole_is'
  have Sp : 0 < S := lt_of_lt_of_le (by positivity) S0
  have hrb : |(r : ℝ)| ≤ 2 * S := by
    have := abs_of_near e
    rw [abs_neg] at this
    linarith
  have w0' : (0 : ℝ) < w := by exact_mod_cast w0
  have w1' : (w : ℝ) ≤ 1 := by exact_mod_cast w1
  unfold F64.Rel at rel
  rw [abs_of_pos (by norm_num : (0 : ℚ) < 1 - 1 / 10 ^ 12)] at rel
  have rel' := (Rat.cast_le (K := ℝ)).mpr rel
  push_cast at rel'
  have rel'' : |(w : ℝ) - (1 - 1 / 10 ^ 12)| ≤ 2 / 2 ^ 53 := rel'.trans (by norm_num)
  obtain ⟨q, hq, eq⟩ := round_real (S := 2 * S) (mul_rounded hr hw) (by
      push_cast
      rw [abs_mul, abs_of_pos w0']
      exact (mul_le_of_le_one_right (abs_nonneg _) w1').trans hrb) (by linarith) (by
      refine (mul_le_mul_of_nonneg_left S1 (by norm_num)).trans ?_
      rw [← pow_succ']
      exact pow_le_pow_right₀ (by norm_num) (by norm_num))
  refine ⟨q, hq, ?_⟩
  push_cast at eq
  generalize (1 : ℝ) - 1 / 10 ^ 12 = W at *
  have h1 : |(-(r : ℝ) - T) * w| ≤ E := by
    rw [abs_mul, abs_of_pos w0']
    exact (mul_le_of_le_one_right (abs_nonneg _) w1').trans e
  have h2 : |T * (w - W)| ≤ S * (2 / 2 ^ 53) := by
    rw [abs_mul]
    exact mul_le_mul hT rel'' (abs_nonneg _) Sp.le
  have h3 := abs_add_three (-((q : ℝ) - r * w)) ((-(r : ℝ) - T) * w) (T * (w - W))
  rw [abs_neg, show -((q : ℝ) - r * w) + (-(r : ℝ) - T) * w + T * (w - W) = -(q : ℝ) - T * W by ring] at h3
  have h4 : S * 6 / 2 ^ 53 = 2 * (2 * S / 2 ^ 53) + S * (2 / 2 ^ 53) := by ring
  linarith

/-- The difference of two such amounts. -/
theorem held {x y : F64} {u v : ℚ} {A B E1 E2 S : ℝ} (hx : x.Is u) (hy : y.Is v) (e1 : |-(u : ℝ) - A| ≤ E1)
    (e2 : |-(v : ℝ) - B| ≤ E2) (hA : |A| ≤ S) (hB : |B| ≤ S) (h1 : E1 ≤ S) (h2 : E2 ≤ S) (S0 : 1 / 2 ^ 400 ≤ S) (S1 : S ≤ 2 ^ 400) :
    ∃ r : ℚ, (sub x y).Is r ∧ |(r : ℝ) - (B - A)| ≤ E1 + E2 + S * 8 / 2 ^ 53 := by
  have bu := abs_of_near e1
  have bv := abs_of_near e2
  rw [abs_neg] at bu bv
  obtain ⟨r, hr, er⟩ := round_real (S := 4 * S) (sub_rounded hx hy) (by
      push_cast
      refine (abs_sub _ _).trans ?_
      linarith) (by
      have : 0 < S := lt_of_lt_of_le (by positivity) S0
      linarith) (by
      refine (mul_le_mul_of_nonneg_left S1 (by norm_num)).trans ?_
      rw [show (4 : ℝ) = 2 ^ 2 by norm_num, ← pow_add]
      exact pow_le_pow_right₀ (by norm_num) (by norm_num))
  refine ⟨r, hr, ?_⟩
  push_cast at er
  have h3 := abs_sub (-(u : ℝ) - A) (-(v : ℝ) - B)
  have h4 := abs_add_le ((r : ℝ) - (u - v)) (-(-(u : ℝ) - A - (-(v : ℝ) - B)))
  rw [abs_neg, show (r : ℝ) - (u - v) + -(-(u : ℝ) - A - (-(v : ℝ) - B)) = r - (B - A) by ring] at h4
  have h5 : S * 8 / 2 ^ 53 = 2 * (4 * S / 2 ^ 53) := by ring
  linarith

/-- Both amounts of a move: what is paid, and what is held back of the constant-product amount. -/
theorem pay_and_hold {d e : F64} {r v : ℚ} {T C S G : ℝ} (hr : d.Is r) (hv : e.Is v) (er : |-(r : ℝ) - T| ≤ G / 2 ^ 43)
    (ev : |-(v : ℝ) - C| ≤ S * 16 / 2 ^ 53) (hT : |T| ≤ S) (hC : |C| ≤ S) (SG : S ≤ G) (S0 : 1 / 2 ^ 400 ≤ S)
    (G1 : G ≤ 2 ^ 400) : ∃ s a : ℚ, (mul d adjWholeFill).Is s ∧ (sub (mul d adjWholeFill) (mul e adjWholeFill)).Is a ∧
      |-(s : ℝ) - T * (1 - 1 / 10 ^ 12)| ≤ G / 2 ^ 42 ∧ |(a : ℝ) - (C - T) * (1 - 1 / 10 ^ 12)| ≤ G / 2 ^ 42 := by
  have Sp : 0 < S := lt_of_lt_of_le (by positivity) S0
  have Gp : 0 < G := lt_of_lt_of_le Sp SG
  have G0 : 1 / 2 ^ 400 ≤ G := S0.trans SG
  have f1 : G / 2 ^ 43 ≤ G := div_le_self Gp.le (by norm_num)
  have f2 : S * 16 / 2 ^ 53 ≤ G * 16 / 2 ^ 53 := by gcongr
  have f3 : G * 16 / 2 ^ 53 ≤ G := by rw [mul_div_assoc]; exact mul_le_of_le_one_right Gp.le (by norm_num)
  obtain ⟨s, hs, es⟩ := pay hr er (hT.trans SG) f1 G0 G1
  obtain ⟨c, hc, ec⟩ := pay hv (ev.trans f2) (hC.trans SG) f3 G0 G1
  have W : ∀ z : ℝ, |z| ≤ S → |z * (1 - 1 / 10 ^ 12)| ≤ G := by
    intro z hz
    rw [abs_mul]
    refine (mul_le_of_le_one_right (abs_nonneg _) ?_).trans (hz.trans SG)
    rw [abs_of_pos (by norm_num)]
    norm_num
  have k1 : G / 2 ^ 43 + G * 6 / 2 ^ 53 = G * 1030 / 2 ^ 53 := by ring
  have k2 : G * 16 / 2 ^ 53 + G * 6 / 2 ^ 53 = G * 22 / 2 ^ 53 := by ring
  have k3 : G / 2 ^ 42 = G * 2048 / 2 ^ 53 := by ring
  have le : ∀ n : ℝ, n ≤ 2 ^ 53 → G * n / 2 ^ 53 ≤ G := fun n hn => by
    rw [mul_div_assoc]; exact mul_le_of_le_one_right Gp.le (by rw [div_le_one (by positivity)]; exact hn)
  rw [k1] at es
  rw [k2] at ec
  obtain ⟨a, ha, ea⟩ := held hs hc es ec (W T hT) (W C hC) (le _ (by norm_num)) (le _ (by norm_num)) G0 G1
  refine ⟨s, a, hs, ha, ?_, ?_⟩
  · rw [k3]
    exact es.trans (by gcongr; norm_num)
  · rw [sub_mul]
    refine ea.trans ?_
    rw [k3, show G * 1030 / 2 ^ 53 + G * 22 / 2 ^ 53 + G * 8 / 2 ^ 53 = G * 1060 / 2 ^ 53 by ring]
    gcongr
    norm_num

theorem scale_le {S κ : ℝ} (S0 : 1 / 2 ^ 140 ≤ S) (w0 : 1 / 2 ^ 60 ≤ κ) (w1 : κ ≤ 1) : S ≤ S / κ := by
  have Sp : 0 < S := lt_of_lt_of_le (by positivity) S0
  have gp : 0 < κ := lt_of_lt_of_le (by positivity) w0
  rw [le_div_iff₀ gp]
  exact mul_le_of_le_one_right Sp.le w1

theorem scale_top {S κ : ℝ} (S1 : S ≤ 2 ^ 140) (w0 : 1 / 2 ^ 60 ≤ κ) : S / κ ≤ 2 ^ 400 := by
  have gp : 0 < κ := lt_of_lt_of_le (by positivity) w0
  rw [div_le_iff₀ gp]
  have : (2 : ℝ) ^ 400 * (1 / 2 ^ 60) ≤ 2 ^ 400 * κ := mul_le_mul_of_nonneg_left w0 (by positivity)
  refine S1.trans (le_trans ?_ this)
  rw [mul_one_div, le_div_iff₀ (by positivity), ← pow_add]
  exact pow_le_pow_right₀ (by norm_num) (by norm_num)

end

end Hmm.Flt
