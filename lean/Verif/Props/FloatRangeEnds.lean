import Verif.Model.ProtoEnds
import Verif.Proofs.FloatStage
import Verif.Props.FloatAmounts

/-
C134: the ends of a range from its amounts, in doubles: by the Rust twin and by the prototype.
-/

namespace Hmm.Flt

open F64

section
attribute [local irreducible] F64.unit limit

theorem abs_ineq {a b : ℚ} (h : |a| ≤ b) : -b ≤ a ∧ a ≤ b := abs_le.1 h

theorem pow_dbl {x y : ℚ} {m n : ℕ} (h : x ≤ 2 ^ m) (hy : y ≤ x * 2) (hn : m + 1 ≤ n) : y ≤ 2 ^ n := by
  refine le_trans ?_ (pow_le_pow_right₀ (by norm_num) hn)
  rw [pow_succ]
  linarith

/-- A quotient whose divisor suffers from cancellation. -/
theorem quot_abs {n d : F64} {N N' D D' S : ℚ} (hn : n.Is N') (hN : Rel 1 N' N) (pN : 0 < N) (hd : d.Is D')
    (hD : |D' - D| ≤ 6 * S / 2 ^ 53) (pD : 0 < D) (h1 : D ≤ S) (h2 : S ≤ D * 2 ^ 40) (hs : Sized 400 (N / D)) :
    0 < D' ∧ ∃ r, (div n d).Is r ∧ |r - N / D| ≤ N / D * (S / D) * 5 / 2 ^ 52 := by
  unfold Rel at hN
  rw [abs_of_pos pN] at hN
  obtain ⟨n1, n2⟩ := abs_ineq hN
  obtain ⟨d1, d2⟩ := abs_ineq hD
  have pS : 0 < S := lt_of_lt_of_le pD h1
  have e : 6 * S / 2 ^ 53 ≤ D / 1000 := by
    have : 6 * S / 2 ^ 53 ≤ 6 * (D * 2 ^ 40) / 2 ^ 53 := by
      apply div_le_div_of_nonneg_right _ (by positivity); linarith
    refine this.trans ?_
    rw [div_le_div_iff₀ (by positivity) (by norm_num)]
    nlinarith
  have lD : D * (999 / 1000) ≤ D' := by linarith
  have pD' : 0 < D' := lt_of_lt_of_le (by positivity) lD
  have q0 : 0 < N / D := div_pos pN pD
  have k1 : 1 ≤ S / D := by rw [le_div_iff₀ pD]; linarith
  have kb : S / D ≤ 2 ^ 40 := by rw [div_le_iff₀ pD]; linarith
  have key : |N' / D' - N / D| ≤ N / D * (S / D) * (71 / 10) / 2 ^ 53 := by
    have e1 : N' / D' - N / D = ((N' - N) * D + N * (D - D')) / (D * D') := by field_simp; ring
    rw [e1, abs_div, abs_of_pos (mul_pos pD pD'), div_le_iff₀ (mul_pos pD pD')]
    have a1 : |(N' - N) * D + N * (D - D')| ≤ N * (7 * S) / 2 ^ 53 := by
      refine (abs_add_le _ _).trans ?_
      rw [abs_mul, abs_mul, abs_of_pos pD, abs_of_pos pN]
      have b1 : |N' - N| * D ≤ N * 1 / 2 ^ 53 * S := mul_le_mul (by exact_mod_cast hN) h1 pD.le (by positivity)
      have b2 : N * |D - D'| ≤ N * (6 * S / 2 ^ 53) := by
        rw [abs_sub_comm]
        exact mul_le_mul_of_nonneg_left hD pN.le
      calc _ ≤ N * 1 / 2 ^ 53 * S + N * (6 * S / 2 ^ 53) := add_le_add b1 b2
        _ = N * (7 * S) / 2 ^ 53 := by ring
    refine a1.trans ?_
    have a2 : N / D * (S / D) * (71 / 10) / 2 ^ 53 * (D * D') = N * S * (71 / 10) / 2 ^ 53 * (D' / D) := by
      field_simp
    rw [a2]
    have a3 : 999 / 1000 ≤ D' / D := by rw [le_div_iff₀ pD]; linarith
    calc N * (7 * S) / 2 ^ 53 ≤ N * S * (71 / 10) / 2 ^ 53 * (999 / 1000) := by
          have : 0 < N * S := mul_pos pN pS
          rw [div_mul_eq_mul_div]
          apply div_le_div_of_nonneg_right _ (by positivity)
          nlinarith
      _ ≤ _ := mul_le_mul_of_nonneg_left a3 (by positivity)
  have small : N / D * (S / D) * (71 / 10) / 2 ^ 53 ≤ N / D / 1000 := by
    rw [div_le_div_iff₀ (by positivity) (by norm_num)]
    nlinarith [mul_le_mul_of_nonneg_left kb q0.le]
  obtain ⟨k2, k3⟩ := abs_ineq key
  have pQ : 0 < N' / D' := by linarith
  have t : Tame 401 |N' / D'| := by
    right
    rw [abs_of_pos pQ]
    constructor
    · have h400 := hs.1
      rw [pow_succ, one_div, mul_inv, ← one_div]
      linarith
    · exact pow_dbl hs.2 (by linarith) le_rfl
  obtain ⟨r, hr, hrel⟩ := (div_rounded hn hd pD'.ne').rel_tame t (by norm_num)
  refine ⟨pD', r, hr, ?_⟩
  unfold Rel at hrel
  rw [abs_of_pos pQ] at hrel
  push_cast at hrel
  have f1 : N' / D' * 1 / 2 ^ 53 ≤ N / D * (S / D) * 2 / 2 ^ 53 := by
    apply div_le_div_of_nonneg_right _ (by positivity)
    nlinarith
  calc |r - N / D| ≤ |r - N' / D'| + |N' / D' - N / D| := abs_sub_le _ _ _
    _ ≤ N / D * (S / D) * 2 / 2 ^ 53 + N / D * (S / D) * (71 / 10) / 2 ^ 53 := add_le_add (hrel.trans f1) key
    _ ≤ _ := by
      have : 0 < N / D * (S / D) := mul_pos q0 (by linarith)
      rw [← add_div, div_le_div_iff₀ (by positivity) (by positivity)]
      norm_num
      nlinarith

/-- C134: the lower end from liquidity, price and the amount of Y. -/
theorem C134_lower_liq {l rp y : F64} {L P Y A : ℚ} (hl : l.Is L) (hp : rp.Is P) (hy : y.Is Y) (sl : Sized 100 L)
    (sp : Sized 100 P) (sy : Tame 100 Y) (hA : 0 ≤ A) (hAP : A ≤ P) (hY : Y = L * (P - A)) :
    ∃ r, (rpaFromLRpY l rp y).Is r ∧ |r - A| ≤ P / 2 ^ 52 := by
  have pL := sl.pos
  have pP := sp.pos
  have eQ : Y / L = P - A := by rw [hY]; field_simp
  have t : Tame 200 |Y / L| := by
    rw [abs_of_nonneg (div_nonneg sy.nonneg pL.le)]
    exact (sy.div sl).mono (by norm_num)
  obtain ⟨q, hq, rq⟩ := (div_rounded hy hl pL.ne').rel_tame t (by norm_num)
  unfold Rel at rq
  rw [eQ, abs_of_nonneg (by linarith : 0 ≤ P - A)] at rq
  push_cast at rq
  have rq' : |q - (P - A)| ≤ P / 2 ^ 53 := by
    refine rq.trans ?_
    apply div_le_div_of_nonneg_right _ (by positivity); linarith
  obtain ⟨q1, q2⟩ := abs_ineq rq
  obtain ⟨q3, q4⟩ := abs_ineq rq'
  have g : (P - A) * 1 / 2 ^ 53 ≤ P - A := by
    rw [div_le_iff₀ (by positivity)]
    nlinarith
  have u0 : P / 2 ^ 53 ≤ P := div_le_self pP.le (by norm_num)
  have hle : |P - q| ≤ P := by
    rw [abs_le]; constructor <;> linarith
  have p100 : P ≤ 2 ^ 1000 := sp.2.trans (pow_le_pow_right₀ (by norm_num) (by norm_num))
  obtain ⟨r, hr, e⟩ := sub_abs hp hq hle p100
  refine ⟨r, hr, ?_⟩
  have : (P : ℚ) / 2 ^ 52 = P / 2 ^ 53 + P / 2 ^ 53 := by ring
  rw [this]
  calc |r - A| ≤ |r - (P - q)| + |(P - q) - A| := abs_sub_le _ _ _
    _ ≤ _ := by
      apply add_le_add e
      rw [show P - q - A = -(q - (P - A)) by ring, abs_neg]
      exact rq'

/-- C134: the upper end from liquidity, price and the amount of X. -/
theorem C134_upper_liq {l rp x : F64} {L P X B : ℚ} (hl : l.Is L) (hp : rp.Is P) (hx : x.Is X) (sl : Sized 100 L)
    (sp : Sized 100 P) (sx : Tame 100 X) (sb : Sized 100 B) (hPB : P ≤ B) (hB : B ≤ P * 2 ^ 40) (hX : X = L * (1 / P - 1 / B)) :
    F64.eq (sub l (mul rp x)) F64.zero = false ∧ ∃ r, (rpbFromLRpX l rp x).Is r ∧ |r - B| ≤ B * (B / P) * 5 / 2 ^ 52 := by
  have pL := sl.pos
  have pP := sp.pos
  have pB := sb.pos
  have x0 := sx.nonneg
  have eD : L - P * X = L * P / B := by rw [hX]; field_simp; ring
  have pD : 0 < L - P * X := by rw [eD]; positivity
  have t : Tame 200 |P * X| := by
    rw [abs_of_nonneg (mul_nonneg pP.le x0)]
    exact (Tame.mul (Or.inr sp) sx).mono (by norm_num)
  obtain ⟨w, hw, rw1⟩ := (mul_rounded hp hx).rel_tame t (by norm_num)
  unfold Rel at rw1
  have w0 : 0 ≤ P * X := mul_nonneg pP.le x0
  rw [abs_of_nonneg w0] at rw1
  push_cast at rw1
  have rw2 : |w - P * X| ≤ L / 2 ^ 53 := rw1.trans (div_le_div_of_nonneg_right (by linarith) (by positivity))
  obtain ⟨w1, w2⟩ := abs_ineq rw1
  obtain ⟨w3, w4⟩ := abs_ineq rw2
  have g : P * X * 1 / 2 ^ 53 ≤ P * X := by
    rw [div_le_iff₀ (by positivity)]
    nlinarith
  have u0 : L / 2 ^ 53 ≤ L := div_le_self pL.le (by norm_num)
  have hle : |L - w| ≤ L := by rw [abs_le]; constructor <;> linarith
  have l100 : L ≤ 2 ^ 1000 := sl.2.trans (pow_le_pow_right₀ (by norm_num) (by norm_num))
  obtain ⟨d, hd, ed⟩ := sub_abs hl hw hle l100
  have hD : |d - (L - P * X)| ≤ 6 * L / 2 ^ 53 := by
    have := abs_sub_le d (L - w) (L - P * X)
    have e3 : |L - w - (L - P * X)| ≤ L / 2 ^ 53 := by
      rw [show L - w - (L - P * X) = -(w - P * X) by ring, abs_neg]; exact rw2
    have : |d - (L - P * X)| ≤ L / 2 ^ 53 + L / 2 ^ 53 := this.trans (add_le_add ed e3)
    refine this.trans ?_
    rw [← add_div]
    apply div_le_div_of_nonneg_right _ (by positivity); linarith
  have t2 : Tame 200 |L * P| := by
    rw [abs_of_pos (mul_pos pL pP)]
    exact Or.inr ((sl.mul sp).mono (by norm_num))
  obtain ⟨n, hn, rn⟩ := (mul_rounded hl hp).rel_tame t2 (by norm_num)
  have eB : L * P / (L - P * X) = B := by rw [eD]; field_simp
  have eS : L / (L - P * X) = B / P := by rw [eD]; field_simp
  obtain ⟨p', r, hr, e⟩ := quot_abs hn rn (mul_pos pL pP) hd hD pD (by linarith) (by
      rw [eD, div_mul_eq_mul_div, le_div_iff₀ pB]
      nlinarith) (by rw [eB]; exact sb.mono (by norm_num))
  rw [eB, eS] at e
  refine ⟨?_, r, hr, e⟩
  by_contra h
  rw [Bool.not_eq_false, eq_is hd zero_is] at h
  linarith

/-- C134: the lower end from both amounts and the upper end. -/
theorem C134_lower {x y rp rpb : F64} {X Y P A B L : ℚ} (hx : x.Is X) (hy : y.Is Y) (hp : rp.Is P) (hb : rpb.Is B)
    (sx : Sized 100 X) (sy : Sized 100 Y) (sp : Sized 100 P) (sb : Sized 100 B) (hL : 0 < L) (hPB : P < B)
    (hX : X = L * (1 / P - 1 / B)) (hY : Y = L * (P - A)) :
    (F64.eq (mul rpb x) F64.zero = false ∧ F64.eq (mul rp x) F64.zero = false) ∧
    ∃ r, (rpaFromXYRpRpb x y rp rpb).Is r ∧ |r - A| ≤ (P + Y / (P * X)) * 6 / 2 ^ 52 := by
  have pX := sx.pos
  have pY := sy.pos
  have pP := sp.pos
  have pB := sb.pos
  have nx := near_is hx pX.le
  have ny := near_is hy pY.le
  have bx := (near_is hb pB.le).mul nx (Or.inr (sb.mul sx)) (by norm_num) (by norm_num)
  have px := (near_is hp pP.le).mul nx (Or.inr (sp.mul sx)) (by norm_num) (by norm_num)
  have pos : ∀ {a : F64} {q : ℚ}, Near 1 a q → 0 < q → F64.eq a F64.zero = false := by
    intro a q h hq
    obtain ⟨r, hr, h0, _⟩ := h.pos hq
    by_contra h
    rw [Bool.not_eq_false, eq_is hr zero_is] at h
    linarith
  refine ⟨⟨pos bx (mul_pos pB pX), pos px (mul_pos pP pX)⟩, ?_⟩
  have t1 := ny.div bx (mul_pos pB pX) (Or.inr (sy.div (sb.mul sx))) (by norm_num) (by norm_num)
  have t2 := ny.div px (mul_pos pP pX) (Or.inr (sy.div (sp.mul sx))) (by norm_num) (by norm_num)
  obtain ⟨u, hu, u0, _⟩ := t1.val
  obtain ⟨v, hv, v0, _⟩ := t2.val
  have ru := t1.rel hu (by norm_num)
  have rv := t2.rel hv (by norm_num)
  unfold Rel at ru rv
  have U0 : 0 < Y / (B * X) := by positivity
  have V0 : 0 < Y / (P * X) := by positivity
  have UV : Y / (B * X) ≤ Y / (P * X) := by
    apply div_le_div_of_nonneg_left pY.le (by positivity)
    exact mul_le_mul_of_nonneg_right hPB.le pX.le
  have hA : A = Y / (B * X) + P - Y / (P * X) := by
    have hBP : 0 < B - P := by linarith
    have eX : X = L * (B - P) / (P * B) := by rw [hX]; field_simp
    rw [hY, eX]
    field_simp
    ring
  rw [hA]
  generalize Y / (B * X) = U at ru U0 UV
  have sV : Y / (P * X) ≤ 2 ^ 300 := ((sy.div (sp.mul sx)).mono (show 100 + (100 + 100) ≤ 300 by norm_num)).2
  generalize Y / (P * X) = V at rv V0 UV sV ⊢
  rw [abs_of_pos U0] at ru
  rw [abs_of_pos V0] at rv
  norm_num only at ru rv
  obtain ⟨u1, u2⟩ := abs_ineq ru
  obtain ⟨v1, v2⟩ := abs_ineq rv
  have hM : P + V ≤ 2 ^ 301 := by
    have h300 : P ≤ 2 ^ 300 := sp.2.trans (pow_le_pow_right₀ (by norm_num) (by norm_num))
    rcases le_total P V with h | h
    · exact pow_dbl sV (by linarith) le_rfl
    · exact pow_dbl h300 (by linarith) le_rfl
  have hM2 : (P + V) * 2 ≤ 2 ^ 1000 := pow_dbl hM le_rfl (by norm_num)
  have s1 : |u + P| ≤ (P + V) * (11 / 10) := by
    rw [abs_of_nonneg (by linarith)]
    linarith
  obtain ⟨s, hs⟩ := rounded_finite (add_rounded hu hp) (s1.trans (le_trans (by linarith) hM2))
  have es := (add_error hu hp hs).trans (div_le_div_of_nonneg_right s1 (by positivity))
  norm_num only at es
  obtain ⟨s2, s3⟩ := abs_ineq es
  have d1 : |s - v| ≤ (P + V) * (6 / 5) := by
    rw [abs_le]; constructor <;> linarith
  obtain ⟨r, hr, er⟩ := sub_abs hs hv d1 (le_trans (by linarith) hM2)
  refine ⟨r, hr, ?_⟩
  norm_num only at er ⊢
  obtain ⟨r1, r2⟩ := abs_ineq er
  rw [abs_le]
  constructor <;> linarith

/-- C134: the upper end from both amounts and the lower end. -/
theorem C134_upper {x y rp rpa : F64} {X Y P A B L : ℚ} (hx : x.Is X) (hy : y.Is Y) (hp : rp.Is P) (ha : rpa.Is A)
    (rp' : rp.Rep) (ra : rpa.Rep) (sx : Sized 100 X) (sy : Sized 100 Y) (sp : Sized 100 P) (sa : Sized 100 A) (sb : Sized 100 B)
    (hL : 0 < L) (hAP : A < P) (hPB : P ≤ B) (hB : B ≤ P * 2 ^ 40) (hX : X = L * (1 / P - 1 / B)) (hY : Y = L * (P - A)) :
    F64.eq (add (mul (mul (sub rpa rp) rp) x) y) F64.zero = false ∧
    ∃ r, (rpbFromXYRpRpa x y rp rpa).Is r ∧ |r - B| ≤ B * (B / P) * 5 / 2 ^ 52 := by
  have pX := sx.pos
  have pY := sy.pos
  have pP := sp.pos
  have pA := sa.pos
  have pB := sb.pos
  have eE : (A - P) * P * X + Y = Y * P / B := by rw [hX, hY]; field_simp; ring
  have pE : 0 < (A - P) * P * X + Y := by rw [eE]; positivity
  have hd0 := sub_tame hp ha sp sa rp' ra
  obtain ⟨d, hd, rd⟩ := (sub_rounded ha hp).rel_tame hd0 (by norm_num)
  have hd1 := rd.tame (by norm_num) hd0
  have t1 : Tame 254 |d * P| := by
    rw [abs_mul, abs_of_pos pP]
    exact (Tame.mul hd1 (Or.inr sp)).mono (by norm_num)
  obtain ⟨e, he, re⟩ := (mul_rounded hd hp).rel_tame t1 (by norm_num)
  have he1 := re.tame (by norm_num) t1
  have t2 : Tame 355 |e * X| := by
    rw [abs_mul, abs_of_pos pX]
    exact (Tame.mul he1 (Or.inr sx)).mono (by norm_num)
  obtain ⟨w, hw, rw1⟩ := (mul_rounded he hx).rel_tame t2 (by norm_num)
  have c1 : Rel 1 (d * P) ((A - P) * P) := by
    have := rd.scale P
    rwa [mul_comm P, mul_comm P] at this
  have c2 := c1.trans re (by norm_num) (by norm_num)
  have c3 : Rel 3 (e * X) ((A - P) * P * X) := by
    have := c2.scale X
    rwa [mul_comm X, mul_comm X] at this
  have c4 := c3.trans rw1 (by norm_num) (by norm_num)
  unfold Rel at c4
  have W0 : (A - P) * P * X ≤ 0 := mul_nonpos_of_nonpos_of_nonneg (mul_nonpos_of_nonpos_of_nonneg (by linarith) pP.le) pX.le
  rw [abs_of_nonpos W0] at c4
  generalize (A - P) * P * X = W at *
  norm_num only at c4
  obtain ⟨w1, w2⟩ := abs_ineq c4
  have hle : |w + Y| ≤ Y := by
    rw [abs_le]; constructor <;> linarith
  have y100 : Y ≤ 2 ^ 1000 := sy.2.trans (pow_le_pow_right₀ (by norm_num) (by norm_num))
  have hw' : (mul (mul (sub rpa rp) rp) x).Is w := hw
  obtain ⟨g, hg⟩ := rounded_finite (add_rounded hw' hy) (hle.trans y100)
  have eg := (add_error hw' hy hg).trans (div_le_div_of_nonneg_right hle (by positivity))
  norm_num only at eg
  obtain ⟨g1, g2⟩ := abs_ineq eg
  have hD : |g - (W + Y)| ≤ 6 * Y / 2 ^ 53 := by
    norm_num only
    rw [abs_le]; constructor <;> linarith
  have t3 : Tame 200 |P * Y| := by
    rw [abs_of_pos (mul_pos pP pY)]
    exact Or.inr ((sp.mul sy).mono (by norm_num))
  obtain ⟨n, hn, rn⟩ := (mul_rounded hp hy).rel_tame t3 (by norm_num)
  have eB : P * Y / (W + Y) = B := by rw [eE]; field_simp
  have eS : Y / (W + Y) = B / P := by rw [eE]; field_simp
  obtain ⟨p', r, hr, e⟩ := quot_abs hn rn (mul_pos pP pY) hg hD pE (by linarith) (by
      rw [eE, div_mul_eq_mul_div, le_div_iff₀ pB]
      nlinarith) (by rw [eB]; exact sb.mono (by norm_num))
  rw [eB, eS] at e
  refine ⟨?_, r, hr, e⟩
  by_contra h
  rw [Bool.not_eq_false, eq_is hg zero_is] at h
  linarith

end

/-! ### A case: liquidity 12 from root price 1 to 3, at 2, holds 2 of X and 12 of Y. -/

theorem whole_case {n : ℕ} (h1 : 1 ≤ n) (h2 : n ≤ 100) : (ofNat n).Is (n : ℚ) ∧ Sized 100 (n : ℚ) := by
  refine ⟨by have := ofNat_is (k := n) (by omega); exact_mod_cast this, ?_, ?_⟩
  · have : (1 : ℚ) ≤ n := by exact_mod_cast h1
    refine le_trans ?_ this
    rw [div_le_one (by positivity)]
    exact one_le_pow₀ (by norm_num)
  · have : (n : ℚ) ≤ 100 := by exact_mod_cast h2
    exact this.trans (by norm_num)

section
attribute [local irreducible] F64.unit limit

theorem rep_whole (n : ℕ) : (ofNat n).Rep := by
  unfold ofNat lit
  exact ofRatio_rep _ _ _

attribute [local irreducible] F64.ofNat

example : (∃ r, (rpaFromLRpY (ofNat 12) (ofNat 2) (ofNat 12)).Is r ∧ |r - 1| ≤ 2 / 2 ^ 52) ∧
    (∃ r, (rpbFromLRpX (ofNat 12) (ofNat 2) (ofNat 2)).Is r ∧ |r - 3| ≤ 3 * (3 / 2) * 5 / 2 ^ 52) ∧
    (∃ r, (rpaFromXYRpRpb (ofNat 2) (ofNat 12) (ofNat 2) (ofNat 3)).Is r ∧ |r - 1| ≤ (2 + 12 / (2 * 2)) * 6 / 2 ^ 52) ∧
    (∃ r, (rpbFromXYRpRpa (ofNat 2) (ofNat 12) (ofNat 2) (ofNat 1)).Is r ∧ |r - 3| ≤ 3 * (3 / 2) * 5 / 2 ^ 52) := by
  obtain ⟨i1, s1⟩ := whole_case (n := 1) (by norm_num) (by norm_num)
  obtain ⟨i2, s2⟩ := whole_case (n := 2) (by norm_num) (by norm_num)
  obtain ⟨i3, s3⟩ := whole_case (n := 3) (by norm_num) (by norm_num)
  obtain ⟨i12, s12⟩ := whole_case (n := 12) (by norm_num) (by norm_num)
  have r1 := rep_whole 1
  have r2 := rep_whole 2
  push_cast at i1 i2 i3 i12 s1 s2 s3 s12
  exact ⟨C134_lower_liq i12 i2 i12 s12 s2 (.inr s12) (by norm_num) (by norm_num) (by norm_num),
    (C134_upper_liq i12 i2 i2 s12 s2 (.inr s2) s3 (by norm_num) (by norm_num) (by norm_num)).2,
    (C134_lower (L := 12) i2 i12 i2 i3 s2 s12 s2 s3 (by norm_num) (by norm_num) (by norm_num) (by norm_num)).2,
    (C134_upper (L := 12) i2 i12 i2 i1 r2 r1 s2 s12 s2 s1 s3 (by norm_num) (by norm_num) (by norm_num) (by norm_num) (by norm_num)
      (by norm_num)).2⟩

end

end Hmm.Flt
