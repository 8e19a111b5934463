import Verif.Proofs.FloatOracleStage

/-
C97: what a swap pays when the oracle's price is worse for the trader than the pool's.
-/

namespace Hmm.Flt

open F64 Hmm.Flt.Pool

section
attribute [local irreducible] unit limit

/-- One round of a sale of X. -/
theorem oracle_moveX {m : LibM} (hm : m.Accurate) {p : Pool} {s : F64} {goal : Nat} {liq dx o : F64} {r : SwapWithinResult}
    {γ O L a b : ℚ} (h : p.swapWithinX m s goal liq dx o = .ok r) (hc : p.c.Is γ) (rc : p.c.Rep) (h0 : 0 ≤ γ) (h2 : γ ≤ 2)
    (h1 : γ ≠ 1) (ho : o.Is O) (ro : o.Rep) (so : Sized 50 O) (u : (stageOf liq s r).Priced L a b) :
    b ≤ a ∧ (stageOf liq s r).Pays (oracleY L a b O γ) (L * (a - b)) (L * a / |(1 : ℝ) - γ|) := by
  obtain ⟨hfill, dy, hd, hsend, hadj, -, -, -⟩ := swapWithinX_parts h
  obtain ⟨hle, -⟩ := fillX_parts hfill
  obtain ⟨il, ia, ib, ra, rb, sl, sa, sb⟩ := u
  simp only [stageOf] at il ia ib ra rb
  have hba := le_of_not_lt ia ib hle
  refine ⟨hba, ?_⟩
  obtain ⟨u, hu, eu⟩ := doneDyX_oracle hm hd il ia ib hc ho ra rb rc ro sl sa sb so h0 h2 h1 hba
  obtain ⟨v, hv, ev⟩ := dyPlain il ia ib sl sa sb ra rb hba
  obtain ⟨_, _, _, _, w0, w1⟩ := omc_near hc rc h0 h2 h1
  obtain ⟨S0, S1⟩ := scale_real sl sa
  have Lp : (0 : ℝ) < L := by exact_mod_cast sl.pos
  have ap : (0 : ℝ) < a := by exact_mod_cast sa.pos
  have bp : (0 : ℝ) < b := by exact_mod_cast sb.pos
  have Op : (0 : ℝ) < O := by exact_mod_cast so.pos
  have hba' : (b : ℝ) ≤ a := by exact_mod_cast hba
  obtain ⟨T0, T1⟩ := oracleY_range (c := γ) Lp.le Op bp hba' (by exact_mod_cast h0)
  have hC : (L : ℝ) * (a - b) ≤ L * a := by gcongr; linarith
  have C0 : 0 ≤ (L : ℝ) * (a - b) := mul_nonneg Lp.le (by linarith)
  obtain ⟨s', t', i1, i2, e1, e2⟩ := pay_and_hold hu hv eu (ev.trans (by gcongr; norm_num)) (S := L * a)
    (by rw [abs_of_nonneg T0]; exact T1.trans hC) (by rw [abs_of_nonneg C0]; exact hC) (scale_le S0 w0 w1)
    (S0.trans' (one_div_le_one_div_of_le (by positivity) (pow_le_pow_right₀ (by norm_num) (by norm_num)))) (scale_top S1 w0)
  refine ⟨-s', t', ?_, ?_, by push_cast; exact e1, e2⟩
  · simp only [stageOf]; rw [hsend, neg_neg]; exact i1
  · simp only [stageOf]; rw [hadj, hsend]; exact i2

/-- One round of a sale of Y. -/
theorem oracle_moveY {m : LibM} (hm : m.Accurate) {p : Pool} {s : F64} {goal : Nat} {liq dy o : F64} {r : SwapWithinResult}
    {γ O L a b : ℚ} (h : p.swapWithinY m s goal liq dy o = .ok r) (hc : p.c.Is γ) (rc : p.c.Rep) (h0 : 0 ≤ γ) (h2 : γ ≤ 2)
    (h1 : γ ≠ 1) (ho : o.Is O) (ro : o.Rep) (so : Sized 50 O) (u : (stageOf liq s r).Priced L a b) :
    a ≤ b ∧ (stageOf liq s r).Pays (oracleX L a b O γ) (L * (1 / a - 1 / b)) (L * (1 / a) / |(1 : ℝ) - γ|) := by
  obtain ⟨hfill, dx, hd, hsend, hadj, -, -, -⟩ := swapWithinY_parts h
  obtain ⟨hle, -⟩ := fillY_parts hfill
  obtain ⟨il, ia, ib, ra, rb, sl, sa, sb⟩ := u
  simp only [stageOf] at il ia ib ra rb
  have hab := le_of_not_lt ib ia hle
  refine ⟨hab, ?_⟩
  obtain ⟨u, hu, eu⟩ := doneDxY_oracle hm hd il ia ib hc ho ra rb rc ro sl sa sb so h0 h2 h1 hab
  obtain ⟨v, hv, ev⟩ := dxPlain il ia ib sl sa sb hab
  obtain ⟨_, _, _, _, w0, w1⟩ := omc_near hc rc h0 h2 h1
  obtain ⟨S0, S1⟩ := scale_real' sl sa
  have Lp : (0 : ℝ) < L := by exact_mod_cast sl.pos
  have ap : (0 : ℝ) < a := by exact_mod_cast sa.pos
  have bp : (0 : ℝ) < b := by exact_mod_cast sb.pos
  have Op : (0 : ℝ) < O := by exact_mod_cast so.pos
  have hab' : (a : ℝ) ≤ b := by exact_mod_cast hab
  obtain ⟨T0, T1⟩ := oracleX_range (c := γ) Lp.le Op ap hab' (by exact_mod_cast h0)
  have hC : (L : ℝ) * (1 / a - 1 / b) ≤ L * (1 / a) := by gcongr; linarith [one_div_pos.2 bp]
  have C0 : 0 ≤ (L : ℝ) * (1 / a - 1 / b) := mul_nonneg Lp.le (by linarith [one_div_le_one_div_of_le ap hab'])
  obtain ⟨s', t', i1, i2, e1, e2⟩ := pay_and_hold hu hv eu ev (S := L * (1 / a))
    (by rw [abs_of_nonneg T0]; exact T1.trans hC) (by rw [abs_of_nonneg C0]; exact hC) (scale_le S0 w0 w1)
    (S0.trans' (one_div_le_one_div_of_le (by positivity) (pow_le_pow_right₀ (by norm_num) (by norm_num)))) (scale_top S1 w0)
  refine ⟨-s', t', ?_, ?_, by push_cast; exact e1, e2⟩
  · simp only [stageOf]; rw [hsend, neg_neg]; exact i1
  · simp only [stageOf]; rw [hadj, hsend]; exact i2

/-- One round of a sale of Y in a pool with `c = 1`. -/
theorem oracle_moveY_one {m : LibM} (hm : m.Accurate) {p : Pool} {s : F64} {goal : Nat} {liq dy o : F64} {r : SwapWithinResult}
    {O L a b : ℚ} (h : p.swapWithinY m s goal liq dy o = .ok r) (hc : p.c.Is 1) (ho : o.Is O) (ro : o.Rep) (so : Sized 24 O)
    (u : (stageOf liq s r).Priced L a b) (sa' : Sized 24 a) :
    a ≤ b ∧ (stageOf liq s r).Pays (oracleX L a b O 1) (L * (1 / a - 1 / b)) (L * (1 / a)) := by
  obtain ⟨hfill, dx, hd, hsend, hadj, -, -, -⟩ := swapWithinY_parts h
  obtain ⟨hle, -⟩ := fillY_parts hfill
  obtain ⟨il, ia, ib, ra, rb, sl, sa, sb⟩ := u
  simp only [stageOf] at il ia ib ra rb
  have hab := le_of_not_lt ib ia hle
  refine ⟨hab, ?_⟩
  obtain ⟨u, hu, eu⟩ := doneDxY_one hm hd il ia ib hc ho rb ro sl sa' sb so hab
  obtain ⟨v, hv, ev⟩ := dxPlain il ia ib sl sa sb hab
  obtain ⟨S0, S1⟩ := scale_real' sl sa
  have Lp : (0 : ℝ) < L := by exact_mod_cast sl.pos
  have ap : (0 : ℝ) < a := by exact_mod_cast sa.pos
  have bp : (0 : ℝ) < b := by exact_mod_cast sb.pos
  have Op : (0 : ℝ) < O := by exact_mod_cast so.pos
  have hab' : (a : ℝ) ≤ b := by exact_mod_cast hab
  obtain ⟨T0, T1⟩ := oracleX_range (c := 1) Lp.le Op ap hab' zero_le_one
  have hC : (L : ℝ) * (1 / a - 1 / b) ≤ L * (1 / a) := by gcongr; linarith [one_div_pos.2 bp]
  have C0 : 0 ≤ (L : ℝ) * (1 / a - 1 / b) := mul_nonneg Lp.le (by linarith [one_div_le_one_div_of_le ap hab'])
  obtain ⟨s', t', i1, i2, e1, e2⟩ := pay_and_hold hu hv eu ev (S := L * (1 / a))
    (by rw [abs_of_nonneg T0]; exact T1.trans hC) (by rw [abs_of_nonneg C0]; exact hC) le_rfl
    (S0.trans' (one_div_le_one_div_of_le (by positivity) (pow_le_pow_right₀ (by norm_num) (by norm_num))))
    (S1.trans (pow_le_pow_right₀ (by norm_num) (by norm_num)))
  refine ⟨-s', t', ?_, ?_, by push_cast; exact e1, e2⟩
  · simp only [stageOf]; rw [hsend, neg_neg]; exact i1
  · simp only [stageOf]; rw [hadj, hsend]; exact i2

/-- One round of a sale of X in a pool with `c = 1`: the part of the move above the oracle's price counts against the trader. -/
theorem oracle_moveX_one {m : LibM} (hm : m.Accurate) {p : Pool} {s : F64} {goal : Nat} {liq dx o : F64} {r : SwapWithinResult}
    {O L a b : ℚ} (h : p.swapWithinX m s goal liq dx o = .ok r) (hc : p.c.Is 1) (ho : o.Is O) (ro : o.Rep) (so : Sized 24 O)
    (u : (stageOf liq s r).Priced L a b) (sa' : Sized 24 a) :
    b ≤ a ∧ (stageOf liq s r).Pays (oracleY L (Max.max (b : ℝ) (Min.min (a : ℝ) O)) b O 1 -
      oracleY L a (Max.max (b : ℝ) (Min.min (a : ℝ) O)) O 1) (L * (a - b)) (L * a) ∧ lt F64.zero (stageOf liq s r).send = false := by
  obtain ⟨hfill, dy, hd, hsend, hadj, -, hneg, -⟩ := swapWithinX_parts h
  obtain ⟨hle, -⟩ := fillX_parts hfill
  obtain ⟨il, ia, ib, ra, rb, sl, sa, sb⟩ := u
  simp only [stageOf] at il ia ib ra rb
  have hba := le_of_not_lt ia ib hle
  refine ⟨hba, ?_, hneg⟩
  obtain ⟨u, hu, eu⟩ := doneDyX_one hm hd il ia ib hc ho ra rb ro sl sa' sb so hba
  obtain ⟨v, hv, ev⟩ := dyPlain il ia ib sl sa sb ra rb hba
  obtain ⟨S0, S1⟩ := scale_real sl sa
  have Lp : (0 : ℝ) < L := by exact_mod_cast sl.pos
  have ap : (0 : ℝ) < a := by exact_mod_cast sa.pos
  have bp : (0 : ℝ) < b := by exact_mod_cast sb.pos
  have Op : (0 : ℝ) < O := by exact_mod_cast so.pos
  have hba' : (b : ℝ) ≤ a := by exact_mod_cast hba
  have k0 : (b : ℝ) ≤ Max.max (b : ℝ) (Min.min (a : ℝ) O) := le_max_left _ _
  have k1 : Max.max (b : ℝ) (Min.min (a : ℝ) O) ≤ a := max_le hba' (min_le_left _ _)
  generalize Max.max (b : ℝ) (Min.min (a : ℝ) O) = k at *
  obtain ⟨T0, T1⟩ := oracleY_range (c := 1) Lp.le Op bp k0 zero_le_one
  obtain ⟨T2, T3⟩ := oracleY_range (c := 1) Lp.le Op (bp.trans_le k0) k1 zero_le_one
  have hC : (L : ℝ) * (a - b) ≤ L * a := by gcongr; linarith
  have hC1 : (L : ℝ) * (k - b) ≤ L * a := by gcongr; linarith
  have hC2 : (L : ℝ) * (a - k) ≤ L * a := by gcongr; linarith
  have C0 : 0 ≤ (L : ℝ) * (a - b) := mul_nonneg Lp.le (by linarith)
  obtain ⟨s', t', i1, i2, e1, e2⟩ := pay_and_hold hu hv eu (ev.trans (by gcongr; norm_num)) (S := L * a)
    (by rw [_root_.abs_le]; constructor <;> linarith) (by rw [abs_of_nonneg C0]; exact hC) le_rfl
    (S0.trans' (one_div_le_one_div_of_le (by positivity) (pow_le_pow_right₀ (by norm_num) (by norm_num))))
    (S1.trans (pow_le_pow_right₀ (by norm_num) (by norm_num)))
  refine ⟨-s', t', ?_, ?_, by push_cast; exact e1, e2⟩
  · simp only [stageOf]; rw [hsend, neg_neg]; exact i1
  · simp only [stageOf]; rw [hadj, hsend]; exact i2

/-- C97.  A sale of X in a pool with `0 ≤ c ≤ 2`, `c ≠ 1`, with an accurate math library: every stage pays the oracle's
integral and puts the rest of the constant-product amount into the pot. -/
theorem sell_x_oracle {m : LibM} (hm : m.Accurate) {p p' : Pool} {n : Nat} {dx o : F64} {out : SwapOutput}
    (h : p.executeSwapFromX m n dx o = .ok (p', out)) :
    ∃ ts, BookedX m p p' out ts ∧ ts.length ≤ n ∧ ∀ γ O, p.c.Is γ → p.c.Rep → 0 ≤ γ → γ ≤ 2 → γ ≠ 1 → o.Is O → o.Rep →
      Sized 50 O → ∀ t ∈ ts, ∀ L a b, t.Priced L a b →
        b ≤ a ∧ t.Pays (oracleY L a b O γ) (L * (a - b)) (L * a / |(1 : ℝ) - γ|) := by
  unfold executeSwapFromX at h
  rw [ite_eq_ok] at h
  rcases h with ⟨_, h⟩ | ⟨_, h⟩
  · exact absurd h (by simp [rpanic])
  obtain ⟨ts, w, hlen⟩ := loopX_walk rfl h
  refine ⟨ts, ⟨w.recv, w.fee, w.send, w.adj, w.x, w.y, w.xFee, w.yAdj, w.yFee, w.xAdj, w.growth, w.price, w.endPrice,
    w.positive⟩, hlen, ?_⟩
  intro γ O hc rc h0 h2 h1 ho ro so t ht L a b u
  obtain ⟨q, g, d, r, _, e1, e2, e3⟩ := w.move t ht
  rw [e3] at u ⊢
  rw [← e1] at hc rc
  exact oracle_moveX hm e2 hc rc h0 h2 h1 ho ro so u

theorem sell_y_oracle {m : LibM} (hm : m.Accurate) {p p' : Pool} {n : Nat} {dy o : F64} {out : SwapOutput}
    (h : p.executeSwapFromY m n dy o = .ok (p', out)) :
    ∃ ts, BookedY m p p' out ts ∧ ts.length ≤ n ∧ ∀ γ O, p.c.Is γ → p.c.Rep → 0 ≤ γ → γ ≤ 2 → o.Is O → o.Rep →
      (γ ≠ 1 → Sized 50 O → ∀ t ∈ ts, ∀ L a b, t.Priced L a b →
        a ≤ b ∧ t.Pays (oracleX L a b O γ) (L * (1 / a - 1 / b)) (L * (1 / a) / |(1 : ℝ) - γ|)) ∧
      (γ = 1 → Sized 24 O → ∀ t ∈ ts, ∀ L a b, t.Priced L a b → Sized 24 a →
        a ≤ b ∧ t.Pays (oracleX L a b O γ) (L * (1 / a - 1 / b)) (L * (1 / a))) := by
  unfold executeSwapFromY at h
  rw [ite_eq_ok] at h
  rcases h with ⟨_, h⟩ | ⟨_, h⟩
  · exact absurd h (by simp [rpanic])
  obtain ⟨ts, w, hlen⟩ := loopY_walk rfl h
  refine ⟨ts, ⟨w.recv, w.fee, w.send, w.adj, w.y, w.x, w.yFee, w.xAdj, w.xFee, w.yAdj, w.growth, w.price, w.endPrice,
    w.positive⟩, hlen, ?_⟩
  intro γ O hc rc h0 h2 ho ro
  constructor
  · intro h1 so t ht L a b u
    obtain ⟨q, g, d, r, _, e1, e2, e3⟩ := w.move t ht
    rw [e3] at u ⊢
    rw [← e1] at hc rc
    exact oracle_moveY hm e2 hc rc h0 h2 h1 ho ro so u
  · intro h1 so t ht L a b u sa
    obtain ⟨q, g, d, r, _, e1, e2, e3⟩ := w.move t ht
    rw [e3] at u ⊢
    rw [← e1, h1] at hc
    rw [h1, Rat.cast_one]
    exact oracle_moveY_one hm e2 hc ho ro so u sa

/-- Sales of X with `c = 1`: the sign of the oracle's part is wrong. -/
theorem sell_x_one {m : LibM} (hm : m.Accurate) {p p' : Pool} {n : Nat} {dx o : F64} {out : SwapOutput}
    (h : p.executeSwapFromX m n dx o = .ok (p', out)) :
    ∃ ts, BookedX m p p' out ts ∧ ts.length ≤ n ∧ ∀ O, p.c.Is 1 → o.Is O → o.Rep → Sized 24 O →
      ∀ t ∈ ts, ∀ L a b, t.Priced L a b → Sized 24 a → b ≤ a ∧
        t.Pays (oracleY L (Max.max (b : ℝ) (Min.min (a : ℝ) O)) b O 1 - oracleY L a (Max.max (b : ℝ) (Min.min (a : ℝ) O)) O 1)
          (L * (a - b)) (L * a) ∧
        (O ≤ b → oracleY L a b O 1 ≤ L * a / 2 ^ 41) := by
  unfold executeSwapFromX at h
  rw [ite_eq_ok] at h
  rcases h with ⟨_, h⟩ | ⟨_, h⟩
  · exact absurd h (by simp [rpanic])
  obtain ⟨ts, w, hlen⟩ := loopX_walk rfl h
  refine ⟨ts, ⟨w.recv, w.fee, w.send, w.adj, w.x, w.y, w.xFee, w.yAdj, w.yFee, w.xAdj, w.growth, w.price, w.endPrice,
    w.positive⟩, hlen, ?_⟩
  intro O hc ho ro so t ht L a b u sa
  obtain ⟨q, g, d, r, _, e1, e2, e3⟩ := w.move t ht
  have u' := u
  rw [e3] at u ⊢
  rw [← e1] at hc
  obtain ⟨k1, k2, k3⟩ := oracle_moveX_one hm e2 hc ho ro so u sa
  refine ⟨k1, k2, ?_⟩
  intro hOb
  have hba' : (b : ℝ) ≤ a := by exact_mod_cast k1
  have hOb' : (O : ℝ) ≤ b := by exact_mod_cast hOb
  rw [min_eq_right (hOb'.trans hba'), max_eq_left hOb'] at k2
  obtain ⟨s, hh, i1, _, e, _⟩ := k2
  have hs : 0 ≤ s := by
    by_contra hcon
    rw [(lt_is zero_is i1).2 (by linarith)] at k3
    cases k3
  have hs' : (0 : ℝ) ≤ s := by exact_mod_cast hs
  have z : oracleY L b b O 1 = 0 := by unfold oracleY; rw [intervalIntegral.integral_same, mul_zero]
  rw [z, zero_sub] at e
  have e' := (_root_.abs_le.1 e).2
  have Lp : (0 : ℝ) < L := by exact_mod_cast u.sl.pos
  have ap : (0 : ℝ) < a := by exact_mod_cast sa.pos
  have bp : (0 : ℝ) < b := by exact_mod_cast u.sb.pos
  have Op : (0 : ℝ) < O := by exact_mod_cast so.pos
  have T0 := (oracleY_range (c := 1) Lp.le Op bp hba' zero_le_one).1
  have h3 : oracleY L a b O 1 * (1 / 2) ≤ oracleY L a b O 1 * (1 - 1 / 10 ^ 12) := mul_le_mul_of_nonneg_left (by norm_num) T0
  have h4 : (L : ℝ) * a / 2 ^ 41 = 2 * (L * a / 2 ^ 42) := by ring
  linarith

/-- Where the oracle's price is no worse for the trader than the pool's, and in a pool with `c = 0`, nothing is held back, with
any library. -/
theorem sell_x_untouched {m : LibM} {p p' : Pool} {n : Nat} {dx o : F64} {out : SwapOutput}
    (h : p.executeSwapFromX m n dx o = .ok (p', out)) : ∃ ts, BookedX m p p' out ts ∧ ts.length ≤ n ∧
      ∀ t ∈ ts, t.send.Finite → (p.c.Is 0 ∨ ∃ a O, t.start.Is a ∧ o.Is O ∧ a ≤ O) → t.adj.Is 0 := by
  unfold executeSwapFromX at h
  rw [ite_eq_ok] at h
  rcases h with ⟨_, h⟩ | ⟨_, h⟩
  · exact absurd h (by simp [rpanic])
  obtain ⟨ts, w, hlen⟩ := loopX_walk rfl h
  refine ⟨ts, ⟨w.recv, w.fee, w.send, w.adj, w.x, w.y, w.xFee, w.yAdj, w.yFee, w.xAdj, w.growth, w.price, w.endPrice,
    w.positive⟩, hlen, ?_⟩
  intro t ht hf hcond
  obtain ⟨q, g, d, r, _, e1, e2, e3⟩ := w.move t ht
  obtain ⟨-, dy, hd, hsend, hadj, -, -, -⟩ := swapWithinX_parts e2
  have hc : (F64.eq q.c F64.zero || le t.start o) = true := by
    rw [Bool.or_eq_true]
    rcases hcond with hc | ⟨a, O, ha, hO, hle⟩
    · left; rw [e1]; exact (eq_is hc zero_is).2 rfl
    · right; exact (le_is ha hO).2 hle
  unfold Pool.doneDyX at hd
  rw [hc, if_pos rfl, ok_inj] at hd
  rw [e3] at hf ⊢
  simp only [stageOf] at hf ⊢
  rw [hadj, hd, ← hsend]
  obtain ⟨z, hz⟩ := hf
  have := (sub_rounded hz hz).exact (d := F64.zero) (by rw [sub_self]; exact zero_is) zero_rep
  rwa [sub_self] at this

theorem sell_y_untouched {m : LibM} {p p' : Pool} {n : Nat} {dy o : F64} {out : SwapOutput}
    (h : p.executeSwapFromY m n dy o = .ok (p', out)) : ∃ ts, BookedY m p p' out ts ∧ ts.length ≤ n ∧
      ∀ t ∈ ts, t.send.Finite → (p.c.Is 0 ∨ ∃ a O, t.start.Is a ∧ o.Is O ∧ O ≤ a) → t.adj.Is 0 := by
  unfold executeSwapFromY at h
  rw [ite_eq_ok] at h
  rcases h with ⟨_, h⟩ | ⟨_, h⟩
  · exact absurd h (by simp [rpanic])
  obtain ⟨ts, w, hlen⟩ := loopY_walk rfl h
  refine ⟨ts, ⟨w.recv, w.fee, w.send, w.adj, w.y, w.x, w.yFee, w.xAdj, w.xFee, w.yAdj, w.growth, w.price, w.endPrice,
    w.positive⟩, hlen, ?_⟩
  intro t ht hf hcond
  obtain ⟨q, g, d, r, _, e1, e2, e3⟩ := w.move t ht
  obtain ⟨-, dx, hd, hsend, hadj, -, -, -⟩ := swapWithinY_parts e2
  have hc : (F64.eq q.c F64.zero || le o t.start) = true := by
    rw [Bool.or_eq_true]
    rcases hcond with hc | ⟨a, O, ha, hO, hle⟩
    · left; rw [e1]; exact (eq_is hc zero_is).2 rfl
    · right; exact (le_is hO ha).2 hle
  unfold Pool.doneDxY at hd
  rw [hc, if_pos rfl, ok_inj] at hd
  rw [e3] at hf ⊢
  simp only [stageOf] at hf ⊢
  rw [hadj, hd, ← hsend]
  obtain ⟨z, hz⟩ := hf
  have := (sub_rounded hz hz).exact (d := F64.zero) (by rw [sub_self]; exact zero_is) zero_rep
  rwa [sub_self] at this

/-- The seller's Y lies between what the oracle's price `O^2` and what the pool's curve gives for the X that enters the
reserve. -/
theorem x_price_between {t : Stage} {L a b O γ : ℚ} (u : t.Priced L a b) (hO : 0 < O) (hOb : O ≤ b) (hba : b ≤ a) (h0 : 0 ≤ γ)
    (h2 : γ ≤ 2) {E : ℝ} (hp : t.Pays (oracleY L a b O γ) (L * (a - b)) E) : ∃ s : ℚ, t.send.Is (-s) ∧
      L * (1 / b - 1 / a) * O ^ 2 * (1 - 1 / 10 ^ 12) - E / 2 ^ 42 ≤ (s : ℝ) ∧ (s : ℝ) ≤ L * (a - b) * (1 - 1 / 10 ^ 12) + E / 2 ^ 42 := by
  obtain ⟨s, _, i, _, e, _⟩ := hp
  refine ⟨s, i, ?_⟩
  have Lp : (0 : ℝ) < L := by exact_mod_cast u.sl.pos
  have bp : (0 : ℝ) < b := by exact_mod_cast u.sb.pos
  have Op : (0 : ℝ) < O := by exact_mod_cast hO
  obtain ⟨b0, b1⟩ := oracleY_between (a := a) (c := γ) Lp.le Op bp (by exact_mod_cast hba) (by exact_mod_cast h0) (by exact_mod_cast h2)
    (by exact_mod_cast hOb)
  have e' := _root_.abs_le.1 e
  have hW : (0 : ℝ) ≤ 1 - 1 / 10 ^ 12 := by norm_num
  have m0 := mul_le_mul_of_nonneg_right b0 hW
  have m1 := mul_le_mul_of_nonneg_right b1 hW
  generalize (1 : ℝ) - 1 / 10 ^ 12 = W at *
  constructor <;> linarith [e'.1, e'.2]

theorem y_price_between {t : Stage} {L a b O γ : ℚ} (u : t.Priced L a b) (hbO : b ≤ O) (hab : a ≤ b) (h0 : 0 ≤ γ)
    (h2 : γ ≤ 2) {E : ℝ} (hp : t.Pays (oracleX L a b O γ) (L * (1 / a - 1 / b)) E) : ∃ s : ℚ, t.send.Is (-s) ∧
      L * (b - a) / O ^ 2 * (1 - 1 / 10 ^ 12) - E / 2 ^ 42 ≤ (s : ℝ) ∧
      (s : ℝ) ≤ L * (1 / a - 1 / b) * (1 - 1 / 10 ^ 12) + E / 2 ^ 42 := by
  obtain ⟨s, _, i, _, e, _⟩ := hp
  refine ⟨s, i, ?_⟩
  have Lp : (0 : ℝ) < L := by exact_mod_cast u.sl.pos
  have ap : (0 : ℝ) < a := by exact_mod_cast u.sa.pos
  obtain ⟨b0, b1⟩ := oracleX_between (b := b) (c := γ) (o := O) Lp.le ap (by exact_mod_cast hab) (by exact_mod_cast h0) (by exact_mod_cast h2)
    (by exact_mod_cast hbO)
  have e' := _root_.abs_le.1 e
  have hW : (0 : ℝ) ≤ 1 - 1 / 10 ^ 12 := by norm_num
  have m0 := mul_le_mul_of_nonneg_right b0 hW
  have m1 := mul_le_mul_of_nonneg_right b1 hW
  generalize (1 : ℝ) - 1 / 10 ^ 12 = W at *
  constructor <;> linarith [e'.1, e'.2]

end

end Hmm.Flt
