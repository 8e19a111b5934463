import Verif.Spec.Reach
import Verif.Proofs.Positions
import Verif.Proofs.SwapLoop
import Verif.Props.Ticks

/-
Invariants of histories of the in-memory pool.
-/

namespace Hmm.Decimal

theorem zero_of_nonneg {a : Decimal} (h : 0 ≤ a.toRat) (hn : a.negative = true) : a.value = 0 := by
  by_contra h0
  exact absurd (isNegative_toRat.1 (isNegative_iff.2 ⟨hn, h0⟩)) (not_lt.2 h)

theorem nonneg_mul {a b c : Decimal} (h : a.mul b = .ok c) (ha : 0 ≤ a.toRat) (hb : 0 ≤ b.toRat) :
    0 ≤ c.toRat := by
  obtain ⟨h1, h2, h3⟩ := mul_mag h
  obtain ⟨_, _, rfl⟩ := mul_ok.1 h
  cases hna : a.negative with
  | true => rw [toRat_zero (by simp [zero_of_nonneg ha hna])]
  | false =>
    cases hnb : b.negative with
    | true => rw [toRat_zero (by simp [zero_of_nonneg hb hnb])]
    | false => rw [toRat_of_nonneg (by simp)]; exact mag_nonneg _

theorem nonneg_div {a b c : Decimal} (h : a.div b = .ok c) (ha : 0 ≤ a.toRat) (hb : 0 ≤ b.toRat) :
    0 ≤ c.toRat := by
  obtain ⟨_, _, h0, rfl⟩ := div_ok.1 h
  have hnb : b.negative = false := by
    cases hnb : b.negative with
    | true => exact absurd (zero_of_nonneg hb hnb) h0
    | false => rfl
  cases hna : a.negative with
  | true => rw [toRat_zero (by simp [zero_of_nonneg ha hna])]
  | false => rw [hnb, toRat_of_nonneg (by simp)]; exact mag_nonneg _

theorem min_cases {a b c : Decimal} (h : a.min b = .ok c) :
    (c = a ∧ a.toRat ≤ b.toRat) ∨ (c = b ∧ b.toRat ≤ a.toRat) := by
  unfold Decimal.min at h
  rw [bind_ok] at h
  obtain ⟨r, h1, h⟩ := h
  rw [unwrap_ok] at h1
  have := (lte_le h1).2
  rw [ite_ok] at h
  rcases h with ⟨hr, h⟩ | ⟨hr, h⟩
  · cases h; exact .inl ⟨rfl, this.1 hr⟩
  · cases h; exact .inr ⟨rfl, this.2 (by simpa using hr)⟩

theorem max_cases {a b c : Decimal} (h : a.max b = .ok c) :
    (c = a ∧ b.toRat ≤ a.toRat) ∨ (c = b ∧ a.toRat ≤ b.toRat) := by
  unfold Decimal.max at h
  rw [bind_ok] at h
  obtain ⟨r, h1, h⟩ := h
  rw [unwrap_ok] at h1
  have := (gte_le h1).2
  rw [ite_ok] at h
  rcases h with ⟨hr, h⟩ | ⟨hr, h⟩
  · cases h; exact .inl ⟨rfl, this.1 hr⟩
  · cases h; exact .inr ⟨rfl, this.2 (by simpa using hr)⟩

end Hmm.Decimal

namespace Hmm.Pool

open Decimal PoolMath

/-! ### Amounts of a deposit or withdrawal -/

/-- The clamped price lies in the range. -/
theorem clamp {rp a b m c : Decimal} (hab : a.toRat ≤ b.toRat) (h1 : rp.min b = .ok m) (h2 : m.max a = .ok c) :
    a.toRat ≤ c.toRat ∧ c.toRat ≤ b.toRat := by
  rcases min_cases h1 with ⟨rfl, h⟩ | ⟨rfl, h⟩ <;> rcases max_cases h2 with ⟨rfl, h'⟩ | ⟨rfl, h'⟩
  all_goals first | exact ⟨h', h⟩ | exact ⟨le_refl _, hab⟩ | exact ⟨h', le_refl _⟩

theorem xFrom_nonneg {l rp a b c : Decimal} (h : xFromLRpRng l rp a b = .ok c) (hl : 0 ≤ l.toRat)
    (ha : 0 ≤ a.toRat) (hab : a.toRat ≤ b.toRat) : 0 ≤ c.toRat := by
  unfold xFromLRpRng at h
  rw [ite_ok] at h; rcases h with ⟨_, h⟩ | ⟨_, h⟩; · simp [rpanic] at h
  steps at h
  obtain ⟨m, h1, q, h2, d, h3, e, h4, f, h5, h6⟩ := h
  obtain ⟨g1, g2⟩ := clamp hab h1 h2
  refine nonneg_div h6 (nonneg_mul h5 hl ?_) (nonneg_mul h4 (by linarith) (by linarith))
  rw [sub_toRat h3]; linarith

theorem yFrom_nonneg {l rp a b c : Decimal} (h : yFromLRpRng l rp a b = .ok c) (hl : 0 ≤ l.toRat) :
    0 ≤ c.toRat := by
  unfold yFromLRpRng at h
  rw [bind_ok] at h; obtain ⟨m, h1, h⟩ := h
  rw [bind_ok] at h; obtain ⟨q, h2, h⟩ := h
  rw [bind_ok] at h; obtain ⟨d, h3, h⟩ := h
  rw [ite_ok] at h; rcases h with ⟨_, h⟩ | ⟨h4, h⟩; · simp [rpanic] at h
  rw [Bool.not_eq_true] at h4
  exact nonneg_mul h hl (not_isNegative.1 h4)

theorem tickToRp_pos {t : Nat} {c : Decimal} (h : tickToRp t = .ok c) : c.Amount 12 ∧ 0 < c.toRat := by
  obtain ⟨c', h1, h2, h3⟩ := C21_returns (tickToRp_lt h)
  rw [h] at h1; cases h1
  exact ⟨.of_scale h2 h3, h3⟩

/-- What comes in with a deposit is not negative. -/
theorem deposit_amounts {p p' : Pool} {user : Nat} {x y rpa rpb : Decimal} {r : Receipt}
    (h : p.deposit user x y rpa rpb = .ok (p', r)) : 0 ≤ r.x.toRat ∧ 0 ≤ r.y.toRat := by
  obtain ⟨lower, upper, a, b, liq, p1, p2, px, py, _, _, _, _, _, _, h1, h2, h3, h4, h5, h6, _, h7, _⟩ :=
    deposit_ok h
  exact ⟨xFrom_nonneg h6 h5 (tickToRp_pos h2).2.le (C23_increasing h1 h2 h3).le, yFrom_nonneg h7 h5⟩

/-! ### Reserves and pots -/

/-- All reserves and pots are non-negative. -/
structure Funds (p : Pool) : Prop where
  x : 0 ≤ p.x.toRat
  y : 0 ≤ p.y.toRat
  xAdj : 0 ≤ p.xAdj.toRat
  yAdj : 0 ≤ p.yAdj.toRat
  xFee : 0 ≤ p.xFee.toRat
  yFee : 0 ≤ p.yFee.toRat

theorem payFees_funds {p p' : Pool} {f : Fees} (h : p.payFees f = .ok p') :
    0 ≤ p'.xFee.toRat ∧ 0 ≤ p'.yFee.toRat ∧ 0 ≤ p'.xAdj.toRat ∧ 0 ≤ p'.yAdj.toRat := by
  obtain ⟨xf, xa, yf, ya, g1, g2, g3, g4, h1, h2, h3, h4, rfl⟩ := payFees_ok h
  have := (lt_le g1).2.2 rfl
  have := (lt_le g2).2.2 rfl
  have := (lt_le g3).2.2 rfl
  have := (lt_le g4).2.2 rfl
  simp only [sub_toRat h1, sub_toRat h2, sub_toRat h3, sub_toRat h4]
  refine ⟨?_, ?_, ?_, ?_⟩ <;> linarith

theorem Funds.deposit {p p' : Pool} (hp : Funds p) {user : Nat} {x y rpa rpb : Decimal} {r : Receipt}
    (h : p.deposit user x y rpa rpb = .ok (p', r)) : Funds p' := by
  obtain ⟨hx, hy⟩ := deposit_amounts h
  obtain ⟨lower, upper, a, b, liq, p1, p2, px, py, _, _, _, _, _, _, _, _, _, _, _, _, _, _, _, h1, _, _, h2, h3,
    h4, rfl⟩ := deposit_ok h
  obtain ⟨f1, f2, f3, f4⟩ := payFees_funds h4
  have e := setPosition_frame h1
  refine ⟨?_, ?_, f3, f4, f1, f2⟩
  · simp only [add_toRat h2]; rw [e]; exact add_nonneg hp.x hx
  · simp only [add_toRat h3]; rw [e]; exact add_nonneg hp.y hy

theorem Funds.withdraw {p p' : Pool} {user : Nat} {liq rpa rpb : Decimal} {r : Receipt}
    (h : p.withdraw user liq rpa rpb = .ok (p', r)) : Funds p' := by
  obtain ⟨lower, upper, a, b, p1, p2, x0, y0, adj, px, py, _, _, _, _, _, _, _, _, _, _, _, _, _, _, h1, h2, h3, h4,
    h5, rfl⟩ := withdraw_ok h
  obtain ⟨f1, f2, f3, f4⟩ := payFees_funds h5
  have := (lt_le h1).2.2 rfl
  have := (lt_le h2).2.2 rfl
  refine ⟨?_, ?_, f3, f4, f1, f2⟩
  · simp only [sub_toRat h3]; linarith
  · simp only [sub_toRat h4]; linarith

theorem Funds.same {p p' : Pool} (hp : Funds p) (h : SameBooks p p') : Funds p' :=
  ⟨h.x ▸ hp.x, h.y ▸ hp.y, h.xAdj ▸ hp.xAdj, h.yAdj ▸ hp.yAdj, h.xFee ▸ hp.xFee, h.yFee ▸ hp.yFee⟩

theorem Funds.cross {p p' : Pool} (hp : Funds p) {t : Nat} {b : Bool} (h : p.crossTick t b = .ok p') :
    Funds p' := by
  obtain ⟨a1, a2, a3, a4, a5, a6, _⟩ := crossTick_frame h
  exact ⟨a1 ▸ hp.x, a2 ▸ hp.y, a3 ▸ hp.xAdj, a4 ▸ hp.yAdj, a5 ▸ hp.xFee, a6 ▸ hp.yFee⟩

theorem Funds.stepX {fl : FloatEnv} {dx o : Decimal} {p p' : Pool} {a a' : SwapAcc} {g : Nat}
    (hp : Funds p) (hs : Pool.stepX fl dx o p a g = .ok (p', a')) : Funds p' := by
  obtain ⟨rem, r, ysum, newY, c1, chk, rs, newX, xFee, yAdj, fees, p1, _, h2, _, _, h5, _, _, _, _, _,
    _, _, _, _, _, h14, h15, h16, _, hp1, h18⟩ := stepX_ok hs
  obtain ⟨_, _, _, _, _, _, _, _, _, _, g1, _, g2, g3, _⟩ := swapWithinX_ok h2
  have key : Funds p1 := by
    rw [hp1]
    exact ⟨by simp only [add_toRat h14]; exact add_nonneg hp.x g1, not_isNegative.1 h5, hp.xAdj,
      by simp only [add_toRat h16]; exact add_nonneg hp.yAdj g2,
      by simp only [add_toRat h15]; exact add_nonneg hp.xFee g3, hp.yFee⟩
  rcases h18 with ⟨_, _, _, hc⟩ | ⟨_, _, _, rfl⟩ | ⟨_, rfl⟩
  · exact key.cross hc
  · exact key
  · exact key

theorem Funds.stepY {fl : FloatEnv} {dy o : Decimal} {p p' : Pool} {a a' : SwapAcc} {g : Nat}
    (hp : Funds p) (hs : Pool.stepY fl dy o p a g = .ok (p', a')) : Funds p' := by
  obtain ⟨rem, r, xsum, newX, c1, chk, rs, newY, yFee, xAdj, fees, p1, _, h2, _, _, h5, _, _, _, _, _,
    _, _, _, _, _, h14, h15, h16, _, hp1, h18⟩ := stepY_ok hs
  obtain ⟨_, _, _, _, _, _, _, _, _, _, g1, _, g2, g3, _⟩ := swapWithinY_ok h2
  have key : Funds p1 := by
    rw [hp1]
    exact ⟨not_isNegative.1 h5, by simp only [add_toRat h14]; exact add_nonneg hp.y g1,
      by simp only [add_toRat h16]; exact add_nonneg hp.xAdj g2, hp.yAdj, hp.xFee,
      by simp only [add_toRat h15]; exact add_nonneg hp.yFee g3⟩
  rcases h18 with ⟨_, _, _, hc⟩ | ⟨_, _, _, rfl⟩ | ⟨_, rfl⟩
  · exact key.cross hc
  · exact key
  · exact key

/-- Invariant rule for whole sales of X. -/
theorem sellX_inv {P : Pool → Prop} {fl : FloatEnv} {p p' : Pool} {dx o : Decimal} {r : SwapOutput}
    (h : p.executeSwapFromX fl dx o = .ok (p', r)) (h0 : P p)
    (hg : ∀ {p a p1 g a1}, P p → goalX p a = .ok (p1, g, a1) → P p1)
    (hs : ∀ {p a g p' a'}, P p → stepX fl dx o p a g = .ok (p', a') → P p') : P p' := by
  unfold executeSwapFromX at h
  rw [ite_ok] at h
  rcases h with ⟨_, h⟩ | ⟨_, h⟩
  · simp [rpanic] at h
  obtain ⟨a', k, _⟩ := loopX_inv (P := fun q _ => P q) (fun hP hg' => hg hP hg')
    (fun _ hP hs' => hs hP hs') h0 h
  exact k

/-- Invariant rule for whole sales of Y. -/
theorem sellY_inv {P : Pool → Prop} {fl : FloatEnv} {p p' : Pool} {dy o : Decimal} {r : SwapOutput}
    (h : p.executeSwapFromY fl dy o = .ok (p', r)) (h0 : P p)
    (hg : ∀ {p a p1 g a1}, P p → goalY p a = .ok (p1, g, a1) → P p1)
    (hs : ∀ {p a g p' a'}, P p → stepY fl dy o p a g = .ok (p', a') → P p') : P p' := by
  unfold executeSwapFromY at h
  rw [ite_ok] at h
  rcases h with ⟨_, h⟩ | ⟨_, h⟩
  · simp [rpanic] at h
  obtain ⟨a', k, _⟩ := loopY_inv (P := fun q _ => P q) (fun hP hg' => hg hP hg')
    (fun _ hP hs' => hs hP hs') h0 h
  exact k

theorem new_ok {rp : Decimal} {spacing : Nat} {c fee : Decimal} {p : Pool} (h : Pool.new rp spacing c fee = .ok p) :
    ∃ tk q, 0 ≤ rp.toRat ∧ 0 ≤ c.toRat ∧ 0 ≤ fee.toRat ∧ rpToPossibleTk rp spacing false 0 = .ok tk ∧
      tickToRp tk = .ok q ∧ p = ⟨spacing, ⟨PoolMath.zero, q, tk, Fees.zero⟩, [], [], PoolMath.zero, PoolMath.zero,
        PoolMath.zero, PoolMath.zero, PoolMath.zero, PoolMath.zero, c, fee⟩ := by
  unfold Pool.new at h
  rw [ite_ok] at h; rcases h with ⟨_, h⟩ | ⟨h1, h⟩; · simp [rpanic] at h
  rw [ite_ok] at h; rcases h with ⟨_, h⟩ | ⟨h2, h⟩; · simp [rpanic] at h
  rw [bind_ok] at h; obtain ⟨_, _, h⟩ := h
  rw [bind_ok] at h; obtain ⟨_, _, h⟩ := h
  rw [ite_ok] at h; rcases h with ⟨_, h⟩ | ⟨_, h⟩; · simp [rpanic] at h
  rw [ite_ok] at h; rcases h with ⟨_, h⟩ | ⟨h3, h⟩; · simp [rpanic] at h
  rw [Bool.not_eq_true] at h1 h2 h3
  rw [bind_ok] at h; obtain ⟨tk, h4, h⟩ := h
  rw [bind_ok] at h; obtain ⟨q, h5, h⟩ := h
  rw [bind_ok] at h; obtain ⟨gs, h6, h⟩ := h
  cases h
  refine ⟨tk, q, not_isNegative.1 h1, not_isNegative.1 h2, not_isNegative.1 h3, h4, h5, ?_⟩
  unfold GlobalState.new at h6
  rw [ite_ok] at h6; rcases h6 with ⟨_, h6⟩ | ⟨_, h6⟩; · simp [rpanic] at h6
  rw [ite_ok] at h6; rcases h6 with ⟨_, h6⟩ | ⟨_, h6⟩; · simp [rpanic] at h6
  rw [ite_ok] at h6; rcases h6 with ⟨_, h6⟩ | ⟨_, h6⟩; · simp [rpanic] at h6
  cases h6
  rfl

theorem Funds.reachable {p : Pool} (h : Reachable p) : Funds p := by
  induction h with
  | new h =>
    obtain ⟨_, _, _, _, _, _, _, rfl⟩ := new_ok h
    refine ⟨?_, ?_, ?_, ?_, ?_, ?_⟩ <;> simp [zero_toRat]
  | step _ hs ih =>
    cases hs with
    | deposit h => exact ih.deposit h
    | withdraw h => exact Funds.withdraw h
    | sellX h => exact sellX_inv h ih (fun hp hg => hp.same (goalX_ok hg).1) (fun hp hs => hp.stepX hs)
    | sellY h => exact sellY_inv h ih (fun hp hg => hp.same (goalY_ok hg).1) (fun hp hs => hp.stepY hs)

end Hmm.Pool
