import Verif.Proofs.Tidy

/-
What a pool keeps fits into 128 bits.
-/

namespace Hmm.Pool

open Decimal PoolMath

/-- The numbers of a pool fit into 128 bits. -/
structure Stored (p : Pool) : Prop where
  liq : p.gs.liq.value < u128Size
  x : p.x.value < u128Size
  y : p.y.value < u128Size
  xAdj : p.xAdj.value < u128Size
  yAdj : p.yAdj.value < u128Size
  xFee : p.xFee.value < u128Size
  yFee : p.yFee.value < u128Size

theorem stored_add {a b c : Decimal} (ha : a.Amount 12) (hv : a.value < u128Size) (h : a.add b = .ok c)
    (hc : 0 ≤ c.toRat) : c.value < u128Size := by
  have hca := ha.add h hc
  obtain ⟨_, h2, _, h4, _⟩ := add_ok.1 h
  obtain ⟨v, rfl⟩ := ha.eq
  obtain ⟨w, rfl⟩ := hca.eq
  obtain ⟨bv, bs, bn⟩ := b
  cases bn
  · have := h2 rfl
    simp only [sval, Bool.false_eq_true, if_false] at h4 this ⊢
    omega
  · simp only [sval, Bool.false_eq_true, if_false, if_true] at h4 hv ⊢
    omega

theorem stored_sub {a b c : Decimal} (ha : a.Amount 12) (hv : a.value < u128Size) (h : a.sub b = .ok c)
    (hc : 0 ≤ c.toRat) : c.value < u128Size := by
  have hca := ha.sub h hc
  obtain ⟨_, h2, _, h4, _⟩ := sub_ok.1 h
  obtain ⟨v, rfl⟩ := ha.eq
  obtain ⟨w, rfl⟩ := hca.eq
  obtain ⟨bv, bs, bn⟩ := b
  cases bn
  · simp only [sval, Bool.false_eq_true, if_false] at h4 hv ⊢
    omega
  · have := h2 (by simp)
    simp only [sval, Bool.false_eq_true, if_false, if_true] at h4 this ⊢
    omega

theorem Stored.cross {p p' : Pool} (h : Stored p) (ht : Tidy p) {t : Nat} {b : Bool}
    (hc : p.crossTick t b = .ok p') : Stored p' := by
  obtain ⟨ts, fx, fy, hx, hy, nt, n, _, _, _, _, _, _, _, _, hn, hneg, rfl⟩ := crossTick_ok hc
  exact ⟨stored_add ht.liq h.liq hn (not_isNegative.1 hneg), h.x, h.y, h.xAdj, h.yAdj, h.xFee, h.yFee⟩

theorem Stored.setPosition {p p' : Pool} (h : Stored p) (ht : Tidy p) {user lower upper : Nat} {d : Decimal} {f : Fees}
    (hs : p.setPosition user lower upper d = .ok (p', f)) : Stored p' := by
  obtain ⟨nf, ps', old, base, fu, p1, p2, _, _, _, _, h0, _, _, _, _, _, h1, h2, h3, _⟩ := setPosition_ok hs
  have e1 := updateTick_frame h1
  have e2 := updateTick_frame h2
  rw [ite_ok] at h3
  rcases h3 with ⟨_, h3⟩ | ⟨_, h3⟩
  · obtain ⟨n, hn, hneg, rfl⟩ := addGlblLiq_ok.1 h3
    have el : p2.gs.liq = p.gs.liq := by rw [e2, e1]
    rw [el] at hn
    have k := stored_add ht.liq h.liq hn (not_isNegative.1 hneg)
    rw [e2, e1]
    exact ⟨k, h.x, h.y, h.xAdj, h.yAdj, h.xFee, h.yFee⟩
  · cases h3
    rw [e2, e1]
    exact ⟨h.liq, h.x, h.y, h.xAdj, h.yAdj, h.xFee, h.yFee⟩

theorem Stored.payFees {p p' : Pool} (h : Stored p) (ht : Tidy p) {f : Fees} (hp : p.payFees f = .ok p') : Stored p' := by
  obtain ⟨f1, f2, f3, f4⟩ := payFees_funds hp
  obtain ⟨xf, xa, yf, ya, g1, g2, g3, g4, h1, h2, h3, h4, rfl⟩ := payFees_ok hp
  exact ⟨h.liq, h.x, h.y, stored_sub ht.xAdj h.xAdj h2 f3, stored_sub ht.yAdj h.yAdj h4 f4,
    stored_sub ht.xFee h.xFee h1 f1, stored_sub ht.yFee h.yFee h3 f2⟩

theorem Stored.deposit {p p' : Pool} (h : Stored p) (ht : Tidy p) (hf : Funds p) {user : Nat} {x y rpa rpb : Decimal}
    {r : Receipt} (hd : p.deposit user x y rpa rpb = .ok (p', r)) : Stored p' := by
  have hf' := hf.deposit hd
  obtain ⟨lower, upper, a, b, liq, p1, p2, px, py, _, _, _, _, _, _, _, _, _, _, _, _, _, _, _, h1, _, _, h2, h3,
    h4, rfl⟩ := deposit_ok hd
  have t1 := ht.setPosition h1
  have k1 := h.setPosition ht h1
  have k2 := k1.payFees t1 h4
  exact ⟨k2.liq, stored_add t1.x k1.x h2 hf'.x, stored_add t1.y k1.y h3 hf'.y, k2.xAdj, k2.yAdj, k2.xFee, k2.yFee⟩

theorem Stored.withdraw {p p' : Pool} (h : Stored p) (ht : Tidy p) {user : Nat} {liq rpa rpb : Decimal} {r : Receipt}
    (hd : p.withdraw user liq rpa rpb = .ok (p', r)) : Stored p' := by
  have hf' := Funds.withdraw hd
  obtain ⟨lower, upper, a, b, p1, p2, x0, y0, adj, px, py, _, _, _, _, _, _, h0, _, _, _, _, _, _, _, h1, h2, h3, h4,
    h5, rfl⟩ := withdraw_ok hd
  have t1 := ht.setPosition h0
  have k1 := h.setPosition ht h0
  have k2 := k1.payFees t1 h5
  exact ⟨k2.liq, stored_sub t1.x k1.x h3 hf'.x, stored_sub t1.y k1.y h4 hf'.y, k2.xAdj, k2.yAdj, k2.xFee, k2.yFee⟩

theorem Stored.stepX {fl : FloatEnv} {dx o : Decimal} {p p' : Pool} {a a' : SwapAcc} {g : Nat} (h : Stored p)
    (ht : Tidy p) (hs : Pool.stepX fl dx o p a g = .ok (p', a')) : Stored p' := by
  obtain ⟨rem, r, ysum, newY, c1, chk, rs, newX, xFee, yAdj, fees, p1, _, h2, h3, h4, h5, _, _, _, _, _,
    _, _, _, _, _, h14, h15, h16, hf, hp1, h18⟩ := stepX_ok hs
  obtain ⟨_, _, _, _, _, _, _, _, _, _, g1, _, g2, g3, _⟩ := swapWithinX_ok h2
  have hy := not_isNegative.1 h5
  have hys : 0 ≤ ysum.toRat := by rw [sub_toRat h4] at hy; linarith
  have kx : newX.value < u128Size := stored_add ht.x h.x h14 (by rw [add_toRat h14]; exact add_nonneg ht.x.nonneg g1)
  have ky : newY.value < u128Size := stored_sub (ht.y.add h3 hys) (stored_add ht.y h.y h3 hys) h4 hy
  have ka : yAdj.value < u128Size :=
    stored_add ht.yAdj h.yAdj h16 (by rw [add_toRat h16]; exact add_nonneg ht.yAdj.nonneg g2)
  have kf : xFee.value < u128Size :=
    stored_add ht.xFee h.xFee h15 (by rw [add_toRat h15]; exact add_nonneg ht.xFee.nonneg g3)
  have k1 : Stored p1 := by
    rw [hp1]
    exact ⟨h.liq, kx, ky, h.xAdj, ka, kf, h.yFee⟩
  rcases h18 with ⟨_, _, _, hc⟩ | ⟨_, _, _, rfl⟩ | ⟨_, rfl⟩
  · obtain ⟨ts, fx, fy, hx, hy, nt, n, _, _, _, _, _, _, _, _, hn, hneg, rfl⟩ := crossTick_ok hc
    have el : p1.gs.liq = p.gs.liq := by rw [hp1]
    rw [el] at hn
    exact ⟨stored_add ht.liq h.liq hn (not_isNegative.1 hneg), k1.x, k1.y, k1.xAdj, k1.yAdj, k1.xFee, k1.yFee⟩
  · exact k1
  · exact k1

theorem Stored.stepY {fl : FloatEnv} {dy o : Decimal} {p p' : Pool} {a a' : SwapAcc} {g : Nat} (h : Stored p)
    (ht : Tidy p) (hs : Pool.stepY fl dy o p a g = .ok (p', a')) : Stored p' := by
  obtain ⟨rem, r, xsum, newX, c1, chk, rs, newY, yFee, xAdj, fees, p1, _, h2, h3, h4, h5, _, _, _, _, _,
    _, _, _, _, _, h14, h15, h16, hf, hp1, h18⟩ := stepY_ok hs
  obtain ⟨_, _, _, _, _, _, _, _, _, _, g1, _, g2, g3, _⟩ := swapWithinY_ok h2
  have hx := not_isNegative.1 h5
  have hxs : 0 ≤ xsum.toRat := by rw [sub_toRat h4] at hx; linarith
  have ky : newY.value < u128Size := stored_add ht.y h.y h14 (by rw [add_toRat h14]; exact add_nonneg ht.y.nonneg g1)
  have kx : newX.value < u128Size := stored_sub (ht.x.add h3 hxs) (stored_add ht.x h.x h3 hxs) h4 hx
  have ka : xAdj.value < u128Size :=
    stored_add ht.xAdj h.xAdj h16 (by rw [add_toRat h16]; exact add_nonneg ht.xAdj.nonneg g2)
  have kf : yFee.value < u128Size :=
    stored_add ht.yFee h.yFee h15 (by rw [add_toRat h15]; exact add_nonneg ht.yFee.nonneg g3)
  have k1 : Stored p1 := by
    rw [hp1]
    exact ⟨h.liq, kx, ky, ka, h.yAdj, h.xFee, kf⟩
  rcases h18 with ⟨_, _, _, hc⟩ | ⟨_, _, _, rfl⟩ | ⟨_, rfl⟩
  · obtain ⟨ts, fx, fy, hx, hy, nt, n, _, _, _, _, _, _, _, _, hn, hneg, rfl⟩ := crossTick_ok hc
    have el : p1.gs.liq = p.gs.liq := by rw [hp1]
    rw [el] at hn
    exact ⟨stored_add ht.liq h.liq hn (not_isNegative.1 hneg), k1.x, k1.y, k1.xAdj, k1.yAdj, k1.xFee, k1.yFee⟩
  · exact k1
  · exact k1

theorem Stored.walk {p p' : Pool} (h : Stored p) (ht : Tidy p) {t : Nat} {q : Decimal} {b : Bool}
    (hc : ((p.setTick t).setRp q).crossTick t b = .ok p') : Stored p' :=
  Stored.cross (p := (p.setTick t).setRp q) ⟨h.liq, h.x, h.y, h.xAdj, h.yAdj, h.xFee, h.yFee⟩
    (ht.congr (p' := (p.setTick t).setRp q) rfl rfl rfl rfl rfl rfl rfl rfl rfl) hc

theorem Stored.reachable {p : Pool} (h : Reachable p) : Stored p := by
  induction h with
  | new h =>
    obtain ⟨tk, q, _, _, _, _, _, rfl⟩ := new_ok h
    have hz : PoolMath.zero.value < u128Size := by decide
    exact ⟨hz, hz, hz, hz, hz, hz, hz⟩
  | step hr hs ih =>
    have ht := Tidy.reachable hr
    have hrec := Recorded.reachable hr
    cases hs with
    | deposit h => exact ih.deposit ht (Funds.reachable hr) h
    | withdraw h => exact ih.withdraw ht h
    | sellX h =>
      refine (sellX_inv (P := fun q => Tidy q ∧ Recorded q ∧ Stored q) h ⟨ht, hrec, ih⟩
        (fun hp hg => goalX_inv (P := fun q => Tidy q ∧ Recorded q ∧ Stored q) hp hg fun hp _ _ hc =>
          ⟨hp.1.walk hp.2.1 hc, hp.2.1.walk hc, hp.2.2.walk hp.1 hc⟩)
        (fun hp hs => ⟨hp.1.stepX hp.2.1 hs, ?_, hp.2.2.stepX hp.1 hs⟩)).2.2
      obtain ⟨p1, _, h2, _, _, h3, ⟨_, h4⟩ | rfl⟩ := stepX_view hs
      · exact (hp.2.1.mono h2 h3).cross h4
      · exact hp.2.1.mono h2 h3
    | sellY h =>
      refine (sellY_inv (P := fun q => Tidy q ∧ Recorded q ∧ Stored q) h ⟨ht, hrec, ih⟩
        (fun hp hg => goalY_inv (P := fun q => Tidy q ∧ Recorded q ∧ Stored q) hp hg fun hp _ _ hc =>
          ⟨hp.1.walk hp.2.1 hc, hp.2.1.walk hc, hp.2.2.walk hp.1 hc⟩)
        (fun hp hs => ⟨hp.1.stepY hp.2.1 hs, ?_, hp.2.2.stepY hp.1 hs⟩)).2.2
      obtain ⟨p1, _, h2, _, _, h3, ⟨_, h4⟩ | rfl⟩ := stepY_view hs
      · exact (hp.2.1.mono h2 h3).cross h4
      · exact hp.2.1.mono h2 h3

end Hmm.Pool
