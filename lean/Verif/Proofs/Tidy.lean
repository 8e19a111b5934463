import Verif.Proofs.Claims

/-
All stored amounts have compute scale and a clear sign bit; growths fit their type.
-/

namespace Hmm.Pool

open Decimal PoolMath

/-- An amount at compute scale that fits into 128 bits. -/
def Fit (d : Decimal) : Prop := d.Amount 12 ∧ d.value < u128Size

structure Tidy (p : Pool) : Prop where
  growth : ∀ k, Fit (p.gs.fees.at k)
  tick : ∀ t ts, mapGet t p.ticks = some ts →
    (∀ k, (ts.fees.at k).Amount 12) ∧ ts.liqGross.Amount 12 ∧ ts.liqNet.scale = 12
  liq : p.gs.liq.Amount 12
  x : p.x.Amount 12
  y : p.y.Amount 12
  xAdj : p.xAdj.Amount 12
  yAdj : p.yAdj.Amount 12
  xFee : p.xFee.Amount 12
  yFee : p.yFee.Amount 12

theorem zero_fit (k : Kind) : Fit (Fees.zero.at k) := by cases k <;> exact ⟨zero_amount, by decide⟩

theorem fit_add {g old c : Decimal} (hg : 0 ≤ g.toRat) (ho : Fit old) (h : g.add old = .ok c) : Fit c := by
  have hc : c.Amount 12 := Amount.add' ho.1 h (by rw [add_toRat h]; exact add_nonneg hg ho.1.nonneg)
  refine ⟨hc, ?_⟩
  obtain ⟨v, rfl⟩ := ho.1.eq
  obtain ⟨w, rfl⟩ := hc.eq
  obtain ⟨gv, gs, gn⟩ := g
  obtain ⟨_, h2, _, h4, _⟩ := add_ok.1 h
  cases gn with
  | false =>
    have := h2 rfl
    simp only [sval, Bool.false_eq_true, if_false] at h4
    simp only at this
    show w < _
    omega
  | true =>
    have : gv = 0 := zero_of_nonneg hg rfl
    subst this
    simp only [sval, Bool.false_eq_true, if_false, if_true] at h4
    have := ho.2
    simp only at this
    show w < _
    omega

theorem Tidy.cross {p p' : Pool} (h : Tidy p) (hr : Recorded p) {t : Nat} {b : Bool}
    (hc : p.crossTick t b = .ok p') : Tidy p' := by
  have hr' := hr.cross hc
  obtain ⟨ts, fx, fy, hx, hy, nt, n, h1, _, g1, g2, g3, g4, _, _, hn, hneg, rfl⟩ := crossTick_ok hc
  refine ⟨h.growth, fun j tj hj => ?_, h.liq.add hn (not_isNegative.1 hneg), h.x, h.y, h.xAdj, h.yAdj, h.xFee, h.yFee⟩
  have hb := hr'.tick j tj hj
  simp only at hj
  by_cases hjt : j = t
  · subst hjt
    rw [mapGet_set_same] at hj; cases hj
    refine ⟨fun k => ?_, (h.tick j ts h1).2⟩
    have hk := (hb k).1
    cases k
    · exact (h.growth .fx).1.sub g1 hk
    · exact (h.growth .fy).1.sub g2 hk
    · exact (h.growth .hx).1.sub g3 hk
    · exact (h.growth .hy).1.sub g4 hk
  · rw [mapGet_set_other hjt] at hj
    exact h.tick j tj hj

theorem Tidy.congr {p p' : Pool} (h : Tidy p) (h1 : p'.gs.fees = p.gs.fees) (h2 : p'.ticks = p.ticks)
    (h3 : p'.gs.liq = p.gs.liq) (hx : p'.x = p.x) (hy : p'.y = p.y) (hxa : p'.xAdj = p.xAdj) (hya : p'.yAdj = p.yAdj)
    (hxf : p'.xFee = p.xFee) (hyf : p'.yFee = p.yFee) : Tidy p' :=
  ⟨h1 ▸ h.growth, h2 ▸ h.tick, h3 ▸ h.liq, hx ▸ h.x, hy ▸ h.y, hxa ▸ h.xAdj, hya ▸ h.yAdj, hxf ▸ h.xFee, hyf ▸ h.yFee⟩

theorem Tidy.tickOrNew {p : Pool} (h : Tidy p) (t : Nat) :
    (∀ k, ((p.tickOrNew t).fees.at k).Amount 12) ∧ (p.tickOrNew t).liqGross.Amount 12 ∧
      (p.tickOrNew t).liqNet.scale = 12 := by
  unfold Pool.tickOrNew
  cases hm : mapGet t p.ticks with
  | some ts => exact h.tick t ts hm
  | none =>
    simp only [Option.getD_none]
    refine ⟨fun k => ?_, zero_amount, rfl⟩
    split
    · exact (h.growth k).1
    · exact (zero_fit k).1

theorem Tidy.updateTick {p p' : Pool} (h : Tidy p) {t : Nat} {d : Decimal} {u : Bool}
    (hu : p.updateTick t d u = .ok p') : Tidy p' := by
  have h1 := (updateTick_get hu).1
  obtain ⟨n, g, e1, e2, e3, _, rfl⟩ := updateTick_ok hu
  refine ⟨h.growth, fun j tj hj => ?_, h.liq, h.x, h.y, h.xAdj, h.yAdj, h.xFee, h.yFee⟩
  by_cases hjt : j = t
  · subst hjt
    simp only at hj
    split at hj
    · rw [mapGet_erase_same] at hj; cases hj
    · rw [mapGet_set_same] at hj; cases hj
      obtain ⟨k1, k2, k3⟩ := h.tickOrNew j
      exact ⟨k1, k2.add e2 (not_isNegative.1 e3), (add_ok.1 e1).2.2.1.trans k3⟩
  · rw [h1 j hjt] at hj
    exact h.tick j tj hj

theorem Tidy.setPosition {p p' : Pool} (h : Tidy p) {user lower upper : Nat} {d : Decimal} {f : Fees}
    (hs : p.setPosition user lower upper d = .ok (p', f)) : Tidy p' := by
  obtain ⟨nf, ps', old, base, fu, p1, p2, _, _, _, _, h0, _, _, _, _, _, h1, h2, h3, _⟩ := setPosition_ok hs
  have k0 : Tidy { p with positions := ps' } := h.congr rfl rfl rfl rfl rfl rfl rfl rfl rfl
  have k2 := (k0.updateTick h1).updateTick h2
  rw [ite_ok] at h3
  rcases h3 with ⟨_, h3⟩ | ⟨_, h3⟩
  · obtain ⟨n, hn, hneg, rfl⟩ := addGlblLiq_ok.1 h3
    exact ⟨k2.growth, k2.tick, k2.liq.add hn (not_isNegative.1 hneg), k2.x, k2.y, k2.xAdj, k2.yAdj, k2.xFee, k2.yFee⟩
  · cases h3; exact k2

theorem Tidy.payFees {p p' : Pool} (h : Tidy p) {f : Fees} (hp : p.payFees f = .ok p') : Tidy p' := by
  obtain ⟨f1, f2, f3, f4⟩ := payFees_funds hp
  obtain ⟨xf, xa, yf, ya, g1, g2, g3, g4, h1, h2, h3, h4, rfl⟩ := payFees_ok hp
  exact ⟨h.growth, h.tick, h.liq, h.x, h.y, h.xAdj.sub h2 f3, h.yAdj.sub h4 f4, h.xFee.sub h1 f1, h.yFee.sub h3 f2⟩

theorem Tidy.deposit {p p' : Pool} (h : Tidy p) (hf : Funds p) {user : Nat} {x y rpa rpb : Decimal} {r : Receipt}
    (hd : p.deposit user x y rpa rpb = .ok (p', r)) : Tidy p' := by
  have hf' := hf.deposit hd
  obtain ⟨lower, upper, a, b, liq, p1, p2, px, py, _, _, _, _, _, _, _, _, _, _, _, _, _, _, _, h1, _, _, h2, h3,
    h4, rfl⟩ := deposit_ok hd
  have k1 := h.setPosition h1
  have k2 := k1.payFees h4
  exact ⟨k2.growth, k2.tick, k2.liq, k1.x.add h2 hf'.x, k1.y.add h3 hf'.y, k2.xAdj, k2.yAdj, k2.xFee, k2.yFee⟩

theorem Tidy.withdraw {p p' : Pool} (h : Tidy p) {user : Nat} {liq rpa rpb : Decimal} {r : Receipt}
    (hd : p.withdraw user liq rpa rpb = .ok (p', r)) : Tidy p' := by
  have hf' := Funds.withdraw hd
  obtain ⟨lower, upper, a, b, p1, p2, x0, y0, adj, px, py, _, _, _, _, _, _, h0, _, _, _, _, _, _, _, h1, h2, h3, h4,
    h5, rfl⟩ := withdraw_ok hd
  have k1 := h.setPosition h0
  have k2 := k1.payFees h5
  exact ⟨k2.growth, k2.tick, k2.liq, k1.x.sub h3 hf'.x, k1.y.sub h4 hf'.y, k2.xAdj, k2.yAdj, k2.xFee, k2.yFee⟩

theorem Tidy.stepX {fl : FloatEnv} {dx o : Decimal} {p p' : Pool} {a a' : SwapAcc} {g : Nat} (h : Tidy p)
    (hr : Recorded p) (hs : Pool.stepX fl dx o p a g = .ok (p', a')) : Tidy p' := by
  obtain ⟨rem, r, ysum, newY, c1, chk, rs, newX, xFee, yAdj, fees, p1, _, h2, h3, h4, h5, _, _, _, _, _,
    _, _, _, _, _, h14, h15, h16, hf, hp1, h18⟩ := stepX_ok hs
  obtain ⟨_, _, _, _, _, _, _, _, _, _, g1, _, g2, g3, _⟩ := swapWithinX_ok h2
  have hy := not_isNegative.1 h5
  have hys : 0 ≤ ysum.toRat := by rw [sub_toRat h4] at hy; linarith
  have hfit : ∀ k, Fit (fees.at k) := by
    rcases hf with ⟨hl, e1, e2, ⟨g1, d1, a1⟩, g2, d2, a2⟩ | ⟨_, rfl⟩
    · have hl' := (isPositive_toRat.1 hl).le
      intro k
      cases k
      · exact fit_add (nonneg_div d1 g3 hl') (h.growth .fx) a1
      · exact (show Fit fees.fy from e1 ▸ h.growth .fy)
      · exact (show Fit fees.hx from e2 ▸ h.growth .hx)
      · exact fit_add (nonneg_div d2 (by assumption) hl') (h.growth .hy) a2
    · exact h.growth
  have k1 : Tidy p1 := by
    rw [hp1]
    exact ⟨hfit, h.tick, h.liq, h.x.add h14 (by rw [add_toRat h14]; exact add_nonneg h.x.nonneg g1),
      (h.y.add h3 hys).sub h4 hy, h.xAdj, h.yAdj.add h16 (by rw [add_toRat h16]; exact add_nonneg h.yAdj.nonneg g2),
      h.xFee.add h15 (by rw [add_toRat h15]; exact add_nonneg h.xFee.nonneg g3), h.yFee⟩
  have r1 : Recorded p1 := by
    refine hr.mono (by rw [hp1]) fun k => ?_
    have e : p1.growth k = (fees.at k).toRat := by rw [hp1]; rfl
    rw [e]
    exact riseX g2 g3 hf k
  rcases h18 with ⟨_, _, _, hc⟩ | ⟨_, _, _, rfl⟩ | ⟨_, rfl⟩
  · exact k1.cross r1 hc
  · exact k1
  · exact k1

theorem Tidy.stepY {fl : FloatEnv} {dy o : Decimal} {p p' : Pool} {a a' : SwapAcc} {g : Nat} (h : Tidy p)
    (hr : Recorded p) (hs : Pool.stepY fl dy o p a g = .ok (p', a')) : Tidy p' := by
  obtain ⟨rem, r, xsum, newX, c1, chk, rs, newY, yFee, xAdj, fees, p1, _, h2, h3, h4, h5, _, _, _, _, _,
    _, _, _, _, _, h14, h15, h16, hf, hp1, h18⟩ := stepY_ok hs
  obtain ⟨_, _, _, _, _, _, _, _, _, _, g1, _, g2, g3, _⟩ := swapWithinY_ok h2
  have hx := not_isNegative.1 h5
  have hxs : 0 ≤ xsum.toRat := by rw [sub_toRat h4] at hx; linarith
  have hfit : ∀ k, Fit (fees.at k) := by
    rcases hf with ⟨hl, e1, e2, ⟨g1, d1, a1⟩, g2, d2, a2⟩ | ⟨_, rfl⟩
    · have hl' := (isPositive_toRat.1 hl).le
      intro k
      cases k
      · exact (show Fit fees.fx from e1 ▸ h.growth .fx)
      · exact fit_add (nonneg_div d1 g3 hl') (h.growth .fy) a1
      · exact fit_add (nonneg_div d2 (by assumption) hl') (h.growth .hx) a2
      · exact (show Fit fees.hy from e2 ▸ h.growth .hy)
    · exact h.growth
  have k1 : Tidy p1 := by
    rw [hp1]
    exact ⟨hfit, h.tick, h.liq, (h.x.add h3 hxs).sub h4 hx,
      h.y.add h14 (by rw [add_toRat h14]; exact add_nonneg h.y.nonneg g1),
      h.xAdj.add h16 (by rw [add_toRat h16]; exact add_nonneg h.xAdj.nonneg g2), h.yAdj, h.xFee,
      h.yFee.add h15 (by rw [add_toRat h15]; exact add_nonneg h.yFee.nonneg g3)⟩
  have r1 : Recorded p1 := by
    refine hr.mono (by rw [hp1]) fun k => ?_
    have e : p1.growth k = (fees.at k).toRat := by rw [hp1]; rfl
    rw [e]
    exact riseY g2 g3 hf k
  rcases h18 with ⟨_, _, _, hc⟩ | ⟨_, _, _, rfl⟩ | ⟨_, rfl⟩
  · exact k1.cross r1 hc
  · exact k1
  · exact k1

theorem Tidy.walk {p p' : Pool} (h : Tidy p) (hr : Recorded p) {t : Nat} {q : Decimal} {b : Bool}
    (hc : ((p.setTick t).setRp q).crossTick t b = .ok p') : Tidy p' :=
  Tidy.cross (h.congr (p' := (p.setTick t).setRp q) rfl rfl rfl rfl rfl rfl rfl rfl rfl)
    (hr.mono (p' := (p.setTick t).setRp q) rfl fun _ => le_rfl) hc

theorem Tidy.reachable {p : Pool} (h : Reachable p) : Tidy p := by
  induction h with
  | new h =>
    obtain ⟨tk, q, _, _, _, _, _, rfl⟩ := new_ok h
    exact ⟨zero_fit, fun t ts hm => by simp [mapGet] at hm, zero_amount, zero_amount, zero_amount, zero_amount,
      zero_amount, zero_amount, zero_amount⟩
  | step hr hs ih =>
    have hrec := Recorded.reachable hr
    cases hs with
    | deposit h => exact ih.deposit (Funds.reachable hr) h
    | withdraw h => exact ih.withdraw h
    | sellX h =>
      refine (sellX_inv (P := fun q => Tidy q ∧ Recorded q) h ⟨ih, hrec⟩
        (fun hp hg => goalX_inv (P := fun q => Tidy q ∧ Recorded q) hp hg fun hp _ _ hc => ⟨hp.1.walk hp.2 hc, hp.2.walk hc⟩) (fun hp hs => ⟨hp.1.stepX hp.2 hs, ?_⟩)).1
      obtain ⟨p1, _, h2, _, _, h3, ⟨_, h4⟩ | rfl⟩ := stepX_view hs
      · exact (hp.2.mono h2 h3).cross h4
      · exact hp.2.mono h2 h3
    | sellY h =>
      refine (sellY_inv (P := fun q => Tidy q ∧ Recorded q) h ⟨ih, hrec⟩
        (fun hp hg => goalY_inv (P := fun q => Tidy q ∧ Recorded q) hp hg fun hp _ _ hc => ⟨hp.1.walk hp.2 hc, hp.2.walk hc⟩) (fun hp hs => ⟨hp.1.stepY hp.2 hs, ?_⟩)).1
      obtain ⟨p1, _, h2, _, _, h3, ⟨_, h4⟩ | rfl⟩ := stepY_view hs
      · exact (hp.2.mono h2 h3).cross h4
      · exact hp.2.mono h2 h3

end Hmm.Pool
