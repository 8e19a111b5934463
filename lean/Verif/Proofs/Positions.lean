import Verif.Proofs.PoolBasic
import Verif.Proofs.Ticks
import Verif.Spec.Reach

/-
Deposits and withdrawals unfolded.
-/

namespace Hmm.Pool

open Decimal PoolMath

theorem setPositionMap_ok {ps ps' : List (PositionKey × PositionState)} {key : PositionKey} {d base : Decimal}
    {nf old : Fees} (h : setPositionMap ps key d nf = .ok (ps', old, base)) :
    (mapGet key ps = none ∧ 0 ≤ d.toRat ∧ ps' = mapSet key ⟨d, Fees.zero⟩ ps ∧ old = Fees.zero ∧
      base = PoolMath.zero) ∨
    (∃ poz n, mapGet key ps = some poz ∧ 0 ≤ poz.liq.toRat ∧ base = poz.liq ∧ old = poz.fees ∧
      poz.liq.add d = .ok n ∧ 0 ≤ n.toRat ∧
      ((n.isZero = true ∧ ps' = mapErase key ps) ∨
       (n.isZero = false ∧ ps' = mapSet key ⟨n, nf⟩ ps))) := by
  unfold setPositionMap at h
  cases hg : mapGet key ps with
  | none =>
    left
    rw [hg] at h
    simp only at h
    rw [ite_ok] at h
    rcases h with ⟨_, h⟩ | ⟨h0, h⟩
    · simp [rpanic] at h
    rw [Bool.not_eq_true] at h0
    steps at h
    obtain ⟨s, h1, h2⟩ := h
    simp only [Prod.mk.injEq] at h2
    obtain ⟨rfl, rfl, rfl⟩ := h2
    unfold PositionState.new at h1
    rw [h0] at h1
    have : Fees.zero.anyNegative = false := by decide
    rw [this] at h1
    cases h1
    exact ⟨rfl, not_isNegative.1 h0, rfl, rfl, rfl⟩
  | some poz =>
    right
    rw [hg] at h
    simp only at h
    rw [ite_ok] at h
    rcases h with ⟨_, h⟩ | ⟨h0, h⟩
    · simp [rpanic] at h
    rw [Bool.not_eq_true] at h0
    rw [bind_ok] at h
    obtain ⟨n, h1, h⟩ := h
    rw [unwrap_ok] at h1
    rw [ite_ok] at h
    rcases h with ⟨_, h⟩ | ⟨h2, h⟩
    · simp [rpanic] at h
    have hb := not_isNegative.1 h0
    have hn : 0 ≤ n.toRat := by
      simp only [Bool.and_eq_true, not_and, isNegative_toRat, not_lt] at h2
      by_cases hd : d.toRat < 0
      · exact h2 hd
      · rw [add_toRat h1]; linarith [not_lt.1 hd]
    refine ⟨poz, n, rfl, hb, ?_⟩
    rw [ite_ok] at h
    rcases h with ⟨h3, h⟩ | ⟨h3, h⟩
    · simp only [pure_ok, Prod.mk.injEq] at h
      obtain ⟨rfl, rfl, rfl⟩ := h
      exact ⟨rfl, rfl, h1, hn, .inl ⟨h3, rfl⟩⟩
    · rw [bind_ok] at h
      obtain ⟨poz', h4, h⟩ := h
      simp only [pure_ok, Prod.mk.injEq] at h
      obtain ⟨rfl, rfl, rfl⟩ := h
      unfold PositionState.addLiq at h4
      steps at h4
      obtain ⟨n', h5, h6⟩ := h4
      rw [h1] at h5; cases h5
      rw [ite_ok] at h6
      rcases h6 with ⟨_, h6⟩ | ⟨_, h6⟩
      · simp [rpanic] at h6
      cases h6
      exact ⟨rfl, rfl, h1, hn, .inr ⟨by simpa using h3, rfl⟩⟩

/-- What a change of a position amounts to. -/
theorem setPosition_ok {p p' : Pool} {user lower upper : Nat} {d : Decimal} {f : Fees}
    (h : p.setPosition user lower upper d = .ok (p', f)) :
    ∃ (nf : Fees) (ps' : List (PositionKey × PositionState)) (old : Fees) (base : Decimal) (fu : Fees)
        (p1 p2 : Pool), p.feeRng (·.fx) lower upper = .ok nf.fx ∧
      p.feeRng (·.fy) lower upper = .ok nf.fy ∧ p.feeRng (·.hx) lower upper = .ok nf.hx ∧
      p.feeRng (·.hy) lower upper = .ok nf.hy ∧
      setPositionMap p.positions ⟨user, lower, upper⟩ d nf = .ok (ps', old, base) ∧
      nf.fx.sub old.fx = .ok fu.fx ∧ nf.fy.sub old.fy = .ok fu.fy ∧ nf.hx.sub old.hx = .ok fu.hx ∧
      nf.hy.sub old.hy = .ok fu.hy ∧ fu.anyNegative = false ∧
      ({ p with positions := ps' }).updateTick lower d false = .ok p1 ∧
      p1.updateTick upper d true = .ok p2 ∧
      (if p2.gs.tick ≥ lower ∧ p2.gs.tick < upper then p2.addGlblLiq d else .ok p2) = .ok p' ∧
      base.mul fu.fx = .ok f.fx ∧ base.mul fu.fy = .ok f.fy ∧ base.mul fu.hx = .ok f.hx ∧
      base.mul fu.hy = .ok f.hy := by
  unfold setPosition at h
  rw [bind_ok] at h; obtain ⟨n1, h1, h⟩ := h
  rw [bind_ok] at h; obtain ⟨n2, h2, h⟩ := h
  rw [bind_ok] at h; obtain ⟨n3, h3, h⟩ := h
  rw [bind_ok] at h; obtain ⟨n4, h4, h⟩ := h
  rw [bind_ok] at h; obtain ⟨⟨ps', old, base⟩, h5, h⟩ := h
  simp only at h
  rw [bind_ok] at h; obtain ⟨u1, g1, h⟩ := h
  rw [bind_ok] at h; obtain ⟨u2, g2, h⟩ := h
  rw [bind_ok] at h; obtain ⟨u3, g3, h⟩ := h
  rw [bind_ok] at h; obtain ⟨u4, g4, h⟩ := h
  rw [bind_ok] at h; obtain ⟨_, a1, h⟩ := h
  rw [bind_ok] at h; obtain ⟨_, a2, h⟩ := h
  rw [bind_ok] at h; obtain ⟨_, a3, h⟩ := h
  rw [bind_ok] at h; obtain ⟨_, a4, h⟩ := h
  rw [bind_ok] at h; obtain ⟨p1, b1, h⟩ := h
  rw [bind_ok] at h; obtain ⟨p2, b2, h⟩ := h
  rw [bind_ok] at h; obtain ⟨p3, b3, h⟩ := h
  steps at h
  obtain ⟨m1, c1, m2, c2, m3, c3, m4, c4, h⟩ := h
  simp only [Prod.mk.injEq] at h
  obtain ⟨rfl, rfl⟩ := h
  rw [rassert_ok, Bool.not_eq_true'] at a1 a2 a3 a4
  refine ⟨⟨n1, n2, n3, n4⟩, ps', old, base, ⟨u1, u2, u3, u4⟩, p1, p2, h1, h2, h3, h4, h5,
    unwrap_ok.1 g1, unwrap_ok.1 g2, unwrap_ok.1 g3, unwrap_ok.1 g4, ?_, b1, b2, b3, c1, c2, c3, c4⟩
  simp [Fees.anyNegative, a1, a2, a3, a4]

theorem updateTick_frame {p p' : Pool} {t : Nat} {d : Decimal} {u : Bool} (h : p.updateTick t d u = .ok p') :
    p' = { p with ticks := p'.ticks } := by
  obtain ⟨_, _, _, _, _, _, rfl⟩ := updateTick_ok h
  rfl

/-- What a change of a position leaves alone. -/
theorem setPosition_frame {p p' : Pool} {user lower upper : Nat} {d : Decimal} {f : Fees}
    (h : p.setPosition user lower upper d = .ok (p', f)) :
    p' = { p with ticks := p'.ticks, positions := p'.positions, gs := { p.gs with liq := p'.gs.liq } } := by
  obtain ⟨nf, ps', old, base, fu, p1, p2, _, _, _, _, _, _, _, _, _, _, h1, h2, h3, _⟩ := setPosition_ok h
  have e1 := updateTick_frame h1
  have e2 := updateTick_frame h2
  rw [ite_ok] at h3
  rcases h3 with ⟨_, h3⟩ | ⟨_, h3⟩
  · obtain ⟨n, _, _, rfl⟩ := addGlblLiq_ok.1 h3
    rw [e2, e1]
  · cases h3
    rw [e2, e1]

theorem payFees_ok {p p' : Pool} {f : Fees} (h : p.payFees f = .ok p') :
    ∃ xFee xAdj yFee yAdj, p.xFee.lt f.fx = .ok false ∧ p.yFee.lt f.fy = .ok false ∧
      p.xAdj.lt f.hx = .ok false ∧ p.yAdj.lt f.hy = .ok false ∧
      p.xFee.sub f.fx = .ok xFee ∧ p.xAdj.sub f.hx = .ok xAdj ∧ p.yFee.sub f.fy = .ok yFee ∧
      p.yAdj.sub f.hy = .ok yAdj ∧ p' = { p with xFee, xAdj, yFee, yAdj } := by
  unfold payFees at h
  rw [bind_ok] at h; obtain ⟨b1, h1, h⟩ := h
  rw [ite_ok] at h; rcases h with ⟨_, h⟩ | ⟨e1, h⟩; · simp [rpanic] at h
  rw [bind_ok] at h; obtain ⟨b2, h2, h⟩ := h
  rw [ite_ok] at h; rcases h with ⟨_, h⟩ | ⟨e2, h⟩; · simp [rpanic] at h
  rw [bind_ok] at h; obtain ⟨b3, h3, h⟩ := h
  rw [ite_ok] at h; rcases h with ⟨_, h⟩ | ⟨e3, h⟩; · simp [rpanic] at h
  rw [bind_ok] at h; obtain ⟨b4, h4, h⟩ := h
  rw [ite_ok] at h; rcases h with ⟨_, h⟩ | ⟨e4, h⟩; · simp [rpanic] at h
  rw [Bool.not_eq_true] at e1 e2 e3 e4
  subst e1 e2 e3 e4
  steps at h
  obtain ⟨xf, g1, xa, g2, yf, g3, ya, g4, rfl⟩ := h
  exact ⟨xf, xa, yf, ya, unwrap_ok.1 h1, unwrap_ok.1 h2, unwrap_ok.1 h3, unwrap_ok.1 h4, g1, g2, g3, g4, rfl⟩

/-- What a completed deposit amounts to. -/
theorem deposit_ok {p p' : Pool} {user : Nat} {x y rpa rpb : Decimal} {r : Receipt}
    (h : p.deposit user x y rpa rpb = .ok (p', r)) :
    ∃ lower upper a b liq p1 p2 px py, 0 ≤ x.toRat ∧ 0 ≤ y.toRat ∧ 0 ≤ rpa.toRat ∧ 0 ≤ rpb.toRat ∧
      p.rpToPossibleTick rpa false 0 = .ok lower ∧ p.rpToPossibleTick rpb false lower = .ok upper ∧
      lower < upper ∧ tickToRp lower = .ok a ∧ tickToRp upper = .ok b ∧
      liqFromXYRpRng x y p.gs.rp a b = .ok liq ∧ 0 ≤ liq.toRat ∧
      xFromLRpRng liq p.gs.rp a b = .ok r.x ∧ r.x.gt x = .ok false ∧
      yFromLRpRng liq p.gs.rp a b = .ok r.y ∧ r.y.gt y = .ok false ∧
      p.setPosition user lower upper liq = .ok (p1, r.fees) ∧
      r.totalX.toRat = r.x.toRat - r.fees.fx.toRat - r.fees.hx.toRat ∧
      r.totalY.toRat = r.y.toRat - r.fees.fy.toRat - r.fees.hy.toRat ∧
      p1.x.add r.x = .ok px ∧ p1.y.add r.y = .ok py ∧ p1.payFees r.fees = .ok p2 ∧
      p' = { p2 with x := px, y := py } := by
  unfold deposit at h
  rw [bind_ok] at h; obtain ⟨_, a1, h⟩ := h
  rw [bind_ok] at h; obtain ⟨_, a2, h⟩ := h
  rw [bind_ok] at h; obtain ⟨_, a3, h⟩ := h
  rw [bind_ok] at h; obtain ⟨_, a4, h⟩ := h
  rw [bind_ok] at h; obtain ⟨lower, h1, h⟩ := h
  rw [bind_ok] at h; obtain ⟨upper, h2, h⟩ := h
  rw [bind_ok] at h; obtain ⟨_, h3, h⟩ := h
  rw [bind_ok] at h; obtain ⟨a, h4, h⟩ := h
  rw [bind_ok] at h; obtain ⟨b, h5, h⟩ := h
  rw [bind_ok] at h; obtain ⟨liq, h6, h⟩ := h
  rw [ite_ok] at h; rcases h with ⟨_, h⟩ | ⟨h7, h⟩; · simp [rpanic] at h
  rw [bind_ok] at h; obtain ⟨xIn, h8, h⟩ := h
  rw [bind_ok] at h; obtain ⟨b1, h9, h⟩ := h
  rw [ite_ok] at h; rcases h with ⟨_, h⟩ | ⟨h10, h⟩; · simp [rpanic] at h
  rw [bind_ok] at h; obtain ⟨yIn, h11, h⟩ := h
  rw [bind_ok] at h; obtain ⟨b2, h12, h⟩ := h
  rw [ite_ok] at h; rcases h with ⟨_, h⟩ | ⟨h13, h⟩; · simp [rpanic] at h
  rw [Bool.not_eq_true] at h7 h10 h13
  subst h10 h13
  rw [bind_ok] at h; obtain ⟨⟨p1, f⟩, h14, h⟩ := h
  simp only at h
  steps at h
  obtain ⟨q1, s1, xD, s2, q2, s3, yD, s4, px, s5, py, s6, p2, s7, _, _, _, _, _, _, _, _, h⟩ := h
  simp only [Prod.mk.injEq] at h
  obtain ⟨rfl, rfl⟩ := h
  rw [rassert_ok, Bool.not_eq_true', not_isNegative] at a1 a2 a3 a4
  rw [rassert_ok, decide_eq_true_eq] at h3
  exact ⟨lower, upper, a, b, liq, p1, p2, px, py, a1, a2, a3, a4, h1, h2, h3, h4, h5, h6,
    not_isNegative.1 h7, h8, unwrap_ok.1 h9, h11, unwrap_ok.1 h12, h14,
    by simp only [sub_toRat s2, sub_toRat s1], by simp only [sub_toRat s4, sub_toRat s3], s5, s6, s7, rfl⟩

/-- What a completed withdrawal amounts to. -/
theorem withdraw_ok {p p' : Pool} {user : Nat} {liq rpa rpb : Decimal} {r : Receipt}
    (h : p.withdraw user liq rpa rpb = .ok (p', r)) :
    ∃ lower upper a b p1 p2 x0 y0 adj px py, 0 ≤ liq.toRat ∧
      p.rpToPossibleTick rpa false 0 = .ok lower ∧ p.rpToPossibleTick rpb false lower = .ok upper ∧
      lower < upper ∧ tickToRp lower = .ok a ∧ tickToRp upper = .ok b ∧
      p.setPosition user lower upper liq.neg = .ok (p1, r.fees) ∧
      xFromLRpRng liq p1.gs.rp a b = .ok x0 ∧ yFromLRpRng liq p1.gs.rp a b = .ok y0 ∧
      PoolMath.one.sub adjWithdrawal = .ok adj ∧ x0.mul adj = .ok r.x ∧ y0.mul adj = .ok r.y ∧
      r.totalX.toRat = r.x.toRat + r.fees.fx.toRat + r.fees.hx.toRat ∧
      r.totalY.toRat = r.y.toRat + r.fees.fy.toRat + r.fees.hy.toRat ∧
      p1.x.lt r.x = .ok false ∧ p1.y.lt r.y = .ok false ∧
      p1.x.sub r.x = .ok px ∧ p1.y.sub r.y = .ok py ∧ p1.payFees r.fees = .ok p2 ∧
      p' = { p2 with x := px, y := py } := by
  unfold withdraw at h
  rw [bind_ok] at h; obtain ⟨_, a1, h⟩ := h
  rw [bind_ok] at h; obtain ⟨lower, h1, h⟩ := h
  rw [bind_ok] at h; obtain ⟨upper, h2, h⟩ := h
  rw [bind_ok] at h; obtain ⟨_, h3, h⟩ := h
  rw [bind_ok] at h; obtain ⟨a, h4, h⟩ := h
  rw [bind_ok] at h; obtain ⟨b, h5, h⟩ := h
  rw [bind_ok] at h; obtain ⟨⟨p1, f⟩, h6, h⟩ := h
  simp only at h
  rw [bind_ok] at h; obtain ⟨x0, h7, h⟩ := h
  rw [bind_ok] at h; obtain ⟨y0, h8, h⟩ := h
  rw [bind_ok] at h; obtain ⟨adj, h9, h⟩ := h
  rw [bind_ok] at h; obtain ⟨xOut, h10, h⟩ := h
  rw [bind_ok] at h; obtain ⟨yOut, h11, h⟩ := h
  rw [bind_ok] at h; obtain ⟨q1, s1, h⟩ := h
  rw [bind_ok] at h; obtain ⟨xS, s2, h⟩ := h
  rw [bind_ok] at h; obtain ⟨q2, s3, h⟩ := h
  rw [bind_ok] at h; obtain ⟨yS, s4, h⟩ := h
  rw [bind_ok] at h; obtain ⟨b1, h12, h⟩ := h
  rw [ite_ok] at h; rcases h with ⟨_, h⟩ | ⟨h13, h⟩; · simp [rpanic] at h
  rw [bind_ok] at h; obtain ⟨b2, h14, h⟩ := h
  rw [ite_ok] at h; rcases h with ⟨_, h⟩ | ⟨h15, h⟩; · simp [rpanic] at h
  rw [Bool.not_eq_true] at h13 h15
  subst h13 h15
  steps at h
  obtain ⟨px, s5, py, s6, p2, s7, _, _, _, _, h⟩ := h
  simp only [Prod.mk.injEq] at h
  obtain ⟨rfl, rfl⟩ := h
  rw [rassert_ok, Bool.not_eq_true', not_isNegative] at a1
  rw [rassert_ok, decide_eq_true_eq] at h3
  rw [unwrap_ok] at h9 s1 s2 s3 s4 h12 h14
  exact ⟨lower, upper, a, b, p1, p2, x0, y0, adj, px, py, a1, h1, h2, h3, h4, h5, h6, h7, h8, h9, h10, h11,
    by simp only [add_toRat s2, add_toRat s1], by simp only [add_toRat s4, add_toRat s3], h12, h14, s5, s6, s7, rfl⟩

end Hmm.Pool
