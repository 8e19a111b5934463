import Verif.Proofs.OrderDeposits

/-
A withdrawal that goes through for one pool goes through for another with the same price and growth and enough left.
-/

namespace Hmm.Pool

open Decimal PoolMath

/-! ### Sums -/

theorem sum_goes {a b : Decimal} (ha : a.scale = 12) (hb : b.scale = 12)
    (h : |a.toRat + b.toRat| * 10 ^ 12 < 2 ^ 128) : ∃ c, a.add b = .ok c := by
  rw [add_cases, if_pos (ha.trans hb.symm)]
  split
  · rename_i hs
    have e : |a.toRat + b.toRat| = ((a.value + b.value : ℕ) : ℚ) / 10 ^ 12 := by
      have hm := mag_nonneg a
      have hm' := mag_nonneg b
      have : |a.toRat + b.toRat| = a.mag + b.mag := by
        cases hn : a.negative with
        | true =>
          rw [toRat_of_neg hn, toRat_of_neg (hs ▸ hn), ← neg_add, abs_neg, abs_of_nonneg (by linarith)]
        | false =>
          rw [toRat_of_nonneg hn, toRat_of_nonneg (hs ▸ hn), abs_of_nonneg (by linarith)]
      rw [this]
      unfold mag
      rw [ha, hb]
      push_cast
      ring
    rw [e, div_mul_cancel₀ _ (by norm_num)] at h
    have hv : a.value + b.value < u128Size := by exact_mod_cast h
    exact ⟨_, by unfold checkedAdd u128; rw [if_pos hv]; rfl⟩
  · split
    · exact ⟨_, rfl⟩
    · split <;> exact ⟨_, rfl⟩

/-! ### Growth at the ends of a range -/

/-- Price, growth and the growth recorded at the ends of a range are the same. -/
structure Kith (p q : Pool) (key : PositionKey) : Prop where
  spacing : q.spacing = p.spacing
  tick : q.gs.tick = p.gs.tick
  rp : q.gs.rp = p.gs.rp
  fees : q.gs.fees = p.gs.fees
  lower : (q.tickOrNew key.lower).fees = (p.tickOrNew key.lower).fees
  upper : (q.tickOrNew key.upper).fees = (p.tickOrNew key.upper).fees

theorem Kin.kith {p q : Pool} (h : Kin p q) (key : PositionKey) : Kith p q key :=
  ⟨h.spacing, h.tick, h.rp, h.fees, h.ticks _, h.ticks _⟩

theorem feeRng_kith {p q : Pool} (hp : Tidy p) (hq : Tidy q) {key : PositionKey} (h : Kith p q key) (k : Kind) :
    q.feeRng (fun f => f.at k) key.lower key.upper = p.feeRng (fun f => f.at k) key.lower key.upper := by
  unfold feeRng
  rw [feeBelowAbove_new hp, feeBelowAbove_new hq, feeBelowAbove_new hp, feeBelowAbove_new hq, h.tick, h.fees, h.lower,
    h.upper]

/-! ### Ticks and positions -/

theorem updateTick_does {p : Pool} (ht : Tidy p) {t : Nat} {d : Decimal} {u : Bool} (hs : d.scale = 12)
    (hg : 0 ≤ (p.tickOrNew t).liqGross.toRat + d.toRat)
    (hg' : ((p.tickOrNew t).liqGross.toRat + d.toRat) * 10 ^ 12 < 2 ^ 128)
    (hnet : |(p.tickOrNew t).liqNet.toRat + (if u then -d.toRat else d.toRat)| * 10 ^ 12 < 2 ^ 128) :
    ∃ p', p.updateTick t d u = .ok p' := by
  obtain ⟨k1, k2, k3⟩ := ht.tickOrNew t
  have hstart : ∃ q : Pool, (match mapGet t p.ticks with
      | none => p.initializeTick t
      | some _ => .ok p) = .ok q ∧ mapGet t q.ticks = some (p.tickOrNew t) := by
    cases hm : mapGet t p.ticks with
    | some ts => exact ⟨p, rfl, by unfold Pool.tickOrNew; rw [hm]; rfl⟩
    | none =>
      have hn := not_anyNegative k1
      refine ⟨{ p with ticks := treeInsert t (p.tickOrNew t) p.ticks }, initializeTick_ok.2 ?_, mapGet_treeInsert_same _ _ _⟩
      unfold Pool.tickOrNew at hn ⊢
      rw [hm] at hn ⊢
      exact ⟨hn, rfl⟩
  obtain ⟨q, h1, h2⟩ := hstart
  obtain ⟨g, hga⟩ := sum_goes k2.1 hs (by rw [abs_of_nonneg hg]; exact hg')
  have hgn : g.isNegative = false := by
    rw [not_isNegative, add_toRat hga]
    exact hg
  obtain ⟨n, hn⟩ : ∃ n, (p.tickOrNew t).liqNet.add (if u then d.neg else d) = .ok n := by
    refine sum_goes k3 ?_ ?_
    · split
      · rw [neg_scale, hs]
      · rw [hs]
    · have : (if u then d.neg else d).toRat = if u then -d.toRat else d.toRat := by
        split
        · exact neg_toRat d
        · rfl
      rw [this]; exact hnet
  unfold updateTick
  refine bind_returns h1 ?_
  rw [h2]
  simp only
  unfold TickState.addLiqNet
  refine bind_returns (a := { p.tickOrNew t with liqNet := n }) (by rw [hn]; rfl) ?_
  unfold TickState.addLiqGross
  refine bind_returns (a := ⟨n, g, (p.tickOrNew t).fees⟩) ?_ ?_
  · simp only
    rw [hga, unwrap_eq, bind_eq, if_neg (by rw [hgn]; simp)]
    rfl
  simp only
  split <;> exact ⟨_, rfl⟩

/-- What a tick that is still there records has not changed. -/
theorem updateTick_keeps {p p' : Pool} {t : Nat} {d : Decimal} {u : Bool} (h : p.updateTick t d u = .ok p') {j : Nat}
    {ts : TickState} (hm : mapGet j p'.ticks = some ts) : ts.fees = (p.tickOrNew j).fees := by
  obtain ⟨h1, n, g, _, _, h3⟩ := updateTick_get h
  by_cases hj : j = t
  · subst hj
    rcases h3 with ⟨_, h5⟩ | ⟨_, h5⟩
    · rw [h5] at hm; cases hm
    · rw [h5] at hm; cases hm; rfl
  · rw [h1 j hj] at hm
    unfold tickOrNew
    rw [hm]
    rfl

theorem setPosition_keeps {p p' : Pool} {user lower upper : Nat} {d : Decimal} {f : Fees} (hlu : lower < upper)
    (h : p.setPosition user lower upper d = .ok (p', f)) {j : Nat} {ts : TickState}
    (hm : mapGet j p'.ticks = some ts) : ts.fees = (p.tickOrNew j).fees := by
  obtain ⟨nf, ps', old, base, fu, p1, p2, _, _, _, _, h0, _, _, _, _, _, h1, h2, h3, _⟩ := setPosition_ok h
  have htk : p'.ticks = p2.ticks := by
    rw [ite_ok] at h3
    rcases h3 with ⟨_, h3⟩ | ⟨_, h3⟩
    · obtain ⟨n, _, _, rfl⟩ := addGlblLiq_ok.1 h3; rfl
    · cases h3; rfl
  rw [htk] at hm
  by_cases hj : j = upper
  · have k := updateTick_keeps h2 hm
    rw [k]
    have e1 : p1.gs = p.gs := by rw [updateTick_frame h1]
    have := (updateTick_get h1).1 j (by omega)
    unfold tickOrNew
    rw [this, e1]
  · rw [(updateTick_get h2).1 j hj] at hm
    exact updateTick_keeps h1 hm

/-- A change of position carries over to another pool with the same price and growth, the same record for that
position, and enough room or enough left. -/
theorem setPosition_does {p q p' : Pool} (tp : Tidy p) (tq : Tidy q) {user lower upper : Nat}
    (kith : Kith p q ⟨user, lower, upper⟩)
    {d : Decimal} {f : Fees} (hlu : lower < upper)
    (e : mapGet ⟨user, lower, upper⟩ q.positions = mapGet ⟨user, lower, upper⟩ p.positions)
    (h : p.setPosition user lower upper d = .ok (p', f))
    (hliq : lower ≤ p.gs.tick ∧ p.gs.tick < upper → 0 ≤ q.gs.liq.toRat + d.toRat ∧
      (q.gs.liq.toRat + d.toRat) * 10 ^ 12 < 2 ^ 128)
    (hlo : 0 ≤ (q.tickOrNew lower).liqGross.toRat + d.toRat ∧
      ((q.tickOrNew lower).liqGross.toRat + d.toRat) * 10 ^ 12 < 2 ^ 128 ∧
      |(q.tickOrNew lower).liqNet.toRat + d.toRat| * 10 ^ 12 < 2 ^ 128)
    (hup : 0 ≤ (q.tickOrNew upper).liqGross.toRat + d.toRat ∧
      ((q.tickOrNew upper).liqGross.toRat + d.toRat) * 10 ^ 12 < 2 ^ 128 ∧
      |(q.tickOrNew upper).liqNet.toRat - d.toRat| * 10 ^ 12 < 2 ^ 128) :
    ∃ q', q.setPosition user lower upper d = .ok (q', f) ∧
      mapGet ⟨user, lower, upper⟩ q'.positions = mapGet ⟨user, lower, upper⟩ p'.positions := by
  have hs := delta_scale tp h
  obtain ⟨nf, ps', old, base, fu, p1, p2, n1, n2, n3, n4, h0, s1, s2, s3, s4, hneg, h1, h2, h3, m1, m2, m3, m4⟩ :=
    setPosition_ok h
  have hpp : p'.positions = ps' := by
    have e1 := updateTick_frame h1
    have e2 := updateTick_frame h2
    rw [ite_ok] at h3
    rcases h3 with ⟨_, h3⟩ | ⟨_, h3⟩
    · obtain ⟨n, _, _, rfl⟩ := addGlblLiq_ok.1 h3
      rw [e2, e1]
    · cases h3
      rw [e2, e1]
  obtain ⟨qs', hqs, eqs⟩ := setPositionMap_goes e h0
  have t0 : Tidy { q with positions := qs' } := tq.congr rfl rfl rfl rfl rfl rfl rfl rfl rfl
  obtain ⟨q1, hq1⟩ := updateTick_does t0 (t := lower) (u := false) hs hlo.1 hlo.2.1 hlo.2.2
  have t1 := t0.updateTick hq1
  have e1 := updateTick_frame hq1
  have et : q1.tickOrNew upper = q.tickOrNew upper := by
    have := (updateTick_get hq1).1 upper (by omega)
    unfold Pool.tickOrNew
    rw [this, e1]
  obtain ⟨q2, hq2⟩ := updateTick_does t1 (t := upper) (u := true) hs (by rw [et]; exact hup.1)
    (by rw [et]; exact hup.2.1) (by rw [et, if_pos rfl, ← sub_eq_add_neg]; exact hup.2.2)
  have e2 := updateTick_frame hq2
  have eg : q2.gs = q.gs := by rw [e2, e1]
  obtain ⟨q3, hq3⟩ : ∃ q3, (if q2.gs.tick ≥ lower ∧ q2.gs.tick < upper then q2.addGlblLiq d else .ok q2) = .ok q3 := by
    split
    · rename_i hin
      rw [eg, kith.tick] at hin
      obtain ⟨l1, l2⟩ := hliq hin
      obtain ⟨n, hn⟩ := sum_goes tq.liq.1 hs (by rw [abs_of_nonneg l1]; exact l2)
      refine ⟨_, addGlblLiq_ok.2 ⟨n, by rw [eg]; exact hn, ?_, rfl⟩⟩
      rw [not_isNegative, add_toRat hn]
      exact l1
    · exact ⟨_, rfl⟩
  have eq3 : q3.positions = qs' := by
    rw [ite_ok] at hq3
    rcases hq3 with ⟨_, hq3⟩ | ⟨_, hq3⟩
    · obtain ⟨n, _, _, rfl⟩ := addGlblLiq_ok.1 hq3
      rw [e2, e1]
    · cases hq3
      rw [e2, e1]
  simp only [Fees.anyNegative, Bool.or_eq_false_iff] at hneg
  refine ⟨q3, ?_, by rw [eq3, eqs, hpp]⟩
  unfold setPosition
  refine bind_of ((feeRng_kith tp tq kith .fx).trans n1) ?_
  refine bind_of ((feeRng_kith tp tq kith .fy).trans n2) ?_
  refine bind_of ((feeRng_kith tp tq kith .hx).trans n3) ?_
  refine bind_of ((feeRng_kith tp tq kith .hy).trans n4) ?_
  refine bind_of hqs ?_
  simp only
  refine bind_of (unwrap_ok.2 s1) (bind_of (unwrap_ok.2 s2) (bind_of (unwrap_ok.2 s3) (bind_of (unwrap_ok.2 s4) ?_)))
  refine bind_of (rassert_ok (u := ()).2 (by rw [hneg.1.1.1]; rfl)) ?_
  refine bind_of (rassert_ok (u := ()).2 (by rw [hneg.1.1.2]; rfl)) ?_
  refine bind_of (rassert_ok (u := ()).2 (by rw [hneg.1.2]; rfl)) ?_
  refine bind_of (rassert_ok (u := ()).2 (by rw [hneg.2]; rfl)) ?_
  refine bind_of hq1 (bind_of hq2 (bind_of hq3 ?_))
  exact bind_of m1 (bind_of m2 (bind_of m3 (bind_of m4 rfl)))

/-! ### What a withdrawal changes -/

/-- What a withdrawal from a position changes. -/
structure Left (p p' : Pool) (key : PositionKey) (d : ℚ) (r : Receipt) : Prop where
  nonneg : 0 ≤ d
  spacing : p'.spacing = p.spacing
  tick : p'.gs.tick = p.gs.tick
  rp : p'.gs.rp = p.gs.rp
  fees : p'.gs.fees = p.gs.fees
  ends : ∀ t, 0 < p'.usedAt t → (p'.tickOrNew t).fees = (p.tickOrNew t).fees
  c : p'.c = p.c
  feeRate : p'.feeRate = p.feeRate
  liq : p'.gs.liq.toRat = p.gs.liq.toRat - (if key.lower ≤ p.gs.tick ∧ p.gs.tick < key.upper then d else 0)
  starting : ∀ t, p'.startingAt t = p.startingAt t - if key.lower = t then d else 0
  ending : ∀ t, p'.endingAt t = p.endingAt t - if key.upper = t then d else 0
  others : ∀ k, k ≠ key → mapGet k p'.positions = mapGet k p.positions
  x : p'.x.toRat = p.x.toRat - r.x.toRat
  y : p'.y.toRat = p.y.toRat - r.y.toRat
  pot : ∀ k, (p'.pot k).toRat = (p.pot k).toRat - (r.fees.at k).toRat
  xOut : 0 ≤ r.x.toRat
  yOut : 0 ≤ r.y.toRat
  fee : ∀ k, 0 ≤ (r.fees.at k).toRat

theorem mem_of_used {p : Pool} (hb : Booked p) {t : Nat} (h : 0 < p.usedAt t) : ∃ ts, mapGet t p.ticks = some ts := by
  have := hb.gross t
  unfold usedAt at h
  rw [← this] at h
  unfold grossAt at h
  cases hm : mapGet t p.ticks with
  | none => rw [hm] at h; exact absurd h (lt_irrefl _)
  | some ts => exact ⟨ts, rfl⟩

theorem left_of {p p' p1 p2 : Pool} (hr : Reachable p) (hr' : Reachable p') {user lower upper : Nat}
    {l px py : Decimal} {r : Receipt}
    (hlu : lower < upper) (hd : 0 ≤ l.toRat) (h1 : p.setPosition user lower upper l.neg = .ok (p1, r.fees))
    (hx : p1.x.sub r.x = .ok px) (hy : p1.y.sub r.y = .ok py) (h2 : p1.payFees r.fees = .ok p2)
    (e : p' = { p2 with x := px, y := py }) (hrx : 0 ≤ r.x.toRat) (hry : 0 ≤ r.y.toRat) :
    Left p p' ⟨user, lower, upper⟩ l.toRat r := by
  have hb := Booked.reachable hr
  have hf := setPosition_frame h1
  obtain ⟨e1, e2, e3, e4, _, _, e5, e6⟩ := payFees_frame h2
  obtain ⟨_, s1, s2, _, s3, _⟩ := setPosition_sums hb.unique h1
  have hk : ∀ t, 0 < p'.usedAt t → (p'.tickOrNew t).fees = (p.tickOrNew t).fees := fun t ht => by
    obtain ⟨ts, hm⟩ := mem_of_used (Booked.reachable hr') ht
    have : (p'.tickOrNew t).fees = ts.fees := by unfold tickOrNew; rw [hm]; rfl
    rw [this]
    rw [e] at hm
    simp only at hm
    rw [e2] at hm
    exact setPosition_keeps hlu h1 hm
  subst e
  have es : ∀ t, ({ p2 with x := px, y := py } : Pool).startingAt t = p1.startingAt t := fun t => by
    unfold startingAt; simp only [e1]
  have ee : ∀ t, ({ p2 with x := px, y := py } : Pool).endingAt t = p1.endingAt t := fun t => by
    unfold endingAt; simp only [e1]
  refine ⟨hd, ?_, ?_, ?_, ?_, hk, ?_, ?_, ?_, fun t => ?_, fun t => ?_, fun q hq => ?_, ?_, ?_, fun k => ?_,
    hrx, hry, fees_nonneg h1⟩
  · show p2.spacing = _; rw [e4, hf]
  · show p2.gs.tick = _; rw [e3, hf]
  · show p2.gs.rp = _; rw [e3, hf]
  · show p2.gs.fees = _; rw [e3, hf]
  · show p2.c = _; rw [e5, hf]
  · show p2.feeRate = _; rw [e6, hf]
  · show p2.gs.liq.toRat = _; rw [e3, setPosition_liq h1, neg_toRat]; simp only; split <;> ring
  · rw [es, s1 t, neg_toRat]; simp only; split <;> ring
  · rw [ee, s2 t, neg_toRat]; simp only; split <;> ring
  · show mapGet q p2.positions = _; rw [e1]; exact s3 q hq
  · show px.toRat = _; rw [sub_toRat hx, hf]
  · show py.toRat = _; rw [sub_toRat hy, hf]
  · have := (payFees_pot h2 k).1
    rw [setPosition_pot h1] at this
    rw [← this]
    cases k <;> rfl

theorem withdraw_amounts {p p' : Pool} {user : Nat} {liq rpa rpb : Decimal} {r : Receipt}
    (h : p.withdraw user liq rpa rpb = .ok (p', r)) : 0 ≤ r.x.toRat ∧ 0 ≤ r.y.toRat := by
  obtain ⟨lower, upper, a, b, p1, p2, x0, y0, adj, px, py, h0, _, _, h1, h2, h3, _, h4, h5, h6, h7, h8, _⟩ :=
    withdraw_ok h
  have ha : 0 ≤ adj.toRat := by
    have : PoolMath.one.sub adjWithdrawal = .ok ⟨999999999999, 12, false⟩ := by decide +kernel
    rw [this] at h6
    cases h6
    rw [toRat_mk]
    positivity
  exact ⟨(mul_down h7 (mul_nonneg (xFrom_nonneg h4 h0 (tickToRp_pos h2).2.le (C23_increasing h1 h2 h3).le) ha)).1,
    (mul_down h8 (mul_nonneg (yFrom_nonneg h5 h0) ha)).1⟩

end Hmm.Pool
