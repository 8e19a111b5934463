import Verif.Proofs.OrderLeave

/-
Two withdrawals.
-/

namespace Hmm.Pool

open Decimal PoolMath

/-- The difference one withdrawal makes is the difference another makes. -/
structure Along (p p' q q' : Pool) (o : Request) : Prop where
  spacing : q'.spacing = q.spacing
  tick : q'.gs.tick = q.gs.tick
  rp : q'.gs.rp = q.gs.rp
  fees : q'.gs.fees = q.gs.fees
  ends : ∀ t, 0 < q'.usedAt t → (q'.tickOrNew t).fees = (q.tickOrNew t).fees
  c : q'.c = q.c
  feeRate : q'.feeRate = q.feeRate
  liq : q'.gs.liq.toRat - q.gs.liq.toRat = p'.gs.liq.toRat - p.gs.liq.toRat
  starting : ∀ t, q'.startingAt t - q.startingAt t = p'.startingAt t - p.startingAt t
  ending : ∀ t, q'.endingAt t - q.endingAt t = p'.endingAt t - p.endingAt t
  x : q'.x.toRat - q.x.toRat = p'.x.toRat - p.x.toRat
  y : q'.y.toRat - q.y.toRat = p'.y.toRat - p.y.toRat
  pot : ∀ k, (q'.pot k).toRat - (q.pot k).toRat = (p'.pot k).toRat - (p.pot k).toRat
  own : ∃ key, o.For p key ∧ mapGet key q'.positions = mapGet key p'.positions ∧
    (∀ k, k ≠ key → mapGet k q'.positions = mapGet k q.positions) ∧
    ∀ k, k ≠ key → mapGet k p'.positions = mapGet k p.positions

theorem Request.unique {p : Pool} {o : Request} {k k' : PositionKey} (h : o.For p k) (h' : o.For p k') : k = k' := by
  obtain ⟨u, l, r⟩ := k
  obtain ⟨u', l', r'⟩ := k'
  obtain ⟨e1, a1, b1⟩ := h
  obtain ⟨e2, a2, b2⟩ := h'
  simp only at e1 e2 a1 a2 b1 b2
  rw [a1] at a2; cases a2
  rw [b1] at b2; cases b2
  rw [e1, e2]

theorem Request.congr {p q : Pool} {o : Request} {k : PositionKey} (h : o.For p k) (e : q.spacing = p.spacing) :
    o.For q k := ⟨h.1, h.2.congr e⟩

theorem withdraw_left {p p' : Pool} (hr : Reachable p) {o : Request} {r : Receipt}
    (h : p.withdraw o.user o.liq o.rpa o.rpb = .ok (p', r)) :
    ∃ key d, o.For p key ∧ Left p p' key d r := by
  obtain ⟨hx, hy⟩ := withdraw_amounts h
  have hr' : Reachable p' := .step hr (.withdraw h)
  obtain ⟨lower, upper, a, b, p1, p2, x0, y0, adj, px, py, h0, g1, g2, g3, _, _, h1, _, _, _, _, _, _, _, _, _, h2, h3,
    h4, e⟩ := withdraw_ok h
  exact ⟨⟨o.user, lower, upper⟩, _, ⟨rfl, g1, g2⟩, left_of hr hr' g3 h0 h1 h2 h3 h4 e hx hy⟩

/-- A withdrawal that goes through for one pool goes through, with the same receipt, for any other with the same
price and growth and the same record for its position, if enough is left: if some pool has no more. -/
theorem withdraw_goes {p q p' z : Pool} (rp : Reachable p) (rq : Reachable q) (rz : Reachable z)
    {o : Request} {r : Receipt} (h : p.withdraw o.user o.liq o.rpa o.rpb = .ok (p', r))
    (hspace : q.spacing = p.spacing)
    (hk : ∀ key, o.For p key → mapGet key q.positions = mapGet key p.positions ∧ Kith p q key)
    (hliq : z.gs.liq.toRat ≤ q.gs.liq.toRat + (p'.gs.liq.toRat - p.gs.liq.toRat))
    (hst : ∀ t, z.startingAt t ≤ q.startingAt t + (p'.startingAt t - p.startingAt t))
    (hen : ∀ t, z.endingAt t ≤ q.endingAt t + (p'.endingAt t - p.endingAt t))
    (hx : z.x.toRat ≤ q.x.toRat + (p'.x.toRat - p.x.toRat))
    (hy : z.y.toRat ≤ q.y.toRat + (p'.y.toRat - p.y.toRat))
    (hpot : ∀ k, (p.pot k).toRat - (p'.pot k).toRat ≤ (q.pot k).toRat) :
    ∃ q', q.withdraw o.user o.liq o.rpa o.rpb = .ok (q', r) ∧ Along p p' q q' o := by
  have tp := Tidy.reachable rp
  have tq := Tidy.reachable rq
  have tz := Tidy.reachable rz
  have sq := Stored.reachable rq
  have gq := GrossFits.reachable rq
  have bq := Booked.reachable rq
  have rp' : Reachable p' := .step rp (.withdraw h)
  obtain ⟨hrx, hry⟩ := withdraw_amounts h
  unfold withdraw at h
  rw [bind_ok] at h; obtain ⟨_, a1, h⟩ := h
  rw [bind_ok] at h; obtain ⟨lower, h1, h⟩ := h
  rw [bind_ok] at h; obtain ⟨upper, h2, h⟩ := h
  rw [bind_ok] at h; obtain ⟨_, h3, h⟩ := h
  rw [bind_ok] at h; obtain ⟨a, h4, h⟩ := h
  rw [bind_ok] at h; obtain ⟨b, h5, h⟩ := h
  rw [bind_ok] at h; obtain ⟨⟨p1, f⟩, h6, h⟩ := h
  simp only at h
  rw [bind_ok] at h; obtain ⟨x0, h7, h⟩ := h
  rw [bind_ok] at h; obtain ⟨y0, h8, h⟩ := h
  rw [bind_ok] at h; obtain ⟨adj, h9, h⟩ := h
  rw [bind_ok] at h; obtain ⟨xOut, h10, h⟩ := h
  rw [bind_ok] at h; obtain ⟨yOut, h11, h⟩ := h
  rw [bind_ok] at h; obtain ⟨u1, s1, h⟩ := h
  rw [bind_ok] at h; obtain ⟨xS, s2, h⟩ := h
  rw [bind_ok] at h; obtain ⟨u2, s3, h⟩ := h
  rw [bind_ok] at h; obtain ⟨yS, s4, h⟩ := h
  rw [bind_ok] at h; obtain ⟨b1, h12, h⟩ := h
  rw [ite_ok] at h; rcases h with ⟨_, h⟩ | ⟨h13, h⟩; · simp [rpanic] at h
  rw [bind_ok] at h; obtain ⟨b2, h14, h⟩ := h
  rw [ite_ok] at h; rcases h with ⟨_, h⟩ | ⟨h15, h⟩; · simp [rpanic] at h
  rw [bind_ok] at h; obtain ⟨px, s5, h⟩ := h
  rw [bind_ok] at h; obtain ⟨py, s6, h⟩ := h
  rw [bind_ok] at h; obtain ⟨p2, s7, h⟩ := h
  rw [bind_ok] at h; obtain ⟨v1, s8, h⟩ := h
  rw [bind_ok] at h; obtain ⟨v2, s9, h⟩ := h
  simp only [pure_ok, Prod.mk.injEq] at h
  obtain ⟨e, rfl⟩ := h
  simp only at hrx hry
  have hlu : lower < upper := by
    have := h3
    rw [rassert_ok, decide_eq_true_eq] at this
    exact this
  have hd : 0 ≤ o.liq.toRat := by
    have := a1
    rw [rassert_ok, Bool.not_eq_true', not_isNegative] at this
    exact this
  have mp := left_of rp rp' (r := ⟨xOut, yOut, f, xS, yS⟩) hlu hd h6 (unwrap_ok.1 s5) (unwrap_ok.1 s6) s7 e.symm hrx hry
  have key : o.For p ⟨o.user, lower, upper⟩ := ⟨rfl, h1, h2⟩
  obtain ⟨hpos, kith⟩ := hk _ key
  have sl := hst lower
  have el := hen lower
  have su := hst upper
  have eu := hen upper
  rw [mp.starting, if_pos rfl] at sl
  rw [mp.starting, if_neg (by simp only; omega)] at su
  rw [mp.ending, if_neg (by simp only; omega)] at el
  rw [mp.ending, if_pos rfl] at eu
  have gl := gq lower
  have gu := gq upper
  have z1 := starting_nonneg rz lower
  have z2 := ending_nonneg rz lower
  have z3 := starting_nonneg rz upper
  have z4 := ending_nonneg rz upper
  have net : ∀ t, (q.tickOrNew t).liqNet.toRat = q.startingAt t - q.endingAt t := fun t => by
    rw [← bq.net]
    unfold tickOrNew netAt
    cases mapGet t q.ticks <;> simp [zero_toRat]
  obtain ⟨q1', hq1, hm⟩ := setPosition_does tp tq kith hlu hpos h6
    (fun hin => by
      rw [mp.liq, if_pos hin] at hliq
      have := stored_rat tq.liq sq.liq
      have := tz.liq.nonneg
      rw [neg_toRat]
      constructor <;> linarith)
    (by
      rw [tickOrNew_gross rq, net, neg_toRat]
      refine ⟨by linarith, by linarith, ?_⟩
      have : |q.startingAt lower - q.endingAt lower + -o.liq.toRat| ≤ q.startingAt lower + q.endingAt lower := by
        rw [abs_le]; constructor <;> linarith
      linarith)
    (by
      rw [tickOrNew_gross rq, net, neg_toRat]
      refine ⟨by linarith, by linarith, ?_⟩
      have : |q.startingAt upper - q.endingAt upper - -o.liq.toRat| ≤ q.startingAt upper + q.endingAt upper := by
        rw [abs_le]; constructor <;> linarith
      linarith)
  have tq1 := tq.setPosition hq1
  have sq1 := sq.setPosition tq hq1
  have fq := setPosition_frame hq1
  have fp := setPosition_frame h6
  have xs : xOut.scale = 12 := (sub_ok.1 (unwrap_ok.1 s5)).1.symm.trans (tp.setPosition h6).x.1
  have ys : yOut.scale = 12 := (sub_ok.1 (unwrap_ok.1 s6)).1.symm.trans (tp.setPosition h6).y.1
  have ex : q1'.x = q.x := by rw [fq]
  have ey : q1'.y = q.y := by rw [fq]
  have erp : q1'.gs.rp = p1.gs.rp := by rw [fq, fp]; exact kith.rp
  have hmx := mp.x
  have hmy := mp.y
  simp only at hmx hmy
  obtain ⟨lx, qx, hqx⟩ := take_goes tq1.x sq1.x xs hrx (by
    rw [ex]
    have := tz.x.nonneg
    linarith)
  obtain ⟨ly, qy, hqy⟩ := take_goes tq1.y sq1.y ys hry (by
    rw [ey]
    have := tz.y.nonneg
    linarith)
  obtain ⟨q2', hq2⟩ := payFees_goes tq1 sq1 (f := f)
    (fun k => by
      rw [← (payFees_pot s7 k).2]
      exact pot_scale (tp.setPosition h6) k)
    (fees_nonneg h6)
    (fun k => by
      rw [setPosition_pot hq1]
      have := hpot k
      rw [mp.pot] at this
      simp only at this
      linarith)
  have ok : q.withdraw o.user o.liq o.rpa o.rpb = .ok ({ q2' with x := qx, y := qy }, ⟨xOut, yOut, f, xS, yS⟩) := by
    unfold withdraw
    refine bind_of a1 ?_
    refine bind_of ((snap_congr hspace _ _ _).trans h1) (bind_of ((snap_congr hspace _ _ _).trans h2) ?_)
    refine bind_of h3 (bind_of h4 (bind_of h5 (bind_of hq1 ?_)))
    simp only [erp]
    refine bind_of h7 (bind_of h8 (bind_of h9 (bind_of h10 (bind_of h11 ?_))))
    refine bind_of s1 (bind_of s2 (bind_of s3 (bind_of s4 ?_)))
    refine bind_of (unwrap_ok.2 lx) ?_
    rw [if_neg (by simp)]
    refine bind_of (unwrap_ok.2 ly) ?_
    rw [if_neg (by simp)]
    refine bind_of (unwrap_ok.2 hqx) (bind_of (unwrap_ok.2 hqy) (bind_of hq2 ?_))
    exact bind_of s8 (bind_of s9 rfl)
  have rq' : Reachable { q2' with x := qx, y := qy } := .step rq (.withdraw ok)
  have mq := left_of rq rq' (r := ⟨xOut, yOut, f, xS, yS⟩) hlu hd hq1 hqx hqy hq2 rfl hrx hry
  refine ⟨_, ok, mq.spacing, mq.tick, mq.rp, mq.fees, mq.ends, mq.c, mq.feeRate, ?_, fun t => ?_, fun t => ?_, ?_, ?_,
    fun k => ?_, _, key, ?_, mq.others, mp.others⟩
  · rw [mq.liq, mp.liq, kith.tick]; ring
  · rw [mq.starting, mp.starting]; ring
  · rw [mq.ending, mp.ending]; ring
  · rw [mq.x, mp.x]; ring
  · rw [mq.y, mp.y]; ring
  · rw [mq.pot, mp.pot]; ring
  · show mapGet _ q2'.positions = _
    rw [(payFees_frame hq2).1, hm, ← e]
    show _ = mapGet _ p2.positions
    rw [(payFees_frame s7).1]

/-- Pools with the same records meet the same requests, with the same receipts, and have the same records after. -/
theorem SameRecords.withdraw {p q p' : Pool} (rp : Reachable p) (rq : Reachable q) (h : SameRecords p q)
    {o : Request} {r : Receipt} (hd : p.withdraw o.user o.liq o.rpa o.rpb = .ok (p', r)) :
    ∃ q', q.withdraw o.user o.liq o.rpa o.rpb = .ok (q', r) ∧ SameRecords p' q' := by
  have rp' : Reachable p' := .step rp (.withdraw hd)
  obtain ⟨key, d, hkey, mp⟩ := withdraw_left rp hd
  have hl : q.gs.liq.toRat = p.gs.liq.toRat := by rw [h.gs]
  have hx : q.x.toRat = p.x.toRat := by rw [h.x]
  have hy : q.y.toRat = p.y.toRat := by rw [h.y]
  obtain ⟨q', hq, par⟩ := withdraw_goes rp rq rp' hd h.spacing (fun k _ => ⟨h.positions k, h.kin.kith k⟩) (by linarith)
    (fun t => by linarith [(h.sums rp rq t).1]) (fun t => by linarith [(h.sums rp rq t).2]) (by linarith) (by linarith)
    (fun k => by
      have := pot_nonneg rp' k
      rw [h.pot]
      linarith)
  have rq' : Reachable q' := .step rq (.withdraw hq)
  obtain ⟨key', hfor, e1, e2, e3⟩ := par.own
  have hs : ∀ t, q'.startingAt t = p'.startingAt t := fun t => by linarith [par.starting t, (h.sums rp rq t).1]
  have he : ∀ t, q'.endingAt t = p'.endingAt t := fun t => by linarith [par.ending t, (h.sums rp rq t).2]
  refine ⟨q', hq, same_of_used rp' rq' (by rw [par.spacing, h.spacing, mp.spacing]) (by rw [par.tick, mp.tick, h.gs])
    (by rw [par.rp, mp.rp, h.gs]) (by rw [par.fees, mp.fees, h.gs]) (fun t ht => ?_) (by rw [par.c, h.c, mp.c])
    (by rw [par.feeRate, h.feeRate, mp.feeRate]) (by linarith [par.liq]) hs he
    (by linarith [par.x]) (by linarith [par.y]) (fun k => by have := par.pot k; rw [h.pot] at this; linarith)
    fun k => ?_⟩
  · rw [mp.ends t ht, ← h.kin.ticks t]
    refine par.ends t ?_
    unfold usedAt at ht ⊢
    rw [hs, he]
    exact ht
  by_cases hk : k = key'
  · rw [hk, e1]
  · rw [e2 k hk, e3 k hk, h.positions]

theorem held_used {p : Pool} (hr : Reachable p) {key : PositionKey} {s : PositionState}
    (hm : mapGet key p.positions = some s) (h : 0 < s.liq.toRat) :
    0 < p.usedAt key.lower ∧ 0 < p.usedAt key.upper := by
  have hb := Booked.reachable hr
  obtain ⟨h1, h2⟩ := hb.initialised (mapGet_mem hm) h.ne'
  have : ∀ t, t ∈ p.ticks.map (·.1) → 0 < p.usedAt t := fun t ht => by
    obtain ⟨ts, hm⟩ := Option.isSome_iff_exists.1 (mapGet_isSome.2 ht)
    have hi := hb.init t ts hm
    have hg := hb.gross t
    unfold grossAt at hg
    rw [hm] at hg
    unfold usedAt
    rw [← hg]
    exact hi
  exact ⟨this _ h1, this _ h2⟩

/-- Two withdrawals from different positions can be made the other way round. -/
theorem withdraw_swap {p p1 p2 : Pool} (rp : Reachable p) {o o' : Request} {r r' : Receipt} (hap : o.Apart p o')
    (ho : o.Held p) (ho' : o'.Held p)
    (h : p.withdraw o.user o.liq o.rpa o.rpb = .ok (p1, r))
    (h' : p1.withdraw o'.user o'.liq o'.rpa o'.rpb = .ok (p2, r')) :
    ∃ q1 q2, p.withdraw o'.user o'.liq o'.rpa o'.rpb = .ok (q1, r') ∧
      q1.withdraw o.user o.liq o.rpa o.rpb = .ok (q2, r) ∧ SameRecords p2 q2 := by
  have rp1 : Reachable p1 := .step rp (.withdraw h)
  have rp2 : Reachable p2 := .step rp1 (.withdraw h')
  obtain ⟨ka, da, fa, ma⟩ := withdraw_left rp h
  obtain ⟨kb, db, fb, mb⟩ := withdraw_left rp1 h'
  have fb' : o'.For p kb := Request.congr fb ma.spacing.symm
  have hne : kb ≠ ka := fun e => hap ka ⟨fa, e ▸ fb'⟩
  obtain ⟨sa, hma, hla⟩ := ho ka fa
  obtain ⟨sb, hmb, hlb⟩ := ho' kb fb'
  have hliq : p1.gs.liq.toRat ≤ p.gs.liq.toRat := by
    have := ma.nonneg
    rw [ma.liq]; split <;> linarith
  have hst : ∀ t, p1.startingAt t ≤ p.startingAt t := fun t => by
    have := ma.nonneg
    rw [ma.starting]; split <;> linarith
  have hen : ∀ t, p1.endingAt t ≤ p.endingAt t := fun t => by
    have := ma.nonneg
    rw [ma.ending]; split <;> linarith
  have hpot : ∀ k, (p1.pot k).toRat ≤ (p.pot k).toRat := fun k => by
    have := ma.fee k
    rw [ma.pot]; linarith
  have ub := held_used rp1 ((ma.others kb hne).trans hmb) hlb
  obtain ⟨q1, hq1, par⟩ := withdraw_goes rp1 rp rp2 h' ma.spacing.symm (fun key hk => by
      rw [Request.unique hk fb]
      exact ⟨(ma.others kb hne).symm, ma.spacing.symm, ma.tick.symm, ma.rp.symm, ma.fees.symm, (ma.ends _ ub.1).symm,
        (ma.ends _ ub.2).symm⟩)
    (by linarith) (fun t => by linarith [hst t]) (fun t => by linarith [hen t]) (by linarith [ma.x, ma.xOut])
    (by linarith [ma.y, ma.yOut]) (fun k => by linarith [hpot k, pot_nonneg rp2 k])
  have rq1 : Reachable q1 := .step rp (.withdraw hq1)
  obtain ⟨kb', fb2, e1, e2, e3⟩ := par.own
  have : kb' = kb := Request.unique fb2 fb
  subst this
  have ua := held_used rq1 ((e2 ka hne.symm).trans hma) hla
  obtain ⟨q2, hq2, par2⟩ := withdraw_goes rp rq1 rp2 h par.spacing (fun key hk => by
      rw [Request.unique hk fa]
      exact ⟨e2 ka hne.symm, par.spacing, par.tick, par.rp, par.fees, par.ends _ ua.1, par.ends _ ua.2⟩)
    (by linarith [par.liq]) (fun t => by linarith [par.starting t]) (fun t => by linarith [par.ending t])
    (by linarith [par.x]) (by linarith [par.y])
    (fun k => by linarith [par.pot k, pot_nonneg rp2 k])
  have rq2 : Reachable q2 := .step rq1 (.withdraw hq2)
  obtain ⟨ka', fa2, g1, g2, g3⟩ := par2.own
  have : ka' = ka := Request.unique fa2 fa
  subst this
  have hs : ∀ t, q2.startingAt t = p2.startingAt t := fun t => by linarith [par.starting t, par2.starting t]
  have he : ∀ t, q2.endingAt t = p2.endingAt t := fun t => by linarith [par.ending t, par2.ending t]
  refine ⟨q1, q2, hq1, hq2, same_of_used rp2 rq2 (by rw [par2.spacing, par.spacing, mb.spacing, ma.spacing])
    (by rw [par2.tick, par.tick, mb.tick, ma.tick]) (by rw [par2.rp, par.rp, mb.rp, ma.rp])
    (by rw [par2.fees, par.fees, mb.fees, ma.fees]) (fun t ht => ?_) (by rw [par2.c, par.c, mb.c, ma.c])
    (by rw [par2.feeRate, par.feeRate, mb.feeRate, ma.feeRate]) (by linarith [par.liq, par2.liq]) hs he
    (by linarith [par.x, par2.x]) (by linarith [par.y, par2.y]) (fun k => by linarith [par.pot k, par2.pot k])
    fun k => ?_⟩
  · have u1 : 0 < p1.usedAt t := by
      have := mb.nonneg
      have h1 := mb.starting t
      have h2 := mb.ending t
      unfold usedAt at ht ⊢
      split at h1 <;> split at h2 <;> linarith
    have v2 : 0 < q2.usedAt t := by
      unfold usedAt at ht ⊢
      rw [hs, he]; exact ht
    have v1 : 0 < q1.usedAt t := by
      have := ma.nonneg
      have h1 := ma.starting t
      have h2 := ma.ending t
      have h3 := par2.starting t
      have h4 := par2.ending t
      unfold usedAt at v2 ⊢
      split at h1 <;> split at h2 <;> linarith
    rw [par2.ends t v2, par.ends t v1, mb.ends t ht, ma.ends t u1]
  by_cases hka : k = ka'
  · subst hka
    rw [g1, mb.others k hne.symm]
  · rw [g2 k hka]
    by_cases hkb : k = kb'
    · subst hkb
      exact e1
    · rw [e2 k hkb, mb.others k hkb, ma.others k hka]

end Hmm.Pool
