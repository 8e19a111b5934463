import Verif.Proofs.OrderWithdrawals
import Verif.Spec.OrderMixed

/-
A deposit and a withdrawal.
-/

namespace Hmm.Pool

open Decimal PoolMath

/-- A deposit that goes through for one pool goes through, with the same receipt, for any other with the same price,
the same growth at the ends of its range and the same record for its position, if there is room. -/
theorem deposit_does {p q p' z : Pool} (rp : Reachable p) (rq : Reachable q) (rz : Reachable z)
    {o : Offer} {r : Receipt} (h : p.deposit o.user o.x o.y o.rpa o.rpb = .ok (p', r))
    (hspace : q.spacing = p.spacing)
    (hk : ∀ key, o.For p key → mapGet key q.positions = mapGet key p.positions ∧ Kith p q key)
    (hliq : q.gs.liq.toRat + (p'.gs.liq.toRat - p.gs.liq.toRat) ≤ z.gs.liq.toRat)
    (hused : ∀ t, q.usedAt t + (p'.usedAt t - p.usedAt t) ≤ z.usedAt t)
    (hx : q.x.toRat + (p'.x.toRat - p.x.toRat) ≤ z.x.toRat)
    (hy : q.y.toRat + (p'.y.toRat - p.y.toRat) ≤ z.y.toRat)
    (hpot : ∀ k, (p.pot k).toRat - (p'.pot k).toRat ≤ (q.pot k).toRat) :
    ∃ q', q.deposit o.user o.x o.y o.rpa o.rpb = .ok (q', r) ∧ Par p p' q q' o := by
  have tp := Tidy.reachable rp
  have tq := Tidy.reachable rq
  have sz := Stored.reachable rz
  have tz := Tidy.reachable rz
  have gz := GrossFits.reachable rz
  obtain ⟨hrx, hry⟩ := deposit_amounts h
  unfold deposit at h
  rw [bind_ok] at h; obtain ⟨_, a1, h⟩ := h
  rw [bind_ok] at h; obtain ⟨_, a2, h⟩ := h
  rw [bind_ok] at h; obtain ⟨_, a3, h⟩ := h
  rw [bind_ok] at h; obtain ⟨_, a4, h⟩ := h
  rw [bind_ok] at h; obtain ⟨lower, h1, h⟩ := h
  rw [bind_ok] at h; obtain ⟨upper, h2, h⟩ := h
  rw [bind_ok] at h; obtain ⟨_, h3, h⟩ := h
  rw [bind_ok] at h; obtain ⟨a, h4, h⟩ := h
  rw [bind_ok] at h; obtain ⟨b, h5, h⟩ := h
  rw [bind_ok] at h; obtain ⟨liq, h6, h⟩ := h
  rw [ite_ok] at h; rcases h with ⟨_, h⟩ | ⟨h7, h⟩; · simp [rpanic] at h
  rw [bind_ok] at h; obtain ⟨xIn, h8, h⟩ := h
  rw [bind_ok] at h; obtain ⟨b1, h9, h⟩ := h
  rw [ite_ok] at h; rcases h with ⟨_, h⟩ | ⟨h10, h⟩; · simp [rpanic] at h
  rw [bind_ok] at h; obtain ⟨yIn, h11, h⟩ := h
  rw [bind_ok] at h; obtain ⟨b2, h12, h⟩ := h
  rw [ite_ok] at h; rcases h with ⟨_, h⟩ | ⟨h13, h⟩; · simp [rpanic] at h
  rw [bind_ok] at h; obtain ⟨⟨p1, f⟩, h14, h⟩ := h
  simp only at h
  rw [bind_ok] at h; obtain ⟨q1, s1, h⟩ := h
  rw [bind_ok] at h; obtain ⟨xD, s2, h⟩ := h
  rw [bind_ok] at h; obtain ⟨q2, s3, h⟩ := h
  rw [bind_ok] at h; obtain ⟨yD, s4, h⟩ := h
  rw [bind_ok] at h; obtain ⟨px, s5, h⟩ := h
  rw [bind_ok] at h; obtain ⟨py, s6, h⟩ := h
  rw [bind_ok] at h; obtain ⟨p2, s7, h⟩ := h
  rw [bind_ok] at h; obtain ⟨v1, s8, h⟩ := h
  rw [bind_ok] at h; obtain ⟨v2, s9, h⟩ := h
  rw [bind_ok] at h; obtain ⟨v3, s10, h⟩ := h
  rw [bind_ok] at h; obtain ⟨v4, s11, h⟩ := h
  simp only [pure_ok, Prod.mk.injEq] at h
  obtain ⟨e, rfl⟩ := h
  simp only at hrx hry
  have hlu : lower < upper := by
    have := h3
    rw [rassert_ok, decide_eq_true_eq] at this
    exact this
  have hd : 0 ≤ liq.toRat := not_isNegative.1 (by simpa using h7)
  have mp := moved_of rp (r := ⟨xIn, yIn, f, xD, yD⟩) hlu hd h14 (unwrap_ok.1 s5) (unwrap_ok.1 s6) s7 e.symm hrx hry
  have key : o.For p ⟨o.user, lower, upper⟩ := ⟨rfl, h1, h2⟩
  have ux : ∀ t, p'.usedAt t = p.usedAt t + ((if lower = t then liq.toRat else 0) + if upper = t then liq.toRat else 0) :=
    fun t => by
      unfold usedAt
      rw [mp.starting, mp.ending]
      simp only
      ring
  have ul := hused lower
  have uu := hused upper
  rw [ux, if_pos rfl, if_neg (by omega)] at ul
  rw [ux, if_neg (by omega), if_pos rfl] at uu
  have gl := gz lower
  have gu := gz upper
  unfold usedAt at ul uu
  have z1 := starting_nonneg rq lower
  have z2 := ending_nonneg rq lower
  have z3 := starting_nonneg rq upper
  have z4 := ending_nonneg rq upper
  have bq := Booked.reachable rq
  have net : ∀ t, (q.tickOrNew t).liqNet.toRat = q.startingAt t - q.endingAt t := fun t => by
    rw [← bq.net]
    unfold tickOrNew netAt
    cases mapGet t q.ticks <;> simp [zero_toRat]
  obtain ⟨hpos, kith⟩ := hk _ key
  obtain ⟨q1', hq1, hm⟩ := setPosition_does tp tq kith hlu hpos h14
    (fun hin => by
      rw [mp.liq, if_pos hin] at hliq
      have := stored_rat tz.liq sz.liq
      have := tq.liq.nonneg
      constructor <;> linarith)
    (by
      rw [tickOrNew_gross rq, net]
      refine ⟨by linarith, by linarith, ?_⟩
      have : |q.startingAt lower - q.endingAt lower + liq.toRat| ≤ q.startingAt lower + q.endingAt lower + liq.toRat := by
        rw [abs_le]; constructor <;> linarith
      linarith)
    (by
      rw [tickOrNew_gross rq, net]
      refine ⟨by linarith, by linarith, ?_⟩
      have : |q.startingAt upper - q.endingAt upper - liq.toRat| ≤ q.startingAt upper + q.endingAt upper + liq.toRat := by
        rw [abs_le]; constructor <;> linarith
      linarith)
  have tq1 := tq.setPosition hq1
  have sq1 := (Stored.reachable rq).setPosition tq hq1
  have fq := setPosition_frame hq1
  have fp := setPosition_frame h14
  have xs : xIn.scale = 12 := (add_ok.1 (unwrap_ok.1 s5)).1.symm.trans (tp.setPosition h14).x.1
  have ys : yIn.scale = 12 := (add_ok.1 (unwrap_ok.1 s6)).1.symm.trans (tp.setPosition h14).y.1
  have ex : q1'.x = q.x := by rw [fq]
  have ey : q1'.y = q.y := by rw [fq]
  have hmx := mp.x
  have hmy := mp.y
  simp only at hmx hmy
  obtain ⟨qx, hqx⟩ := add_goes tq1.x xs hrx (by
    rw [ex]
    have := stored_rat tz.x sz.x
    linarith)
  obtain ⟨qy, hqy⟩ := add_goes tq1.y ys hry (by
    rw [ey]
    have := stored_rat tz.y sz.y
    linarith)
  obtain ⟨q2', hq2⟩ := payFees_goes tq1 sq1 (f := f)
    (fun k => by
      rw [← (payFees_pot s7 k).2]
      exact pot_scale (tp.setPosition h14) k)
    (fees_nonneg h14)
    (fun k => by
      rw [setPosition_pot hq1]
      have := hpot k
      rw [mp.pot] at this
      simp only at this
      linarith)
  have ok : q.deposit o.user o.x o.y o.rpa o.rpb = .ok ({ q2' with x := qx, y := qy }, ⟨xIn, yIn, f, xD, yD⟩) := by
    unfold deposit
    refine bind_of a1 (bind_of a2 (bind_of a3 (bind_of a4 ?_)))
    refine bind_of ((snap_congr hspace _ _ _).trans h1) (bind_of ((snap_congr hspace _ _ _).trans h2) ?_)
    refine bind_of h3 (bind_of h4 (bind_of h5 ?_))
    simp only [kith.rp]
    refine bind_of h6 ?_
    rw [if_neg h7]
    refine bind_of h8 (bind_of h9 ?_)
    rw [if_neg h10]
    refine bind_of h11 (bind_of h12 ?_)
    rw [if_neg h13]
    refine bind_of hq1 ?_
    simp only
    refine bind_of s1 (bind_of s2 (bind_of s3 (bind_of s4 ?_)))
    refine bind_of (unwrap_ok.2 hqx) (bind_of (unwrap_ok.2 hqy) (bind_of hq2 ?_))
    exact bind_of s8 (bind_of s9 (bind_of s10 (bind_of s11 rfl)))
  have mq := moved_of rq (r := ⟨xIn, yIn, f, xD, yD⟩) hlu hd hq1 hqx hqy hq2 rfl hrx hry
  refine ⟨_, ok, mq.kin, mp.kin, mq.c, mq.feeRate, ?_, fun t => ?_, fun t => ?_, ?_, ?_, fun k => ?_, _, key, ?_, mq.others,
    mp.others⟩
  · rw [mq.liq, mp.liq, kith.tick]; ring
  · rw [mq.starting, mp.starting]; ring
  · rw [mq.ending, mp.ending]; ring
  · rw [mq.x, mp.x]; ring
  · rw [mq.y, mp.y]; ring
  · rw [mq.pot, mp.pot]; ring
  · show mapGet _ q2'.positions = _
    rw [(payFees_frame hq2).1, hm, ← e]
    show _ = mapGet _ p2.positions
    rw [(payFees_frame s7).1]

/-! ### The fees collected -/

theorem setPosition_fees {p q p' q' : Pool} (tp : Tidy p) (tq : Tidy q) {user lower upper : Nat}
    (kith : Kith p q ⟨user, lower, upper⟩) {d : Decimal} {f g : Fees}
    (e : mapGet ⟨user, lower, upper⟩ q.positions = mapGet ⟨user, lower, upper⟩ p.positions)
    (h : p.setPosition user lower upper d = .ok (p', f)) (h' : q.setPosition user lower upper d = .ok (q', g)) :
    g = f := by
  obtain ⟨⟨a1, a2, a3, a4⟩, ps', old, base, ⟨u1, u2, u3, u4⟩, _, _, n1, n2, n3, n4, h0, s1, s2, s3, s4, _, _, _, _, m1,
    m2, m3, m4⟩ := setPosition_ok h
  obtain ⟨⟨b1, b2, b3, b4⟩, qs', old', base', ⟨v1, v2, v3, v4⟩, _, _, k1, k2, k3, k4, i0, t1, t2, t3, t4, _, _, _, _, l1,
    l2, l3, l4⟩ := setPosition_ok h'
  simp only at *
  have o1 := (feeRng_kith tp tq kith .fx).trans n1
  have o2 := (feeRng_kith tp tq kith .fy).trans n2
  have o3 := (feeRng_kith tp tq kith .hx).trans n3
  have o4 := (feeRng_kith tp tq kith .hy).trans n4
  cases o1.symm.trans k1
  cases o2.symm.trans k2
  cases o3.symm.trans k3
  cases o4.symm.trans k4
  obtain ⟨qs2, hqs, _⟩ := setPositionMap_goes e h0
  cases hqs.symm.trans i0
  cases s1.symm.trans t1
  cases s2.symm.trans t2
  cases s3.symm.trans t3
  cases s4.symm.trans t4
  cases f
  cases g
  simp only at m1 m2 m3 m4 l1 l2 l3 l4
  cases m1.symm.trans l1
  cases m2.symm.trans l2
  cases m3.symm.trans l3
  cases m4.symm.trans l4
  rfl

theorem deposit_fees {p q p' q' : Pool} (rp : Reachable p) (rq : Reachable q) {o : Offer} {r s : Receipt}
    (h : p.deposit o.user o.x o.y o.rpa o.rpb = .ok (p', r)) (h' : q.deposit o.user o.x o.y o.rpa o.rpb = .ok (q', s))
    (hspace : q.spacing = p.spacing)
    (hk : ∀ key, o.For p key → mapGet key q.positions = mapGet key p.positions ∧ Kith p q key) : s.fees = r.fees := by
  obtain ⟨lower, upper, a, b, liq, p1, p2, px, py, _, _, _, _, g1, g2, g3, e1, e2, e3, _, _, _, _, _, h1, _⟩ := deposit_ok h
  obtain ⟨lower', upper', a', b', liq', p1', p2', px', py', _, _, _, _, g1', g2', g3', e1', e2', e3', _, _, _, _, _, h1', _⟩ :=
    deposit_ok h'
  rw [snap_congr hspace, g1] at g1'
  cases g1'
  rw [snap_congr hspace, g2] at g2'
  cases g2'
  obtain ⟨hpos, kith⟩ := hk ⟨o.user, lower, upper⟩ ⟨rfl, g1, g2⟩
  cases e1.symm.trans e1'
  cases e2.symm.trans e2'
  rw [kith.rp, e3] at e3'
  cases e3'
  exact setPosition_fees (Tidy.reachable rp) (Tidy.reachable rq) kith hpos h1 h1'

theorem withdraw_fees {p q p' q' : Pool} (rp : Reachable p) (rq : Reachable q) {o : Request} {r s : Receipt}
    (h : p.withdraw o.user o.liq o.rpa o.rpb = .ok (p', r)) (h' : q.withdraw o.user o.liq o.rpa o.rpb = .ok (q', s))
    (hspace : q.spacing = p.spacing)
    (hk : ∀ key, o.For p key → mapGet key q.positions = mapGet key p.positions ∧ Kith p q key) : s.fees = r.fees := by
  obtain ⟨lower, upper, a, b, p1, p2, x0, y0, adj, px, py, _, g1, g2, _, _, _, h1, _⟩ := withdraw_ok h
  obtain ⟨lower', upper', a', b', p1', p2', x0', y0', adj', px', py', _, g1', g2', _, _, _, h1', _⟩ := withdraw_ok h'
  rw [snap_congr hspace, g1] at g1'
  cases g1'
  rw [snap_congr hspace, g2] at g2'
  cases g2'
  obtain ⟨hpos, kith⟩ := hk ⟨o.user, lower, upper⟩ ⟨rfl, g1, g2⟩
  exact setPosition_fees (Tidy.reachable rp) (Tidy.reachable rq) kith hpos h1 h1'

/-! ### Ticks that stay in use -/

theorem used_of_mem {p : Pool} (hb : Booked p) {t : Nat} (h : (mapGet t p.ticks).isSome) : 0 < p.usedAt t := by
  obtain ⟨ts, hm⟩ := Option.isSome_iff_exists.1 h
  have hi := hb.init t ts hm
  have hg := hb.gross t
  unfold grossAt at hg
  rw [hm] at hg
  unfold usedAt
  rw [← hg]
  exact hi

/-- A tick that a withdrawal leaves in use, if it was, has the growth it had. -/
theorem Left.stays {p p' : Pool} (rp : Reachable p) (rp' : Reachable p') {key : PositionKey} {d : ℚ} {r : Receipt}
    (m : Left p p' key d r) {t : Nat} (h : (mapGet t p.ticks).isSome → (mapGet t p'.ticks).isSome) :
    (p'.tickOrNew t).fees = (p.tickOrNew t).fees := by
  cases hm : mapGet t p'.ticks with
  | some ts => exact m.ends t (used_of_mem (Booked.reachable rp') (by rw [hm]; rfl))
  | none =>
    have : mapGet t p.ticks = none := by
      cases hp : mapGet t p.ticks with
      | none => rfl
      | some ts => rw [hp, hm] at h; exact absurd (h rfl) (by simp)
    unfold tickOrNew
    rw [hm, this]
    simp only [Option.getD_none]
    rw [m.tick, m.fees]

/-! ### Either order -/

/-- A deposit and a withdrawal for different positions, each possible, whose fees are there, can be made in either
order. -/
theorem mixed_orders {p p1 q1 : Pool} (hr : Reachable p) {o : Offer} {w : Request} {ro rw : Receipt}
    (hap : Clear p o w) (hw : p.withdraw w.user w.liq w.rpa w.rpb = .ok (p1, rw))
    (ho : p.deposit o.user o.x o.y o.rpa o.rpb = .ok (q1, ro)) (hkeep : KeepsEnds p p1 o)
    (hpot : ∀ k, (rw.fees.at k).toRat + (ro.fees.at k).toRat ≤ (p.pot k).toRat) :
    ∃ p2 q2, p1.deposit o.user o.x o.y o.rpa o.rpb = .ok (p2, ro) ∧
      q1.withdraw w.user w.liq w.rpa w.rpb = .ok (q2, rw) ∧ SameRecords p2 q2 := by
  have rp1 : Reachable p1 := .step hr (.withdraw hw)
  have rq1 : Reachable q1 := .step hr (.deposit ho)
  obtain ⟨ka, da, fa, ma⟩ := withdraw_left hr hw
  obtain ⟨kb, db, fb, mb⟩ := deposit_moved hr ho
  have hne : kb ≠ ka := fun e => hap ka ⟨e ▸ fb, fa⟩
  obtain ⟨keepl, keepu⟩ := hkeep kb fb
  have hna := ma.nonneg
  have hnb := mb.nonneg
  have liqa : p1.gs.liq.toRat ≤ p.gs.liq.toRat := by rw [ma.liq]; split <;> linarith
  have liqb : p.gs.liq.toRat ≤ q1.gs.liq.toRat := by rw [mb.liq]; split <;> linarith
  have sta : ∀ t, p1.startingAt t ≤ p.startingAt t := fun t => by rw [ma.starting]; split <;> linarith
  have ena : ∀ t, p1.endingAt t ≤ p.endingAt t := fun t => by rw [ma.ending]; split <;> linarith
  have stb : ∀ t, p.startingAt t ≤ q1.startingAt t := fun t => by rw [mb.starting]; split <;> linarith
  have enb : ∀ t, p.endingAt t ≤ q1.endingAt t := fun t => by rw [mb.ending]; split <;> linarith
  obtain ⟨p2, hp2, par⟩ := deposit_does hr rp1 rq1 ho ma.spacing (fun key hk => by
      rw [For.unique hk fb]
      exact ⟨ma.others kb hne, ma.spacing, ma.tick, ma.rp, ma.fees, ma.stays hr rp1 keepl, ma.stays hr rp1 keepu⟩)
    (by linarith) (fun t => by unfold usedAt; linarith [sta t, ena t]) (by linarith [ma.x, ma.xOut])
    (by linarith [ma.y, ma.yOut]) (fun k => by
      have := hpot k
      rw [mb.pot, ma.pot]
      linarith)
  obtain ⟨q2, hq2, par2⟩ := withdraw_goes hr rq1 rp1 hw mb.kin.spacing (fun key hk => by
      rw [Request.unique hk fa]
      exact ⟨mb.others ka hne.symm, mb.kin.kith ka⟩)
    (by linarith) (fun t => by linarith [stb t]) (fun t => by linarith [enb t]) (by linarith [mb.x, mb.xIn])
    (by linarith [mb.y, mb.yIn]) (fun k => by
      have := hpot k
      rw [mb.pot, ma.pot]
      linarith)
  have rp2 : Reachable p2 := .step rp1 (.deposit hp2)
  have rq2 : Reachable q2 := .step rq1 (.withdraw hq2)
  obtain ⟨kb', fb2, e1, e2, e3⟩ := par.own
  have : kb' = kb := For.unique fb2 fb
  subst this
  obtain ⟨ka', fa2, g1, g2, g3⟩ := par2.own
  have : ka' = ka := Request.unique fa2 fa
  subst this
  have hs : ∀ t, q2.startingAt t = p2.startingAt t := fun t => by linarith [par.starting t, par2.starting t]
  have he : ∀ t, q2.endingAt t = p2.endingAt t := fun t => by linarith [par.ending t, par2.ending t]
  refine ⟨p2, q2, hp2, hq2, same_of_used rp2 rq2 (by rw [par2.spacing, mb.kin.spacing, par.kin.spacing, ma.spacing])
    (by rw [par2.tick, mb.kin.tick, par.kin.tick, ma.tick]) (by rw [par2.rp, mb.kin.rp, par.kin.rp, ma.rp])
    (by rw [par2.fees, mb.kin.fees, par.kin.fees, ma.fees]) (fun t ht => ?_) (by rw [par2.c, mb.c, par.c, ma.c])
    (by rw [par2.feeRate, mb.feeRate, par.feeRate, ma.feeRate]) (by linarith [par.liq, par2.liq]) hs he
    (by linarith [par.x, par2.x]) (by linarith [par.y, par2.y]) (fun k => by linarith [par.pot k, par2.pot k])
    fun k => ?_⟩
  · have v2 : 0 < q2.usedAt t := by
      unfold usedAt at ht ⊢
      rw [hs, he]; exact ht
    rw [par2.ends t v2, mb.kin.ticks t, par.kin.ticks t]
    symm
    by_cases hl : t = kb'.lower
    · subst hl; exact ma.stays hr rp1 keepl
    by_cases hu : t = kb'.upper
    · subst hu; exact ma.stays hr rp1 keepu
    refine ma.ends t ?_
    have h1 := par.starting t
    have h2 := par.ending t
    rw [mb.starting, if_neg (Ne.symm hl)] at h1
    rw [mb.ending, if_neg (Ne.symm hu)] at h2
    unfold usedAt at ht ⊢
    linarith
  · by_cases hka : k = ka'
    · subst hka
      rw [g1, e2 k hne.symm]
    · rw [g2 k hka]
      by_cases hkb : k = kb'
      · subst hkb
        exact e1.symm
      · rw [mb.others k hkb, e2 k hkb, ma.others k hka]

end Hmm.Pool
