import Verif.Proofs.OrderMoves
import Verif.Props.Availability

/-
Two deposits, and pools with the same records.
-/

namespace Hmm.Pool

open Decimal PoolMath

/-- Liquidity beginning or ending at a tick. -/
def usedAt (p : Pool) (t : Nat) : ℚ := p.startingAt t + p.endingAt t

/-- What a deposit for a position changes. -/
structure Moved (p p' : Pool) (key : PositionKey) (d : ℚ) (r : Receipt) : Prop where
  nonneg : 0 ≤ d
  kin : Kin p p'
  c : p'.c = p.c
  feeRate : p'.feeRate = p.feeRate
  liq : p'.gs.liq.toRat = p.gs.liq.toRat + (if key.lower ≤ p.gs.tick ∧ p.gs.tick < key.upper then d else 0)
  starting : ∀ t, p'.startingAt t = p.startingAt t + if key.lower = t then d else 0
  ending : ∀ t, p'.endingAt t = p.endingAt t + if key.upper = t then d else 0
  others : ∀ k, k ≠ key → mapGet k p'.positions = mapGet k p.positions
  x : p'.x.toRat = p.x.toRat + r.x.toRat
  y : p'.y.toRat = p.y.toRat + r.y.toRat
  pot : ∀ k, (p'.pot k).toRat = (p.pot k).toRat - (r.fees.at k).toRat
  xIn : 0 ≤ r.x.toRat
  yIn : 0 ≤ r.y.toRat
  fee : ∀ k, 0 ≤ (r.fees.at k).toRat

theorem moved_of {p p' p1 p2 : Pool} (hr : Reachable p) {user lower upper : Nat} {d px py : Decimal} {r : Receipt}
    (hlu : lower < upper) (hd : 0 ≤ d.toRat) (h1 : p.setPosition user lower upper d = .ok (p1, r.fees))
    (hx : p1.x.add r.x = .ok px) (hy : p1.y.add r.y = .ok py) (h2 : p1.payFees r.fees = .ok p2)
    (e : p' = { p2 with x := px, y := py }) (hrx : 0 ≤ r.x.toRat) (hry : 0 ≤ r.y.toRat) :
    Moved p p' ⟨user, lower, upper⟩ d.toRat r := by
  have hb := Booked.reachable hr
  have hf := setPosition_frame h1
  obtain ⟨e1, e2, e3, e4, _, _, e5, e6⟩ := payFees_frame h2
  obtain ⟨_, s1, s2, _, s3, _⟩ := setPosition_sums hb.unique h1
  have k := setPosition_kin hb hlu hd h1
  subst e
  have es : ∀ t, ({ p2 with x := px, y := py } : Pool).startingAt t = p1.startingAt t := fun t => by
    unfold startingAt; simp only [e1]
  have ee : ∀ t, ({ p2 with x := px, y := py } : Pool).endingAt t = p1.endingAt t := fun t => by
    unfold endingAt; simp only [e1]
  refine ⟨hd, k.trans ⟨e4, by simp only [e3], by simp only [e3], by simp only [e3], fun t => by
      unfold tickOrNew; simp only [e2, e3]⟩, ?_, ?_, ?_, fun t => ?_, fun t => ?_, fun q hq => ?_, ?_, ?_, fun k => ?_,
    hrx, hry, fees_nonneg h1⟩
  · show p2.c = _; rw [e5, hf]
  · show p2.feeRate = _; rw [e6, hf]
  · show p2.gs.liq.toRat = _; rw [e3]; exact setPosition_liq h1
  · rw [es]; exact s1 t
  · rw [ee]; exact s2 t
  · show mapGet q p2.positions = _; rw [e1]; exact s3 q hq
  · show px.toRat = _; rw [add_toRat hx, hf]
  · show py.toRat = _; rw [add_toRat hy, hf]
  · have := (payFees_pot h2 k).1
    rw [setPosition_pot h1] at this
    rw [← this]
    cases k <;> rfl

/-- The difference one deposit makes is the difference another makes. -/
structure Par (p p' q q' : Pool) (o : Offer) : Prop where
  kin : Kin q q'
  kin' : Kin p p'
  c : q'.c = q.c
  feeRate : q'.feeRate = q.feeRate
  liq : q'.gs.liq.toRat - q.gs.liq.toRat = p'.gs.liq.toRat - p.gs.liq.toRat
  starting : ∀ t, q'.startingAt t - q.startingAt t = p'.startingAt t - p.startingAt t
  ending : ∀ t, q'.endingAt t - q.endingAt t = p'.endingAt t - p.endingAt t
  x : q'.x.toRat - q.x.toRat = p'.x.toRat - p.x.toRat
  y : q'.y.toRat - q.y.toRat = p'.y.toRat - p.y.toRat
  pot : ∀ k, (q'.pot k).toRat - (q.pot k).toRat = (p'.pot k).toRat - (p.pot k).toRat
  own : ∃ key, o.For p key ∧ mapGet key q'.positions = mapGet key p'.positions ∧
    (∀ k, k ≠ key → mapGet k q'.positions = mapGet k q.positions) ∧
    ∀ k, k ≠ key → mapGet k p'.positions = mapGet k p.positions

theorem For.unique {p : Pool} {o : Offer} {k k' : PositionKey} (h : o.For p k) (h' : o.For p k') : k = k' := by
  obtain ⟨u, l, r⟩ := k
  obtain ⟨u', l', r'⟩ := k'
  obtain ⟨e1, a1, b1⟩ := h
  obtain ⟨e2, a2, b2⟩ := h'
  simp only at e1 e2 a1 a2 b1 b2
  rw [a1] at a2; cases a2
  rw [b1] at b2; cases b2
  rw [e1, e2]

theorem For.congr {p q : Pool} {o : Offer} {k : PositionKey} (h : o.For p k) (e : q.spacing = p.spacing) : o.For q k :=
  ⟨h.1, h.2.congr e⟩

theorem deposit_moved {p p' : Pool} (hr : Reachable p) {o : Offer} {r : Receipt}
    (h : p.deposit o.user o.x o.y o.rpa o.rpb = .ok (p', r)) :
    ∃ key d, o.For p key ∧ Moved p p' key d r := by
  obtain ⟨hx, hy⟩ := deposit_amounts h
  obtain ⟨lower, upper, a, b, liq, p1, p2, px, py, _, _, _, _, g1, g2, g3, _, _, _, g4, _, _, _, _, h1, _, _, h2, h3,
    h4, e⟩ := deposit_ok h
  exact ⟨⟨o.user, lower, upper⟩, _, ⟨rfl, g1, g2⟩, moved_of hr g3 g4 h1 h2 h3 h4 e hx hy⟩

theorem starting_nonneg {p : Pool} (hr : Reachable p) (t : Nat) : 0 ≤ p.startingAt t :=
  have hb := Booked.reachable hr
  sumPos_nonneg (by intro k; split <;> simp) hb.unique (fun q s hs => (hb.pos q s hs).1)

theorem ending_nonneg {p : Pool} (hr : Reachable p) (t : Nat) : 0 ≤ p.endingAt t :=
  have hb := Booked.reachable hr
  sumPos_nonneg (by intro k; split <;> simp) hb.unique (fun q s hs => (hb.pos q s hs).1)

/-- A deposit that goes through for one pool goes through, with the same receipt, for any other with the same
price and growth and the same record for its position, if there is room: if some pool has as much. -/
theorem deposit_goes {p q p' z : Pool} (rp : Reachable p) (rq : Reachable q) (rz : Reachable z) (kin : Kin p q)
    {o : Offer} {r : Receipt} (h : p.deposit o.user o.x o.y o.rpa o.rpb = .ok (p', r))
    (hk : ∀ key, o.For p key → mapGet key q.positions = mapGet key p.positions)
    (hliq : q.gs.liq.toRat + (p'.gs.liq.toRat - p.gs.liq.toRat) ≤ z.gs.liq.toRat)
    (hused : ∀ t, q.usedAt t + (p'.usedAt t - p.usedAt t) ≤ z.usedAt t)
    (hx : q.x.toRat + (p'.x.toRat - p.x.toRat) ≤ z.x.toRat)
    (hy : q.y.toRat + (p'.y.toRat - p.y.toRat) ≤ z.y.toRat)
    (hpot : ∀ k, (p.pot k).toRat - (p'.pot k).toRat ≤ (q.pot k).toRat) :
    ∃ q', q.deposit o.user o.x o.y o.rpa o.rpb = .ok (q', r) ∧ Par p p' q q' o := by
  have tp := Tidy.reachable rp
  have tq := Tidy.reachable rq
  have sz := Stored.reachable rz
  have tz := Tidy.reachable rz
  have gz := GrossFits.reachable rz
  have h' := h
  obtain ⟨hrx, hry⟩ := deposit_amounts h
  unfold deposit at h
  rw [bind_ok] at h; obtain ⟨_, a1, h⟩ := h
  rw [bind_ok] at h; obtain ⟨_, a2, h⟩ := h
  rw [bind_ok] at h; obtain ⟨_, a3, h⟩ := h
  rw [bind_ok] at h; obtain ⟨_, a4, h⟩ := h
  rw [bind_ok] at h; obtain ⟨lower, h1, h⟩ := h
  rw [bind_ok] at h; obtain ⟨upper, h2, h⟩ := h
  rw [bind_ok] at h; obtain ⟨_, h3, h⟩ := h
  rw [bind_ok] at h; obtain ⟨a, h4, h⟩ := h
  rw [bind_ok] at h; obtain ⟨b, h5, h⟩ := h
  rw [bind_ok] at h; obtain ⟨liq, h6, h⟩ := h
  rw [ite_ok] at h; rcases h with ⟨_, h⟩ | ⟨h7, h⟩; · simp [rpanic] at h
  rw [bind_ok] at h; obtain ⟨xIn, h8, h⟩ := h
  rw [bind_ok] at h; obtain ⟨b1, h9, h⟩ := h
  rw [ite_ok] at h; rcases h with ⟨_, h⟩ | ⟨h10, h⟩; · simp [rpanic] at h
  rw [bind_ok] at h; obtain ⟨yIn, h11, h⟩ := h
  rw [bind_ok] at h; obtain ⟨b2, h12, h⟩ := h
  rw [ite_ok] at h; rcases h with ⟨_, h⟩ | ⟨h13, h⟩; · simp [rpanic] at h
  rw [bind_ok] at h; obtain ⟨⟨p1, f⟩, h14, h⟩ := h
  simp only at h
  rw [bind_ok] at h; obtain ⟨q1, s1, h⟩ := h
  rw [bind_ok] at h; obtain ⟨xD, s2, h⟩ := h
  rw [bind_ok] at h; obtain ⟨q2, s3, h⟩ := h
  rw [bind_ok] at h; obtain ⟨yD, s4, h⟩ := h
  rw [bind_ok] at h; obtain ⟨px, s5, h⟩ := h
  rw [bind_ok] at h; obtain ⟨py, s6, h⟩ := h
  rw [bind_ok] at h; obtain ⟨p2, s7, h⟩ := h
  rw [bind_ok] at h; obtain ⟨v1, s8, h⟩ := h
  rw [bind_ok] at h; obtain ⟨v2, s9, h⟩ := h
  rw [bind_ok] at h; obtain ⟨v3, s10, h⟩ := h
  rw [bind_ok] at h; obtain ⟨v4, s11, h⟩ := h
  simp only [pure_ok, Prod.mk.injEq] at h
  obtain ⟨e, rfl⟩ := h
  simp only at hrx hry
  have hlu : lower < upper := by
    have := h3
    rw [rassert_ok, decide_eq_true_eq] at this
    exact this
  have hd : 0 ≤ liq.toRat := not_isNegative.1 (by simpa using h7)
  have mp := moved_of rp (r := ⟨xIn, yIn, f, xD, yD⟩) hlu hd h14 (unwrap_ok.1 s5) (unwrap_ok.1 s6) s7 e.symm hrx hry
  have key : o.For p ⟨o.user, lower, upper⟩ := ⟨rfl, h1, h2⟩
  have ux : ∀ t, p'.usedAt t = p.usedAt t + ((if lower = t then liq.toRat else 0) + if upper = t then liq.toRat else 0) :=
    fun t => by
      unfold usedAt
      rw [mp.starting, mp.ending]
      simp only
      ring
  have ul := hused lower
  have uu := hused upper
  rw [ux, if_pos rfl, if_neg (by omega)] at ul
  rw [ux, if_neg (by omega), if_pos rfl] at uu
  have gl := gz lower
  have gu := gz upper
  unfold usedAt at ul uu
  obtain ⟨q1', hq1, hm⟩ := setPosition_goes tp tq kin hlu hd (hk _ key) h14
    (fun hin => by
      rw [mp.liq, if_pos hin] at hliq
      have := stored_rat tz.liq sz.liq
      linarith)
    (by rw [tickOrNew_gross rq]; linarith)
    (by rw [tickOrNew_gross rq]; linarith) (tickOrNew_net rq)
  have tq1 := tq.setPosition hq1
  have sq1 := (Stored.reachable rq).setPosition tq hq1
  have fq := setPosition_frame hq1
  have fp := setPosition_frame h14
  have xs : xIn.scale = 12 := (add_ok.1 (unwrap_ok.1 s5)).1.symm.trans (tp.setPosition h14).x.1
  have ys : yIn.scale = 12 := (add_ok.1 (unwrap_ok.1 s6)).1.symm.trans (tp.setPosition h14).y.1
  have ex : q1'.x = q.x := by rw [fq]
  have ey : q1'.y = q.y := by rw [fq]
  have hmx := mp.x
  have hmy := mp.y
  simp only at hmx hmy
  obtain ⟨qx, hqx⟩ := add_goes tq1.x xs hrx (by
    rw [ex]
    have := stored_rat tz.x sz.x
    linarith)
  obtain ⟨qy, hqy⟩ := add_goes tq1.y ys hry (by
    rw [ey]
    have := stored_rat tz.y sz.y
    linarith)
  obtain ⟨q2', hq2⟩ := payFees_goes tq1 sq1 (f := f)
    (fun k => by
      rw [← (payFees_pot s7 k).2]
      exact pot_scale (tp.setPosition h14) k)
    (fees_nonneg h14)
    (fun k => by
      rw [setPosition_pot hq1]
      have := hpot k
      rw [mp.pot] at this
      simp only at this
      linarith)
  have ok : q.deposit o.user o.x o.y o.rpa o.rpb = .ok ({ q2' with x := qx, y := qy }, ⟨xIn, yIn, f, xD, yD⟩) := by
    unfold deposit
    refine bind_of a1 (bind_of a2 (bind_of a3 (bind_of a4 ?_)))
    refine bind_of ((snap_congr kin.spacing _ _ _).trans h1) (bind_of ((snap_congr kin.spacing _ _ _).trans h2) ?_)
    refine bind_of h3 (bind_of h4 (bind_of h5 ?_))
    simp only [kin.rp]
    refine bind_of h6 ?_
    rw [if_neg h7]
    refine bind_of h8 (bind_of h9 ?_)
    rw [if_neg h10]
    refine bind_of h11 (bind_of h12 ?_)
    rw [if_neg h13]
    refine bind_of hq1 ?_
    simp only
    refine bind_of s1 (bind_of s2 (bind_of s3 (bind_of s4 ?_)))
    refine bind_of (unwrap_ok.2 hqx) (bind_of (unwrap_ok.2 hqy) (bind_of hq2 ?_))
    exact bind_of s8 (bind_of s9 (bind_of s10 (bind_of s11 rfl)))
  have mq := moved_of rq (r := ⟨xIn, yIn, f, xD, yD⟩) hlu hd hq1 hqx hqy hq2 rfl hrx hry
  refine ⟨_, ok, mq.kin, mp.kin, mq.c, mq.feeRate, ?_, fun t => ?_, fun t => ?_, ?_, ?_, fun k => ?_, _, key, ?_, mq.others,
    mp.others⟩
  · rw [mq.liq, mp.liq, kin.tick]; ring
  · rw [mq.starting, mp.starting]; ring
  · rw [mq.ending, mp.ending]; ring
  · rw [mq.x, mp.x]; ring
  · rw [mq.y, mp.y]; ring
  · rw [mq.pot, mp.pot]; ring
  · show mapGet _ q2'.positions = _
    rw [(payFees_frame hq2).1, hm, ← e]
    show _ = mapGet _ p2.positions
    rw [(payFees_frame s7).1]

/-! ### Pools with the same records -/

theorem same_of_used {p q : Pool} (rp : Reachable p) (rq : Reachable q) (hsp : q.spacing = p.spacing)
    (htk : q.gs.tick = p.gs.tick) (hrp : q.gs.rp = p.gs.rp) (hfe : q.gs.fees = p.gs.fees)
    (hus : ∀ t, 0 < p.usedAt t → (q.tickOrNew t).fees = (p.tickOrNew t).fees) (hc : q.c = p.c)
    (hf : q.feeRate = p.feeRate) (hl : q.gs.liq.toRat = p.gs.liq.toRat) (hs : ∀ t, q.startingAt t = p.startingAt t)
    (he : ∀ t, q.endingAt t = p.endingAt t) (hx : q.x.toRat = p.x.toRat) (hy : q.y.toRat = p.y.toRat)
    (hpot : ∀ k, (q.pot k).toRat = (p.pot k).toRat)
    (hpos : ∀ key, mapGet key q.positions = mapGet key p.positions) : SameRecords p q := by
  have tp := Tidy.reachable rp
  have tq := Tidy.reachable rq
  have bp := Booked.reachable rp
  have bq := Booked.reachable rq
  refine ⟨hsp, ?_, fun t => ?_, hpos, tq.x.ext tp.x hx, tq.y.ext tp.y hy, tq.xAdj.ext tp.xAdj (hpot .hx),
    tq.yAdj.ext tp.yAdj (hpot .hy), tq.xFee.ext tp.xFee (hpot .fx), tq.yFee.ext tp.yFee (hpot .fy), hc, hf⟩
  · have := tq.liq.ext tp.liq hl
    have h1 := hrp
    have h2 := htk
    have h3 := hfe
    cases hq : q.gs
    cases hp : p.gs
    rw [hq, hp] at this h1 h2 h3
    simp only at this h1 h2 h3
    rw [this, h1, h2, h3]
  · have hg : q.grossAt t = p.grossAt t := by rw [bq.gross, bp.gross, hs, he]
    have hn : q.netAt t = p.netAt t := by rw [bq.net, bp.net, hs, he]
    have hk := hus t
    have hb := bp.gross t
    unfold usedAt at hk
    rw [← hb] at hk
    unfold grossAt at hg hk
    unfold netAt at hn
    unfold tickOrNew at hk
    unfold atTick
    cases h1 : mapGet t q.ticks with
    | none =>
      cases h2 : mapGet t p.ticks with
      | none => rfl
      | some ts =>
        rw [h1, h2] at hg
        simp only [Option.elim] at hg
        have := bp.init t ts h2
        linarith
    | some ts =>
      cases h2 : mapGet t p.ticks with
      | none =>
        rw [h1, h2] at hg
        simp only [Option.elim] at hg
        have := bq.init t ts h1
        linarith
      | some ts' =>
        rw [h1, h2] at hg hn hk
        simp only [Option.elim, Option.getD_some] at hg hn hk
        have hk := hk (bp.init t ts' h2)
        have := (tq.tick t ts h1).2.1.ext (tp.tick t ts' h2).2.1 hg
        simp only [Option.map_some, hn, this, hk]

theorem same_of {p q : Pool} (rp : Reachable p) (rq : Reachable q) (kin : Kin p q) (hc : q.c = p.c)
    (hf : q.feeRate = p.feeRate) (hl : q.gs.liq.toRat = p.gs.liq.toRat) (hs : ∀ t, q.startingAt t = p.startingAt t)
    (he : ∀ t, q.endingAt t = p.endingAt t) (hx : q.x.toRat = p.x.toRat) (hy : q.y.toRat = p.y.toRat)
    (hpot : ∀ k, (q.pot k).toRat = (p.pot k).toRat)
    (hpos : ∀ key, mapGet key q.positions = mapGet key p.positions) : SameRecords p q :=
  same_of_used rp rq kin.spacing kin.tick kin.rp kin.fees (fun t _ => kin.ticks t) hc hf hl hs he hx hy hpot hpos

theorem SameRecords.kin {p q : Pool} (h : SameRecords p q) : Kin p q := by
  refine ⟨h.spacing, by rw [h.gs], by rw [h.gs], by rw [h.gs], fun t => ?_⟩
  have := h.ticks t
  unfold atTick at this
  unfold tickOrNew
  rw [h.gs]
  cases h1 : mapGet t q.ticks <;> cases h2 : mapGet t p.ticks <;> rw [h1, h2] at this <;>
    simp only [Option.map_some, Option.map_none, Option.some.injEq, Prod.mk.injEq, reduceCtorEq] at this
  exact this.2.2

theorem SameRecords.sums {p q : Pool} (rp : Reachable p) (rq : Reachable q) (h : SameRecords p q) (t : Nat) :
    q.startingAt t = p.startingAt t ∧ q.endingAt t = p.endingAt t := by
  have bp := Booked.reachable rp
  have bq := Booked.reachable rq
  have hg : q.grossAt t = p.grossAt t ∧ q.netAt t = p.netAt t := by
    have := h.ticks t
    unfold atTick at this
    unfold grossAt netAt
    cases h1 : mapGet t q.ticks <;> cases h2 : mapGet t p.ticks <;> rw [h1, h2] at this <;>
      simp only [Option.map_some, Option.map_none, Option.some.injEq, Prod.mk.injEq, reduceCtorEq] at this
    · exact ⟨rfl, rfl⟩
    · simp only [Option.elim]
      exact ⟨by rw [this.2.1], this.1⟩
  have h1 := hg.1
  have h2 := hg.2
  rw [bq.gross, bp.gross] at h1
  rw [bq.net, bp.net] at h2
  constructor <;> linarith

theorem SameRecords.refl (p : Pool) : SameRecords p p :=
  ⟨rfl, rfl, fun _ => rfl, fun _ => rfl, rfl, rfl, rfl, rfl, rfl, rfl, rfl, rfl⟩

theorem SameRecords.trans {p q r : Pool} (h : SameRecords p q) (h' : SameRecords q r) : SameRecords p r :=
  ⟨h'.spacing.trans h.spacing, h'.gs.trans h.gs, fun t => (h'.ticks t).trans (h.ticks t),
    fun k => (h'.positions k).trans (h.positions k), h'.x.trans h.x, h'.y.trans h.y, h'.xAdj.trans h.xAdj,
    h'.yAdj.trans h.yAdj, h'.xFee.trans h.xFee, h'.yFee.trans h.yFee, h'.c.trans h.c, h'.feeRate.trans h.feeRate⟩

theorem SameRecords.pot {p q : Pool} (h : SameRecords p q) (k : Kind) : q.pot k = p.pot k := by
  cases k
  · exact h.xFee
  · exact h.yFee
  · exact h.xAdj
  · exact h.yAdj

theorem pot_nonneg {p : Pool} (h : Reachable p) (k : Kind) : 0 ≤ (p.pot k).toRat := by
  have hf := Funds.reachable h
  cases k
  · exact hf.xFee
  · exact hf.yFee
  · exact hf.xAdj
  · exact hf.yAdj

/-- Pools with the same records take the same deposits, with the same receipts, and have the same records after. -/
theorem SameRecords.deposit {p q p' : Pool} (rp : Reachable p) (rq : Reachable q) (h : SameRecords p q)
    {o : Offer} {r : Receipt} (hd : p.deposit o.user o.x o.y o.rpa o.rpb = .ok (p', r)) :
    ∃ q', q.deposit o.user o.x o.y o.rpa o.rpb = .ok (q', r) ∧ SameRecords p' q' := by
  have rp' : Reachable p' := .step rp (.deposit hd)
  obtain ⟨key, d, hkey, mp⟩ := deposit_moved rp hd
  have hl : q.gs.liq.toRat = p.gs.liq.toRat := by rw [h.gs]
  have hx : q.x.toRat = p.x.toRat := by rw [h.x]
  have hy : q.y.toRat = p.y.toRat := by rw [h.y]
  obtain ⟨q', hq, par⟩ := deposit_goes rp rq rp' h.kin hd (fun k _ => h.positions k) (by linarith)
    (fun t => by
      have := h.sums rp rq t
      unfold usedAt
      linarith) (by linarith) (by linarith)
    (fun k => by
      have := pot_nonneg rp' k
      rw [h.pot]
      linarith)
  have rq' : Reachable q' := .step rq (.deposit hq)
  obtain ⟨key', hfor, e1, e2, e3⟩ := par.own
  refine ⟨q', hq, same_of rp' rq' ((par.kin'.symm.trans h.kin).trans par.kin) (by rw [par.c, h.c, mp.c])
    (by rw [par.feeRate, h.feeRate, mp.feeRate]) (by linarith [par.liq])
    (fun t => by linarith [par.starting t, (h.sums rp rq t).1]) (fun t => by linarith [par.ending t, (h.sums rp rq t).2])
    (by linarith [par.x]) (by linarith [par.y]) (fun k => by have := par.pot k; rw [h.pot] at this; linarith)
    fun k => ?_⟩
  by_cases hk : k = key'
  · rw [hk, e1]
  · rw [e2 k hk, e3 k hk, h.positions]

/-- Two deposits for different positions can be made the other way round. -/
theorem deposit_swap {p p1 p2 : Pool} (rp : Reachable p) {o o' : Offer} {r r' : Receipt} (hap : Apart p o o')
    (h : p.deposit o.user o.x o.y o.rpa o.rpb = .ok (p1, r))
    (h' : p1.deposit o'.user o'.x o'.y o'.rpa o'.rpb = .ok (p2, r')) :
    ∃ q1 q2, p.deposit o'.user o'.x o'.y o'.rpa o'.rpb = .ok (q1, r') ∧
      q1.deposit o.user o.x o.y o.rpa o.rpb = .ok (q2, r) ∧ SameRecords p2 q2 := by
  have rp1 : Reachable p1 := .step rp (.deposit h)
  have rp2 : Reachable p2 := .step rp1 (.deposit h')
  obtain ⟨ka, da, fa, ma⟩ := deposit_moved rp h
  obtain ⟨kb, db, fb, mb⟩ := deposit_moved rp1 h'
  have fb' : o'.For p kb := For.congr fb ma.kin.spacing.symm
  have hne : kb ≠ ka := fun e => hap ka ⟨fa, e ▸ fb'⟩
  have hliq : p.gs.liq.toRat ≤ p1.gs.liq.toRat := by
    have := ma.nonneg
    rw [ma.liq]; split <;> linarith
  have hused : ∀ t, p.usedAt t ≤ p1.usedAt t := fun t => by
    have := ma.nonneg
    unfold usedAt
    rw [ma.starting, ma.ending]
    (repeat' split) <;> linarith
  have hpot : ∀ k, (p1.pot k).toRat ≤ (p.pot k).toRat := fun k => by
    have := ma.fee k
    rw [ma.pot]; linarith
  obtain ⟨q1, hq1, par⟩ := deposit_goes rp1 rp rp2 ma.kin.symm h' (fun key hk => by
      rw [For.unique hk fb]
      exact (ma.others kb hne).symm)
    (by linarith) (fun t => by linarith [hused t]) (by linarith [ma.x, ma.xIn]) (by linarith [ma.y, ma.yIn])
    (fun k => by linarith [hpot k, pot_nonneg rp2 k])
  have rq1 : Reachable q1 := .step rp (.deposit hq1)
  obtain ⟨kb', fb2, e1, e2, e3⟩ := par.own
  have : kb' = kb := For.unique fb2 fb
  subst this
  obtain ⟨q2, hq2, par2⟩ := deposit_goes rp rq1 rp2 par.kin h (fun key hk => by
      rw [For.unique hk fa]
      exact e2 ka hne.symm)
    (by linarith [par.liq]) (fun t => by
      have := par.starting t
      have := par.ending t
      unfold usedAt
      linarith) (by linarith [par.x]) (by linarith [par.y])
    (fun k => by linarith [par.pot k, pot_nonneg rp2 k])
  have rq2 : Reachable q2 := .step rq1 (.deposit hq2)
  obtain ⟨ka', fa2, i1, i2, i3⟩ := par2.own
  have : ka' = ka := For.unique fa2 fa
  subst this
  refine ⟨q1, q2, hq1, hq2, same_of rp2 rq2 ?_ ?_ ?_ ?_ (fun t => ?_) (fun t => ?_) ?_ ?_ (fun k => ?_) (fun k => ?_)⟩
  · exact ((mb.kin.symm.trans ma.kin.symm).trans par.kin).trans par2.kin
  · rw [par2.c, par.c, mb.c, ma.c]
  · rw [par2.feeRate, par.feeRate, mb.feeRate, ma.feeRate]
  · linarith [par.liq, par2.liq]
  · linarith [par.starting t, par2.starting t]
  · linarith [par.ending t, par2.ending t]
  · linarith [par.x, par2.x]
  · linarith [par.y, par2.y]
  · linarith [par.pot k, par2.pot k]
  · by_cases hka : k = ka'
    · rw [hka, i1, mb.others _ hne.symm]
    · rw [i2 k hka]
      by_cases hkb : k = kb'
      · rw [hkb, e1]
      · rw [e2 k hkb, mb.others k hkb, ma.others k hka]

end Hmm.Pool
