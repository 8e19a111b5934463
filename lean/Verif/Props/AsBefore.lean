import Verif.Props.Deals
import Verif.Props.Market
import Verif.Proofs.Claims
import Verif.Props.Fees
import Verif.Props.Leave

/-
While nothing is sold, what a pool records of prices and ticks follows from what the positions hold.
-/

namespace Hmm.Pool

open Decimal PoolMath
open Sample hiding pool

/-! ### Sums over positions -/

theorem liqOf_erase_same (ps : List (PositionKey × PositionState)) (k : PositionKey) : liqOf (mapErase k ps) k = 0 := by
  unfold liqOf; rw [mapGet_erase_same]; rfl

theorem liqOf_erase_other {ps : List (PositionKey × PositionState)} {k j : PositionKey} (h : j ≠ k) :
    liqOf (mapErase k ps) j = liqOf ps j := by
  unfold liqOf; rw [mapGet_erase_other h]

theorem sumPos_erase (w : PositionKey → ℚ) {ps : List (PositionKey × PositionState)} (hu : UniqueKeys ps) (k : PositionKey) :
    sumPos w ps = sumPos w (mapErase k ps) + w k * liqOf ps k := by
  rw [sumPos_eq, sumPos_eq, mapSum_erase _ _ hu]
  unfold liqOf
  cases mapGet k ps <;> simp

/-- Sums over positions depend only on what each holds. -/
theorem sumPos_ext (w : PositionKey → ℚ) : ∀ {ps qs : List (PositionKey × PositionState)}, UniqueKeys ps → UniqueKeys qs →
    (∀ k, liqOf ps k = liqOf qs k) → sumPos w ps = sumPos w qs
  | [], qs, _, hq, h => by
    rw [sumPos_eq, sumPos_eq, mapSum_nil]
    have : mapSum (fun k s => w k * s.liq.toRat) qs = mapSum (fun _ _ => 0) qs := mapSum_congr fun k v hm => by
      have := h k
      unfold liqOf at this
      rw [get_of_mem hq hm] at this
      simp only [mapGet, Option.elim] at this
      rw [← this, mul_zero]
    rw [this]
    unfold mapSum
    simp
  | (k, v) :: ps, qs, hp, hq, h => by
    have hp' : UniqueKeys ps := (List.nodup_cons.1 hp).2
    have hk : mapGet k ps = none := by
      by_contra hc
      exact (List.nodup_cons.1 hp).1 (mapGet_isSome.1 (by cases hx : mapGet k ps with
        | none => exact absurd hx hc
        | some _ => rfl))
    rw [sumPos_erase w hq k, ← h k]
    have e := sumPos_ext w hp' (hq.erase k) (fun j => by
      by_cases hj : j = k
      · subst hj
        rw [liqOf_erase_same]
        unfold liqOf; rw [hk]; rfl
      · rw [liqOf_erase_other hj, ← h j]
        unfold liqOf
        rw [mapGet, if_neg (Ne.symm hj)])
    rw [← e]
    have : liqOf ((k, v) :: ps) k = v.liq.toRat := by unfold liqOf; simp [mapGet]
    rw [this, sumPos_eq, sumPos_eq, mapSum_cons]
    ring

/-! ### C150: the market is made of the positions -/

/-- The same market except for the liquidity in use, which has changed with the positions in range. -/
structure Still (p p' : Pool) : Prop where
  rp : p'.gs.rp = p.gs.rp
  tick : p'.gs.tick = p.gs.tick
  fees : p'.gs.fees = p.gs.fees
  spacing : p'.spacing = p.spacing
  c : p'.c = p.c
  feeRate : p'.feeRate = p.feeRate
  liq : p'.gs.liq.toRat - p'.inRange p.gs.tick = p.gs.liq.toRat - p.inRange p.gs.tick

theorem Still.refl (p : Pool) : Still p p := ⟨rfl, rfl, rfl, rfl, rfl, rfl, rfl⟩

theorem Still.trans {p q r : Pool} (h : Still p q) (k : Still q r) : Still p r :=
  ⟨k.rp.trans h.rp, k.tick.trans h.tick, k.fees.trans h.fees, k.spacing.trans h.spacing, k.c.trans h.c,
    k.feeRate.trans h.feeRate, by have := k.liq; rw [h.tick] at this; exact this.trans h.liq⟩

theorem still_of {p p' p1 : Pool} (hr : Reachable p) {user lower upper : Nat} {d : Decimal} {f : Fees}
    (hs : p.setPosition user lower upper d = .ok (p1, f)) (e1 : p'.positions = p1.positions) (e2 : p'.gs = p1.gs) :
    p'.gs.liq.toRat - p'.inRange p.gs.tick = p.gs.liq.toRat - p.inRange p.gs.tick := by
  obtain ⟨_, _, _, k, _⟩ := setPosition_sums (Booked.reachable hr).unique hs
  have h1 := setPosition_liq hs
  rw [e2, h1, inRange_congr e1, k]
  ring

theorem Does.still {p p' : Pool} (hr : Reachable p) {d : Deal} {b : Bill} (h : Does p d b p') (hq : d.Quiet) : Still p p' := by
  cases h with
  | deposit h =>
    obtain ⟨_, _, _, p1, _, _, _, hs, e1, _, e2⟩ := deposit_set h
    obtain ⟨_, _, _, _, k, _⟩ := C76_deposit h
    exact ⟨k.rp, k.tick, k.growth, k.spacing, k.c, k.feeRate, still_of hr hs e1 e2⟩
  | withdraw h =>
    obtain ⟨_, _, _, p1, _, _, _, hs, e1, _, e2⟩ := withdraw_set h
    obtain ⟨_, _, _, _, k, _⟩ := C76_withdraw h
    exact ⟨k.rp, k.tick, k.growth, k.spacing, k.c, k.feeRate, still_of hr hs e1 e2⟩
  | sellX _ => exact hq.elim
  | sellY _ => exact hq.elim

theorem Deals.reachable {p p' : Pool} {ds : List (Deal × Bill)} (h : Deals p ds p') : Reachable p → Reachable p' := by
  induction h with
  | nil => exact id
  | cons h _ ih => exact fun hr => ih (.step hr h.step)

theorem Deals.still {p p' : Pool} {ds : List (Deal × Bill)} (h : Deals p ds p') :
    Reachable p → (∀ d ∈ ds, d.1.Quiet) → Still p p' := by
  induction h with
  | nil => exact fun _ _ => .refl _
  | cons h _ ih =>
    intro hr hq
    exact (h.still hr (hq _ (List.mem_cons_self ..))).trans
      (ih (.step hr h.step) fun d hd => hq d (List.mem_cons_of_mem _ hd))

/-- C150: if nothing has been sold and every position holds the liquidity it held before, then price, tick, liquidity in
use and fee growth are what they were, and at every tick the same liquidity begins and ends. -/
theorem C150_as_before {p p' : Pool} (hr : Reachable p) {ds : List (Deal × Bill)} (h : Deals p ds p')
    (hq : ∀ d ∈ ds, d.1.Quiet) (hl : ∀ key, liqOf p'.positions key = liqOf p.positions key) :
    p'.gs = p.gs ∧ ∀ t, (p'.atTick t).map (fun e => (e.1, e.2.1)) = (p.atTick t).map fun e => (e.1, e.2.1) := by
  have hr' := h.reachable hr
  have bp := Booked.reachable hr
  have bq := Booked.reachable hr'
  have tp := Tidy.reachable hr
  have tq := Tidy.reachable hr'
  have k := h.still hr hq
  have hs : ∀ w, sumPos w p'.positions = sumPos w p.positions := fun w => sumPos_ext w bq.unique bp.unique hl
  constructor
  · have h1 := k.liq
    unfold inRange at h1
    rw [hs] at h1
    have := tq.liq.ext tp.liq (by linarith)
    have h1 := k.rp
    have h2 := k.tick
    have h3 := k.fees
    cases hq : p'.gs
    cases hp : p.gs
    rw [hq, hp] at this h1 h2 h3
    simp only at this h1 h2 h3
    rw [this, h1, h2, h3]
  · intro t
    have hg : p'.grossAt t = p.grossAt t := by rw [bq.gross, bp.gross]; unfold startingAt endingAt; rw [hs, hs]
    have hn : p'.netAt t = p.netAt t := by rw [bq.net, bp.net]; unfold startingAt endingAt; rw [hs, hs]
    unfold grossAt at hg
    unfold netAt at hn
    unfold atTick
    cases h1 : mapGet t p'.ticks with
    | none =>
      cases h2 : mapGet t p.ticks with
      | none => rfl
      | some ts =>
        rw [h1, h2] at hg
        simp only [Option.elim] at hg
        have := bp.init t ts h2
        linarith
    | some ts =>
      cases h2 : mapGet t p.ticks with
      | none =>
        rw [h1, h2] at hg
        simp only [Option.elim] at hg
        have := bq.init t ts h1
        linarith
      | some ts' =>
        rw [h1, h2] at hg hn
        simp only [Option.elim] at hg hn
        have := (tq.tick t ts h1).2.1.ext (tp.tick t ts' h2).2.1 hg
        simp only [Option.map_some, hn, this]

/-- C150: somebody opens a position and closes it again, with nothing in between.  Every record but those of reserves and
fee pots is then as it was, the fees recorded at ticks included.  The reserves are not smaller. -/
theorem C150_no_trace {p p1 p2 : Pool} (hr : Reachable p) {o : Offer} {w : Request} {r r' : Receipt} {key : PositionKey}
    (hk : o.For p key) (hw : w.For p key) (hnew : mapGet key p.positions = none)
    (h : p.deposit o.user o.x o.y o.rpa o.rpb = .ok (p1, r)) (h' : p1.withdraw w.user w.liq w.rpa w.rpb = .ok (p2, r'))
    (hgone : mapGet key p2.positions = none) :
    p2.gs = p.gs ∧ (∀ t, p2.atTick t = p.atTick t) ∧ (∀ k, mapGet k p2.positions = mapGet k p.positions) ∧
      p.x.toRat ≤ p2.x.toRat ∧ p.y.toRat ≤ p2.y.toRat := by
  have hr1 : Reachable p1 := .step hr (.deposit h)
  obtain ⟨k1, d, g1, m⟩ := deposit_moved hr h
  obtain ⟨k2, e, g2, l⟩ := withdraw_left hr1 h'
  have hn : ∀ rp s, p1.rpToPossibleTick rp false s = p.rpToPossibleTick rp false s := fun rp s => by
    unfold rpToPossibleTick; rw [m.kin.spacing]
  have q2 : k2 = key := Request.unique g2 ⟨hw.1, by rw [hn]; exact hw.2.1, by rw [hn]; exact hw.2.2⟩
  have q1 : k1 = key := Request.unique (o := ⟨o.user, o.x, o.rpa, o.rpb⟩) g1 hk
  have h2 : p1.withdraw o.user w.liq o.rpa o.rpb = .ok (p2, r') := by
    rw [← hk.1, withdraw_congr (key := key) (a' := w.rpa) (b' := w.rpb) ⟨by rw [hn]; exact hk.2.1, by rw [hn]; exact hk.2.2⟩
      ⟨by rw [hn]; exact hw.2.1, by rw [hn]; exact hw.2.2⟩, hw.1]
    exact h'
  obtain ⟨hu, hn1, hn2⟩ := hk
  subst q1
  subst q2
  have hpos : ∀ k, mapGet k p2.positions = mapGet k p.positions := by
    intro k
    by_cases hj : k = k2
    · rw [hj, hnew, hgone]
    · rw [l.others k hj, m.others k hj]
  have hl : ∀ k, liqOf p2.positions k = liqOf p.positions k := fun k => by unfold liqOf; rw [hpos]
  obtain ⟨a, b⟩ := C150_as_before hr (.cons (.deposit h) (.cons (.withdraw h') .nil))
    (by simp [Deal.Quiet]) hl
  have hus : ∀ t, p2.usedAt t = p.usedAt t := fun t => by
    unfold usedAt startingAt endingAt
    have := fun w => sumPos_ext w (Booked.reachable (.step hr1 (.withdraw h'))).unique (Booked.reachable hr).unique hl
    rw [this, this]
  obtain ⟨c1, c2, _⟩ := C42_principal hn1 hn2 (by rw [← hu]; exact hnew) h h2
  refine ⟨a, fun t => ?_, hpos, ?_, ?_⟩
  · have hb := b t
    unfold atTick at hb ⊢
    cases h1 : mapGet t p2.ticks with
    | none => rw [h1] at hb; cases h2 : mapGet t p.ticks with
      | none => rfl
      | some ts => rw [h2] at hb; cases hb
    | some ts =>
      cases h2 : mapGet t p.ticks with
      | none => rw [h1, h2] at hb; cases hb
      | some ts' =>
        rw [h1, h2] at hb
        simp only [Option.map_some, Option.some.injEq, Prod.mk.injEq] at hb
        have hp := (Booked.reachable hr).init t ts' h2
        have hg := (Booked.reachable hr).gross t
        have hf := l.ends t (by rw [hus]; unfold usedAt; rw [← hg]; unfold grossAt; rw [h2]; exact hp)
        rw [m.kin.ticks] at hf
        unfold tickOrNew at hf
        rw [h1, h2] at hf
        simp only [Option.getD_some] at hf
        simp only [Option.map_some, hb.1, hb.2, hf]
  · rw [l.x, m.x]; linarith
  · rw [l.y, m.y]; linarith

/-! ### An example -/

theorem atTick_none {p : Pool} {t : Nat} (h : (mapGet t p.ticks).isNone = true) : p.atTick t = none := by
  unfold atTick; rw [Option.isNone_iff_eq_none.1 h]; rfl

theorem atTick_some {p : Pool} {t : Nat} (h : (mapGet t p.ticks).isSome = true) : p.atTick t ≠ none := by
  unfold atTick
  cases hx : mapGet t p.ticks with
  | none => rw [hx] at h; cases h
  | some _ => exact fun h => nomatch h

/-- In a pool with fees to collect a third user opens a position and closes it again.  In between a tick comes into use
and the liquidity in use changes. -/
example : ∃ p1 p2 r r', Reachable sold ∧ fresh.For sold ⟨3, 12, 30⟩ ∧ whole3.For sold ⟨3, 12, 30⟩ ∧
    mapGet ⟨3, 12, 30⟩ sold.positions = none ∧
    sold.deposit fresh.user fresh.x fresh.y fresh.rpa fresh.rpb = .ok (p1, r) ∧
    p1.withdraw whole3.user whole3.liq whole3.rpa whole3.rpb = .ok (p2, r') ∧ mapGet ⟨3, 12, 30⟩ p2.positions = none ∧
    sold.atTick 12 = none ∧ p1.atTick 12 ≠ none ∧ p1.gs.liq ≠ sold.gs.liq ∧ 0 < sold.gs.fees.fx.value := by
  have h1 := take_ok (p := sold) (o := fresh) (by decide +kernel)
  have h2 := meet_ok (p := (Hmm.Sample.get (take sold fresh)).1) (o := whole3) (by decide +kernel)
  exact ⟨_, _, _, _, sold_ok, ⟨rfl, by decide +kernel, by decide +kernel⟩, ⟨rfl, by decide +kernel, by decide +kernel⟩,
    by decide +kernel, h1, h2, by decide +kernel, atTick_none (by decide +kernel), atTick_some (by decide +kernel),
    by decide +kernel, by decide +kernel⟩

end Hmm.Pool
