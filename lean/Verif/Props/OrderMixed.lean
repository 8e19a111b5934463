import Verif.Proofs.OrderMixed
import Verif.Props.OrderLeave

/-
C142: a deposit and a withdrawal for different positions can be made in either order.
-/

namespace Hmm.Pool

open Decimal PoolMath
open Hmm.Sample hiding get

/-- C142: if a deposit and a withdrawal for different positions are both possible, and one is still possible after the
other, then so is the other after the one.  Each gets the receipt it gets when it comes first, and the pool ends with
the same records. -/
theorem C142_either_order {p p1 q1 : Pool} (hr : Reachable p) {o : Offer} {w : Request} {ro rw : Receipt}
    (hap : Clear p o w) (hw : p.withdraw w.user w.liq w.rpa w.rpb = .ok (p1, rw))
    (ho : p.deposit o.user o.x o.y o.rpa o.rpb = .ok (q1, ro)) (hkeep : KeepsEnds p p1 o)
    (h : (∃ p2 r, p1.deposit o.user o.x o.y o.rpa o.rpb = .ok (p2, r)) ∨
      ∃ q2 r, q1.withdraw w.user w.liq w.rpa w.rpb = .ok (q2, r)) :
    ∃ p2 q2, p1.deposit o.user o.x o.y o.rpa o.rpb = .ok (p2, ro) ∧
      q1.withdraw w.user w.liq w.rpa w.rpb = .ok (q2, rw) ∧ SameRecords p2 q2 := by
  have rp1 : Reachable p1 := .step hr (.withdraw hw)
  have rq1 : Reachable q1 := .step hr (.deposit ho)
  obtain ⟨ka, da, fa, ma⟩ := withdraw_left hr hw
  obtain ⟨kb, db, fb, mb⟩ := deposit_moved hr ho
  have hne : kb ≠ ka := fun e => hap ka ⟨e ▸ fb, fa⟩
  refine mixed_orders hr hap hw ho hkeep fun k => ?_
  rcases h with ⟨p2, r, h⟩ | ⟨q2, r, h⟩
  · obtain ⟨_, _, _, m⟩ := deposit_moved rp1 h
    have e := deposit_fees hr rp1 ho h ma.spacing fun key hk => by
      rw [For.unique hk fb]
      exact ⟨ma.others kb hne, ma.spacing, ma.tick, ma.rp, ma.fees, ma.stays hr rp1 (hkeep kb fb).1,
        ma.stays hr rp1 (hkeep kb fb).2⟩
    have := pot_nonneg (.step rp1 (.deposit h)) k
    rw [m.pot, ma.pot, e] at this
    linarith
  · obtain ⟨_, _, _, m⟩ := withdraw_left rq1 h
    have e := withdraw_fees hr rq1 hw h mb.kin.spacing fun key hk => by
      rw [Request.unique hk fa]
      exact ⟨mb.others ka hne.symm, mb.kin.kith ka⟩
    have := pot_nonneg (.step rq1 (.withdraw h)) k
    rw [m.pot, mb.pot, e] at this
    linarith

/-- C142: what can come second in one order can come second in the other. -/
theorem C142_refused {p p1 q1 : Pool} (hr : Reachable p) {o : Offer} {w : Request} {ro rw : Receipt}
    (hap : Clear p o w) (hw : p.withdraw w.user w.liq w.rpa w.rpb = .ok (p1, rw))
    (ho : p.deposit o.user o.x o.y o.rpa o.rpb = .ok (q1, ro)) (hkeep : KeepsEnds p p1 o) :
    (p1.deposit o.user o.x o.y o.rpa o.rpb).isOk = (q1.withdraw w.user w.liq w.rpa w.rpb).isOk := by
  have key := C142_either_order hr hap hw ho hkeep
  cases h1 : p1.deposit o.user o.x o.y o.rpa o.rpb with
  | ok a =>
    obtain ⟨p2, q2, _, h, _⟩ := key (.inl ⟨a.1, a.2, h1⟩)
    rw [h]
    rfl
  | error e =>
    cases h2 : q1.withdraw w.user w.liq w.rpa w.rpb with
    | ok a =>
      obtain ⟨p2, q2, h, _⟩ := key (.inr ⟨a.1, a.2, h2⟩)
      rw [h] at h1
      cases h1
    | error e => rfl

/-- C142: if the fees both collect are there, then both orders go through. -/
theorem C142_enough {p p1 q1 : Pool} (hr : Reachable p) {o : Offer} {w : Request} {ro rw : Receipt}
    (hap : Clear p o w) (hw : p.withdraw w.user w.liq w.rpa w.rpb = .ok (p1, rw))
    (ho : p.deposit o.user o.x o.y o.rpa o.rpb = .ok (q1, ro)) (hkeep : KeepsEnds p p1 o)
    (hfx : rw.fees.fx.toRat + ro.fees.fx.toRat ≤ p.xFee.toRat) (hfy : rw.fees.fy.toRat + ro.fees.fy.toRat ≤ p.yFee.toRat)
    (hhx : rw.fees.hx.toRat + ro.fees.hx.toRat ≤ p.xAdj.toRat)
    (hhy : rw.fees.hy.toRat + ro.fees.hy.toRat ≤ p.yAdj.toRat) :
    ∃ p2 q2, p1.deposit o.user o.x o.y o.rpa o.rpb = .ok (p2, ro) ∧
      q1.withdraw w.user w.liq w.rpa w.rpb = .ok (q2, rw) ∧ SameRecords p2 q2 :=
  mixed_orders hr hap hw ho hkeep fun k => by
    cases k
    · exact hfx
    · exact hfy
    · exact hhx
    · exact hhy

/-! ### Examples -/

theorem clear_of {p : Pool} {o : Offer} {w : Request} (h : o.user ≠ w.user) : Clear p o w :=
  fun _ hk => h (hk.1.1.symm.trans hk.2.1)

theorem keeps_key {p p' : Pool} {o : Offer} (k : PositionKey) (hk : o.user = k.user ∧
    p.rpToPossibleTick o.rpa false 0 = .ok k.lower ∧ p.rpToPossibleTick o.rpb false k.lower = .ok k.upper)
    (h : (!(mapGet k.lower p.ticks).isSome || (mapGet k.lower p'.ticks).isSome) &&
      (!(mapGet k.upper p.ticks).isSome || (mapGet k.upper p'.ticks).isSome)) : KeepsEnds p p' o := by
  intro key hkey
  rw [For.unique hkey ⟨hk.1.symm, hk.2⟩]
  simp only [Bool.and_eq_true, Bool.or_eq_true, Bool.not_eq_true'] at h
  exact ⟨fun e => h.1.resolve_left (by rw [e]; simp), fun e => h.2.resolve_left (by rw [e]; simp)⟩

/-- The third user takes everything out, which removes a tick, and the first adds to their position; both orders, and
the first collects fees. -/
example : ∃ p1 rw q1 ro p2 r, Reachable joined ∧ Clear joined more whole3 ∧
    joined.withdraw whole3.user whole3.liq whole3.rpa whole3.rpb = .ok (p1, rw) ∧
    joined.deposit more.user more.x more.y more.rpa more.rpb = .ok (q1, ro) ∧ KeepsEnds joined p1 more ∧
    p1.deposit more.user more.x more.y more.rpa more.rpb = .ok (p2, r) ∧ 0 < ro.fees.fx.value ∧
    (mapGet 12 joined.ticks).isSome ∧ mapGet 12 p1.ticks = none :=
  ⟨_, _, _, _, _, _, joined_ok, clear_of (by decide), meet_ok (by decide +kernel), take_ok (by decide +kernel),
    keeps_key ⟨1, 10, 30⟩ (by decide +kernel) (by decide +kernel), take_ok (by decide +kernel), by decide +kernel,
    by decide +kernel, by decide +kernel⟩

/-- Both collect fees, and the fees are there. -/
example : ∃ p1 rw q1 ro, Clear joined again some1 ∧
    joined.withdraw some1.user some1.liq some1.rpa some1.rpb = .ok (p1, rw) ∧
    joined.deposit again.user again.x again.y again.rpa again.rpb = .ok (q1, ro) ∧ KeepsEnds joined p1 again ∧
    0 < rw.fees.fx.value ∧ 0 < ro.fees.fx.value ∧ rw.fees.fx.value + ro.fees.fx.value ≤ joined.xFee.value :=
  ⟨_, _, _, _, clear_of (by decide), meet_ok (by decide +kernel), take_ok (by decide +kernel),
    keeps_key ⟨2, 15, 25⟩ (by decide +kernel) (by decide +kernel), by decide +kernel, by decide +kernel,
    by decide +kernel⟩

/-- X has been sold since the third user joined. -/
def later : Pool := (Hmm.Sample.get (joined.executeSwapFromX fl (D 1) PoolMath.zero)).1

theorem later_ok : Reachable later :=
  .step joined_ok (.sellX (fl := fl) (r := (Hmm.Sample.get (joined.executeSwapFromX fl (D 1) PoolMath.zero)).2)
    (by decide +kernel : joined.executeSwapFromX fl (D 1) PoolMath.zero = _))

/-- A fourth user deposits where the third did. -/
def next : Offer := { fresh with user := 4 }

/-- If the withdrawal removes a tick at which the deposit begins, then the order does matter: the growth recorded at
the tick is that of the day the tick was last put to use. -/
theorem C142_removed : ∃ (o : Offer) (w : Request) (p1 p2 q1 q2 : Pool) (ro rw ro' rw' : Receipt), Reachable later ∧
    Clear later o w ∧ later.withdraw w.user w.liq w.rpa w.rpb = .ok (p1, rw) ∧
    p1.deposit o.user o.x o.y o.rpa o.rpb = .ok (p2, ro) ∧ later.deposit o.user o.x o.y o.rpa o.rpb = .ok (q1, ro') ∧
    q1.withdraw w.user w.liq w.rpa w.rpb = .ok (q2, rw') ∧ ¬ SameRecords p2 q2 :=
  ⟨next, whole3, _, _, _, _, _, _, _, _, later_ok, clear_of (by decide), meet_ok (by decide +kernel),
    take_ok (by decide +kernel), take_ok (by decide +kernel), meet_ok (by decide +kernel), fun h => by
      have := h.ticks 12
      unfold atTick at this
      have := congrArg (Option.map (·.2.2)) this
      simp only [Option.map_map, Function.comp_def] at this
      revert this
      decide +kernel⟩

end Hmm.Pool
