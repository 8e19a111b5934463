import Verif.Spec.FloatTwin
import Verif.Proofs.FloatPool
import Verif.Proofs.FloatFill
import Verif.Proofs.Twin

/-
The floating-point pool without its HMM mechanism behaves as with it, except for what is paid out.
-/

namespace Hmm.Flt.Pool

open F64

attribute [local irreducible] unit limit

theorem plain_ticks (p : Pool) : p.plain.ticks = mapVals TickState.plain p.ticks := rfl

theorem plain_positions (p : Pool) : p.plain.positions = mapVals PositionState.plain p.positions := rfl

theorem plain_keys (p : Pool) (b : Bool) : p.plain.tickKeys b = p.tickKeys b := by
  unfold tickKeys; rw [plain_ticks, mapVals_keys]

theorem plain_get (p : Pool) (t : Nat) : mapGet t p.plain.ticks = (mapGet t p.ticks).map TickState.plain :=
  mapGet_vals _ _ _

/-- Results without their HMM part. -/
def plainR (x : R Pool) : R Pool := x.map plain

theorem plainR_ok {x : R Pool} {p : Pool} (h : x = .ok p) : plainR x = .ok p.plain := by rw [h]; rfl

theorem ok_bind {α β : Type} (a : α) (f : α → R β) : ((.ok a : R α) >>= f) = f a := rfl

theorem plainR_ok' (p : Pool) : plainR (.ok p) = .ok p.plain := rfl

theorem lockstep {x y : R Pool} {p q : Pool} (h : plainR x = plainR y) (hp : x = .ok p) (hq : y = .ok q) :
    p.plain = q.plain := by
  rw [hp, hq] at h
  exact Except.ok.inj h

theorem plain_addGlblLiq (p : Pool) (d : F64) : p.plain.addGlblLiq d = plainR (p.addGlblLiq d) := by
  unfold addGlblLiq GlobalState.addLiq
  by_cases h : lt (add p.gs.liq d) F64.zero = true
  · have h' : lt (add p.plain.gs.liq d) F64.zero = true := h
    simp only [h, h', if_true]; rfl
  · have h' : ¬ lt (add p.plain.gs.liq d) F64.zero = true := h
    simp only [h, h']; rfl

theorem plain_with (p : Pool) (ts : List (Nat × TickState)) :
    ({ p with ticks := ts } : Pool).plain = { p.plain with ticks := mapVals TickState.plain ts } := rfl

theorem plain_setTick (p : Pool) (t : Nat) : (p.setTick t).plain = p.plain.setTick t := rfl

theorem plain_setRp (p : Pool) (r : F64) : (p.setRp r).plain = p.plain.setRp r := rfl

theorem plain_set (p : Pool) (t : Nat) (v : TickState) :
    ({ p with ticks := mapSet t v p.ticks } : Pool).plain = { p.plain with ticks := mapSet t v.plain p.plain.ticks } := by
  rw [plain_with, mapSet_vals]; rfl

theorem plain_cross (p : Pool) (t : Nat) (b : Bool) : p.plain.crossTick t b = plainR (p.crossTick t b) := by
  unfold crossTick
  by_cases hc : (!b && decide (p.gs.tick ≠ t)) = true
  · have hc' : (!b && decide (p.plain.gs.tick ≠ t)) = true := hc
    rw [if_pos hc, if_pos hc']; rfl
  · have hc' : ¬ (!b && decide (p.plain.gs.tick ≠ t)) = true := hc
    rw [if_neg hc, if_neg hc', plain_get]
    cases hg : mapGet t p.ticks with
    | none => rfl
    | some ts =>
      have e0 : sub F64.zero F64.zero = F64.zero := by decide
      have key : ∀ n : Nat, (({ p.plain with ticks := mapSet t { ts.plain with fees :=
            ⟨sub p.plain.gs.fees.fx ts.plain.fees.fx, sub p.plain.gs.fees.fy ts.plain.fees.fy,
              sub p.plain.gs.fees.hx ts.plain.fees.hx, sub p.plain.gs.fees.hy ts.plain.fees.hy⟩ } p.plain.ticks }
          : Pool).setTick n).addGlblLiq (if b then ts.plain.liqNet else ts.plain.liqNet.neg) =
          plainR ((({ p with ticks := mapSet t { ts with fees :=
            ⟨sub p.gs.fees.fx ts.fees.fx, sub p.gs.fees.fy ts.fees.fy,
              sub p.gs.fees.hx ts.fees.hx, sub p.gs.fees.hy ts.fees.hy⟩ } p.ticks }
          : Pool).setTick n).addGlblLiq (if b then ts.liqNet else ts.liqNet.neg)) := by
        intro n
        rw [← plain_addGlblLiq]
        rw [plain_setTick, plain_set]
        have e : ({ ts.plain with fees :=
            ⟨sub p.plain.gs.fees.fx ts.plain.fees.fx, sub p.plain.gs.fees.fy ts.plain.fees.fy,
              sub p.plain.gs.fees.hx ts.plain.fees.hx, sub p.plain.gs.fees.hy ts.plain.fees.hy⟩ } : TickState) =
            TickState.plain { ts with fees := ⟨sub p.gs.fees.fx ts.fees.fx, sub p.gs.fees.fy ts.fees.fy,
              sub p.gs.fees.hx ts.fees.hx, sub p.gs.fees.hy ts.fees.hy⟩ } := by
          simp only [TickState.plain, Fees.plain, plain, e0]
        rw [e]; rfl
      simp only [Option.map_some]
      cases b with
      | true => exact key t
      | false =>
        simp only [Bool.false_eq_true, if_false]
        cases hs : checkedSub t 1 with
        | error e => rfl
        | ok k => exact key _

theorem plain_left (p : Pool) (s : Nat) : p.plain.leftLimit s = p.leftLimit s := by
  unfold leftLimit; rw [plain_keys]; rfl

theorem plain_right (p : Pool) (s g : Nat) : p.plain.rightLimit s g = p.rightLimit s g := by
  unfold rightLimit; rw [plain_keys]; rfl

/-- The results of the search for liquidity, without their HMM part. -/
def plainT (x : R (Pool × Option Nat × F64)) : R (Pool × Option Nat × F64) := x.map fun r => (r.1.plain, r.2)

theorem plain_tryLeft (m : LibM) : ∀ (tks : List Nat) (p : Pool),
    tryInRangeLeft m tks p.plain = plainT (tryInRangeLeft m tks p) := by
  intro tks
  induction tks with
  | nil => intro p; rfl
  | cons tk tks ih =>
    intro p
    rw [tryInRangeLeft, tryInRangeLeft]
    by_cases h : tk > p.gs.tick
    · have h' : tk > p.plain.gs.tick := h
      rw [if_pos h, if_pos h']; exact ih p
    · have h' : ¬ tk > p.plain.gs.tick := h
      rw [if_neg h, if_neg h', ← plain_setTick, ← plain_setRp]
      dsimp only
      rw [plain_cross]
      cases hc : ((p.setTick tk).setRp (tickToRp m tk)).crossTick tk false with
      | error e => rfl
      | ok q =>
        show (if lt q.plain.gs.liq F64.zero = true then rpanic else _) = plainT (if lt q.gs.liq F64.zero = true then rpanic else _)
        by_cases h1 : lt q.gs.liq F64.zero = true
        · have h1' : lt q.plain.gs.liq F64.zero = true := h1
          rw [if_pos h1, if_pos h1']; rfl
        · have h1' : ¬ lt q.plain.gs.liq F64.zero = true := h1
          rw [if_neg h1, if_neg h1']
          by_cases h2 : lt F64.zero q.gs.liq = true
          · have h2' : lt F64.zero q.plain.gs.liq = true := h2
            rw [if_pos h2, if_pos h2', plain_left]; rfl
          · have h2' : ¬ lt F64.zero q.plain.gs.liq = true := h2
            rw [if_neg h2, if_neg h2']; exact ih q

theorem plain_tryRight (m : LibM) : ∀ (tks : List Nat) (p : Pool),
    tryInRangeRight m tks p.plain = plainT (tryInRangeRight m tks p) := by
  intro tks
  induction tks with
  | nil => intro p; rfl
  | cons tk tks ih =>
    intro p
    rw [tryInRangeRight, tryInRangeRight]
    by_cases h : tk ≤ p.gs.tick
    · have h' : tk ≤ p.plain.gs.tick := h
      rw [if_pos h, if_pos h']; exact ih p
    · have h' : ¬ tk ≤ p.plain.gs.tick := h
      rw [if_neg h, if_neg h', ← plain_setTick, ← plain_setRp]
      dsimp only
      rw [plain_cross]
      cases hc : ((p.setTick tk).setRp (tickToRp m tk)).crossTick tk true with
      | error e => rfl
      | ok q =>
        rw [plainR_ok', ok_bind, ok_bind, plain_right]
        cases hr : q.rightLimit tk tk with
        | error e => rfl
        | ok g =>
          rw [ok_bind, ok_bind]
          by_cases h1 : lt q.gs.liq F64.zero = true
          · have h1' : lt q.plain.gs.liq F64.zero = true := h1
            rw [if_pos h1, if_pos h1']; rfl
          · have h1' : ¬ lt q.plain.gs.liq F64.zero = true := h1
            rw [if_neg h1, if_neg h1']
            by_cases h2 : lt F64.zero q.gs.liq = true
            · have h2' : lt F64.zero q.plain.gs.liq = true := h2
              rw [if_pos h2, if_pos h2']; rfl
            · have h2' : ¬ lt F64.zero q.plain.gs.liq = true := h2
              rw [if_neg h2, if_neg h2']; exact ih q

theorem plain_try (m : LibM) (p : Pool) (b : Bool) : p.plain.tryGetInRange m b = plainT (p.tryGetInRange m b) := by
  unfold tryGetInRange
  by_cases h : lt F64.zero p.gs.liq = true
  · have h' : lt F64.zero p.plain.gs.liq = true := h
    rw [if_pos h, if_pos h']; rfl
  · have h' : ¬ lt F64.zero p.plain.gs.liq = true := h
    rw [if_neg h, if_neg h', plain_keys, plain_keys]
    have hd : (if b = true then tryInRangeRight m (p.tickKeys false) p.plain else tryInRangeLeft m (p.tickKeys true) p.plain)
        = plainT (if b = true then tryInRangeRight m (p.tickKeys false) p else tryInRangeLeft m (p.tickKeys true) p) := by
      cases b
      · exact plain_tryLeft m _ p
      · exact plain_tryRight m _ p
    rw [hd]
    cases (if b = true then tryInRangeRight m (p.tickKeys false) p else tryInRangeLeft m (p.tickKeys true) p) with
    | error e => rfl
    | ok r =>
      obtain ⟨q, g, rp⟩ := r
      show (if lt rp F64.zero = true then rpanic else _) = plainT (if lt rp F64.zero = true then rpanic else _)
      by_cases h1 : lt rp F64.zero = true
      · rw [if_pos h1, if_pos h1]; rfl
      · rw [if_neg h1, if_neg h1]; rfl

theorem try_alike {m : LibM} {p q p' q' : Pool} {b : Bool} {g g' : Option Nat} {r r' : F64}
    (h : p.plain = q.plain) (hp : p.tryGetInRange m b = .ok (p', g, r)) (hq : q.tryGetInRange m b = .ok (q', g', r')) :
    p'.plain = q'.plain ∧ g = g' ∧ r = r' := by
  have h1 := plain_try m p b
  rw [h, plain_try, hp, hq] at h1
  have h2 := Except.ok.inj h1
  simp only [Prod.mk.injEq] at h2
  exact ⟨h2.1.symm, h2.2.1.symm, h2.2.2.symm⟩

theorem plain_updateTick (p : Pool) (t : Nat) (d : F64) (u : Bool) :
    p.plain.updateTick t d u = plainR (p.updateTick t d u) := by
  have main : ∀ q : Pool, (match mapGet t q.plain.ticks with
      | none => rpanic
      | some ts =>
        let ts := ts.addLiqNet (if u then d.neg else d)
        (ts.addLiqGross d >>= fun ts =>
          let p := { q.plain with ticks := mapSet t ts q.plain.ticks }
          if F64.eq ts.liqGross F64.zero then pure (p.unsetTick t) else pure p) : R Pool) =
      plainR (match mapGet t q.ticks with
      | none => rpanic
      | some ts =>
        let ts := ts.addLiqNet (if u then d.neg else d)
        (ts.addLiqGross d >>= fun ts =>
          let p := { q with ticks := mapSet t ts q.ticks }
          if F64.eq ts.liqGross F64.zero then pure (p.unsetTick t) else pure p)) := by
    intro q
    rw [plain_get]
    cases hg : mapGet t q.ticks with
    | none => rfl
    | some ts =>
      simp only [Option.map_some]
      unfold TickState.addLiqGross
      by_cases h : lt (add (ts.addLiqNet (if u then d.neg else d)).liqGross d) F64.zero = true
      · have h' : lt (add (ts.plain.addLiqNet (if u then d.neg else d)).liqGross d) F64.zero = true := h
        rw [if_pos h, if_pos h']; rfl
      · have h' : ¬ lt (add (ts.plain.addLiqNet (if u then d.neg else d)).liqGross d) F64.zero = true := h
        rw [if_neg h, if_neg h']
        by_cases he : F64.eq (add (ts.addLiqNet (if u then d.neg else d)).liqGross d) F64.zero = true
        · have he' : F64.eq (add (ts.plain.addLiqNet (if u then d.neg else d)).liqGross d) F64.zero = true := he
          show (if _ = true then _ else _) = plainR (if _ = true then _ else _)
          rw [if_pos he, if_pos he']
          refine congrArg Except.ok ?_
          unfold unsetTick
          refine Eq.trans ?_ (plain_with q _).symm
          rw [mapErase_vals, mapSet_vals]; rfl
        · have he' : ¬ F64.eq (add (ts.plain.addLiqNet (if u then d.neg else d)).liqGross d) F64.zero = true := he
          show (if _ = true then _ else _) = plainR (if _ = true then _ else _)
          rw [if_neg he, if_neg he']
          refine congrArg Except.ok ?_
          refine Eq.trans ?_ (plain_with q _).symm
          rw [mapSet_vals]; rfl
  unfold updateTick
  rw [plain_get]
  cases hg : mapGet t p.ticks with
  | none =>
    have hi : p.plain.initializeTick t = plainR (p.initializeTick t) := by
      have h0 : lt F64.zero F64.zero = false := by decide +kernel
      unfold initializeTick TickState.new
      simp only [h0, Bool.false_eq_true, if_false]
      refine congrArg Except.ok ?_
      refine Eq.trans ?_ (plain_with p _).symm
      rw [treeInsert_vals]
      have e : (if p.plain.gs.tick ≥ t then p.plain.gs.fees else Fees.zero) =
          Fees.plain (if p.gs.tick ≥ t then p.gs.fees else Fees.zero) := by
        by_cases hb : p.gs.tick ≥ t
        · have hb' : p.plain.gs.tick ≥ t := hb
          rw [if_pos hb, if_pos hb']; rfl
        · have hb' : ¬ p.plain.gs.tick ≥ t := hb
          rw [if_neg hb, if_neg hb']; rfl
      rw [e]; rfl
    show (p.plain.initializeTick t >>= _) = plainR (p.initializeTick t >>= _)
    rw [hi]
    cases p.initializeTick t with
    | error e => rfl
    | ok q => exact main q
  | some ts => exact main p

theorem plain_feeRng (p : Pool) {sel : Fees → F64} (hs : ∀ f : Fees, sel f.plain = sel f) (l u : Nat) :
    p.plain.feeRng sel l u = p.feeRng sel l u := by
  have hb : ∀ t, p.plain.feeBelowAbove sel t = p.feeBelowAbove sel t := by
    intro t
    unfold feeBelowAbove
    rw [plain_get]
    have hg : sel p.plain.gs.fees = sel p.gs.fees := hs _
    cases mapGet t p.ticks with
    | none => simp only [Option.map_none, hg]
    | some ts =>
      have ht : sel ts.plain.fees = sel ts.fees := hs _
      simp only [Option.map_some, hg, ht]; rfl
  unfold feeRng
  rw [hb, hb]

/-- The results of the change of a position, without their HMM part. -/
theorem plain_setPositionMap (ps : List (PositionKey × PositionState)) (k : PositionKey) (d : F64) (nf : Fees) :
    setPositionMap (mapVals PositionState.plain ps) k d nf.plain =
      (setPositionMap ps k d nf).map fun r => (mapVals PositionState.plain r.1, r.2.1.plain, r.2.2) := by
  unfold setPositionMap
  rw [mapGet_vals]
  cases hg : mapGet k ps with
  | none =>
    simp only [Option.map_none]
    by_cases h : lt d F64.zero = true
    · rw [if_pos h, if_pos h]; rfl
    · rw [if_neg h, if_neg h]
      unfold PositionState.new
      rw [if_neg h]
      refine congrArg Except.ok ?_
      simp only
      rw [mapSet_vals]; rfl
  | some poz =>
    simp only [Option.map_some]
    have e : poz.plain.liq = poz.liq := rfl
    unfold PositionState.addLiq
    rw [e]
    by_cases h : (lt d F64.zero && lt (add poz.liq d) F64.zero) = true
    · rw [if_pos h, if_pos h]; rfl
    · rw [if_neg h, if_neg h]
      by_cases h1 : F64.eq (add poz.liq d) F64.zero = true
      · rw [if_pos h1, if_pos h1]
        refine congrArg Except.ok ?_
        simp only
        rw [mapErase_vals]; rfl
      · rw [if_neg h1, if_neg h1]
        by_cases h2 : lt (add poz.liq d) F64.zero = true
        · rw [if_pos h2, if_pos h2]; rfl
        · rw [if_neg h2, if_neg h2]
          refine congrArg Except.ok ?_
          simp only
          rw [mapSet_vals]; rfl

theorem plain_add {p q : Pool} (h : p.plain = q.plain) : p.gs.liq = q.gs.liq ∧ p.gs.rp = q.gs.rp ∧ p.gs.tick = q.gs.tick ∧
    p.spacing = q.spacing ∧ p.gs.fees.plain = q.gs.fees.plain ∧ p.xFee = q.xFee ∧ p.yFee = q.yFee ∧ p.feeRate = q.feeRate ∧
    mapVals TickState.plain p.ticks = mapVals TickState.plain q.ticks ∧
    mapVals PositionState.plain p.positions = mapVals PositionState.plain q.positions := by
  simp only [plain, Pool.mk.injEq, GlobalState.mk.injEq] at h
  obtain ⟨h1, ⟨h2, h3, h4, h5⟩, h7, h8, _, _, _, _, h9, h10, _, h11⟩ := h
  exact ⟨h2, h3, h4, h1, h5, h9, h10, h11, h7, h8⟩

theorem plain_of {p q : Pool} (h2 : p.gs.liq = q.gs.liq) (h3 : p.gs.rp = q.gs.rp) (h4 : p.gs.tick = q.gs.tick)
    (h1 : p.spacing = q.spacing) (h5 : p.gs.fees.plain = q.gs.fees.plain) (h9 : p.xFee = q.xFee) (h10 : p.yFee = q.yFee)
    (h11 : p.feeRate = q.feeRate) (h7 : mapVals TickState.plain p.ticks = mapVals TickState.plain q.ticks)
    (h8 : mapVals PositionState.plain p.positions = mapVals PositionState.plain q.positions) : p.plain = q.plain := by
  simp only [mapVals] at h7 h8
  simp only [plain, h1, h2, h3, h4, h5, h7, h8, h9, h10, h11]

theorem setPosition_alike {p q p' q' : Pool} (h : p.plain = q.plain) {user lower upper : Nat} {d : F64} {f f' : Fees}
    (hp : p.setPosition user lower upper d = .ok (p', f)) (hq : q.setPosition user lower upper d = .ok (q', f')) :
    p'.plain = q'.plain ∧ f.plain = f'.plain := by
  obtain ⟨nf, old, base, pos, p1, p2, a1, a2, _, _, a5, _, a7, a8, a9, rfl⟩ := setPosition_ok hp
  obtain ⟨nf', old', base', pos', q1, q2, b1, b2, _, _, b5, _, b7, b8, b9, rfl⟩ := setPosition_ok hq
  obtain ⟨g1, g2, g3, g4, g5, g6, g7, g8, g9, g10⟩ := plain_add h
  have efx : nf.fx = nf'.fx := by
    rw [← plain_feeRng p (sel := (·.fx)) (fun _ => rfl), h, plain_feeRng q (sel := (·.fx)) (fun _ => rfl), b1] at a1
    exact (Except.ok.inj a1).symm
  have efy : nf.fy = nf'.fy := by
    rw [← plain_feeRng p (sel := (·.fy)) (fun _ => rfl), h, plain_feeRng q (sel := (·.fy)) (fun _ => rfl), b2] at a2
    exact (Except.ok.inj a2).symm
  have enf : nf.plain = nf'.plain := by simp only [Fees.plain, efx, efy]
  have em := plain_setPositionMap p.positions ⟨user, lower, upper⟩ d nf
  rw [g10, enf, plain_setPositionMap, a5, b5] at em
  have em := Except.ok.inj em
  simp only [Prod.mk.injEq] at em
  obtain ⟨em1, em2, em3⟩ := em
  have em2' := em2
  simp only [Fees.plain, Fees.mk.injEq] at em2'
  have hw : ({ p with positions := pos } : Pool).plain = ({ q with positions := pos' } : Pool).plain :=
    plain_of g1 g2 g3 g4 g5 g6 g7 g8 g9 em1.symm
  have h1 : p1.plain = q1.plain := lockstep (by rw [← plain_updateTick, ← plain_updateTick, hw]) a7 b7
  have h2 : p2.plain = q2.plain := lockstep (by rw [← plain_updateTick, ← plain_updateTick, h1]) a8 b8
  obtain ⟨k1, k2, k3, k4, k5, k6, k7, k8, k9, k10⟩ := plain_add h2
  refine ⟨?_, ?_⟩
  · rw [g3] at a9
    rcases a9 with ⟨c1, c2, _, rfl⟩ | ⟨c, rfl⟩ <;> rcases b9 with ⟨d1, d2, _, rfl⟩ | ⟨d1, rfl⟩
    · exact plain_of (by simp only [g1]) g2 g3 k4 g5 k6 k7 k8 k9 k10
    · exact absurd ⟨c1, c2⟩ d1
    · exact absurd ⟨d1, d2⟩ c
    · exact h2
  · simp only [Fees.plain, efx, efy, em3, em2'.1, em2'.2.1]

theorem payFees_alike {p q : Pool} (h : p.plain = q.plain) {f f' : Fees} (hf : f.plain = f'.plain) (x y x' y' : F64) :
    (({ p with x := x, y := y } : Pool).payFees f).plain = (({ q with x := x', y := y' } : Pool).payFees f').plain := by
  obtain ⟨g1, g2, g3, g4, g5, g6, g7, g8, g9, g10⟩ := plain_add h
  simp only [Fees.plain, Fees.mk.injEq, and_true] at hf
  unfold payFees
  exact plain_of g1 g2 g3 g4 g5 (by simp only [g6, hf.1]) (by simp only [g7, hf.2]) g8 g9 g10

theorem deposit_alike {m : LibM} {p q p' q' : Pool} (h : p.plain = q.plain) {user : Nat} {x y rpa rpb : F64} {r s : Receipt}
    (hp : p.deposit m user x y rpa rpb = .ok (p', r)) (hq : q.deposit m user x y rpa rpb = .ok (q', s)) :
    p'.plain = q'.plain ∧ r.x = s.x ∧ r.y = s.y ∧ r.fees.plain = s.fees.plain := by
  obtain ⟨l, u, ra, rb, liq, p1, f, rfl, rfl, rfl, rfl, rfl, _, _, _, _, a5, rfl, a7⟩ := deposit_ok hp
  obtain ⟨l', u', ra', rb', liq', q1, f', rfl, rfl, rfl, rfl, rfl, _, _, _, _, b5, rfl, b7⟩ := deposit_ok hq
  obtain ⟨g1, g2, g3, g4, _⟩ := plain_add h
  have el : ∀ rp b, p.rpToPossibleTick m rp b = q.rpToPossibleTick m rp b := by
    intro rp b; unfold rpToPossibleTick; rw [g4]
  rw [el, el, g2] at a5 a7
  obtain ⟨h1, h2⟩ := setPosition_alike h a5 b5
  refine ⟨payFees_alike h1 h2 _ _ _ _, ?_⟩
  rw [a7, b7]
  exact ⟨rfl, rfl, h2⟩

theorem withdraw_alike {m : LibM} {p q p' q' : Pool} (h : p.plain = q.plain) {user : Nat} {liq rpa rpb : F64} {r s : Receipt}
    (hp : p.withdraw m user liq rpa rpb = .ok (p', r)) (hq : q.withdraw m user liq rpa rpb = .ok (q', s)) :
    p'.plain = q'.plain ∧ r.x = s.x ∧ r.y = s.y ∧ r.fees.plain = s.fees.plain := by
  obtain ⟨l, u, ra, rb, p1, f, rfl, rfl, rfl, rfl, _, a5, rfl, a7⟩ := withdraw_ok hp
  obtain ⟨l', u', ra', rb', q1, f', rfl, rfl, rfl, rfl, _, b5, rfl, b7⟩ := withdraw_ok hq
  obtain ⟨g1, g2, g3, g4, _⟩ := plain_add h
  have el : ∀ rp b, p.rpToPossibleTick m rp b = q.rpToPossibleTick m rp b := by
    intro rp b; unfold rpToPossibleTick; rw [g4]
  rw [el, el] at a5 a7
  obtain ⟨h1, h2⟩ := setPosition_alike h a5 b5
  obtain ⟨_, k2, _⟩ := plain_add h1
  refine ⟨payFees_alike h1 h2 _ _ _ _, ?_⟩
  rw [a7, b7, k2]
  exact ⟨rfl, rfl, h2⟩

/-! ### Swaps -/

/-- What a step of a sale of X consists of. -/
theorem swapWithinX_parts {m : LibM} {p : Pool} {s : F64} {goal : Nat} {liq dx o : F64} {r : SwapWithinResult}
    (h : p.swapWithinX m s goal liq dx o = .ok r) :
    p.fillX m s goal liq dx = .ok (r.recv, r.recvFee, r.cross, r.endTick, r.endRp) ∧
    ∃ dy, p.doneDyX m s r.endRp liq o (dyFromLDrp liq s r.endRp) = .ok dy ∧ r.send = mul dy adjWholeFill ∧
      r.sendHmmAdj = sub r.send (mul (dyFromLDrp liq s r.endRp) adjWholeFill) ∧ lt r.sendHmmAdj F64.zero = false ∧
      lt F64.zero r.send = false ∧ lt F64.zero (mul (dyFromLDrp liq s r.endRp) adjWholeFill) = false := by
  unfold swapWithinX at h
  rw [ite_eq_ok] at h
  rcases h with ⟨_, h⟩ | ⟨_, h⟩
  · exact absurd h (by simp [rpanic])
  rw [bind_ok] at h
  obtain ⟨⟨a, b, c, t, e⟩, h1, h⟩ := h
  simp only at h
  rw [bind_ok] at h
  obtain ⟨dy, h2, h⟩ := h
  rw [ite_eq_ok] at h
  rcases h with ⟨_, h⟩ | ⟨c1, h⟩
  · exact absurd h (by simp [rpanic])
  rw [ite_eq_ok] at h
  rcases h with ⟨_, h⟩ | ⟨c2, h⟩
  · exact absurd h (by simp [rpanic])
  rw [ite_eq_ok] at h
  rcases h with ⟨_, h⟩ | ⟨_, h⟩
  · exact absurd h (by simp [rpanic])
  unfold SwapWithinResult.new at h
  rw [ite_eq_ok] at h
  rcases h with ⟨_, h⟩ | ⟨_, h⟩
  · exact absurd h (by simp [rpanic])
  rw [ite_eq_ok] at h
  rcases h with ⟨_, h⟩ | ⟨c3, h⟩
  · exact absurd h (by simp [rpanic])
  rw [ite_eq_ok] at h
  rcases h with ⟨_, h⟩ | ⟨_, h⟩
  · exact absurd h (by simp [rpanic])
  rw [ite_eq_ok] at h
  rcases h with ⟨_, h⟩ | ⟨_, h⟩
  · exact absurd h (by simp [rpanic])
  rw [ok_inj] at h
  subst h
  exact ⟨h1, dy, h2, rfl, rfl, c2, c3, c1⟩

theorem swapWithinY_parts {m : LibM} {p : Pool} {s : F64} {goal : Nat} {liq dx o : F64} {r : SwapWithinResult}
    (h : p.swapWithinY m s goal liq dx o = .ok r) :
    p.fillY m s goal liq dx = .ok (r.recv, r.recvFee, r.cross, r.endTick, r.endRp) ∧
    ∃ dy, p.doneDxY m s r.endRp liq o (dxFromLDrp liq s r.endRp) = .ok dy ∧ r.send = mul dy adjWholeFill ∧
      r.sendHmmAdj = sub r.send (mul (dxFromLDrp liq s r.endRp) adjWholeFill) ∧ lt r.sendHmmAdj F64.zero = false ∧
      lt F64.zero r.send = false ∧ lt F64.zero (mul (dxFromLDrp liq s r.endRp) adjWholeFill) = false := by
  unfold swapWithinY at h
  rw [ite_eq_ok] at h
  rcases h with ⟨_, h⟩ | ⟨_, h⟩
  · exact absurd h (by simp [rpanic])
  rw [bind_ok] at h
  obtain ⟨⟨a, b, c, t, e⟩, h1, h⟩ := h
  simp only at h
  rw [bind_ok] at h
  obtain ⟨dy, h2, h⟩ := h
  rw [ite_eq_ok] at h
  rcases h with ⟨_, h⟩ | ⟨c1, h⟩
  · exact absurd h (by simp [rpanic])
  rw [ite_eq_ok] at h
  rcases h with ⟨_, h⟩ | ⟨c2, h⟩
  · exact absurd h (by simp [rpanic])
  rw [ite_eq_ok] at h
  rcases h with ⟨_, h⟩ | ⟨_, h⟩
  · exact absurd h (by simp [rpanic])
  unfold SwapWithinResult.new at h
  rw [ite_eq_ok] at h
  rcases h with ⟨_, h⟩ | ⟨_, h⟩
  · exact absurd h (by simp [rpanic])
  rw [ite_eq_ok] at h
  rcases h with ⟨_, h⟩ | ⟨c3, h⟩
  · exact absurd h (by simp [rpanic])
  rw [ite_eq_ok] at h
  rcases h with ⟨_, h⟩ | ⟨_, h⟩
  · exact absurd h (by simp [rpanic])
  rw [ite_eq_ok] at h
  rcases h with ⟨_, h⟩ | ⟨_, h⟩
  · exact absurd h (by simp [rpanic])
  rw [ok_inj] at h
  subst h
  exact ⟨h1, dy, h2, rfl, rfl, c2, c3, c1⟩

/-- Totals that differ at most in what is paid out and withheld. -/
structure AlikeAcc (a b : SwapAcc) : Prop where
  recv : a.recv = b.recv
  fee : a.fee = b.fee
  currT : a.currT = b.currT
  currRp : a.currRp = b.currRp

/-- The result that is paid out at least as much: `b` paid no less than `a` (amounts are negative). -/
def NoMore (a b : F64) : Prop := ∀ x y, a.Is x → b.Is y → y ≤ x

/-- A difference of finite doubles has the sign it should. -/
theorem sub_sign {a b : F64} {x y : ℚ} (ha : a.Is x) (hb : b.Is y) (h : lt (sub a b) F64.zero = false) : y ≤ x := by
  by_contra hc
  have hr := sub_rounded ha hb
  rcases hr.cases with ⟨r, hr'⟩ | ⟨h1, _⟩ | ⟨_, h1⟩
  · have he := sub_error ha hb hr'
    rw [abs_of_neg (show x - y < 0 by linarith)] at he
    have h3 := (abs_le.1 he).2
    have h4 : -(x - y) / 2 ^ 53 < -(x - y) := div_lt_self (by linarith) (by norm_num)
    have h2 : r < 0 := by linarith
    rw [(lt_zero_is hr').2 h2] at h
    cases h
  · linarith
  · rw [h1] at h; revert h; decide

theorem add_finite {a b : F64} {x : ℚ} (h : (add a b).Is x) : a.Finite ∧ b.Finite := by
  obtain ⟨s, n, h, _⟩ := h
  cases a with
  | nan => rw [add_nan_left] at h; cases h
  | inf w => cases b with
    | nan => cases h
    | inf v => cases w <;> cases v <;> cases h
    | fin v k => cases h
  | fin w k => cases b with
    | nan => cases h
    | inf v => cases h
    | fin v j => exact ⟨finite_fin _ _, finite_fin _ _⟩

theorem NoMore.add {a b c d : F64} (h : NoMore a b) (h' : NoMore c d) : NoMore (add a c) (add b d) := by
  intro x y hx hy
  obtain ⟨⟨a', ha⟩, ⟨c', hc⟩⟩ := add_finite hx
  obtain ⟨⟨b', hb⟩, ⟨d', hd⟩⟩ := add_finite hy
  refine (add_rounded hb hd).mono (add_rounded ha hc) hy hx ?_
  have := h _ _ ha hb
  have := h' _ _ hc hd
  linarith

theorem fillX_alike {m : LibM} {p q : Pool} (h : p.feeRate = q.feeRate) (s : F64) (g : Nat) (l d : F64) :
    p.fillX m s g l d = q.fillX m s g l d := by
  unfold fillX; rw [h]

theorem fillY_alike {m : LibM} {p q : Pool} (h : p.feeRate = q.feeRate) (s : F64) (g : Nat) (l d : F64) :
    p.fillY m s g l d = q.fillY m s g l d := by
  unfold fillY; rw [h]

theorem stepX_alike {m : LibM} {p q p' q' : Pool} (h : p.plain = q.plain) {a b a' b' : SwapAcc} (ha : AlikeAcc a b)
    {g : Nat} {dx o o' : F64} (hp : stepX m dx o p a g = .ok (p', a')) (hq : stepX m dx o' q b g = .ok (q', b')) :
    p'.plain = q'.plain ∧ AlikeAcc a' b' ∧
      (F64.eq q.c F64.zero = true → NoMore a.send b.send → NoMore a'.send b'.send) := by
  obtain ⟨r, a1, _, _, rfl, a2⟩ := stepX_ok hp
  obtain ⟨s, b1, _, _, rfl, b2⟩ := stepX_ok hq
  obtain ⟨g1, g2, g3, g4, g5, g6, g7, g8, g9, g10⟩ := plain_add h
  obtain ⟨f1, dy, d1, d2, d3, d4, _⟩ := swapWithinX_parts a1
  obtain ⟨f2, dy', e1, e2, _⟩ := swapWithinX_parts b1
  rw [fillX_alike g8, ha.currRp, g1, ha.recv, f2] at f1
  have f1 := Except.ok.inj f1
  simp only [Prod.mk.injEq] at f1
  obtain ⟨k1, k2, k3, k4, k5⟩ := f1
  have hm : (p.midX r).plain = (q.midX s).plain := by
    have g5' := g5
    simp only [Fees.plain, Fees.mk.injEq, and_true] at g5'
    unfold midX
    refine plain_of g1 k5.symm k4.symm g4 ?_ (by simp only [g6, k2]) g7 g8 g9 g10
    simp only [g1, k2]
    cases lt F64.zero q.gs.liq
    · exact g5
    · simp only [if_true, Fees.plain, g5'.1, g5'.2]
  refine ⟨?_, ⟨?_, ?_, k4.symm, k5.symm⟩, ?_⟩
  · have hk : (mapGet g p.ticks).isSome = (mapGet g q.ticks).isSome := by
      have h1 := plain_get p g
      rw [h, plain_get] at h1
      have := congrArg Option.isSome h1
      simpa using this.symm
    rcases a2 with ⟨c1, rfl⟩ | ⟨c1, _, ⟨c2, rfl⟩ | ⟨c2, c3⟩⟩ <;>
      rcases b2 with ⟨d1, rfl⟩ | ⟨d1, _, ⟨d2, rfl⟩ | ⟨d2, d3⟩⟩
    · exact hm
    · exact hm
    · rw [c1, d1] at k3; cases k3
    · exact hm
    · exact hm
    · rw [c2, d2] at hk; cases hk
    · rw [c1, d1] at k3; cases k3
    · rw [d2, c2] at hk; cases hk
    · exact lockstep (by rw [← plain_cross, ← plain_cross, hm]) c3 d3
  · simp only [ha.recv, k1, k2]
  · simp only [ha.fee, k2]
  · intro hc hs
    refine hs.add ?_
    unfold doneDyX at e1
    rw [hc, Bool.true_or, if_pos rfl, ok_inj] at e1
    subst e1
    have e : s.send = mul (dyFromLDrp p.gs.liq a.currRp r.endRp) adjWholeFill := by
      rw [e2, g1, ha.currRp, k5]
    rw [← e] at d3
    intro x y hx hy
    rw [d3] at d4
    exact sub_sign hx hy d4

theorem stepY_alike {m : LibM} {p q p' q' : Pool} (h : p.plain = q.plain) {a b a' b' : SwapAcc} (ha : AlikeAcc a b)
    {g : Nat} {dx o o' : F64} (hp : stepY m dx o p a g = .ok (p', a')) (hq : stepY m dx o' q b g = .ok (q', b')) :
    p'.plain = q'.plain ∧ AlikeAcc a' b' ∧
      (F64.eq q.c F64.zero = true → NoMore a.send b.send → NoMore a'.send b'.send) := by
  obtain ⟨r, a1, _, _, rfl, a2⟩ := stepY_ok hp
  obtain ⟨s, b1, _, _, rfl, b2⟩ := stepY_ok hq
  obtain ⟨g1, g2, g3, g4, g5, g6, g7, g8, g9, g10⟩ := plain_add h
  obtain ⟨f1, dy, d1, d2, d3, d4, _⟩ := swapWithinY_parts a1
  obtain ⟨f2, dy', e1, e2, _⟩ := swapWithinY_parts b1
  rw [fillY_alike g8, ha.currRp, g1, ha.recv, f2] at f1
  have f1 := Except.ok.inj f1
  simp only [Prod.mk.injEq] at f1
  obtain ⟨k1, k2, k3, k4, k5⟩ := f1
  have hm : (p.midY r).plain = (q.midY s).plain := by
    have g5' := g5
    simp only [Fees.plain, Fees.mk.injEq, and_true] at g5'
    unfold midY
    refine plain_of g1 k5.symm k4.symm g4 ?_ g6 (by simp only [g7, k2]) g8 g9 g10
    simp only [g1, k2]
    cases lt F64.zero q.gs.liq
    · exact g5
    · simp only [if_true, Fees.plain, g5'.1, g5'.2]
  refine ⟨?_, ⟨?_, ?_, k4.symm, k5.symm⟩, ?_⟩
  · have hk : (mapGet g p.ticks).isSome = (mapGet g q.ticks).isSome := by
      have h1 := plain_get p g
      rw [h, plain_get] at h1
      have := congrArg Option.isSome h1
      simpa using this.symm
    rcases a2 with ⟨c1, rfl⟩ | ⟨c1, _, ⟨c2, rfl⟩ | ⟨c2, c3⟩⟩ <;>
      rcases b2 with ⟨d1, rfl⟩ | ⟨d1, _, ⟨d2, rfl⟩ | ⟨d2, d3⟩⟩
    · exact hm
    · exact hm
    · rw [c1, d1] at k3; cases k3
    · exact hm
    · exact hm
    · rw [c2, d2] at hk; cases hk
    · rw [c1, d1] at k3; cases k3
    · rw [d2, c2] at hk; cases hk
    · exact lockstep (by rw [← plain_cross, ← plain_cross, hm]) c3 d3
  · simp only [ha.recv, k1, k2]
  · simp only [ha.fee, k2]
  · intro hc hs
    refine hs.add ?_
    unfold doneDxY at e1
    rw [hc, Bool.true_or, if_pos rfl, ok_inj] at e1
    subst e1
    have e : s.send = mul (dxFromLDrp p.gs.liq a.currRp r.endRp) adjWholeFill := by
      rw [e2, g1, ha.currRp, k5]
    rw [← e] at d3
    intro x y hx hy
    rw [d3] at d4
    exact sub_sign hx hy d4

/-- Outputs that differ at most in what is paid out and withheld. -/
structure AlikeOut (r s : SwapOutput) : Prop where
  recv : r.recv = s.recv
  fee : r.recvFee = s.recvFee
  endPrice : r.endPrice = s.endPrice

theorem finishX_alike {p q p' q' : Pool} (h : p.plain = q.plain) {a b : SwapAcc} (ha : AlikeAcc a b) {r s : SwapOutput}
    (hp : finishX p a = .ok (p', r)) (hq : finishX q b = .ok (q', s)) :
    p'.plain = q'.plain ∧ AlikeOut r s ∧ (NoMore a.send b.send → NoMore r.send s.send) := by
  obtain ⟨rfl, a1, a2, _, a4, a5⟩ := finishX_ok hp
  obtain ⟨rfl, b1, b2, _, b4, b5⟩ := finishX_ok hq
  obtain ⟨_, g2, _⟩ := plain_add h
  refine ⟨h, ⟨by rw [a1, b1, ha.recv], by rw [a4, b4, ha.fee], by rw [a5, b5, g2]⟩, ?_⟩
  rw [a2, b2]; exact id

theorem finishY_alike {p q p' q' : Pool} (h : p.plain = q.plain) {a b : SwapAcc} (ha : AlikeAcc a b) {r s : SwapOutput}
    (hp : finishY p a = .ok (p', r)) (hq : finishY q b = .ok (q', s)) :
    p'.plain = q'.plain ∧ AlikeOut r s ∧ (NoMore a.send b.send → NoMore r.send s.send) := by
  obtain ⟨rfl, a1, a2, _, a4, a5⟩ := finishY_ok hp
  obtain ⟨rfl, b1, b2, _, b4, b5⟩ := finishY_ok hq
  obtain ⟨_, g2, _⟩ := plain_add h
  refine ⟨h, ⟨by rw [a1, b1, ha.recv], by rw [a4, b4, ha.fee], by rw [a5, b5, g2]⟩, ?_⟩
  rw [a2, b2]; exact id

/-- The HMM parameter never changes. -/
theorem c_kept (c : F64) : Kept fun p => p.c = c :=
  ⟨fun _ _ _ _ _ h _ _ h0 => h.trans h0, fun _ _ _ _ h h0 => by
    obtain ⟨_, _, _, _, _, _, _, rfl⟩ := crossTick_ok h; exact h0⟩

theorem loopX_alike {m : LibM} {dx o o' : F64} : ∀ {n n' : Nat} {p q p' q' : Pool} {a b : SwapAcc} {r s : SwapOutput},
    p.plain = q.plain → AlikeAcc a b → loopX m dx o n p a = .ok (p', r) → loopX m dx o' n' q b = .ok (q', s) →
    p'.plain = q'.plain ∧ AlikeOut r s ∧
      (F64.eq q.c F64.zero = true → NoMore a.send b.send → NoMore r.send s.send) := by
  intro n
  induction n with
  | zero => intro n' p q p' q' a b r s _ _ h; cases h
  | succ n ih =>
    intro n' p q p' q' a b r s h ha hp hq
    cases n' with
    | zero => cases hq
    | succ n' =>
      obtain ⟨g1, g2, g3, g4, _⟩ := plain_add h
      have hp := loopX_succ hp
      have hq := loopX_succ hq
      rcases hp with ⟨c, hp⟩ | ⟨c, p1, gp, rp, hp1, hp⟩ <;> rcases hq with ⟨d, hq⟩ | ⟨d, q1, gq, rq, hq1, hq⟩
      · obtain ⟨e1, e2, e3⟩ := finishX_alike h ha hp hq
        exact ⟨e1, e2, fun _ => e3⟩
      · rw [← ha.recv, c] at d; cases d
      · rw [← ha.recv, c] at d; cases d
      have key : p1.plain = q1.plain ∧ gp = gq ∧ rp = rq ∧ q1.c = q.c := by
        rw [g1] at hp1
        rcases hp1 with ⟨k, rfl, rfl, rfl⟩ | ⟨k, hp1⟩ <;> rcases hq1 with ⟨k', rfl, rfl, rfl⟩ | ⟨k', hq1⟩
        · refine ⟨h, ?_, ha.currRp, rfl⟩
          rw [← plain_left, h, plain_left, ha.currT]
        · rw [k] at k'; cases k'
        · rw [k] at k'; cases k'
        · obtain ⟨e1, e2, e3⟩ := try_alike h hp1 hq1
          exact ⟨e1, e2, e3, tryGetInRange_kept (c_kept q.c) hq1 rfl⟩
      obtain ⟨h1, rfl, rfl, hc⟩ := key
      have ha1 : AlikeAcc { a with currRp := rp } { b with currRp := rp } := ⟨ha.recv, ha.fee, ha.currT, rfl⟩
      rcases hp with ⟨n1, hp⟩ | ⟨t, p2, a2, n1, hp, hp2⟩ <;> rcases hq with ⟨n2, hq⟩ | ⟨t', q2, b2, n2, hq, hq2⟩
      · obtain ⟨e1, e2, e3⟩ := finishX_alike h1 ha1 hp hq
        exact ⟨e1, e2, fun _ => e3⟩
      · rw [n1] at n2; cases n2
      · rw [n1] at n2; cases n2
      rw [n1] at n2
      cases n2
      obtain ⟨h2, ha2, h3⟩ := stepX_alike h1 ha1 hp hq
      obtain ⟨e1, e2, e3⟩ := ih h2 ha2 hp2 hq2
      refine ⟨e1, e2, fun hz hs => e3 ?_ (h3 ?_ hs)⟩
      · rw [stepX_kept (c_kept q1.c) hq rfl, hc]; exact hz
      · rw [hc]; exact hz

theorem loopY_alike {m : LibM} {dx o o' : F64} : ∀ {n n' : Nat} {p q p' q' : Pool} {a b : SwapAcc} {r s : SwapOutput},
    p.plain = q.plain → AlikeAcc a b → loopY m dx o n p a = .ok (p', r) → loopY m dx o' n' q b = .ok (q', s) →
    p'.plain = q'.plain ∧ AlikeOut r s ∧
      (F64.eq q.c F64.zero = true → NoMore a.send b.send → NoMore r.send s.send) := by
  intro n
  induction n with
  | zero => intro n' p q p' q' a b r s _ _ h; cases h
  | succ n ih =>
    intro n' p q p' q' a b r s h ha hp hq
    cases n' with
    | zero => cases hq
    | succ n' =>
      obtain ⟨g1, g2, g3, g4, _⟩ := plain_add h
      have hp := loopY_succ hp
      have hq := loopY_succ hq
      rcases hp with ⟨c, hp⟩ | ⟨c, p1, gp, rp, hp1, hp⟩ <;> rcases hq with ⟨d, hq⟩ | ⟨d, q1, gq, rq, hq1, hq⟩
      · obtain ⟨e1, e2, e3⟩ := finishY_alike h ha hp hq
        exact ⟨e1, e2, fun _ => e3⟩
      · rw [← ha.recv, c] at d; cases d
      · rw [← ha.recv, c] at d; cases d
      have key : p1.plain = q1.plain ∧ gp = gq ∧ rp = rq ∧ q1.c = q.c := by
        rw [g1] at hp1
        rcases hp1 with ⟨k, rfl, hl, rfl⟩ | ⟨k, hp1⟩ <;> rcases hq1 with ⟨k', rfl, hl', rfl⟩ | ⟨k', hq1⟩
        · refine ⟨h, ?_, ha.currRp, rfl⟩
          rw [← plain_right, h, plain_right, ha.currT, g3, hl'] at hl
          exact (Except.ok.inj hl).symm
        · rw [k] at k'; cases k'
        · rw [k] at k'; cases k'
        · obtain ⟨e1, e2, e3⟩ := try_alike h hp1 hq1
          exact ⟨e1, e2, e3, tryGetInRange_kept (c_kept q.c) hq1 rfl⟩
      obtain ⟨h1, rfl, rfl, hc⟩ := key
      have ha1 : AlikeAcc { a with currRp := rp } { b with currRp := rp } := ⟨ha.recv, ha.fee, ha.currT, rfl⟩
      rcases hp with ⟨n1, hp⟩ | ⟨t, p2, a2, n1, hp, hp2⟩ <;> rcases hq with ⟨n2, hq⟩ | ⟨t', q2, b2, n2, hq, hq2⟩
      · obtain ⟨e1, e2, e3⟩ := finishY_alike h1 ha1 hp hq
        exact ⟨e1, e2, fun _ => e3⟩
      · rw [n1] at n2; cases n2
      · rw [n1] at n2; cases n2
      rw [n1] at n2
      cases n2
      obtain ⟨h2, ha2, h3⟩ := stepY_alike h1 ha1 hp hq
      obtain ⟨e1, e2, e3⟩ := ih h2 ha2 hp2 hq2
      refine ⟨e1, e2, fun hz hs => e3 ?_ (h3 ?_ hs)⟩
      · rw [stepY_kept (c_kept q1.c) hq rfl, hc]; exact hz
      · rw [hc]; exact hz

theorem acc0_alike {p q : Pool} (h : p.plain = q.plain) : AlikeAcc p.acc0 q.acc0 := by
  obtain ⟨_, g2, g3, _⟩ := plain_add h
  exact ⟨rfl, rfl, g3, g2⟩

theorem swapX_alike {m : LibM} {dx o o' : F64} {n n' : Nat} {p q p' q' : Pool} {r s : SwapOutput} (h : p.plain = q.plain)
    (hp : p.executeSwapFromX m n dx o = .ok (p', r)) (hq : q.executeSwapFromX m n' dx o' = .ok (q', s)) :
    p'.plain = q'.plain ∧ AlikeOut r s ∧ (F64.eq q.c F64.zero = true → NoMore r.send s.send) := by
  unfold executeSwapFromX at hp hq
  rw [ite_eq_ok] at hp hq
  rcases hp with ⟨_, hp⟩ | ⟨_, hp⟩
  · exact absurd hp (by simp [rpanic])
  rcases hq with ⟨_, hq⟩ | ⟨_, hq⟩
  · exact absurd hq (by simp [rpanic])
  obtain ⟨h1, h2, h3⟩ := loopX_alike h (acc0_alike h) hp hq
  exact ⟨h1, h2, fun hz => h3 hz fun x y hx hy => (hy.unique hx).le⟩

theorem swapY_alike {m : LibM} {dx o o' : F64} {n n' : Nat} {p q p' q' : Pool} {r s : SwapOutput} (h : p.plain = q.plain)
    (hp : p.executeSwapFromY m n dx o = .ok (p', r)) (hq : q.executeSwapFromY m n' dx o' = .ok (q', s)) :
    p'.plain = q'.plain ∧ AlikeOut r s ∧ (F64.eq q.c F64.zero = true → NoMore r.send s.send) := by
  unfold executeSwapFromY at hp hq
  rw [ite_eq_ok] at hp hq
  rcases hp with ⟨_, hp⟩ | ⟨_, hp⟩
  · exact absurd hp (by simp [rpanic])
  rcases hq with ⟨_, hq⟩ | ⟨_, hq⟩
  · exact absurd hq (by simp [rpanic])
  obtain ⟨h1, h2, h3⟩ := loopY_alike h (acc0_alike h) hp hq
  exact ⟨h1, h2, fun hz => h3 hz fun x y hx hy => (hy.unique hx).le⟩

theorem new_alike {m : LibM} {p q : Pool} {rp c c' fee : F64} {spacing : Nat} (hp : Pool.new m rp spacing c fee = .ok p)
    (hq : Pool.new m rp spacing c' fee = .ok q) : p.plain = q.plain := by
  unfold Pool.new at hp hq
  simp only at hp hq
  rw [bind_ok] at hp hq
  obtain ⟨g, h1, hp⟩ := hp
  obtain ⟨g', h2, hq⟩ := hq
  rw [h1] at h2
  cases h2
  rw [pure_ok] at hp hq
  subst hp; subst hq
  rfl

theorem twins_plain {m : LibM} {p q : Pool} (h : Twins m p q) : p.plain = q.plain := by
  induction h with
  | new hp hq => exact new_alike hp hq
  | deposit _ hp hq ih => exact (deposit_alike ih hp hq).1
  | withdraw _ hp hq ih => exact (withdraw_alike ih hp hq).1
  | swapX _ hp hq ih => exact (swapX_alike ih hp hq).1
  | swapY _ hp hq ih => exact (swapY_alike ih hp hq).1

end Hmm.Flt.Pool
