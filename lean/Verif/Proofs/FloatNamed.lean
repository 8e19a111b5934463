import Verif.Proofs.SwapSame
import Verif.Spec.FloatNamed

/-
A sale in the floating-point pool does not read the position table; a deposit or a withdrawal looks up one position.
-/

namespace Hmm.Flt.Pool

open F64
open Hmm.Pool (img img_bind bind_img bindc)

/-- The pool with its position table changed. -/
def held (f : List (PositionKey × PositionState) → List (PositionKey × PositionState)) (p : Pool) : Pool :=
  { p with positions := f p.positions }

variable {f : List (PositionKey × PositionState) → List (PositionKey × PositionState)} {m : LibM}

theorem held_addGlbl (p : Pool) (d : F64) : (p.held f).addGlblLiq d = img (held f) (p.addGlblLiq d) := by
  unfold addGlblLiq
  rw [img_bind]
  rfl

theorem held_cross (p : Pool) (t : Nat) (b : Bool) : (p.held f).crossTick t b = img (held f) (p.crossTick t b) := by
  unfold crossTick
  show (if (!b && decide (p.gs.tick ≠ t)) = true then _ else _) = _
  by_cases hc : (!b && decide (p.gs.tick ≠ t)) = true
  · rw [if_pos hc, if_pos hc]; rfl
  rw [if_neg hc, if_neg hc]
  show (match mapGet t p.ticks with | none => _ | some ts => _) = _
  cases mapGet t p.ticks with
  | none => rfl
  | some ts =>
    simp only
    rw [img_bind]
    refine bindc fun k _ => ?_
    exact held_addGlbl (setTick { p with ticks := mapSet t { ts with fees := ⟨sub p.gs.fees.fx ts.fees.fx,
      sub p.gs.fees.fy ts.fees.fy, sub p.gs.fees.hx ts.fees.hx, sub p.gs.fees.hy ts.fees.hy⟩ } p.ticks } k) _

theorem held_tryLeft : ∀ (tks : List Nat) (p : Pool),
    tryInRangeLeft m tks (p.held f) = img (fun r => (r.1.held f, r.2)) (tryInRangeLeft m tks p)
  | [], _ => rfl
  | tk :: tks, p => by
    unfold tryInRangeLeft
    show (if tk > p.gs.tick then _ else _) = _
    by_cases hc : tk > p.gs.tick
    · rw [if_pos hc, if_pos hc]; exact held_tryLeft tks p
    rw [if_neg hc, if_neg hc]
    show (crossTick (held f ((p.setTick tk).setRp (tickToRp m tk))) tk false >>= _) =
      img _ (crossTick ((p.setTick tk).setRp (tickToRp m tk)) tk false >>= _)
    rw [held_cross, bind_img, img_bind]
    refine bindc fun p1 h1 => ?_
    show (if lt p1.gs.liq F64.zero = true then _ else _) = _
    by_cases c1 : lt p1.gs.liq F64.zero = true
    · rw [if_pos c1]; simp only [if_pos c1]; rfl
    rw [if_neg c1]
    simp only [if_neg c1]
    show (if lt F64.zero p1.gs.liq = true then _ else _) = _
    by_cases c2 : lt F64.zero p1.gs.liq = true
    · rw [if_pos c2, if_pos c2]; rfl
    rw [if_neg c2, if_neg c2]
    exact held_tryLeft tks p1

theorem held_tryRight : ∀ (tks : List Nat) (p : Pool),
    tryInRangeRight m tks (p.held f) = img (fun r => (r.1.held f, r.2)) (tryInRangeRight m tks p)
  | [], _ => rfl
  | tk :: tks, p => by
    unfold tryInRangeRight
    show (if tk ≤ p.gs.tick then _ else _) = _
    by_cases hc : tk ≤ p.gs.tick
    · rw [if_pos hc, if_pos hc]; exact held_tryRight tks p
    rw [if_neg hc, if_neg hc]
    show (crossTick (held f ((p.setTick tk).setRp (tickToRp m tk))) tk true >>= _) =
      img _ (crossTick ((p.setTick tk).setRp (tickToRp m tk)) tk true >>= _)
    rw [held_cross, bind_img, img_bind]
    refine bindc fun p1 h1 => ?_
    show (p1.rightLimit tk tk >>= _) = _
    rw [img_bind]
    refine bindc fun goal _ => ?_
    show (if lt p1.gs.liq F64.zero = true then _ else _) = _
    by_cases c1 : lt p1.gs.liq F64.zero = true
    · rw [if_pos c1]; simp only [if_pos c1]; rfl
    rw [if_neg c1]
    simp only [if_neg c1]
    show (if lt F64.zero p1.gs.liq = true then _ else _) = _
    by_cases c2 : lt F64.zero p1.gs.liq = true
    · rw [if_pos c2, if_pos c2]; rfl
    rw [if_neg c2, if_neg c2]
    exact held_tryRight tks p1

theorem held_tryGet (p : Pool) (b : Bool) :
    (p.held f).tryGetInRange m b = img (fun r => (r.1.held f, r.2)) (p.tryGetInRange m b) := by
  unfold tryGetInRange
  show (if lt F64.zero p.gs.liq = true then _ else _) = _
  by_cases c : lt F64.zero p.gs.liq = true
  · rw [if_pos c, if_pos c]; rfl
  rw [if_neg c, if_neg c, img_bind]
  have e : (if b = true then tryInRangeRight m (p.tickKeys false) (p.held f) else tryInRangeLeft m (p.tickKeys true) (p.held f)) =
      img (fun r => (r.1.held f, r.2))
        (if b = true then tryInRangeRight m (p.tickKeys false) p else tryInRangeLeft m (p.tickKeys true) p) := by
    cases b
    · exact held_tryLeft _ p
    · exact held_tryRight _ p
  show ((if b = true then tryInRangeRight m (p.tickKeys false) (p.held f)
    else tryInRangeLeft m (p.tickKeys true) (p.held f)) >>= _) = _
  rw [e, bind_img]
  refine bindc fun r _ => ?_
  obtain ⟨p1, g, rp⟩ := r
  show (if lt rp F64.zero = true then _ else _) = _
  by_cases c : lt rp F64.zero = true
  · simp only [if_pos c]; rfl
  · simp only [if_neg c]; rfl

/-- The end of a step: the tick reached is crossed if it is in use. -/
def crossing (p : Pool) (cross : Bool) (endT gtk : Nat) (b : Bool) : R Pool :=
  if cross then do
    rassert (decide (endT = gtk))
    if (mapGet gtk p.ticks).isSome then p.crossTick gtk b else .ok p
  else .ok p

theorem held_crossing (p : Pool) (cross : Bool) (endT gtk : Nat) (b : Bool) :
    (p.held f).crossing cross endT gtk b = img (held f) (p.crossing cross endT gtk b) := by
  unfold crossing
  cases cross with
  | false => rfl
  | true =>
    rw [if_pos rfl, if_pos rfl, img_bind]
    refine bindc fun _ _ => ?_
    show (if (mapGet gtk p.ticks).isSome = true then _ else _) = _
    cases mapGet gtk p.ticks with
    | none => rfl
    | some ts => exact held_cross p gtk b

/-- The part of a step of a sale of X that books its fees. -/
def growingX (p : Pool) (r : SwapWithinResult) : Pool :=
  if lt F64.zero p.gs.liq then
    p.setFees { p.gs.fees with
      fx := add p.gs.fees.fx (div r.recvFee p.gs.liq), hy := add p.gs.fees.hy (div r.sendHmmAdj p.gs.liq) }
  else p

theorem held_growingX (p : Pool) (r : SwapWithinResult) : (p.held f).growingX r = (p.growingX r).held f := by
  unfold growingX
  show (if lt F64.zero p.gs.liq = true then _ else _) = _
  by_cases c : lt F64.zero p.gs.liq = true
  · rw [if_pos c, if_pos c]; rfl
  · rw [if_neg c, if_neg c]

/-- The pool after a step of a sale of X, before its fees are booked. -/
def paidX (p : Pool) (r : SwapWithinResult) : Pool :=
  { (p.setTick r.endTick).setRp r.endRp with
    x := add p.x r.recv, y := add p.y (sub r.send r.sendHmmAdj),
    xFee := add p.xFee r.recvFee, yAdj := add p.yAdj r.sendHmmAdj }

theorem held_stepX (p : Pool) (d o : F64) (a : SwapAcc) (gtk : Nat) :
    stepX m d o (p.held f) a gtk = img (fun r => (r.1.held f, r.2)) (stepX m d o p a gtk) := by
  unfold stepX
  rw [img_bind]
  refine bindc fun r _ => ?_
  rw [img_bind]
  refine bindc fun _ _ => ?_
  rw [img_bind]
  refine bindc fun _ _ => ?_
  show (crossing (growingX (held f (p.paidX r)) r) r.cross r.endTick gtk false >>= fun q => pure (q,
      (⟨add a.recv (add r.recv r.recvFee), add a.send r.send, add a.adj r.sendHmmAdj, add a.fee r.recvFee, r.endTick,
        r.endRp⟩ : SwapAcc))) =
    img _ (crossing (growingX (p.paidX r) r) r.cross r.endTick gtk false >>= fun q => pure (q,
      (⟨add a.recv (add r.recv r.recvFee), add a.send r.send, add a.adj r.sendHmmAdj, add a.fee r.recvFee, r.endTick,
        r.endRp⟩ : SwapAcc)))
  rw [held_growingX, held_crossing, bind_img, img_bind]
  rfl

theorem held_loopX (d o : F64) : ∀ (n : Nat) (p : Pool) (a : SwapAcc),
    loopX m d o n (p.held f) a = img (fun r => (r.1.held f, r.2)) (loopX m d o n p a)
  | 0, _, _ => rfl
  | n + 1, p, a => by
    have finish : ∀ (q : Pool) (a : SwapAcc), finishX (q.held f) a = img (fun r => (r.1.held f, r.2)) (finishX q a) := by
      intro q a
      unfold finishX
      rw [img_bind]
      rfl
    have go : ∀ (goal : Option Nat) (q : Pool) (a : SwapAcc),
        (match goal with
          | none => finishX (q.held f) a
          | some gtk => do
            let (p, a) ← stepX m d o (q.held f) a gtk
            loopX m d o n p a) =
        img (fun r => (r.1.held f, r.2)) (match goal with
          | none => finishX q a
          | some gtk => do
            let (p, a) ← stepX m d o q a gtk
            loopX m d o n p a) := by
      intro goal q a
      cases goal with
      | none => exact finish q a
      | some gtk =>
        show (stepX m d o (q.held f) a gtk >>= fun r => loopX m d o n r.1 r.2) =
          img _ (stepX m d o q a gtk >>= fun r => loopX m d o n r.1 r.2)
        rw [held_stepX, bind_img, img_bind]
        exact bindc fun r _ => held_loopX d o n r.1 r.2
    unfold loopX
    by_cases c : lt a.recv d = true
    swap
    · rw [if_neg c, if_neg c]; exact finish p a
    rw [if_pos c, if_pos c]
    by_cases hl : lt F64.zero p.gs.liq = true
    · have hl' : lt F64.zero (p.held f).gs.liq = true := hl
      rw [if_pos hl, if_pos hl']
      show (match p.leftLimit a.currT with | none => _ | some gtk => _) = _
      exact go (p.leftLimit a.currT) p a
    · have hl' : ¬ lt F64.zero (p.held f).gs.liq = true := hl
      rw [if_neg hl, if_neg hl', held_tryGet]
      cases p.tryGetInRange m false with
      | error e => rfl
      | ok r => exact go r.2.1 r.1 { a with currRp := r.2.2 }

theorem held_sellX (p : Pool) (n : Nat) (d o : F64) :
    (p.held f).executeSwapFromX m n d o = img (fun r => (r.1.held f, r.2)) (p.executeSwapFromX m n d o) := by
  unfold executeSwapFromX
  by_cases c : le d F64.zero = true
  · rw [if_pos c, if_pos c]; rfl
  rw [if_neg c, if_neg c]
  exact held_loopX d o n p _

/-- The part of a step of a sale of Y that books its fees. -/
def growingY (p : Pool) (r : SwapWithinResult) : Pool :=
  if lt F64.zero p.gs.liq then
    p.setFees { p.gs.fees with
      hx := add p.gs.fees.hx (div r.sendHmmAdj p.gs.liq), fy := add p.gs.fees.fy (div r.recvFee p.gs.liq) }
  else p

theorem held_growingY (p : Pool) (r : SwapWithinResult) : (p.held f).growingY r = (p.growingY r).held f := by
  unfold growingY
  show (if lt F64.zero p.gs.liq = true then _ else _) = _
  by_cases c : lt F64.zero p.gs.liq = true
  · rw [if_pos c, if_pos c]; rfl
  · rw [if_neg c, if_neg c]

/-- The pool after a step of a sale of Y, before its fees are booked. -/
def paidY (p : Pool) (r : SwapWithinResult) : Pool :=
  { (p.setTick r.endTick).setRp r.endRp with
    x := add p.x (sub r.send r.sendHmmAdj), y := add p.y r.recv,
    xAdj := add p.xAdj r.sendHmmAdj, yFee := add p.yFee r.recvFee }

theorem held_stepY (p : Pool) (d o : F64) (a : SwapAcc) (gtk : Nat) :
    stepY m d o (p.held f) a gtk = img (fun r => (r.1.held f, r.2)) (stepY m d o p a gtk) := by
  unfold stepY
  rw [img_bind]
  refine bindc fun r _ => ?_
  rw [img_bind]
  refine bindc fun _ _ => ?_
  rw [img_bind]
  refine bindc fun _ _ => ?_
  show (crossing (growingY (held f (p.paidY r)) r) r.cross r.endTick gtk true >>= fun q => pure (q,
      (⟨add a.recv (add r.recv r.recvFee), add a.send r.send, add a.adj r.sendHmmAdj, add a.fee r.recvFee, r.endTick,
        r.endRp⟩ : SwapAcc))) =
    img _ (crossing (growingY (p.paidY r) r) r.cross r.endTick gtk true >>= fun q => pure (q,
      (⟨add a.recv (add r.recv r.recvFee), add a.send r.send, add a.adj r.sendHmmAdj, add a.fee r.recvFee, r.endTick,
        r.endRp⟩ : SwapAcc)))
  rw [held_growingY, held_crossing, bind_img, img_bind]
  rfl

theorem held_loopY (d o : F64) : ∀ (n : Nat) (p : Pool) (a : SwapAcc),
    loopY m d o n (p.held f) a = img (fun r => (r.1.held f, r.2)) (loopY m d o n p a)
  | 0, _, _ => rfl
  | n + 1, p, a => by
    have finish : ∀ (q : Pool) (a : SwapAcc), finishY (q.held f) a = img (fun r => (r.1.held f, r.2)) (finishY q a) := by
      intro q a
      unfold finishY
      rw [img_bind]
      rfl
    have go : ∀ (goal : Option Nat) (q : Pool) (a : SwapAcc),
        (match goal with
          | none => finishY (q.held f) a
          | some gtk => do
            let (p, a) ← stepY m d o (q.held f) a gtk
            loopY m d o n p a) =
        img (fun r => (r.1.held f, r.2)) (match goal with
          | none => finishY q a
          | some gtk => do
            let (p, a) ← stepY m d o q a gtk
            loopY m d o n p a) := by
      intro goal q a
      cases goal with
      | none => exact finish q a
      | some gtk =>
        show (stepY m d o (q.held f) a gtk >>= fun r => loopY m d o n r.1 r.2) =
          img _ (stepY m d o q a gtk >>= fun r => loopY m d o n r.1 r.2)
        rw [held_stepY, bind_img, img_bind]
        exact bindc fun r _ => held_loopY d o n r.1 r.2
    unfold loopY
    by_cases c : lt a.recv d = true
    swap
    · rw [if_neg c, if_neg c]; exact finish p a
    rw [if_pos c, if_pos c]
    by_cases hl : lt F64.zero p.gs.liq = true
    · have hl' : lt F64.zero (p.held f).gs.liq = true := hl
      rw [if_pos hl, if_pos hl']
      have hr : (p.held f).rightLimit a.currT (p.held f).gs.tick = p.rightLimit a.currT p.gs.tick := rfl
      rw [hr]
      cases p.rightLimit a.currT p.gs.tick with
      | error e => rfl
      | ok goal => exact go goal p a
    · have hl' : ¬ lt F64.zero (p.held f).gs.liq = true := hl
      rw [if_neg hl, if_neg hl', held_tryGet]
      cases p.tryGetInRange m true with
      | error e => rfl
      | ok r => exact go r.2.1 r.1 { a with currRp := r.2.2 }

theorem held_sellY (p : Pool) (n : Nat) (d o : F64) :
    (p.held f).executeSwapFromY m n d o = img (fun r => (r.1.held f, r.2)) (p.executeSwapFromY m n d o) := by
  unfold executeSwapFromY
  by_cases c : le d F64.zero = true
  · rw [if_pos c, if_pos c]; rfl
  rw [if_neg c, if_neg c]
  exact held_loopY d o n p _

/-! ### The position table -/

variable {σ : Nat → Nat}

/-- The renamed position table. -/
abbrev namedTable (σ : Nat → Nat) (ps : List (PositionKey × PositionState)) : List (PositionKey × PositionState) :=
  ps.map fun e => (e.1.named σ, e.2)

theorem named_inj (hσ : Function.Injective σ) {k k' : PositionKey} (h : k.named σ = k'.named σ) : k = k' := by
  obtain ⟨u, l, r⟩ := k
  obtain ⟨u', l', r'⟩ := k'
  simp only [PositionKey.named, PositionKey.mk.injEq] at h ⊢
  exact ⟨hσ h.1, h.2⟩

theorem named_get (hσ : Function.Injective σ) (k : PositionKey) (m : List (PositionKey × PositionState)) :
    mapGet (k.named σ) (m.map fun e => (e.1.named σ, e.2)) = mapGet k m := by
  induction m with
  | nil => rfl
  | cons e m ih =>
    obtain ⟨k', v⟩ := e
    simp only [List.map_cons, mapGet]
    by_cases h : k' = k
    · rw [if_pos h, if_pos (by rw [h])]
    · rw [if_neg h, if_neg (fun c => h (named_inj hσ c)), ih]

theorem named_set (hσ : Function.Injective σ) (k : PositionKey) (v : PositionState) (m : List (PositionKey × PositionState)) :
    (mapSet k v m).map (fun e => (e.1.named σ, e.2)) = mapSet (k.named σ) v (m.map fun e => (e.1.named σ, e.2)) := by
  induction m with
  | nil => rfl
  | cons e m ih =>
    obtain ⟨k', v'⟩ := e
    simp only [List.map_cons, mapSet]
    by_cases h : k' = k
    · rw [if_pos h, if_pos (by rw [h])]; rfl
    · rw [if_neg h, if_neg (fun c => h (named_inj hσ c)), ← ih]; rfl

theorem named_erase (hσ : Function.Injective σ) (k : PositionKey) (m : List (PositionKey × PositionState)) :
    (mapErase k m).map (fun e => (e.1.named σ, e.2)) = mapErase (k.named σ) (m.map fun e => (e.1.named σ, e.2)) := by
  induction m with
  | nil => rfl
  | cons e m ih =>
    obtain ⟨k', v'⟩ := e
    simp only [List.map_cons, mapErase]
    by_cases h : k' = k
    · rw [if_pos h, if_pos (by rw [h]), ih]
    · rw [if_neg h, if_neg (fun c => h (named_inj hσ c)), ← ih]; rfl

theorem named_posMap (hσ : Function.Injective σ) (ps : List (PositionKey × PositionState)) (k : PositionKey) (d : F64)
    (g : Fees) : setPositionMap (namedTable σ ps) (k.named σ) d g =
      img (fun r => (namedTable σ r.1, r.2)) (setPositionMap ps k d g) := by
  unfold setPositionMap
  rw [named_get hσ]
  cases mapGet k ps with
  | none =>
    simp only
    by_cases c : lt d F64.zero = true
    · rw [if_pos c, if_pos c]; rfl
    rw [if_neg c, if_neg c, img_bind]
    refine bindc fun s _ => ?_
    rw [← named_set hσ]
    rfl
  | some poz =>
    simp only
    by_cases c : (lt d F64.zero && lt (add poz.liq d) F64.zero) = true
    · rw [if_pos c, if_pos c]; rfl
    rw [if_neg c, if_neg c]
    by_cases c : F64.eq (add poz.liq d) F64.zero = true
    · rw [if_pos c, if_pos c, ← named_erase hσ]; rfl
    rw [if_neg c, if_neg c, img_bind]
    refine bindc fun s _ => ?_
    rw [← named_set hσ]
    rfl

/-- The pool with a record at the tick. -/
def begun (p : Pool) (t : Nat) : R Pool :=
  match mapGet t p.ticks with
  | none => p.initializeTick t
  | some _ => .ok p

theorem held_updateTick (p : Pool) (t : Nat) (d : F64) (b : Bool) :
    (p.held f).updateTick t d b = img (held f) (p.updateTick t d b) := by
  unfold updateTick
  have e : begun (p.held f) t = img (held f) (begun p t) := by
    unfold begun
    show (match mapGet t p.ticks with
      | none => (p.held f).initializeTick t
      | some _ => .ok (p.held f)) = _
    cases mapGet t p.ticks with
    | none =>
      show (p.held f).initializeTick t = img (held f) (p.initializeTick t)
      unfold initializeTick
      rw [img_bind]
      rfl
    | some _ => rfl
  show (begun (p.held f) t >>= _) = img (held f) (begun p t >>= _)
  rw [e, bind_img, img_bind]
  refine bindc fun q _ => ?_
  show (match mapGet t q.ticks with | none => _ | some ts => _) = _
  cases mapGet t q.ticks with
  | none => rfl
  | some ts =>
    simp only
    rw [img_bind]
    refine bindc fun s _ => ?_
    by_cases c : F64.eq s.liqGross F64.zero = true
    · rw [if_pos c, if_pos c]; rfl
    · rw [if_neg c, if_neg c]; rfl

theorem named_setPosition (hσ : Function.Injective σ) (p : Pool) (user lower upper : Nat) (d : F64) :
    (p.held (namedTable σ)).setPosition (σ user) lower upper d =
      img (fun r => (r.1.held (namedTable σ), r.2)) (p.setPosition user lower upper d) := by
  unfold setPosition
  iterate 4
    rw [img_bind]
    refine bindc fun _ _ => ?_
  show (setPositionMap (namedTable σ p.positions) (PositionKey.named σ ⟨user, lower, upper⟩) d _ >>= _) = _
  rw [named_posMap hσ, bind_img, img_bind]
  refine bindc fun r _ => ?_
  obtain ⟨ps, old, base⟩ := r
  simp only
  rw [img_bind]
  refine bindc fun _ _ => ?_
  show (updateTick (held (namedTable σ) { p with positions := ps }) lower d false >>= _) = _
  rw [held_updateTick, bind_img, img_bind]
  refine bindc fun p1 _ => ?_
  rw [held_updateTick, bind_img, img_bind]
  refine bindc fun p2 _ => ?_
  have e : (if (p2.held (namedTable σ)).gs.tick ≥ lower ∧ (p2.held (namedTable σ)).gs.tick < upper
      then (p2.held (namedTable σ)).addGlblLiq d else .ok (p2.held (namedTable σ))) =
      img (held (namedTable σ)) (if p2.gs.tick ≥ lower ∧ p2.gs.tick < upper then p2.addGlblLiq d else .ok p2) := by
    show (if p2.gs.tick ≥ lower ∧ p2.gs.tick < upper then _ else _) = _
    by_cases c : p2.gs.tick ≥ lower ∧ p2.gs.tick < upper
    · rw [if_pos c, if_pos c]; exact held_addGlbl _ _
    · rw [if_neg c, if_neg c]; rfl
  rw [e, bind_img, img_bind]
  rfl

theorem named_deposit (hσ : Function.Injective σ) (p : Pool) (user : Nat) (x y rpa rpb : F64) :
    (p.held (namedTable σ)).deposit m (σ user) x y rpa rpb =
      img (fun r => (r.1.held (namedTable σ), r.2)) (p.deposit m user x y rpa rpb) := by
  unfold deposit
  by_cases c : (lt x F64.zero || lt y F64.zero) = true
  · rw [if_pos c, if_pos c]; rfl
  rw [if_neg c, if_neg c]
  simp only
  rw [show rpToPossibleTick m (p.held (namedTable σ)) rpa false = rpToPossibleTick m p rpa false from rfl,
    show rpToPossibleTick m (p.held (namedTable σ)) rpb false = rpToPossibleTick m p rpb false from rfl,
    show (p.held (namedTable σ)).gs = p.gs from rfl]
  split
  · rfl
  split
  · rfl
  rw [named_setPosition hσ, bind_img, img_bind]
  rfl

theorem named_withdraw (hσ : Function.Injective σ) (p : Pool) (user : Nat) (liq rpa rpb : F64) :
    (p.held (namedTable σ)).withdraw m (σ user) liq rpa rpb =
      img (fun r => (r.1.held (namedTable σ), r.2)) (p.withdraw m user liq rpa rpb) := by
  unfold withdraw
  by_cases c : lt liq F64.zero = true
  · rw [if_pos c, if_pos c]; rfl
  rw [if_neg c, if_neg c]
  simp only
  rw [show rpToPossibleTick m (p.held (namedTable σ)) rpa false = rpToPossibleTick m p rpa false from rfl,
    show rpToPossibleTick m (p.held (namedTable σ)) rpb false = rpToPossibleTick m p rpb false from rfl]
  rw [named_setPosition hσ, bind_img, img_bind]
  rfl

end Hmm.Flt.Pool
