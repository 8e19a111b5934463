import Verif.Proofs.SwapSame
import Verif.Spec.Named

/-
Renaming the users: a sale does not read the position table, and a deposit or a withdrawal only looks up one position.
-/

namespace Hmm.Pool

open Decimal PoolMath

variable {σ : Nat → Nat}

theorem named_keys (p : Pool) (b : Bool) : (p.named σ).tickKeys b = p.tickKeys b := rfl

theorem named_addGlbl (p : Pool) (d : Decimal) : (p.named σ).addGlblLiq d = img (named σ) (p.addGlblLiq d) := by
  unfold addGlblLiq
  rw [img_bind]
  rfl

theorem named_cross {p : Pool} (_h : p.LiqOk) (t : Nat) (b : Bool) :
    (p.named σ).crossTick t b = img (named σ) (p.crossTick t b) := by
  unfold crossTick
  show (if (!b && decide (p.gs.tick ≠ t)) = true then _ else _) = _
  by_cases hc : (!b && decide (p.gs.tick ≠ t)) = true
  · rw [if_pos hc, if_pos hc]; rfl
  rw [if_neg hc, if_neg hc]
  show (match mapGet t p.ticks with | none => _ | some ts => _) = _
  cases mapGet t p.ticks with
  | none => rfl
  | some ts =>
    show (unwrap (p.gs.fees.fx.sub ts.fees.fx) >>= _) = img (named σ) (unwrap (p.gs.fees.fx.sub ts.fees.fx) >>= _)
    rw [img_bind]
    refine bindc fun fx _ => ?_
    rw [img_bind]
    refine bindc fun fy _ => ?_
    rw [img_bind]
    refine bindc fun hx _ => ?_
    rw [img_bind]
    refine bindc fun hy _ => ?_
    rw [img_bind]
    refine bindc fun k _ => ?_
    exact named_addGlbl (({ p with ticks := mapSet t { ts with fees := ⟨fx, fy, hx, hy⟩ } p.ticks } : Pool).setTick k) _

theorem named_crossed {p : Pool} (h : p.LiqOk) (cross : Bool) (endT gtk : Nat) (b : Bool) :
    (p.named σ).crossed cross endT gtk b = img (named σ) (p.crossed cross endT gtk b) := by
  unfold crossed
  cases cross with
  | false => rfl
  | true =>
    rw [if_pos rfl, if_pos rfl, img_bind]
    refine bindc fun _ _ => ?_
    show (if (mapGet gtk p.ticks).isSome = true then _ else _) = _
    cases mapGet gtk p.ticks with
    | none => rfl
    | some ts => exact named_cross h gtk b

theorem named_left (p : Pool) (s : Nat) : (p.named σ).leftLimit s = p.leftLimit s := by
  unfold leftLimit
  rw [named_keys]
  rfl

theorem named_right (p : Pool) (s g : Nat) : (p.named σ).rightLimit s g = p.rightLimit s g := by
  unfold rightLimit
  rw [named_keys]
  rfl

theorem named_tryLeft : ∀ (tks : List Nat) {p : Pool}, p.LiqOk →
    tryInRangeLeft tks (p.named σ) = img (fun r => ((r.1.named σ), r.2)) (tryInRangeLeft tks p)
  | [], _, _ => rfl
  | tk :: tks, p, h => by
    unfold tryInRangeLeft
    show (if tk > p.gs.tick then _ else _) = _
    by_cases hc : tk > p.gs.tick
    · rw [if_pos hc, if_pos hc]; exact named_tryLeft tks h
    rw [if_neg hc, if_neg hc, img_bind]
    refine bindc fun rp _ => ?_
    have h' : ((p.setTick tk).setRp rp).LiqOk := h
    have e := named_cross (σ := σ) h' tk false
    show (crossTick (named σ ((p.setTick tk).setRp rp)) tk false >>= _) = img _ (crossTick ((p.setTick tk).setRp rp) tk false >>= _)
    rw [e, bind_img, img_bind]
    refine bindc fun p1 h1 => ?_
    have k1 := cross_liqOk h' h1
    show ((p1.named σ).leftLimit p1.gs.tick >>= _) = _
    rw [named_left, img_bind]
    refine bindc fun goal _ => ?_
    show (if p1.gs.liq.isNegative = true then _ else _) = _
    by_cases c1 : p1.gs.liq.isNegative = true
    · rw [if_pos c1, if_pos c1]; rfl
    rw [if_neg c1, if_neg c1]
    show (if p1.gs.liq.isPositive = true then _ else _) = _
    by_cases c2 : p1.gs.liq.isPositive = true
    · rw [if_pos c2, if_pos c2]; rfl
    rw [if_neg c2, if_neg c2]
    exact named_tryLeft tks k1

theorem named_tryRight : ∀ (tks : List Nat) {p : Pool}, p.LiqOk →
    tryInRangeRight tks (p.named σ) = img (fun r => ((r.1.named σ), r.2)) (tryInRangeRight tks p)
  | [], _, _ => rfl
  | tk :: tks, p, h => by
    unfold tryInRangeRight
    show (if tk ≤ p.gs.tick then _ else _) = _
    by_cases hc : tk ≤ p.gs.tick
    · rw [if_pos hc, if_pos hc]; exact named_tryRight tks h
    rw [if_neg hc, if_neg hc, img_bind]
    refine bindc fun rp _ => ?_
    have h' : ((p.setTick tk).setRp rp).LiqOk := h
    have e := named_cross (σ := σ) h' tk true
    show (crossTick (named σ ((p.setTick tk).setRp rp)) tk true >>= _) = img _ (crossTick ((p.setTick tk).setRp rp) tk true >>= _)
    rw [e, bind_img, img_bind]
    refine bindc fun p1 h1 => ?_
    have k1 := cross_liqOk h' h1
    show ((p1.named σ).rightLimit tk tk >>= _) = _
    rw [named_right, img_bind]
    refine bindc fun goal _ => ?_
    show (if p1.gs.liq.isNegative = true then _ else _) = _
    by_cases c1 : p1.gs.liq.isNegative = true
    · rw [if_pos c1, if_pos c1]; rfl
    rw [if_neg c1, if_neg c1]
    show (if p1.gs.liq.isPositive = true then _ else _) = _
    by_cases c2 : p1.gs.liq.isPositive = true
    · rw [if_pos c2, if_pos c2]; rfl
    rw [if_neg c2, if_neg c2]
    exact named_tryRight tks k1

theorem named_tryGet {p : Pool} (h : p.LiqOk) (b : Bool) :
    (p.named σ).tryGetInRange b = img (fun r => ((r.1.named σ), r.2)) (p.tryGetInRange b) := by
  unfold tryGetInRange
  rw [named_keys, named_keys]
  show (if p.gs.liq.isPositive = true then _ else _) = _
  by_cases c : p.gs.liq.isPositive = true
  · rw [if_pos c, if_pos c]; rfl
  rw [if_neg c, if_neg c, img_bind]
  have e : (if b = true then tryInRangeRight (p.tickKeys false) (p.named σ) else tryInRangeLeft (p.tickKeys true) (p.named σ)) =
      img (fun r => ((r.1.named σ), r.2))
        (if b = true then tryInRangeRight (p.tickKeys false) p else tryInRangeLeft (p.tickKeys true) p) := by
    cases b
    · exact named_tryLeft _ h
    · exact named_tryRight _ h
  rw [e, bind_img]
  refine bindc fun r _ => ?_
  obtain ⟨p1, g, rp⟩ := r
  show (if rp.isNegative = true then _ else _) = _
  by_cases c : rp.isNegative = true
  · simp only [if_pos c]; rfl
  · simp only [if_neg c]; rfl

theorem named_grownX (p : Pool) (r : SwapWithinResult) : (p.named σ).grownX r = img (named σ) (p.grownX r) := by
  unfold grownX
  show (if p.gs.liq.isPositive = true then _ else _) = _
  by_cases c : p.gs.liq.isPositive = true
  · rw [if_pos c, if_pos c]
    iterate 4
      rw [img_bind]
      refine bindc fun _ _ => ?_
    rfl
  · rw [if_neg c, if_neg c]; rfl

theorem named_stepX {p : Pool} (h : p.LiqOk) (fl : FloatEnv) (d o : Decimal) (a : SwapAcc) (gtk : Nat) :
    stepX fl d o (p.named σ) a gtk = img (fun r => ((r.1.named σ), r.2)) (stepX fl d o p a gtk) := by
  unfold stepX
  rw [img_bind]
  refine bindc fun rem _ => ?_
  rw [img_bind]
  refine bindc fun r _ => ?_
  rw [img_bind]
  refine bindc fun _ _ => ?_
  rw [img_bind]
  refine bindc fun ny _ => ?_
  iterate 4
    rw [img_bind]
    refine bindc fun _ _ => ?_
  rw [img_bind]
  refine bindc fun _ _ => ?_
  rw [img_bind]
  refine bindc fun recv _ => ?_
  rw [img_bind]
  refine bindc fun send _ => ?_
  rw [img_bind]
  refine bindc fun adj _ => ?_
  rw [img_bind]
  refine bindc fun fee _ => ?_
  rw [img_bind]
  refine bindc fun nx _ => ?_
  rw [img_bind]
  refine bindc fun f _ => ?_
  rw [img_bind]
  refine bindc fun j _ => ?_
  have h' : ({ (p.setTick r.endTick).setRp r.endRp with x := nx, y := ny, xFee := f, yAdj := j } : Pool).LiqOk := h
  show (grownX (named σ { (p.setTick r.endTick).setRp r.endRp with x := nx, y := ny, xFee := f, yAdj := j }) r >>= fun q =>
      q.crossed r.cross r.endTick gtk false >>= fun q => pure (q, (⟨recv, send, adj, fee, r.endTick, r.endRp⟩ : SwapAcc))) =
    img _ (grownX { (p.setTick r.endTick).setRp r.endRp with x := nx, y := ny, xFee := f, yAdj := j } r >>= fun q =>
      q.crossed r.cross r.endTick gtk false >>= fun q => pure (q, (⟨recv, send, adj, fee, r.endTick, r.endRp⟩ : SwapAcc)))
  rw [named_grownX, bind_img, img_bind]
  refine bindc fun q hq => ?_
  rw [named_crossed (grownX_liqOk h' hq), bind_img, img_bind]
  rfl

theorem named_loopX (fl : FloatEnv) (d o : Decimal) : ∀ (n : Nat) {p : Pool} (a : SwapAcc), p.LiqOk →
    loopX fl d o n (p.named σ) a = img (fun r => ((r.1.named σ), r.2)) (loopX fl d o n p a)
  | 0, _, _, _ => rfl
  | n + 1, p, a, h => by
    have finish : ∀ (q : Pool) (a : SwapAcc), finishX (q.named σ) a = img (fun r => ((r.1.named σ), r.2)) (finishX q a) := by
      intro q a
      unfold finishX
      iterate 3
        rw [img_bind]
        refine bindc fun _ _ => ?_
      rfl
    have go : ∀ {q : Pool} (goal : Option Nat) (a : SwapAcc), q.LiqOk →
        (match goal with
          | none => finishX (q.named σ) a
          | some gtk => do
            let (p, a) ← stepX fl d o (q.named σ) a gtk
            loopX fl d o n p a) =
        img (fun r => ((r.1.named σ), r.2)) (match goal with
          | none => finishX q a
          | some gtk => do
            let (p, a) ← stepX fl d o q a gtk
            loopX fl d o n p a) := by
      intro q goal a hq
      cases goal with
      | none => exact finish q a
      | some gtk =>
        show (stepX fl d o (q.named σ) a gtk >>= fun r => loopX fl d o n r.1 r.2) =
          img _ (stepX fl d o q a gtk >>= fun r => loopX fl d o n r.1 r.2)
        rw [named_stepX hq, bind_img, img_bind]
        exact bindc fun r hr => named_loopX fl d o n r.2 (stepX_liqOk hq hr)
    unfold loopX
    rw [img_bind]
    refine bindc fun c _ => ?_
    cases c with
    | false => exact finish p a
    | true =>
      by_cases hl : p.gs.liq.isPositive = true
      · have hl' : (p.named σ).gs.liq.isPositive = true := hl
        rw [if_pos rfl, if_pos rfl, if_pos hl, if_pos hl', named_left]
        cases p.leftLimit a.currT with
        | error e => rfl
        | ok goal => exact go goal a h
      · have hl' : ¬ (p.named σ).gs.liq.isPositive = true := hl
        rw [if_pos rfl, if_pos rfl, if_neg hl, if_neg hl', named_tryGet h]
        cases ht : p.tryGetInRange false with
        | error e => rfl
        | ok r => exact go r.2.1 { a with currRp := r.2.2 } (tryGet_liqOk h ht)

theorem named_sellX {p : Pool} (h : p.LiqOk) (fl : FloatEnv) (d o : Decimal) :
    (p.named σ).executeSwapFromX fl d o = img (fun r => ((r.1.named σ), r.2)) (p.executeSwapFromX fl d o) := by
  unfold executeSwapFromX
  by_cases c : (!d.isPositive) = true
  · rw [if_pos c, if_pos c]; rfl
  rw [if_neg c, if_neg c]
  have e : (p.named σ).swapFuel = p.swapFuel := by
    rfl
  rw [e]
  exact named_loopX fl d o _ _ h

theorem named_grownY (p : Pool) (r : SwapWithinResult) : (p.named σ).grownY r = img (named σ) (p.grownY r) := by
  unfold grownY
  show (if p.gs.liq.isPositive = true then _ else _) = _
  by_cases c : p.gs.liq.isPositive = true
  · rw [if_pos c, if_pos c]
    iterate 4
      rw [img_bind]
      refine bindc fun _ _ => ?_
    rfl
  · rw [if_neg c, if_neg c]; rfl

theorem named_stepY {p : Pool} (h : p.LiqOk) (fl : FloatEnv) (d o : Decimal) (a : SwapAcc) (gtk : Nat) :
    stepY fl d o (p.named σ) a gtk = img (fun r => ((r.1.named σ), r.2)) (stepY fl d o p a gtk) := by
  unfold stepY
  rw [img_bind]
  refine bindc fun rem _ => ?_
  rw [img_bind]
  refine bindc fun r _ => ?_
  rw [img_bind]
  refine bindc fun _ _ => ?_
  rw [img_bind]
  refine bindc fun nx _ => ?_
  iterate 4
    rw [img_bind]
    refine bindc fun _ _ => ?_
  rw [img_bind]
  refine bindc fun send _ => ?_
  rw [img_bind]
  refine bindc fun _ _ => ?_
  rw [img_bind]
  refine bindc fun recv _ => ?_
  rw [img_bind]
  refine bindc fun adj _ => ?_
  rw [img_bind]
  refine bindc fun fee _ => ?_
  rw [img_bind]
  refine bindc fun ny _ => ?_
  rw [img_bind]
  refine bindc fun j _ => ?_
  rw [img_bind]
  refine bindc fun f _ => ?_
  have h' : ({ (p.setTick r.endTick).setRp r.endRp with x := nx, y := ny, xAdj := j, yFee := f } : Pool).LiqOk := h
  show (grownY (named σ { (p.setTick r.endTick).setRp r.endRp with x := nx, y := ny, xAdj := j, yFee := f }) r >>= fun q =>
      q.crossed r.cross r.endTick gtk true >>= fun q => pure (q, (⟨recv, send, adj, fee, r.endTick, r.endRp⟩ : SwapAcc))) =
    img _ (grownY { (p.setTick r.endTick).setRp r.endRp with x := nx, y := ny, xAdj := j, yFee := f } r >>= fun q =>
      q.crossed r.cross r.endTick gtk true >>= fun q => pure (q, (⟨recv, send, adj, fee, r.endTick, r.endRp⟩ : SwapAcc)))
  rw [named_grownY, bind_img, img_bind]
  refine bindc fun q hq => ?_
  rw [named_crossed (grownY_liqOk h' hq), bind_img, img_bind]
  rfl

theorem named_loopY (fl : FloatEnv) (d o : Decimal) : ∀ (n : Nat) {p : Pool} (a : SwapAcc), p.LiqOk →
    loopY fl d o n (p.named σ) a = img (fun r => ((r.1.named σ), r.2)) (loopY fl d o n p a)
  | 0, _, _, _ => rfl
  | n + 1, p, a, h => by
    have finish : ∀ (q : Pool) (a : SwapAcc), finishY (q.named σ) a = img (fun r => ((r.1.named σ), r.2)) (finishY q a) := by
      intro q a
      unfold finishY
      iterate 3
        rw [img_bind]
        refine bindc fun _ _ => ?_
      rfl
    have go : ∀ {q : Pool} (goal : Option Nat) (a : SwapAcc), q.LiqOk →
        (match goal with
          | none => finishY (q.named σ) a
          | some gtk => do
            let (p, a) ← stepY fl d o (q.named σ) a gtk
            loopY fl d o n p a) =
        img (fun r => ((r.1.named σ), r.2)) (match goal with
          | none => finishY q a
          | some gtk => do
            let (p, a) ← stepY fl d o q a gtk
            loopY fl d o n p a) := by
      intro q goal a hq
      cases goal with
      | none => exact finish q a
      | some gtk =>
        show (stepY fl d o (q.named σ) a gtk >>= fun r => loopY fl d o n r.1 r.2) =
          img _ (stepY fl d o q a gtk >>= fun r => loopY fl d o n r.1 r.2)
        rw [named_stepY hq, bind_img, img_bind]
        exact bindc fun r hr => named_loopY fl d o n r.2 (stepY_liqOk hq hr)
    unfold loopY
    rw [img_bind]
    refine bindc fun c _ => ?_
    cases c with
    | false => exact finish p a
    | true =>
      by_cases hl : p.gs.liq.isPositive = true
      · have hl' : (p.named σ).gs.liq.isPositive = true := hl
        rw [if_pos rfl, if_pos rfl, if_pos hl, if_pos hl', show (p.named σ).gs.tick = p.gs.tick from rfl, named_right]
        cases p.rightLimit a.currT p.gs.tick with
        | error e => rfl
        | ok goal => exact go goal a h
      · have hl' : ¬ (p.named σ).gs.liq.isPositive = true := hl
        rw [if_pos rfl, if_pos rfl, if_neg hl, if_neg hl', named_tryGet h]
        cases ht : p.tryGetInRange true with
        | error e => rfl
        | ok r => exact go r.2.1 { a with currRp := r.2.2 } (tryGet_liqOk h ht)

theorem named_sellY {p : Pool} (h : p.LiqOk) (fl : FloatEnv) (d o : Decimal) :
    (p.named σ).executeSwapFromY fl d o = img (fun r => ((r.1.named σ), r.2)) (p.executeSwapFromY fl d o) := by
  unfold executeSwapFromY
  by_cases c : (!d.isPositive) = true
  · rw [if_pos c, if_pos c]; rfl
  rw [if_neg c, if_neg c]
  have e : (p.named σ).swapFuel = p.swapFuel := by
    rfl
  rw [e]
  exact named_loopY fl d o _ _ h

/-! ### The position table -/

theorem named_inj (hσ : Function.Injective σ) {k k' : PositionKey} (h : k.named σ = k'.named σ) : k = k' := by
  obtain ⟨u, l, r⟩ := k
  obtain ⟨u', l', r'⟩ := k'
  simp only [PositionKey.named, PositionKey.mk.injEq] at h ⊢
  exact ⟨hσ h.1, h.2⟩

theorem named_get (hσ : Function.Injective σ) (k : PositionKey) (m : List (PositionKey × PositionState)) :
    mapGet (k.named σ) (m.map fun e => (e.1.named σ, e.2)) = mapGet k m := by
  induction m with
  | nil => rfl
  | cons e m ih =>
    obtain ⟨k', v⟩ := e
    simp only [List.map_cons, mapGet]
    by_cases h : k' = k
    · rw [if_pos h, if_pos (by rw [h])]
    · rw [if_neg h, if_neg (fun c => h (named_inj hσ c)), ih]

theorem named_set (hσ : Function.Injective σ) (k : PositionKey) (v : PositionState) (m : List (PositionKey × PositionState)) :
    (mapSet k v m).map (fun e => (e.1.named σ, e.2)) = mapSet (k.named σ) v (m.map fun e => (e.1.named σ, e.2)) := by
  induction m with
  | nil => rfl
  | cons e m ih =>
    obtain ⟨k', v'⟩ := e
    simp only [List.map_cons, mapSet]
    by_cases h : k' = k
    · rw [if_pos h, if_pos (by rw [h])]; rfl
    · rw [if_neg h, if_neg (fun c => h (named_inj hσ c)), ← ih]; rfl

theorem named_erase (hσ : Function.Injective σ) (k : PositionKey) (m : List (PositionKey × PositionState)) :
    (mapErase k m).map (fun e => (e.1.named σ, e.2)) = mapErase (k.named σ) (m.map fun e => (e.1.named σ, e.2)) := by
  induction m with
  | nil => rfl
  | cons e m ih =>
    obtain ⟨k', v'⟩ := e
    simp only [List.map_cons, mapErase]
    by_cases h : k' = k
    · rw [if_pos h, if_pos (by rw [h]), ih]
    · rw [if_neg h, if_neg (fun c => h (named_inj hσ c)), ← ih]; rfl

theorem named_posMap (hσ : Function.Injective σ) (m : List (PositionKey × PositionState)) (k : PositionKey) (d : Decimal)
    (f : Fees) : setPositionMap (m.map fun e => (e.1.named σ, e.2)) (k.named σ) d f =
      img (fun r => (r.1.map fun e => (e.1.named σ, e.2), r.2)) (setPositionMap m k d f) := by
  unfold setPositionMap
  rw [named_get hσ]
  cases mapGet k m with
  | none =>
    simp only
    by_cases c : d.isNegative = true
    · rw [if_pos c, if_pos c]; rfl
    rw [if_neg c, if_neg c, img_bind]
    refine bindc fun s _ => ?_
    rw [← named_set hσ]
    rfl
  | some poz =>
    simp only
    by_cases c : poz.liq.isNegative = true
    · rw [if_pos c, if_pos c]; rfl
    rw [if_neg c, if_neg c, img_bind]
    refine bindc fun l _ => ?_
    by_cases c : (d.isNegative && l.isNegative) = true
    · rw [if_pos c, if_pos c]; rfl
    rw [if_neg c, if_neg c]
    by_cases c : l.isZero = true
    · rw [if_pos c, if_pos c, ← named_erase hσ]; rfl
    rw [if_neg c, if_neg c, img_bind]
    refine bindc fun s _ => ?_
    rw [← named_set hσ]
    rfl

/-- The pool with a record at the tick. -/
def begun (p : Pool) (t : Nat) : R Pool :=
  match mapGet t p.ticks with
  | none => p.initializeTick t
  | some _ => .ok p

theorem named_updateTick (p : Pool) (t : Nat) (d : Decimal) (b : Bool) :
    (p.named σ).updateTick t d b = img (named σ) (p.updateTick t d b) := by
  unfold updateTick
  have e : begun (p.named σ) t = img (named σ) (begun p t) := by
    unfold begun
    show (match mapGet t p.ticks with
      | none => (p.named σ).initializeTick t
      | some _ => .ok (p.named σ)) = _
    cases mapGet t p.ticks with
    | none =>
      show (p.named σ).initializeTick t = img (named σ) (p.initializeTick t)
      unfold initializeTick
      rw [img_bind]
      rfl
    | some _ => rfl
  show (begun (p.named σ) t >>= _) = img (named σ) (begun p t >>= _)
  rw [e, bind_img, img_bind]
  refine bindc fun q _ => ?_
  show (match mapGet t q.ticks with | none => _ | some ts => _) = _
  cases mapGet t q.ticks with
  | none => rfl
  | some ts =>
    simp only
    rw [img_bind]
    refine bindc fun s _ => ?_
    rw [img_bind]
    refine bindc fun s _ => ?_
    by_cases c : s.liqGross.isZero = true
    · rw [if_pos c, if_pos c]; rfl
    · rw [if_neg c, if_neg c]; rfl

theorem named_setPosition (hσ : Function.Injective σ) (p : Pool) (user lower upper : Nat) (d : Decimal) :
    (p.named σ).setPosition (σ user) lower upper d =
      img (fun r => (r.1.named σ, r.2)) (p.setPosition user lower upper d) := by
  unfold setPosition
  iterate 4
    rw [img_bind]
    refine bindc fun _ _ => ?_
  show (setPositionMap (p.positions.map fun e => (e.1.named σ, e.2)) (PositionKey.named σ ⟨user, lower, upper⟩) d _ >>= _) = _
  rw [named_posMap hσ, bind_img, img_bind]
  refine bindc fun r _ => ?_
  obtain ⟨ps, old, base⟩ := r
  iterate 8
    rw [img_bind]
    refine bindc fun _ _ => ?_
  show (updateTick (named σ { p with positions := ps }) lower d false >>= _) = _
  rw [named_updateTick, bind_img, img_bind]
  refine bindc fun p1 _ => ?_
  rw [named_updateTick, bind_img, img_bind]
  refine bindc fun p2 _ => ?_
  have e : (if (p2.named σ).gs.tick ≥ lower ∧ (p2.named σ).gs.tick < upper then (p2.named σ).addGlblLiq d else .ok (p2.named σ)) =
      img (named σ) (if p2.gs.tick ≥ lower ∧ p2.gs.tick < upper then p2.addGlblLiq d else .ok p2) := by
    show (if p2.gs.tick ≥ lower ∧ p2.gs.tick < upper then _ else _) = _
    by_cases c : p2.gs.tick ≥ lower ∧ p2.gs.tick < upper
    · rw [if_pos c, if_pos c]; exact named_addGlbl _ _
    · rw [if_neg c, if_neg c]; rfl
  rw [e, bind_img, img_bind]
  refine bindc fun p3 _ => ?_
  iterate 4
    rw [img_bind]
    refine bindc fun _ _ => ?_
  rfl

theorem named_payFees (p : Pool) (f : Fees) : (p.named σ).payFees f = img (named σ) (p.payFees f) := by
  unfold payFees
  rw [img_bind]
  refine bindc fun c _ => ?_
  cases c
  swap
  · rfl
  rw [if_neg (by decide), if_neg (by decide), img_bind]
  refine bindc fun c _ => ?_
  cases c
  swap
  · rfl
  rw [if_neg (by decide), if_neg (by decide), img_bind]
  refine bindc fun c _ => ?_
  cases c
  swap
  · rfl
  rw [if_neg (by decide), if_neg (by decide), img_bind]
  refine bindc fun c _ => ?_
  cases c
  swap
  · rfl
  rw [if_neg (by decide), if_neg (by decide), img_bind]
  refine bindc fun _ _ => ?_
  iterate 3
    rw [img_bind]
    refine bindc fun _ _ => ?_
  rfl

theorem named_deposit (hσ : Function.Injective σ) (p : Pool) (user : Nat) (x y rpa rpb : Decimal) :
    (p.named σ).deposit (σ user) x y rpa rpb = img (fun r => (r.1.named σ, r.2)) (p.deposit user x y rpa rpb) := by
  unfold deposit
  iterate 4
    rw [img_bind]
    refine bindc fun _ _ => ?_
  rw [img_bind]
  refine bindc fun lower _ => ?_
  rw [img_bind]
  refine bindc fun upper _ => ?_
  iterate 3
    rw [img_bind]
    refine bindc fun _ _ => ?_
  simp only
  rw [img_bind]
  refine bindc fun liq _ => ?_
  by_cases c : liq.isNegative = true
  · rw [if_pos c, if_pos c]; rfl
  rw [if_neg c, if_neg c, img_bind]
  refine bindc fun xIn _ => ?_
  rw [img_bind]
  refine bindc fun c _ => ?_
  cases c
  swap
  · rfl
  rw [if_neg (by decide), if_neg (by decide), img_bind]
  refine bindc fun yIn _ => ?_
  rw [img_bind]
  refine bindc fun c _ => ?_
  cases c
  swap
  · rfl
  rw [if_neg (by decide), if_neg (by decide), named_setPosition hσ, bind_img, img_bind]
  refine bindc fun r _ => ?_
  obtain ⟨p1, f⟩ := r
  iterate 6
    rw [img_bind]
    refine bindc fun _ _ => ?_
  simp only [named_payFees]
  rw [bind_img, img_bind]
  refine bindc fun p2 _ => ?_
  iterate 4
    rw [img_bind]
    refine bindc fun _ _ => ?_
  rfl

theorem named_withdraw (hσ : Function.Injective σ) (p : Pool) (user : Nat) (liq rpa rpb : Decimal) :
    (p.named σ).withdraw (σ user) liq rpa rpb = img (fun r => (r.1.named σ, r.2)) (p.withdraw user liq rpa rpb) := by
  unfold withdraw
  rw [img_bind]
  refine bindc fun _ _ => ?_
  rw [img_bind]
  refine bindc fun lower _ => ?_
  rw [img_bind]
  refine bindc fun upper _ => ?_
  iterate 3
    rw [img_bind]
    refine bindc fun _ _ => ?_
  rw [named_setPosition hσ, bind_img, img_bind]
  refine bindc fun r _ => ?_
  obtain ⟨p1, f⟩ := r
  simp only
  iterate 9
    rw [img_bind]
    refine bindc fun _ _ => ?_
  rw [img_bind]
  refine bindc fun c _ => ?_
  cases c
  swap
  · rfl
  rw [if_neg (by decide), if_neg (by decide), img_bind]
  refine bindc fun c _ => ?_
  cases c
  swap
  · rfl
  rw [if_neg (by decide), if_neg (by decide), img_bind]
  refine bindc fun _ _ => ?_
  rw [img_bind]
  refine bindc fun _ _ => ?_
  rw [named_payFees, bind_img, img_bind]
  refine bindc fun p2 _ => ?_
  iterate 2
    rw [img_bind]
    refine bindc fun _ _ => ?_
  rfl

end Hmm.Pool
