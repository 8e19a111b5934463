import Verif.Proofs.Twin
import Verif.Proofs.OrderWithdrawals
import Verif.Spec.Deals

/-
Pools with the same records sell alike: a sale does not read the position table, and does not depend on the sign of a
net liquidity of zero.
-/

namespace Hmm.Pool

open Decimal PoolMath

section Images

variable {α β γ : Type}

/-- A result with its value changed. -/
def img (g : α → β) : R α → R β
  | .ok a => .ok (g a)
  | .error e => .error e

theorem img_bind (g : β → γ) (x : R α) (f : α → R β) : img g (x >>= f) = x >>= fun a => img g (f a) := by
  cases x <;> rfl

theorem bind_img (g : α → β) (x : R α) (f : β → R γ) : (img g x >>= f) = x >>= fun a => f (g a) := by
  cases x <;> rfl

theorem bindc {x : R α} {f g : α → R β} (h : ∀ a, x = .ok a → f a = g a) : (x >>= f) = x >>= g := by
  cases x with
  | error e => rfl
  | ok a => exact h a rfl

theorem img_ok {g : α → β} {x : R α} {b : β} (h : img g x = .ok b) : ∃ a, x = .ok a ∧ g a = b := by
  cases x with
  | error e => cases h
  | ok a => exact ⟨a, rfl, Except.ok.inj h⟩

end Images

/-- A decimal without the sign of a zero. -/
def unsigned (d : Decimal) : Decimal := if d.value = 0 then { d with negative := false } else d

/-- A tick record whose net liquidity has no sign if it is zero. -/
def _root_.Hmm.TickState.canon (t : TickState) : TickState := { t with liqNet := unsigned t.liqNet }

/-- The pool without its positions, and without the sign of a net liquidity of zero. -/
def canon (p : Pool) : Pool := { p with ticks := mapVals TickState.canon p.ticks, positions := [] }

/-- The active liquidity is not negative and fits in 128 bits. -/
def LiqOk (p : Pool) : Prop := p.gs.liq.negative = false ∧ p.gs.liq.value < u128Size

theorem unsigned_neg (d : Decimal) : (unsigned d).neg = unsigned d.neg := by
  obtain ⟨v, s, n⟩ := d
  by_cases h : v = 0
  · subst h; cases n <;> rfl
  · cases n <;> simp [unsigned, Decimal.neg, isNegative, isPositive, isZero, h]

theorem add_unsigned {a : Decimal} (h : a.negative = false) (hv : a.value < u128Size) (d : Decimal) :
    a.add (unsigned d) = a.add d := by
  obtain ⟨av, as, an⟩ := a
  obtain ⟨v, s, n⟩ := d
  by_cases h0 : v = 0
  · subst h0
    cases n with
    | false => rfl
    | true =>
      simp only at h hv
      subst h
      simp only [unsigned, if_true, Decimal.add]
      split
      · rfl
      · simp only [beq_self_eq_true, if_true, checkedAdd, u128, Nat.add_zero, hv]
        by_cases ha : av = 0
        · subst ha; rfl
        · have : av > 0 := by omega
          simp [this, checkedSub]
  · simp [unsigned, h0]

theorem addLiq_unsigned {g : GlobalState} (h : g.liq.negative = false) (hv : g.liq.value < u128Size) (d : Decimal) :
    g.addLiq (unsigned d) = g.addLiq d := by
  unfold GlobalState.addLiq
  rw [add_unsigned h hv]

theorem addLiq_liq {g g' : GlobalState} (h : g.liq.negative = false) (hv : g.liq.value < u128Size) {d : Decimal}
    (he : g.addLiq d = .ok g') : g'.liq.negative = false ∧ g'.liq.value < u128Size := by
  obtain ⟨⟨v, s, n⟩, rp, tk, fe⟩ := g
  obtain ⟨dv, ds, dn⟩ := d
  simp only at h hv
  subst h
  simp only [GlobalState.addLiq, Decimal.add] at he
  split at he
  · cases he
  · cases dn with
    | false =>
      simp only [beq_self_eq_true, if_true, checkedAdd, u128] at he
      split at he
      · next hlt =>
        cases he
        exact ⟨rfl, hlt⟩
      · cases he
    | true =>
      simp only [Bool.false_eq_true, if_false, beq_iff_eq] at he
      split at he
      · have hle : dv ≤ v := by omega
        simp only [checkedSub, hle, if_true] at he
        cases he
        exact ⟨rfl, by show v - dv < _; omega⟩
      · split at he
        · next h1 h2 =>
          have hle : v ≤ dv := by omega
          have h3 : dv - v ≠ 0 := by omega
          simp only [checkedSub, hle, if_true] at he
          exfalso
          revert he
          simp [unwrap, isNegative, isZero, h3, bind, Except.bind, pure, Except.pure, rpanic]
        · cases he
          exact ⟨rfl, by show 0 < _; decide⟩

theorem canon_keys (p : Pool) (b : Bool) : p.canon.tickKeys b = p.tickKeys b := by
  unfold tickKeys canon
  simp only [mapVals_keys]

theorem canon_left (p : Pool) (s : Nat) : p.canon.leftLimit s = p.leftLimit s := by
  unfold leftLimit
  rw [canon_keys]
  rfl

theorem canon_right (p : Pool) (s g : Nat) : p.canon.rightLimit s g = p.rightLimit s g := by
  unfold rightLimit
  rw [canon_keys]
  rfl

theorem canon_addGlbl {p : Pool} (h : p.LiqOk) (d : Decimal) :
    p.canon.addGlblLiq (unsigned d) = img canon (p.addGlblLiq d) := by
  unfold addGlblLiq
  rw [img_bind]
  show (p.gs.addLiq (unsigned d) >>= _) = _
  rw [addLiq_unsigned h.1 h.2]
  rfl

theorem addGlbl_liqOk {p p' : Pool} (h : p.LiqOk) {d : Decimal} (e : p.addGlblLiq d = .ok p') : p'.LiqOk := by
  unfold addGlblLiq at e
  cases hg : p.gs.addLiq d with
  | error x => rw [hg] at e; cases e
  | ok g => rw [hg] at e; cases e; exact addLiq_liq h.1 h.2 hg

theorem canon_cross {p : Pool} (h : p.LiqOk) (t : Nat) (b : Bool) :
    p.canon.crossTick t b = img canon (p.crossTick t b) := by
  unfold crossTick
  show (if (!b && decide (p.gs.tick ≠ t)) = true then _ else _) = _
  by_cases hc : (!b && decide (p.gs.tick ≠ t)) = true
  · rw [if_pos hc, if_pos hc]; rfl
  rw [if_neg hc, if_neg hc]
  show (match mapGet t (mapVals TickState.canon p.ticks) with | none => _ | some ts => _) = _
  rw [mapGet_vals]
  cases mapGet t p.ticks with
  | none => rfl
  | some ts =>
    show (unwrap (p.gs.fees.fx.sub ts.fees.fx) >>= _) = img canon (unwrap (p.gs.fees.fx.sub ts.fees.fx) >>= _)
    rw [img_bind]
    refine bindc fun fx _ => ?_
    rw [img_bind]
    refine bindc fun fy _ => ?_
    rw [img_bind]
    refine bindc fun hx _ => ?_
    rw [img_bind]
    refine bindc fun hy _ => ?_
    rw [img_bind]
    refine bindc fun k _ => ?_
    have e : (if b = true then unsigned ts.liqNet else (unsigned ts.liqNet).neg) =
        unsigned (if b = true then ts.liqNet else ts.liqNet.neg) := by
      cases b
      · exact unsigned_neg _
      · rfl
    have em : ∀ f : Fees, mapSet t { ts.canon with fees := f } (mapVals TickState.canon p.ticks) =
        mapVals TickState.canon (mapSet t { ts with fees := f } p.ticks) := fun f => by
      rw [mapSet_vals]; rfl
    have := canon_addGlbl (p := ({ p with ticks := mapSet t { ts with fees := ⟨fx, fy, hx, hy⟩ } p.ticks } : Pool).setTick k)
      h (if b = true then ts.liqNet else ts.liqNet.neg)
    rw [← this]
    show addGlblLiq (setTick { p.canon with ticks := mapSet t { ts.canon with fees := _ } (mapVals TickState.canon p.ticks) } k)
      (if b = true then unsigned ts.liqNet else (unsigned ts.liqNet).neg) = _
    rw [em, e]
    rfl

theorem cross_liqOk {p p' : Pool} (h : p.LiqOk) {t : Nat} {b : Bool} (e : p.crossTick t b = .ok p') : p'.LiqOk := by
  unfold crossTick at e
  split at e
  · cases e
  · simp only at e
    split at e
    · cases e
    · next ts _ =>
      obtain ⟨_, _, e⟩ := bind_ok.1 e
      obtain ⟨_, _, e⟩ := bind_ok.1 e
      obtain ⟨_, _, e⟩ := bind_ok.1 e
      obtain ⟨_, _, e⟩ := bind_ok.1 e
      obtain ⟨_, _, e⟩ := bind_ok.1 e
      refine addGlbl_liqOk ?_ e
      exact h

theorem canon_tryLeft : ∀ (tks : List Nat) {p : Pool}, p.LiqOk →
    tryInRangeLeft tks p.canon = img (fun r => (r.1.canon, r.2)) (tryInRangeLeft tks p)
  | [], _, _ => rfl
  | tk :: tks, p, h => by
    unfold tryInRangeLeft
    show (if tk > p.gs.tick then _ else _) = _
    by_cases hc : tk > p.gs.tick
    · rw [if_pos hc, if_pos hc]; exact canon_tryLeft tks h
    rw [if_neg hc, if_neg hc, img_bind]
    refine bindc fun rp _ => ?_
    have h' : ((p.setTick tk).setRp rp).LiqOk := h
    have e := canon_cross h' tk false
    show (crossTick (canon ((p.setTick tk).setRp rp)) tk false >>= _) = img _ (crossTick ((p.setTick tk).setRp rp) tk false >>= _)
    rw [e, bind_img, img_bind]
    refine bindc fun p1 h1 => ?_
    have k1 := cross_liqOk h' h1
    show (p1.canon.leftLimit p1.gs.tick >>= _) = _
    rw [canon_left, img_bind]
    refine bindc fun goal _ => ?_
    show (if p1.gs.liq.isNegative = true then _ else _) = _
    by_cases c1 : p1.gs.liq.isNegative = true
    · rw [if_pos c1, if_pos c1]; rfl
    rw [if_neg c1, if_neg c1]
    show (if p1.gs.liq.isPositive = true then _ else _) = _
    by_cases c2 : p1.gs.liq.isPositive = true
    · rw [if_pos c2, if_pos c2]; rfl
    rw [if_neg c2, if_neg c2]
    exact canon_tryLeft tks k1

theorem canon_tryRight : ∀ (tks : List Nat) {p : Pool}, p.LiqOk →
    tryInRangeRight tks p.canon = img (fun r => (r.1.canon, r.2)) (tryInRangeRight tks p)
  | [], _, _ => rfl
  | tk :: tks, p, h => by
    unfold tryInRangeRight
    show (if tk ≤ p.gs.tick then _ else _) = _
    by_cases hc : tk ≤ p.gs.tick
    · rw [if_pos hc, if_pos hc]; exact canon_tryRight tks h
    rw [if_neg hc, if_neg hc, img_bind]
    refine bindc fun rp _ => ?_
    have h' : ((p.setTick tk).setRp rp).LiqOk := h
    have e := canon_cross h' tk true
    show (crossTick (canon ((p.setTick tk).setRp rp)) tk true >>= _) = img _ (crossTick ((p.setTick tk).setRp rp) tk true >>= _)
    rw [e, bind_img, img_bind]
    refine bindc fun p1 h1 => ?_
    have k1 := cross_liqOk h' h1
    show (p1.canon.rightLimit tk tk >>= _) = _
    rw [canon_right, img_bind]
    refine bindc fun goal _ => ?_
    show (if p1.gs.liq.isNegative = true then _ else _) = _
    by_cases c1 : p1.gs.liq.isNegative = true
    · rw [if_pos c1, if_pos c1]; rfl
    rw [if_neg c1, if_neg c1]
    show (if p1.gs.liq.isPositive = true then _ else _) = _
    by_cases c2 : p1.gs.liq.isPositive = true
    · rw [if_pos c2, if_pos c2]; rfl
    rw [if_neg c2, if_neg c2]
    exact canon_tryRight tks k1

theorem tryLeft_liqOk : ∀ (tks : List Nat) {p : Pool} {r : Pool × Option Nat × Decimal}, p.LiqOk →
    tryInRangeLeft tks p = .ok r → r.1.LiqOk
  | [], _, _, h, e => by cases e; exact h
  | tk :: tks, p, r, h, e => by
    unfold tryInRangeLeft at e
    split at e
    · exact tryLeft_liqOk tks h e
    · obtain ⟨rp, _, e⟩ := bind_ok.1 e
      obtain ⟨p1, h1, e⟩ := bind_ok.1 e
      have k1 := cross_liqOk (p := (p.setTick tk).setRp rp) h h1
      obtain ⟨goal, _, e⟩ := bind_ok.1 e
      split at e
      · cases e
      · split at e
        · cases e; exact k1
        · exact tryLeft_liqOk tks k1 e

theorem tryRight_liqOk : ∀ (tks : List Nat) {p : Pool} {r : Pool × Option Nat × Decimal}, p.LiqOk →
    tryInRangeRight tks p = .ok r → r.1.LiqOk
  | [], _, _, h, e => by cases e; exact h
  | tk :: tks, p, r, h, e => by
    unfold tryInRangeRight at e
    split at e
    · exact tryRight_liqOk tks h e
    · obtain ⟨rp, _, e⟩ := bind_ok.1 e
      obtain ⟨p1, h1, e⟩ := bind_ok.1 e
      have k1 := cross_liqOk (p := (p.setTick tk).setRp rp) h h1
      obtain ⟨goal, _, e⟩ := bind_ok.1 e
      split at e
      · cases e
      · split at e
        · cases e; exact k1
        · exact tryRight_liqOk tks k1 e

theorem canon_tryGet {p : Pool} (h : p.LiqOk) (b : Bool) :
    p.canon.tryGetInRange b = img (fun r => (r.1.canon, r.2)) (p.tryGetInRange b) := by
  unfold tryGetInRange
  rw [canon_keys, canon_keys]
  show (if p.gs.liq.isPositive = true then _ else _) = _
  by_cases c : p.gs.liq.isPositive = true
  · rw [if_pos c, if_pos c]; rfl
  rw [if_neg c, if_neg c, img_bind]
  have e : (if b = true then tryInRangeRight (p.tickKeys false) p.canon else tryInRangeLeft (p.tickKeys true) p.canon) =
      img (fun r => (r.1.canon, r.2))
        (if b = true then tryInRangeRight (p.tickKeys false) p else tryInRangeLeft (p.tickKeys true) p) := by
    cases b
    · exact canon_tryLeft _ h
    · exact canon_tryRight _ h
  rw [e, bind_img]
  refine bindc fun r _ => ?_
  obtain ⟨p1, g, rp⟩ := r
  show (if rp.isNegative = true then _ else _) = _
  by_cases c : rp.isNegative = true
  · simp only [if_pos c]; rfl
  · simp only [if_neg c]; rfl

theorem tryGet_liqOk {p : Pool} (h : p.LiqOk) {b : Bool} {r : Pool × Option Nat × Decimal}
    (e : p.tryGetInRange b = .ok r) : r.1.LiqOk := by
  unfold tryGetInRange at e
  split at e
  · cases e
  · obtain ⟨⟨p1, g, rp⟩, h1, e⟩ := bind_ok.1 e
    simp only at e
    split at e
    · cases e
    · cases e
      cases b
      · exact tryLeft_liqOk _ h h1
      · exact tryRight_liqOk _ h h1

theorem canon_withinX (fl : FloatEnv) (p : Pool) (s : Decimal) (g : Nat) (l d o : Decimal) :
    p.canon.swapWithinX fl s g l d o = p.swapWithinX fl s g l d o := rfl

theorem canon_withinY (fl : FloatEnv) (p : Pool) (s : Decimal) (g : Nat) (l d o : Decimal) :
    p.canon.swapWithinY fl s g l d o = p.swapWithinY fl s g l d o := rfl

/-- The end of a step: the tick reached is crossed if it is in use. -/
def crossed (p : Pool) (cross : Bool) (endT gtk : Nat) (b : Bool) : R Pool :=
  if cross then do
    rassert (decide (endT = gtk))
    if (mapGet gtk p.ticks).isSome then p.crossTick gtk b else .ok p
  else .ok p

theorem canon_crossed {p : Pool} (h : p.LiqOk) (cross : Bool) (endT gtk : Nat) (b : Bool) :
    p.canon.crossed cross endT gtk b = img canon (p.crossed cross endT gtk b) := by
  unfold crossed
  cases cross with
  | false => rfl
  | true =>
    rw [if_pos rfl, if_pos rfl, img_bind]
    refine bindc fun _ _ => ?_
    show (if (mapGet gtk (mapVals TickState.canon p.ticks)).isSome = true then _ else _) = _
    rw [mapGet_vals]
    cases mapGet gtk p.ticks with
    | none => rfl
    | some ts => exact canon_cross h gtk b

theorem crossed_liqOk {p p' : Pool} (h : p.LiqOk) {cross : Bool} {endT gtk : Nat} {b : Bool}
    (e : p.crossed cross endT gtk b = .ok p') : p'.LiqOk := by
  unfold crossed at e
  split at e
  · obtain ⟨_, _, e⟩ := bind_ok.1 e
    split at e
    · exact cross_liqOk h e
    · cases e; exact h
  · cases e; exact h

/-- The part of a step of a sale of X that books its fees. -/
def grownX (p : Pool) (r : SwapWithinResult) : R Pool :=
  if p.gs.liq.isPositive then do
    let fx ← unwrap ((← r.recvFee.div p.gs.liq).add p.gs.fees.fx)
    let hy ← unwrap ((← r.sendHmmAdj.div p.gs.liq).add p.gs.fees.hy)
    return p.setFees { p.gs.fees with fx, hy }
  else .ok p

theorem canon_grownX (p : Pool) (r : SwapWithinResult) : p.canon.grownX r = img canon (p.grownX r) := by
  unfold grownX
  show (if p.gs.liq.isPositive = true then _ else _) = _
  by_cases c : p.gs.liq.isPositive = true
  · rw [if_pos c, if_pos c]
    iterate 4
      rw [img_bind]
      refine bindc fun _ _ => ?_
    rfl
  · rw [if_neg c, if_neg c]; rfl

theorem grownX_liqOk {p p' : Pool} (h : p.LiqOk) {r : SwapWithinResult} (e : p.grownX r = .ok p') : p'.LiqOk := by
  unfold grownX at e
  split at e
  · obtain ⟨_, _, e⟩ := bind_ok.1 e
    obtain ⟨_, _, e⟩ := bind_ok.1 e
    obtain ⟨_, _, e⟩ := bind_ok.1 e
    obtain ⟨_, _, e⟩ := bind_ok.1 e
    cases e
    exact h
  · cases e; exact h

theorem canon_stepX {p : Pool} (h : p.LiqOk) (fl : FloatEnv) (d o : Decimal) (a : SwapAcc) (gtk : Nat) :
    stepX fl d o p.canon a gtk = img (fun r => (r.1.canon, r.2)) (stepX fl d o p a gtk) := by
  unfold stepX
  rw [img_bind]
  refine bindc fun rem _ => ?_
  rw [img_bind]
  refine bindc fun r _ => ?_
  rw [img_bind]
  refine bindc fun _ _ => ?_
  rw [img_bind]
  refine bindc fun ny _ => ?_
  iterate 4
    rw [img_bind]
    refine bindc fun _ _ => ?_
  rw [img_bind]
  refine bindc fun _ _ => ?_
  rw [img_bind]
  refine bindc fun recv _ => ?_
  rw [img_bind]
  refine bindc fun send _ => ?_
  rw [img_bind]
  refine bindc fun adj _ => ?_
  rw [img_bind]
  refine bindc fun fee _ => ?_
  rw [img_bind]
  refine bindc fun nx _ => ?_
  rw [img_bind]
  refine bindc fun f _ => ?_
  rw [img_bind]
  refine bindc fun j _ => ?_
  have h' : ({ (p.setTick r.endTick).setRp r.endRp with x := nx, y := ny, xFee := f, yAdj := j } : Pool).LiqOk := h
  show (grownX (canon { (p.setTick r.endTick).setRp r.endRp with x := nx, y := ny, xFee := f, yAdj := j }) r >>= fun q =>
      q.crossed r.cross r.endTick gtk false >>= fun q => pure (q, (⟨recv, send, adj, fee, r.endTick, r.endRp⟩ : SwapAcc))) =
    img _ (grownX { (p.setTick r.endTick).setRp r.endRp with x := nx, y := ny, xFee := f, yAdj := j } r >>= fun q =>
      q.crossed r.cross r.endTick gtk false >>= fun q => pure (q, (⟨recv, send, adj, fee, r.endTick, r.endRp⟩ : SwapAcc)))
  rw [canon_grownX, bind_img, img_bind]
  refine bindc fun q hq => ?_
  rw [canon_crossed (grownX_liqOk h' hq), bind_img, img_bind]
  rfl

theorem stepX_liqOk {p : Pool} (h : p.LiqOk) {fl : FloatEnv} {d o : Decimal} {a : SwapAcc} {gtk : Nat}
    {r : Pool × SwapAcc} (e : stepX fl d o p a gtk = .ok r) : r.1.LiqOk := by
  unfold stepX at e
  iterate 15 obtain ⟨_, _, e⟩ := bind_ok.1 e
  obtain ⟨_, _, e⟩ := bind_ok.1 e
  obtain ⟨q1, h1, e⟩ := bind_ok.1 e
  obtain ⟨q2, h2, e⟩ := bind_ok.1 e
  cases e
  exact crossed_liqOk (p := q1) (grownX_liqOk (by exact h) h1) h2

theorem canon_loopX (fl : FloatEnv) (d o : Decimal) : ∀ (n : Nat) {p : Pool} (a : SwapAcc), p.LiqOk →
    loopX fl d o n p.canon a = img (fun r => (r.1.canon, r.2)) (loopX fl d o n p a)
  | 0, _, _, _ => rfl
  | n + 1, p, a, h => by
    have finish : ∀ (q : Pool) (a : SwapAcc), finishX q.canon a = img (fun r => (r.1.canon, r.2)) (finishX q a) := by
      intro q a
      unfold finishX
      iterate 3
        rw [img_bind]
        refine bindc fun _ _ => ?_
      rfl
    have go : ∀ {q : Pool} (goal : Option Nat) (a : SwapAcc), q.LiqOk →
        (match goal with
          | none => finishX q.canon a
          | some gtk => do
            let (p, a) ← stepX fl d o q.canon a gtk
            loopX fl d o n p a) =
        img (fun r => (r.1.canon, r.2)) (match goal with
          | none => finishX q a
          | some gtk => do
            let (p, a) ← stepX fl d o q a gtk
            loopX fl d o n p a) := by
      intro q goal a hq
      cases goal with
      | none => exact finish q a
      | some gtk =>
        show (stepX fl d o q.canon a gtk >>= fun r => loopX fl d o n r.1 r.2) =
          img _ (stepX fl d o q a gtk >>= fun r => loopX fl d o n r.1 r.2)
        rw [canon_stepX hq, bind_img, img_bind]
        exact bindc fun r hr => canon_loopX fl d o n r.2 (stepX_liqOk hq hr)
    unfold loopX
    rw [img_bind]
    refine bindc fun c _ => ?_
    cases c with
    | false => exact finish p a
    | true =>
      by_cases hl : p.gs.liq.isPositive = true
      · have hl' : p.canon.gs.liq.isPositive = true := hl
        rw [if_pos rfl, if_pos rfl, if_pos hl, if_pos hl', canon_left]
        cases p.leftLimit a.currT with
        | error e => rfl
        | ok goal => exact go goal a h
      · have hl' : ¬ p.canon.gs.liq.isPositive = true := hl
        rw [if_pos rfl, if_pos rfl, if_neg hl, if_neg hl', canon_tryGet h]
        cases ht : p.tryGetInRange false with
        | error e => rfl
        | ok r => exact go r.2.1 { a with currRp := r.2.2 } (tryGet_liqOk h ht)

theorem canon_sellX {p : Pool} (h : p.LiqOk) (fl : FloatEnv) (d o : Decimal) :
    p.canon.executeSwapFromX fl d o = img (fun r => (r.1.canon, r.2)) (p.executeSwapFromX fl d o) := by
  unfold executeSwapFromX
  by_cases c : (!d.isPositive) = true
  · rw [if_pos c, if_pos c]; rfl
  rw [if_neg c, if_neg c]
  have e : p.canon.swapFuel = p.swapFuel := by
    unfold swapFuel canon mapVals
    rw [List.length_map]
  rw [e]
  exact canon_loopX fl d o _ _ h

/-- The part of a step of a sale of Y that books its fees. -/
def grownY (p : Pool) (r : SwapWithinResult) : R Pool :=
  if p.gs.liq.isPositive then do
    let hx ← unwrap ((← r.sendHmmAdj.div p.gs.liq).add p.gs.fees.hx)
    let fy ← unwrap ((← r.recvFee.div p.gs.liq).add p.gs.fees.fy)
    return p.setFees { p.gs.fees with hx, fy }
  else .ok p

theorem canon_grownY (p : Pool) (r : SwapWithinResult) : p.canon.grownY r = img canon (p.grownY r) := by
  unfold grownY
  show (if p.gs.liq.isPositive = true then _ else _) = _
  by_cases c : p.gs.liq.isPositive = true
  · rw [if_pos c, if_pos c]
    iterate 4
      rw [img_bind]
      refine bindc fun _ _ => ?_
    rfl
  · rw [if_neg c, if_neg c]; rfl

theorem grownY_liqOk {p p' : Pool} (h : p.LiqOk) {r : SwapWithinResult} (e : p.grownY r = .ok p') : p'.LiqOk := by
  unfold grownY at e
  split at e
  · obtain ⟨_, _, e⟩ := bind_ok.1 e
    obtain ⟨_, _, e⟩ := bind_ok.1 e
    obtain ⟨_, _, e⟩ := bind_ok.1 e
    obtain ⟨_, _, e⟩ := bind_ok.1 e
    cases e
    exact h
  · cases e; exact h

theorem canon_stepY {p : Pool} (h : p.LiqOk) (fl : FloatEnv) (d o : Decimal) (a : SwapAcc) (gtk : Nat) :
    stepY fl d o p.canon a gtk = img (fun r => (r.1.canon, r.2)) (stepY fl d o p a gtk) := by
  unfold stepY
  rw [img_bind]
  refine bindc fun rem _ => ?_
  rw [img_bind]
  refine bindc fun r _ => ?_
  rw [img_bind]
  refine bindc fun _ _ => ?_
  rw [img_bind]
  refine bindc fun nx _ => ?_
  iterate 4
    rw [img_bind]
    refine bindc fun _ _ => ?_
  rw [img_bind]
  refine bindc fun send _ => ?_
  rw [img_bind]
  refine bindc fun _ _ => ?_
  rw [img_bind]
  refine bindc fun recv _ => ?_
  rw [img_bind]
  refine bindc fun adj _ => ?_
  rw [img_bind]
  refine bindc fun fee _ => ?_
  rw [img_bind]
  refine bindc fun ny _ => ?_
  rw [img_bind]
  refine bindc fun j _ => ?_
  rw [img_bind]
  refine bindc fun f _ => ?_
  have h' : ({ (p.setTick r.endTick).setRp r.endRp with x := nx, y := ny, xAdj := j, yFee := f } : Pool).LiqOk := h
  show (grownY (canon { (p.setTick r.endTick).setRp r.endRp with x := nx, y := ny, xAdj := j, yFee := f }) r >>= fun q =>
      q.crossed r.cross r.endTick gtk true >>= fun q => pure (q, (⟨recv, send, adj, fee, r.endTick, r.endRp⟩ : SwapAcc))) =
    img _ (grownY { (p.setTick r.endTick).setRp r.endRp with x := nx, y := ny, xAdj := j, yFee := f } r >>= fun q =>
      q.crossed r.cross r.endTick gtk true >>= fun q => pure (q, (⟨recv, send, adj, fee, r.endTick, r.endRp⟩ : SwapAcc)))
  rw [canon_grownY, bind_img, img_bind]
  refine bindc fun q hq => ?_
  rw [canon_crossed (grownY_liqOk h' hq), bind_img, img_bind]
  rfl

theorem stepY_liqOk {p : Pool} (h : p.LiqOk) {fl : FloatEnv} {d o : Decimal} {a : SwapAcc} {gtk : Nat}
    {r : Pool × SwapAcc} (e : stepY fl d o p a gtk = .ok r) : r.1.LiqOk := by
  unfold stepY at e
  iterate 15 obtain ⟨_, _, e⟩ := bind_ok.1 e
  obtain ⟨_, _, e⟩ := bind_ok.1 e
  obtain ⟨q1, h1, e⟩ := bind_ok.1 e
  obtain ⟨q2, h2, e⟩ := bind_ok.1 e
  cases e
  exact crossed_liqOk (p := q1) (grownY_liqOk (by exact h) h1) h2

theorem canon_loopY (fl : FloatEnv) (d o : Decimal) : ∀ (n : Nat) {p : Pool} (a : SwapAcc), p.LiqOk →
    loopY fl d o n p.canon a = img (fun r => (r.1.canon, r.2)) (loopY fl d o n p a)
  | 0, _, _, _ => rfl
  | n + 1, p, a, h => by
    have finish : ∀ (q : Pool) (a : SwapAcc), finishY q.canon a = img (fun r => (r.1.canon, r.2)) (finishY q a) := by
      intro q a
      unfold finishY
      iterate 3
        rw [img_bind]
        refine bindc fun _ _ => ?_
      rfl
    have go : ∀ {q : Pool} (goal : Option Nat) (a : SwapAcc), q.LiqOk →
        (match goal with
          | none => finishY q.canon a
          | some gtk => do
            let (p, a) ← stepY fl d o q.canon a gtk
            loopY fl d o n p a) =
        img (fun r => (r.1.canon, r.2)) (match goal with
          | none => finishY q a
          | some gtk => do
            let (p, a) ← stepY fl d o q a gtk
            loopY fl d o n p a) := by
      intro q goal a hq
      cases goal with
      | none => exact finish q a
      | some gtk =>
        show (stepY fl d o q.canon a gtk >>= fun r => loopY fl d o n r.1 r.2) =
          img _ (stepY fl d o q a gtk >>= fun r => loopY fl d o n r.1 r.2)
        rw [canon_stepY hq, bind_img, img_bind]
        exact bindc fun r hr => canon_loopY fl d o n r.2 (stepY_liqOk hq hr)
    unfold loopY
    rw [img_bind]
    refine bindc fun c _ => ?_
    cases c with
    | false => exact finish p a
    | true =>
      by_cases hl : p.gs.liq.isPositive = true
      · have hl' : p.canon.gs.liq.isPositive = true := hl
        rw [if_pos rfl, if_pos rfl, if_pos hl, if_pos hl', show p.canon.gs.tick = p.gs.tick from rfl, canon_right]
        cases p.rightLimit a.currT p.gs.tick with
        | error e => rfl
        | ok goal => exact go goal a h
      · have hl' : ¬ p.canon.gs.liq.isPositive = true := hl
        rw [if_pos rfl, if_pos rfl, if_neg hl, if_neg hl', canon_tryGet h]
        cases ht : p.tryGetInRange true with
        | error e => rfl
        | ok r => exact go r.2.1 { a with currRp := r.2.2 } (tryGet_liqOk h ht)

theorem canon_sellY {p : Pool} (h : p.LiqOk) (fl : FloatEnv) (d o : Decimal) :
    p.canon.executeSwapFromY fl d o = img (fun r => (r.1.canon, r.2)) (p.executeSwapFromY fl d o) := by
  unfold executeSwapFromY
  by_cases c : (!d.isPositive) = true
  · rw [if_pos c, if_pos c]; rfl
  rw [if_neg c, if_neg c]
  have e : p.canon.swapFuel = p.swapFuel := by
    unfold swapFuel canon mapVals
    rw [List.length_map]
  rw [e]
  exact canon_loopY fl d o _ _ h

theorem sellX_positions {fl : FloatEnv} {p p' : Pool} {d o : Decimal} {r : SwapOutput}
    (h : p.executeSwapFromX fl d o = .ok (p', r)) : p'.positions = p.positions := by
  refine sellX_inv (P := fun q => q.positions = p.positions) h rfl (fun hp hg => ?_) (fun hp hs => ?_)
  · obtain ⟨sb, _⟩ := goalX_ok hg
    exact sb.positions.trans hp
  · obtain ⟨_, _, _, _, _, _, _, _, _, _, _, p1, _, _, _, _, _, _, _, _, _, _, _, _, _, _, _, _, _, _, _, hp1, hc⟩ :=
      stepX_ok hs
    have e : p1.positions = p.positions := by rw [hp1]; exact hp
    rcases hc with ⟨_, _, _, hc⟩ | ⟨_, _, _, rfl⟩ | ⟨_, rfl⟩
    · rw [(crossTick_frame hc).2.2.2.2.2.2.1]; exact e
    · exact e
    · exact e

theorem sellY_positions {fl : FloatEnv} {p p' : Pool} {d o : Decimal} {r : SwapOutput}
    (h : p.executeSwapFromY fl d o = .ok (p', r)) : p'.positions = p.positions := by
  refine sellY_inv (P := fun q => q.positions = p.positions) h rfl (fun hp hg => ?_) (fun hp hs => ?_)
  · obtain ⟨sb, _⟩ := goalY_ok hg
    exact sb.positions.trans hp
  · obtain ⟨_, _, _, _, _, _, _, _, _, _, _, p1, _, _, _, _, _, _, _, _, _, _, _, _, _, _, _, _, _, _, _, hp1, hc⟩ :=
      stepY_ok hs
    have e : p1.positions = p.positions := by rw [hp1]; exact hp
    rcases hc with ⟨_, _, _, hc⟩ | ⟨_, _, _, rfl⟩ | ⟨_, rfl⟩
    · rw [(crossTick_frame hc).2.2.2.2.2.2.1]; exact e
    · exact e
    · exact e

theorem ascending_ext {α : Type} : ∀ {m n : List (Nat × α)}, Ascending m → Ascending n →
    (∀ k, mapGet k m = mapGet k n) → m = n
  | [], [], _, _, _ => rfl
  | [], (k, v) :: n, _, _, h => by have := h k; simp [mapGet] at this
  | (k, v) :: m, [], _, _, h => by have := h k; simp [mapGet] at this
  | (k, v) :: m, (j, w) :: n, hm, hn, h => by
    have hm' := List.pairwise_cons.1 hm
    have hn' := List.pairwise_cons.1 hn
    have low : ∀ {l : List (Nat × α)} {a b : Nat}, (∀ x ∈ l.map (·.1), a < x) → b ≤ a → mapGet b l = none := by
      intro l a b hl hb
      by_contra hc
      have : b ∈ l.map (·.1) := mapGet_isSome.1 (by cases hx : mapGet b l with
        | none => exact absurd hx hc
        | some _ => rfl)
      have := hl b this
      omega
    have hkj : k = j := by
      rcases Nat.lt_trichotomy k j with hlt | he | hlt
      · have := h k
        have hne : j ≠ k := by omega
        simp only [mapGet, if_true, if_neg hne] at this
        rw [low hn'.1 (Nat.le_of_lt hlt)] at this
        cases this
      · exact he
      · have := h j
        have hne : k ≠ j := by omega
        simp only [mapGet, if_true, if_neg hne] at this
        rw [low hm'.1 (Nat.le_of_lt hlt)] at this
        cases this
    subst hkj
    have hv : v = w := by
      have := h k
      simpa [mapGet] using this
    subst hv
    congr 1
    refine ascending_ext hm'.2 hn'.2 fun i => ?_
    by_cases hi : k = i
    · subst hi
      rw [low hm'.1 le_rfl, low hn'.1 le_rfl]
    · have := h i
      simpa only [mapGet, if_neg hi] using this

theorem unsigned_ext {a b : Decimal} (hs : a.scale = b.scale) (h : a.toRat = b.toRat) : unsigned a = unsigned b := by
  rcases lt_trichotomy a.toRat 0 with hn | hz | hp
  · have ha := (isNegative_iff.1 (isNegative_toRat.2 hn))
    have hb := (isNegative_iff.1 (isNegative_toRat.2 (h ▸ hn)))
    rw [ext_mag hs (ha.1.trans hb.1.symm) (by rw [toRat_of_neg ha.1, toRat_of_neg hb.1] at h; linarith)]
  · have ha : a.value = 0 := by simpa [isZero] using isZero_toRat.2 hz
    have hb : b.value = 0 := by simpa [isZero] using isZero_toRat.2 (h ▸ hz)
    obtain ⟨av, as, an⟩ := a
    obtain ⟨bv, bs, bn⟩ := b
    simp only at hs ha hb
    subst hs ha hb
    rfl
  · rw [(Amount.of_scale hs hp).ext (Amount.of_scale rfl (h ▸ hp)) h]

theorem unsigned_toRat (d : Decimal) : (unsigned d).toRat = d.toRat := by
  obtain ⟨v, s, n⟩ := d
  by_cases h : v = 0
  · subst h; cases n <;> simp [unsigned, toRat]
  · simp [unsigned, h]

theorem liqOk_of {p : Pool} (h : Reachable p) : p.LiqOk := ⟨(Tidy.reachable h).liq.2, (Stored.reachable h).liq⟩

theorem SameRecords.canon {p q : Pool} (rp : Reachable p) (rq : Reachable q) (h : SameRecords p q) : q.canon = p.canon := by
  have e : mapVals TickState.canon q.ticks = mapVals TickState.canon p.ticks := by
    refine ascending_ext ?_ ?_ fun t => ?_
    · unfold Ascending; rw [mapVals_keys]; exact (Booked.reachable rq).asc
    · unfold Ascending; rw [mapVals_keys]; exact (Booked.reachable rp).asc
    · rw [mapGet_vals, mapGet_vals]
      have := h.ticks t
      unfold atTick at this
      cases h1 : mapGet t q.ticks <;> cases h2 : mapGet t p.ticks <;> rw [h1, h2] at this <;>
        simp only [Option.map_some, Option.map_none, Option.some.injEq, Prod.mk.injEq, reduceCtorEq] at this
      · next a b =>
        obtain ⟨e1, e2, e3⟩ := this
        have s1 := ((Tidy.reachable rq).tick t _ h1).2.2
        have s2 := ((Tidy.reachable rp).tick t _ h2).2.2
        simp only [Option.map_some, Option.some.injEq, TickState.canon]
        rw [unsigned_ext (s1.trans s2.symm) e1, e2, e3]
  unfold Pool.canon
  rw [e, h.spacing, h.gs, h.x, h.y, h.xAdj, h.yAdj, h.xFee, h.yFee, h.c, h.feeRate]

theorem SameRecords.of_canon {p q : Pool} (h : q.canon = p.canon)
    (hp : ∀ key, mapGet key q.positions = mapGet key p.positions) : SameRecords p q := by
  have ht : mapVals TickState.canon q.ticks = mapVals TickState.canon p.ticks := congrArg Pool.ticks h
  have e : ∀ {β : Type} (f : Pool → β), f q.canon = f p.canon := fun f => congrArg f h
  refine ⟨e Pool.spacing, e Pool.gs, fun t => ?_, hp, e Pool.x, e Pool.y, e Pool.xAdj, e Pool.yAdj, e Pool.xFee, e Pool.yFee,
    e Pool.c, e Pool.feeRate⟩
  have := mapGet_vals TickState.canon t q.ticks
  rw [ht, mapGet_vals] at this
  unfold atTick
  cases h1 : mapGet t q.ticks <;> cases h2 : mapGet t p.ticks <;> rw [h1, h2] at this <;>
    simp only [Option.map_some, Option.map_none, Option.some.injEq, reduceCtorEq, TickState.canon, TickState.mk.injEq] at this
  · next a b =>
    simp only [Option.map_some, Option.some.injEq, Prod.mk.injEq]
    refine ⟨?_, this.2.1.symm, this.2.2.symm⟩
    rw [← unsigned_toRat, ← this.1, unsigned_toRat]

theorem SameRecords.sellX {p q p' : Pool} (rp : Reachable p) (rq : Reachable q) (h : SameRecords p q) {fl : FloatEnv}
    {d o : Decimal} {r : SwapOutput} (hd : p.executeSwapFromX fl d o = .ok (p', r)) :
    ∃ q', q.executeSwapFromX fl d o = .ok (q', r) ∧ SameRecords p' q' := by
  have e1 := canon_sellX (liqOk_of rp) fl d o
  have e2 := canon_sellX (liqOk_of rq) fl d o
  rw [h.canon rp rq, e1, hd] at e2
  obtain ⟨⟨q', r'⟩, k1, k2⟩ := img_ok e2.symm
  simp only [Prod.mk.injEq] at k2
  obtain ⟨k2, rfl⟩ := k2
  refine ⟨q', k1, .of_canon k2 ?_⟩
  intro key
  rw [sellX_positions hd, sellX_positions k1]
  exact h.positions key

theorem SameRecords.sellY {p q p' : Pool} (rp : Reachable p) (rq : Reachable q) (h : SameRecords p q) {fl : FloatEnv}
    {d o : Decimal} {r : SwapOutput} (hd : p.executeSwapFromY fl d o = .ok (p', r)) :
    ∃ q', q.executeSwapFromY fl d o = .ok (q', r) ∧ SameRecords p' q' := by
  have e1 := canon_sellY (liqOk_of rp) fl d o
  have e2 := canon_sellY (liqOk_of rq) fl d o
  rw [h.canon rp rq, e1, hd] at e2
  obtain ⟨⟨q', r'⟩, k1, k2⟩ := img_ok e2.symm
  simp only [Prod.mk.injEq] at k2
  obtain ⟨k2, rfl⟩ := k2
  refine ⟨q', k1, .of_canon k2 ?_⟩
  intro key
  rw [sellY_positions hd, sellY_positions k1]
  exact h.positions key

end Hmm.Pool
