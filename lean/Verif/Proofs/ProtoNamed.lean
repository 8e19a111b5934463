import Verif.Proofs.SwapSame
import Verif.Spec.ProtoNamed

/-
A sale in the prototype does not read the dictionary of positions; a deposit or a withdrawal looks up one position.
-/

namespace Hmm.Proto

open F64

/-- The pool with its dictionary of positions changed. -/
def Pool.held (f : List (Key × PositionState) → List (Key × PositionState)) (p : Pool) : Pool :=
  { p with positions := f p.positions }

/-- The second method does on the changed pool what the first does on the pool. -/
def Sym {α : Type} (f : List (Key × PositionState) → List (Key × PositionState)) (a b : Py α) : Prop :=
  ∀ p, b (p.held f) = leaving (Pool.held f) (a p)

namespace Sym

variable {f : List (Key × PositionState) → List (Key × PositionState)} {α β : Type}

theorem pure (a : α) : Sym f (Pure.pure a : Py α) (Pure.pure a) := fun _ => rfl

theorem comp (r : R α) : Sym f (comp r) (Hmm.Proto.comp r) := fun _ => by cases r <;> rfl

theorem check (b : Bool) : Sym f (check b) (Hmm.Proto.check b) := comp _

theorem bind {a a' : Py α} {k k' : α → Py β} (h : Sym f a a') (hk : ∀ v, Sym f (k v) (k' v)) :
    Sym f (a >>= k) (a' >>= k') := fun p => by
  show EStateM.bind a' k' (p.held f) = leaving (Pool.held f) (EStateM.bind a k p)
  unfold EStateM.bind
  rw [h p]
  cases a p with
  | ok v q => exact hk v q
  | error e q => rfl

theorem comp_img {g : α → α} {r r' : R α} {k k' : α → Py β} (h : r' = Hmm.Pool.img g r) (hk : ∀ v, Sym f (k v) (k' (g v))) :
    Sym f (Hmm.Proto.comp r >>= k) (Hmm.Proto.comp r' >>= k') := fun p => by
  rw [h]
  cases r with
  | ok v => exact hk v p
  | error e => rfl

theorem get {k k' : Pool → Py β} (hk : ∀ p : Pool, Sym f (k p) (k' (p.held f))) :
    Sym f (MonadState.get >>= k) (MonadState.get >>= k') := fun p => hk p p

theorem modify {g g' : Pool → Pool} (h : ∀ p : Pool, g' (p.held f) = (g p).held f) :
    Sym f (modify g : Py Unit) (_root_.modify g') := fun p => by
  show EStateM.Result.ok () (g' (p.held f)) = EStateM.Result.ok () ((g p).held f)
  rw [h]

theorem ite {c : Prop} [Decidable c] {a b a' b' : Py α} (h : Sym f a a') (k : Sym f b b') :
    Sym f (if c then a else b) (if c then a' else b') := by split <;> assumption

end Sym

namespace Pool

variable {f : List (Key × PositionState) → List (Key × PositionState)} {m : LibM}

theorem held_init (t : Int) : Sym f (initializeTick t) (initializeTick t) := Sym.modify fun _ => rfl

theorem held_update (t : Int) (d : Num) (b : Bool) : Sym f (updateTick t d b) (updateTick t d b) := by
  unfold updateTick
  refine Sym.get fun p => ?_
  have tail : Sym f (do
      match mapGet t (← MonadState.get).ticks with
      | none => comp rpanic
      | some ts =>
        let net := F64.add ts.net (← comp (if b then d.neg else d).toFlt)
        modify fun p => { p with ticks := mapSet t { ts with net := net } p.ticks }
        let gross := F64.add ts.gross (← comp d.toFlt)
        modify fun p => { p with ticks := mapSet t { ts with net := net, gross := gross } p.ticks }
        if F64.eq gross zero then modify fun p => { p with ticks := mapErase t p.ticks }) (do
      match mapGet t (← MonadState.get).ticks with
      | none => comp rpanic
      | some ts =>
        let net := F64.add ts.net (← comp (if b then d.neg else d).toFlt)
        modify fun p => { p with ticks := mapSet t { ts with net := net } p.ticks }
        let gross := F64.add ts.gross (← comp d.toFlt)
        modify fun p => { p with ticks := mapSet t { ts with net := net, gross := gross } p.ticks }
        if F64.eq gross zero then modify fun p => { p with ticks := mapErase t p.ticks }) := by
    refine Sym.get fun p => ?_
    show Sym f (match mapGet t p.ticks with | none => _ | some ts => _) (match mapGet t p.ticks with | none => _ | some ts => _)
    cases mapGet t p.ticks with
    | none => exact Sym.comp _
    | some ts =>
      refine Sym.bind (Sym.comp _) fun n => Sym.bind (Sym.modify fun _ => rfl) fun _ => ?_
      refine Sym.bind (Sym.comp _) fun g => Sym.bind (Sym.modify fun _ => rfl) fun _ => ?_
      exact Sym.ite (Sym.modify fun _ => rfl) (Sym.pure _)
  exact Sym.ite (Sym.bind (held_init t) fun _ => tail) tail

theorem held_cross (t : Int) (b : Bool) : Sym f (crossTick t b) (crossTick t b) := by
  unfold crossTick
  refine Sym.get fun p => Sym.bind (Sym.check _) fun _ => ?_
  show Sym f (match mapGet t p.ticks with | none => _ | some ts => _) (match mapGet t p.ticks with | none => _ | some ts => _)
  cases mapGet t p.ticks with
  | none => exact Sym.comp _
  | some ts =>
    refine Sym.bind (Sym.check _) fun _ => Sym.bind (Sym.modify fun _ => rfl) fun _ => ?_
    refine Sym.ite (Sym.modify fun _ => rfl) (Sym.get fun q => ?_)
    exact Sym.bind (Sym.comp (q.tickToPossibleTick (t - 1) b)) fun _ => Sym.modify fun _ => rfl

theorem held_tryLeft : ∀ tks : List Int, Sym f (tryLeft m tks) (tryLeft m tks)
  | [] => fun _ => rfl
  | tk :: tks => by
    unfold tryLeft
    refine Sym.get fun p => Sym.ite (c := tk > p.tick) (held_tryLeft tks) ?_
    refine Sym.bind (Sym.modify fun _ => rfl) fun _ => Sym.bind (Sym.comp _) fun rp => ?_
    refine Sym.bind (Sym.modify fun _ => rfl) fun _ => Sym.bind (held_cross _ _) fun _ => Sym.get fun q => ?_
    refine Sym.bind (Sym.comp (q.leftLimit q.tick)) fun g => Sym.bind (Sym.check _) fun _ => ?_
    exact Sym.ite (c := lt zero q.liq = true) (Sym.pure _) (held_tryLeft tks)

theorem held_tryRight : ∀ tks : List Int, Sym f (tryRight m tks) (tryRight m tks)
  | [] => fun _ => rfl
  | tk :: tks => by
    unfold tryRight
    refine Sym.get fun p => Sym.ite (c := tk ≤ p.tick) (held_tryRight tks) ?_
    refine Sym.bind (Sym.modify fun _ => rfl) fun _ => Sym.bind (Sym.comp _) fun rp => ?_
    refine Sym.bind (Sym.modify fun _ => rfl) fun _ => Sym.bind (held_cross _ _) fun _ => Sym.get fun q => ?_
    refine Sym.bind (Sym.comp (q.rightLimit tk tk)) fun g => Sym.bind (Sym.check _) fun _ => ?_
    exact Sym.ite (c := lt zero q.liq = true) (Sym.pure _) (held_tryRight tks)

theorem held_try (b : Bool) : Sym f (tryGetInRange m b) (tryGetInRange m b) := by
  unfold tryGetInRange
  refine Sym.get fun p => Sym.bind (Sym.check _) fun _ => ?_
  exact Sym.ite (held_tryRight (p.keys false)) (held_tryLeft (p.keys true))

theorem held_finishX (a : Acc) : Sym f (finishX m a) (finishX m a) := by
  unfold finishX
  exact Sym.bind (Sym.comp _) fun _ => Sym.get fun p => Sym.bind (Sym.comp (pow m p.rp (ofNat 2))) fun _ => Sym.pure _

theorem held_finishY (a : Acc) : Sym f (finishY m a) (finishY m a) := by
  unfold finishY
  exact Sym.bind (Sym.comp _) fun _ => Sym.get fun p => Sym.bind (Sym.comp (pow m p.rp (ofNat 2))) fun _ => Sym.pure _

theorem held_stepX (dx : F64) (o : Option F64) (a : Acc) (g : Int) : Sym f (stepX m dx o a g) (stepX m dx o a g) := by
  unfold stepX
  refine Sym.get fun p => Sym.bind (Sym.comp (p.swapWithinX m a.currRp g p.liq (sub dx a.recv) o)) fun r => ?_
  refine Sym.bind (Sym.check _) fun _ => Sym.bind (Sym.check _) fun _ => Sym.bind (Sym.modify fun _ => rfl) fun _ => ?_
  have tail : ∀ a : Acc, Sym f (do
      if r.cross then
        check (decide (r.endTick = g))
        if (mapGet g (← MonadState.get).ticks).isSome then crossTick g false
      return a) (do
      if r.cross then
        check (decide (r.endTick = g))
        if (mapGet g (← MonadState.get).ticks).isSome then crossTick g false
      return a) := fun a => by
    refine Sym.ite (Sym.bind (Sym.check _) fun _ => Sym.get fun p => ?_) (Sym.pure _)
    exact Sym.ite (c := (mapGet g p.ticks).isSome = true) (Sym.bind (held_cross _ _) fun _ => Sym.pure _) (Sym.pure _)
  refine Sym.ite (c := lt zero p.liq = true) ?_ (tail _)
  refine Sym.bind (Sym.comp (fdiv r.fee p.liq)) fun _ => Sym.bind (Sym.modify fun _ => rfl) fun _ => ?_
  exact Sym.bind (Sym.comp (fdiv r.adj p.liq)) fun _ => Sym.bind (Sym.modify fun _ => rfl) fun _ => tail _

theorem held_stepY (dy : F64) (o : Option F64) (a : Acc) (g : Int) : Sym f (stepY m dy o a g) (stepY m dy o a g) := by
  unfold stepY
  refine Sym.get fun p => Sym.bind (Sym.comp (p.swapWithinY m a.currRp g p.liq (sub dy a.recv) o)) fun r => ?_
  refine Sym.bind (Sym.check _) fun _ => Sym.bind (Sym.check _) fun _ => Sym.bind (Sym.modify fun _ => rfl) fun _ => ?_
  have tail : ∀ a : Acc, Sym f (do
      if r.cross then
        check (decide (r.endTick = g))
        if (mapGet g (← MonadState.get).ticks).isSome then crossTick g true
      return a) (do
      if r.cross then
        check (decide (r.endTick = g))
        if (mapGet g (← MonadState.get).ticks).isSome then crossTick g true
      return a) := fun a => by
    refine Sym.ite (Sym.bind (Sym.check _) fun _ => Sym.get fun p => ?_) (Sym.pure _)
    exact Sym.ite (c := (mapGet g p.ticks).isSome = true) (Sym.bind (held_cross _ _) fun _ => Sym.pure _) (Sym.pure _)
  refine Sym.ite (c := lt zero p.liq = true) ?_ (tail _)
  refine Sym.bind (Sym.comp (fdiv r.adj p.liq)) fun _ => Sym.bind (Sym.modify fun _ => rfl) fun _ => ?_
  exact Sym.bind (Sym.comp (fdiv r.fee p.liq)) fun _ => Sym.bind (Sym.modify fun _ => rfl) fun _ => tail _

theorem held_loopX (dx : F64) (o : Option F64) : ∀ (n : Nat) (a : Acc), Sym f (loopX m dx o n a) (loopX m dx o n a)
  | 0, _ => Sym.comp _
  | n + 1, a => by
    unfold loopX
    refine Sym.ite (Sym.get fun p => ?_) (held_finishX a)
    refine Sym.bind (Sym.ite (c := lt zero p.liq = true) (Sym.bind (Sym.comp (p.leftLimit a.currT)) fun _ => Sym.pure _)
      (Sym.bind (held_try _) fun _ => Sym.pure _)) fun v => ?_
    obtain ⟨g, a⟩ := v
    cases g with
    | none => exact held_finishX a
    | some g => exact Sym.bind (held_stepX dx o a g) fun a => held_loopX dx o n a

theorem held_loopY (dy : F64) (o : Option F64) : ∀ (n : Nat) (a : Acc), Sym f (loopY m dy o n a) (loopY m dy o n a)
  | 0, _ => Sym.comp _
  | n + 1, a => by
    unfold loopY
    refine Sym.ite (Sym.get fun p => ?_) (held_finishY a)
    refine Sym.bind (Sym.ite (c := lt zero p.liq = true) (Sym.bind (Sym.comp (p.rightLimit a.currT p.tick)) fun _ => Sym.pure _)
      (Sym.bind (held_try _) fun _ => Sym.pure _)) fun v => ?_
    obtain ⟨g, a⟩ := v
    cases g with
    | none => exact held_finishY a
    | some g => exact Sym.bind (held_stepY dy o a g) fun a => held_loopY dy o n a

theorem held_sellX (n : Nat) (dx : F64) (o : Option F64) : Sym f (executeSwapFromX m n dx o) (executeSwapFromX m n dx o) := by
  unfold executeSwapFromX
  exact Sym.bind (Sym.check _) fun _ => Sym.get fun p => held_loopX dx o n ⟨zero, zero, zero, zero, p.tick, p.rp⟩

theorem held_sellY (n : Nat) (dy : F64) (o : Option F64) : Sym f (executeSwapFromY m n dy o) (executeSwapFromY m n dy o) := by
  unfold executeSwapFromY
  exact Sym.bind (Sym.check _) fun _ => Sym.get fun p => held_loopY dy o n ⟨zero, zero, zero, zero, p.tick, p.rp⟩

variable {σ : Nat → Nat}

/-- The renamed dictionary of positions. -/
abbrev namedTable (σ : Nat → Nat) (ps : List (Key × PositionState)) : List (Key × PositionState) :=
  ps.map fun e => (e.1.named σ, e.2)

theorem named_inj (hσ : Function.Injective σ) {k k' : Key} (h : k.named σ = k'.named σ) : k = k' := by
  obtain ⟨u, l, r⟩ := k
  obtain ⟨u', l', r'⟩ := k'
  simp only [Key.named, Key.mk.injEq] at h ⊢
  exact ⟨hσ h.1, h.2⟩

theorem named_get (hσ : Function.Injective σ) (k : Key) (m : List (Key × PositionState)) :
    mapGet (k.named σ) (m.map fun e => (e.1.named σ, e.2)) = mapGet k m := by
  induction m with
  | nil => rfl
  | cons e m ih =>
    obtain ⟨k', v⟩ := e
    simp only [List.map_cons, mapGet]
    by_cases h : k' = k
    · rw [if_pos h, if_pos (by rw [h])]
    · rw [if_neg h, if_neg (fun c => h (named_inj hσ c)), ih]

theorem named_set (hσ : Function.Injective σ) (k : Key) (v : PositionState) (m : List (Key × PositionState)) :
    (mapSet k v m).map (fun e => (e.1.named σ, e.2)) = mapSet (k.named σ) v (m.map fun e => (e.1.named σ, e.2)) := by
  induction m with
  | nil => rfl
  | cons e m ih =>
    obtain ⟨k', v'⟩ := e
    simp only [List.map_cons, mapSet]
    by_cases h : k' = k
    · rw [if_pos h, if_pos (by rw [h])]; rfl
    · rw [if_neg h, if_neg (fun c => h (named_inj hσ c)), ← ih]; rfl

theorem named_erase (hσ : Function.Injective σ) (k : Key) (m : List (Key × PositionState)) :
    (mapErase k m).map (fun e => (e.1.named σ, e.2)) = mapErase (k.named σ) (m.map fun e => (e.1.named σ, e.2)) := by
  induction m with
  | nil => rfl
  | cons e m ih =>
    obtain ⟨k', v'⟩ := e
    simp only [List.map_cons, mapErase]
    by_cases h : k' = k
    · rw [if_pos h, if_pos (by rw [h]), ih]
    · rw [if_neg h, if_neg (fun c => h (named_inj hσ c)), ← ih]; rfl

theorem named_posMap (hσ : Function.Injective σ) (ps : List (Key × PositionState)) (k : Key) (d : Num) (g : Flt.Fees) :
    setPositionMap (namedTable σ ps) (k.named σ) d g = Hmm.Pool.img (fun r => (namedTable σ r.1, r.2)) (setPositionMap ps k d g) := by
  unfold setPositionMap
  rw [named_get hσ]
  cases mapGet k ps with
  | none =>
    simp only
    split
    · rfl
    · simp only [← named_set hσ]; rfl
  | some poz =>
    simp only
    cases poz.liq.add d with
    | error e => cases d.isNeg <;> rfl
    | ok s =>
      have tail : (if s.isZero then (.ok (mapErase (k.named σ) (namedTable σ ps), poz.fees, poz.liq) : R _)
          else .ok (mapSet (k.named σ) ⟨s, g⟩ (namedTable σ ps), poz.fees, poz.liq)) =
          Hmm.Pool.img (fun r => (namedTable σ r.1, r.2)) (if s.isZero then (.ok (mapErase k ps, poz.fees, poz.liq) : R _)
          else .ok (mapSet k ⟨s, g⟩ ps, poz.fees, poz.liq)) := by
        unfold namedTable
        rw [← named_set hσ, ← named_erase hσ]
        cases s.isZero <;> rfl
      cases d.isNeg with
      | false => exact tail
      | true =>
        by_cases hs : s.isNeg = true
        · show (if s.isNeg = true then _ else _) = Hmm.Pool.img _ (if s.isNeg = true then _ else _)
          rw [if_pos hs, if_pos hs]; rfl
        · show (if s.isNeg = true then _ else _) = Hmm.Pool.img _ (if s.isNeg = true then _ else _)
          rw [if_neg hs, if_neg hs]
          exact tail

theorem named_setPosition (hσ : Function.Injective σ) (u : Nat) (lo up : Int) (d : Num) :
    Sym (namedTable σ) (setPosition u lo up d) (setPosition (σ u) lo up d) := by
  unfold setPosition
  refine Sym.get fun p => ?_
  refine Sym.bind (Sym.comp (p.feeRng (·.fx) lo up)) fun fx => Sym.bind (Sym.comp (p.feeRng (·.fy) lo up)) fun fy => ?_
  refine Sym.bind (Sym.comp (p.feeRng (·.hx) lo up)) fun hx => Sym.bind (Sym.comp (p.feeRng (·.hy) lo up)) fun hy => ?_
  refine Sym.comp_img (named_posMap hσ p.positions ⟨u, lo, up⟩ d _) fun v => ?_
  obtain ⟨ps, old, base⟩ := v
  refine Sym.bind (Sym.modify fun _ => rfl) fun _ => ?_
  refine Sym.bind (Sym.check _) fun _ => Sym.bind (Sym.check _) fun _ => ?_
  refine Sym.bind (held_update _ _ _) fun _ => Sym.bind (held_update _ _ _) fun _ => Sym.get fun q => ?_
  refine Sym.ite (c := q.tick ≥ lo ∧ q.tick < up) ?_ (Sym.bind (Sym.comp _) fun _ => Sym.pure _)
  exact Sym.bind (Sym.comp _) fun _ => Sym.bind (Sym.modify fun _ => rfl) fun _ => Sym.bind (Sym.comp _) fun _ => Sym.pure _

theorem named_deposit (hσ : Function.Injective σ) (u : Nat) (x y rpa rpb : F64) :
    Sym (namedTable σ) (deposit m u x y rpa rpb) (deposit m (σ u) x y rpa rpb) := by
  unfold deposit
  refine Sym.bind (Sym.check _) fun _ => Sym.bind (Sym.check _) fun _ => Sym.get fun p => ?_
  refine Sym.bind (Sym.comp (p.rpToPossibleTick m rpa false)) fun lo => ?_
  refine Sym.bind (Sym.comp (p.rpToPossibleTick m rpb false)) fun up => ?_
  refine Sym.bind (Sym.comp (tickToRp m p.tick)) fun rp => Sym.bind (Sym.comp _) fun a => Sym.bind (Sym.comp _) fun b => ?_
  refine Sym.bind (Sym.comp _) fun liq => Sym.bind (Sym.comp _) fun l => Sym.bind (Sym.comp _) fun xIn => ?_
  refine Sym.bind (Sym.check _) fun _ => Sym.bind (Sym.check _) fun _ => ?_
  exact Sym.bind (named_setPosition hσ _ _ _ _) fun g => Sym.bind (Sym.modify fun _ => rfl) fun _ => Sym.pure _

theorem named_withdraw (hσ : Function.Injective σ) (u : Nat) (liq : Num) (rpa rpb : F64) :
    Sym (namedTable σ) (withdraw m u liq rpa rpb) (withdraw m (σ u) liq rpa rpb) := by
  unfold withdraw
  refine Sym.bind (Sym.check _) fun _ => Sym.get fun p => ?_
  refine Sym.bind (Sym.comp (p.rpToPossibleTick m rpa false)) fun lo => ?_
  refine Sym.bind (Sym.comp (p.rpToPossibleTick m rpb false)) fun up => ?_
  refine Sym.bind (named_setPosition hσ _ _ _ _) fun g => Sym.get fun q => ?_
  refine Sym.bind (Sym.comp (tickToRp m q.tick)) fun rp => Sym.bind (Sym.comp _) fun a => Sym.bind (Sym.comp _) fun b => ?_
  refine Sym.bind (Sym.comp _) fun l => Sym.bind (Sym.comp _) fun xOut => ?_
  exact Sym.bind (Sym.modify fun _ => rfl) fun _ => Sym.pure _

end Pool

end Hmm.Proto
