import Verif.Proofs.Proto

/-
What calls of the prototype leave alone, also when they raise.
-/

namespace Hmm.Proto

open F64

theorem comps_ok {α β : Type} {r : R α} {g : α → Py β} {p q : Pool} {b : β} (h : (comp r >>= g) p = .ok b q) :
    ∃ a, r = .ok a ∧ g a p = .ok b q := by
  obtain ⟨a, p', h1, h2⟩ := bind_eq_ok.1 h
  obtain ⟨e, rfl⟩ := comp_eq_ok.1 h1
  exact ⟨a, e, h2⟩

theorem checks_ok {β : Type} {c : Bool} {g : Unit → Py β} {p q : Pool} {b : β} (h : (check c >>= g) p = .ok b q) :
    c = true ∧ g () p = .ok b q := by
  obtain ⟨a, p', h1, h2⟩ := bind_eq_ok.1 h
  obtain ⟨e, rfl⟩ := check_eq_ok.1 h1
  exact ⟨e, h2⟩

theorem gets_ok {β : Type} {g : Pool → Py β} {p q : Pool} {b : β} (h : ((get : Py Pool) >>= g) p = .ok b q) : g p p = .ok b q := h

/-- Whatever comes of `f` at `s`, it leaves a state that satisfies `P`. -/
def Leaves (P : Pool → Prop) {α : Type} (f : Py α) (s : Pool) : Prop :=
  (∀ a q, f s = .ok a q → P q) ∧ ∀ e q, f s = .error e q → P q

section
variable {α β : Type} {P : Pool → Prop}

theorem Leaves.bind {f : Py α} {g : α → Py β} {s : Pool} (hf : Leaves P f s)
    (hg : ∀ a q, f s = .ok a q → P q → Leaves P (g a) q) : Leaves P (f >>= g) s := by
  have key : (f >>= g) s = EStateM.bind f g s := rfl
  unfold Leaves
  rw [key]
  unfold EStateM.bind
  cases hfs : f s with
  | ok a q => exact hg a q hfs (hf.1 a q hfs)
  | error e q =>
    refine ⟨fun _ _ h => (by cases h), fun e' q' h => ?_⟩
    cases h
    exact hf.2 e q hfs

theorem Leaves.ofComp {r : R α} {s : Pool} (h : P s) : Leaves P (comp r) s := by
  cases r with
  | ok a => exact ⟨fun _ _ e => (by cases e; exact h), fun _ _ e => by cases e⟩
  | error e => exact ⟨fun _ _ e => (by cases e), fun _ _ e => by cases e; exact h⟩

theorem Leaves.ofCheck {b : Bool} {s : Pool} (h : P s) : Leaves P (check b) s := Leaves.ofComp h

theorem Leaves.ofPure {a : α} {s : Pool} (h : P s) : Leaves P (pure a : Py α) s :=
  ⟨fun _ _ e => (by cases e; exact h), fun _ _ e => by cases e⟩

theorem Leaves.ofModify {f : Pool → Pool} {s : Pool} (h : P (f s)) : Leaves P (modify f : Py PUnit) s :=
  ⟨fun _ _ e => (by cases e; exact h), fun _ _ e => by cases e⟩

/-- A `get` in front. -/
theorem Leaves.gets {g : Pool → Py β} {s : Pool} (h : Leaves P (g s) s) :
    Leaves P ((get : Py Pool) >>= g) s := h

/-- A computation in front. -/
theorem Leaves.comps {r : R α} {g : α → Py β} {s : Pool} (h : P s) (hg : ∀ a, r = .ok a → Leaves P (g a) s) :
    Leaves P (comp r >>= g) s := by
  refine Leaves.bind (Leaves.ofComp h) fun a q e _ => ?_
  obtain ⟨e1, rfl⟩ := comp_eq_ok.1 e
  exact hg a e1

theorem Leaves.checks {b : Bool} {g : Unit → Py β} {s : Pool} (h : P s) (hg : b = true → Leaves P (g ()) s) :
    Leaves P (check b >>= g) s := by
  refine Leaves.bind (Leaves.ofCheck h) fun a q e _ => ?_
  obtain ⟨e1, rfl⟩ := check_eq_ok.1 e
  exact hg e1

theorem Leaves.modifys {f : Pool → Pool} {g : PUnit → Py β} {s : Pool} (hg : Leaves P (g ⟨⟩) (f s)) :
    Leaves P ((modify f : Py PUnit) >>= g) s := hg

end

/-- If `f` raises at `s`, the state it leaves satisfies `P`. -/
def Raises (P : Pool → Prop) {α : Type} (f : Py α) (s : Pool) : Prop := ∀ e q, f s = .error e q → P q

section
variable {α β : Type} {P : Pool → Prop}

theorem Raises.bind {f : Py α} {g : α → Py β} {s : Pool} (hf : Raises P f s)
    (hg : ∀ a q, f s = .ok a q → Raises P (g a) q) : Raises P (f >>= g) s := by
  have key : (f >>= g) s = EStateM.bind f g s := rfl
  unfold Raises
  rw [key]
  unfold EStateM.bind
  cases hfs : f s with
  | ok a q => exact hg a q hfs
  | error e q =>
    intro e' q' h
    cases h
    exact hf e q hfs

theorem Raises.gets {g : Pool → Py β} {s : Pool} (h : Raises P (g s) s) : Raises P ((get : Py Pool) >>= g) s := h

theorem Raises.comps {r : R α} {g : α → Py β} {s : Pool} (h : P s) (hg : ∀ a, r = .ok a → Raises P (g a) s) :
    Raises P (comp r >>= g) s := by
  refine Raises.bind (Leaves.ofComp h).2 fun a q e => ?_
  obtain ⟨e1, rfl⟩ := comp_eq_ok.1 e
  exact hg a e1

theorem Raises.checks {b : Bool} {g : Unit → Py β} {s : Pool} (h : P s) (hg : Raises P (g ()) s) :
    Raises P (check b >>= g) s := Raises.comps h fun _ _ => hg

/-- Writing never raises. -/
theorem Raises.last {f : Pool → Pool} {a : α} {s : Pool} : Raises P (do modify f; return a : Py α) s := by
  intro e q h
  cases h

end

namespace Untouched

theorem refl (u : Nat) (p : Pool) : Untouched u p p :=
  ⟨rfl, rfl, rfl, rfl, rfl, rfl, rfl, rfl, rfl, rfl, rfl, rfl, fun _ _ => rfl⟩

variable {u : Nat} {p s : Pool}

theorem withTicks (h : Untouched u p s) (t : List (Int × TickState)) : Untouched u p { s with ticks := t } :=
  ⟨h.1, h.2, h.3, h.4, h.5, h.6, h.7, h.8, h.9, h.10, h.11, h.12, h.13⟩

theorem withLiq (h : Untouched u p s) (l : F64) : Untouched u p { s with liq := l } :=
  ⟨h.1, h.2, h.3, h.4, h.5, h.6, h.7, h.8, h.9, h.10, h.11, h.12, h.13⟩

theorem withPositions (h : Untouched u p s) {ps : List (Key × PositionState)}
    (hp : ∀ k : Key, k.user ≠ u → mapGet k ps = mapGet k s.positions) : Untouched u p { s with positions := ps } :=
  ⟨h.1, h.2, h.3, h.4, h.5, h.6, h.7, h.8, h.9, h.10, h.11, h.12, fun k hk => (hp k hk).trans (h.13 k hk)⟩

end Untouched

theorem setPositionMap_others {ps ps' : List (Key × PositionState)} {key : Key} {d : Num} {f o : Flt.Fees} {b : Num}
    (h : Pool.setPositionMap ps key d f = .ok (ps', o, b)) {k : Key} (hk : k ≠ key) : mapGet k ps' = mapGet k ps := by
  unfold Pool.setPositionMap at h
  split at h
  · split at h
    · cases h
    · cases h; exact mapGet_set_other hk _ _
  · have hs : ∀ {s : Num} {poz : PositionState},
        (if s.isZero = true then (pure (mapErase key ps, poz.fees, poz.liq) : R _)
          else pure (mapSet key ⟨s, f⟩ ps, poz.fees, poz.liq)) = .ok (ps', o, b) → mapGet k ps' = mapGet k ps := by
      intro s poz h
      split at h
      · cases h; exact mapGet_erase_other hk _
      · cases h; exact mapGet_set_other hk _ _
    rename_i poz _
    cases hd : poz.liq.add d with
    | error e =>
      rw [hd] at h
      cases hn : d.isNeg <;> rw [hn] at h <;> cases h
    | ok s =>
      rw [hd] at h
      simp only [okb] at h
      split at h
      · cases h
      · exact hs h

variable {u : Nat} {p : Pool}

theorem updateTick_leaves {P : Pool → Prop} (hP : ∀ s t, P s → P { s with ticks := t }) {t : Int} {d : Num} {up : Bool} {s : Pool}
    (h : P s) : Leaves P (Pool.updateTick t d up) s := by
  have rest : ∀ s : Pool, P s → Leaves P (do
      match mapGet t (← get).ticks with
      | none => comp rpanic
      | some ts =>
        let net := F64.add ts.net (← comp (if up then d.neg else d).toFlt)
        modify fun p => { p with ticks := mapSet t { ts with net := net } p.ticks }
        let gross := F64.add ts.gross (← comp d.toFlt)
        modify fun p => { p with ticks := mapSet t { ts with net := net, gross := gross } p.ticks }
        if F64.eq gross zero then modify fun p => { p with ticks := mapErase t p.ticks } : Py Unit) s := by
    intro s h
    refine Leaves.gets ?_
    split
    · exact Leaves.ofComp h
    · refine Leaves.comps h fun _ _ => Leaves.modifys ?_
      refine Leaves.comps (hP _ _ h) fun _ _ => Leaves.modifys ?_
      split
      · exact Leaves.ofModify (hP _ _ (hP _ _ (hP _ _ h)))
      · exact Leaves.ofPure (hP _ _ (hP _ _ h))
  unfold Pool.updateTick
  refine Leaves.gets ?_
  have hi : Leaves P (Pool.initializeTick t) s := Leaves.ofModify (hP _ _ h)
  cases hc : (mapGet t s.ticks).isNone
  · exact rest s h
  · exact Leaves.bind hi fun _ q _ hq => rest q hq

theorem setPosition_leaves {lo up : Int} {d : Num} : Leaves (Untouched u p) (Pool.setPosition u lo up d) p := by
  have h0 := Untouched.refl u p
  unfold Pool.setPosition
  refine Leaves.gets ?_
  refine Leaves.comps h0 fun _ _ => Leaves.comps h0 fun _ _ => Leaves.comps h0 fun _ _ => Leaves.comps h0 fun _ _ => ?_
  refine Leaves.comps h0 ?_
  rintro ⟨ps, old, base⟩ hps
  refine Leaves.modifys ?_
  have h1 : Untouched u p { p with positions := ps } := h0.withPositions fun k hk =>
    setPositionMap_others hps (by rintro rfl; exact hk rfl)
  refine Leaves.checks h1 fun _ => Leaves.checks h1 fun _ => ?_
  refine Leaves.bind (updateTick_leaves (P := Untouched u p) (fun s t h => Untouched.withTicks h t) h1) fun _ q1 _ h2 => ?_
  refine Leaves.bind (updateTick_leaves (P := Untouched u p) (fun s t h => Untouched.withTicks h t) h2) fun _ q2 _ h3 => ?_
  refine Leaves.gets ?_
  split
  · refine Leaves.comps h3 fun _ _ => Leaves.modifys ?_
    exact Leaves.comps (h3.withLiq _) fun _ _ => Leaves.ofPure (h3.withLiq _)
  · exact Leaves.comps h3 fun _ _ => Leaves.ofPure h3

/-! ### Sales -/

/-- What no sale changes. -/
structure Fixed (p q : Pool) : Prop where
  positions : q.positions = p.positions
  spacing : q.spacing = p.spacing
  c : q.c = p.c
  feeRate : q.feeRate = p.feeRate

theorem crossTick_leaves {t : Int} {lr : Bool} {s : Pool} (h : Fixed p s) : Leaves (Fixed p) (Pool.crossTick t lr) s := by
  unfold Pool.crossTick
  refine Leaves.gets (Leaves.checks h fun _ => ?_)
  split
  · exact Leaves.ofComp h
  · refine Leaves.checks h fun _ => Leaves.modifys ?_
    have h1 := h
    cases lr
    · refine Leaves.gets (Leaves.comps ⟨h.1, h.2, h.3, h.4⟩ fun _ _ => Leaves.ofModify ⟨h.1, h.2, h.3, h.4⟩)
    · exact Leaves.ofModify ⟨h.1, h.2, h.3, h.4⟩

theorem tryLeft_leaves {m : LibM} : ∀ (ks : List Int) {s : Pool}, Fixed p s → Leaves (Fixed p) (Pool.tryLeft m ks) s
  | [], s, h => Leaves.gets (Leaves.ofPure h)
  | k :: ks, s, h => by
    unfold Pool.tryLeft
    refine Leaves.gets ?_
    split
    · exact tryLeft_leaves ks h
    · refine Leaves.modifys (Leaves.comps ⟨h.1, h.2, h.3, h.4⟩ fun _ _ => Leaves.modifys ?_)
      refine Leaves.bind (crossTick_leaves ⟨h.1, h.2, h.3, h.4⟩) fun _ q _ hq => ?_
      refine Leaves.gets (Leaves.comps hq fun _ _ => Leaves.checks hq fun _ => ?_)
      split
      · exact Leaves.ofPure hq
      · exact tryLeft_leaves ks hq

theorem tryRight_leaves {m : LibM} : ∀ (ks : List Int) {s : Pool}, Fixed p s → Leaves (Fixed p) (Pool.tryRight m ks) s
  | [], s, h => Leaves.gets (Leaves.ofPure h)
  | k :: ks, s, h => by
    unfold Pool.tryRight
    refine Leaves.gets ?_
    split
    · exact tryRight_leaves ks h
    · refine Leaves.modifys (Leaves.comps ⟨h.1, h.2, h.3, h.4⟩ fun _ _ => Leaves.modifys ?_)
      refine Leaves.bind (crossTick_leaves ⟨h.1, h.2, h.3, h.4⟩) fun _ q _ hq => ?_
      refine Leaves.gets (Leaves.comps hq fun _ _ => Leaves.checks hq fun _ => ?_)
      split
      · exact Leaves.ofPure hq
      · exact tryRight_leaves ks hq

theorem range_leaves {m : LibM} {lr : Bool} {s : Pool} (h : Fixed p s) : Leaves (Fixed p) (Pool.tryGetInRange m lr) s := by
  unfold Pool.tryGetInRange
  refine Leaves.gets (Leaves.checks h fun _ => ?_)
  split
  · exact tryRight_leaves _ h
  · exact tryLeft_leaves _ h

theorem finishX_leaves {m : LibM} {a : Pool.Acc} {s : Pool} (h : Fixed p s) : Leaves (Fixed p) (Pool.finishX m a) s := by
  unfold Pool.finishX
  exact Leaves.comps h fun _ _ => Leaves.gets (Leaves.comps h fun _ _ => Leaves.ofPure h)

theorem stepX_leaves {m : LibM} {d : F64} {o : Option F64} {a : Pool.Acc} {g : Int} {s : Pool} (h : Fixed p s) :
    Leaves (Fixed p) (Pool.stepX m d o a g) s := by
  unfold Pool.stepX
  refine Leaves.gets (Leaves.comps h fun r _ => Leaves.checks h fun _ => Leaves.checks h fun _ => Leaves.modifys ?_)
  have tail : ∀ (s : Pool) (a : Pool.Acc), Fixed p s → Leaves (Fixed p) (do
      if r.cross then
        check (decide (r.endTick = g))
        if (mapGet g (← get).ticks).isSome then Pool.crossTick g false
      return a : Py Pool.Acc) s := by
    intro s a h
    cases r.cross
    · exact Leaves.ofPure h
    · refine Leaves.checks h fun _ => Leaves.gets ?_
      cases (mapGet g s.ticks).isSome
      · exact Leaves.ofPure h
      · exact Leaves.bind (crossTick_leaves h) fun _ _ _ hq => Leaves.ofPure hq
  have h1 : ∀ t rp x y f1 f2, Fixed p { s with tick := t, rp := rp, x := x, y := y, xFee := f1, yAdj := f2 } :=
    fun _ _ _ _ _ _ => ⟨h.1, h.2, h.3, h.4⟩
  cases lt zero s.liq
  · exact tail _ _ (h1 _ _ _ _ _ _)
  · refine Leaves.comps (h1 _ _ _ _ _ _) fun _ _ => Leaves.modifys ?_
    refine Leaves.comps ⟨h.1, h.2, h.3, h.4⟩ fun _ _ => Leaves.modifys ?_
    exact tail _ _ ⟨h.1, h.2, h.3, h.4⟩

theorem loopX_leaves {m : LibM} {d : F64} {o : Option F64} : ∀ (n : Nat) {a : Pool.Acc} {s : Pool}, Fixed p s →
    Leaves (Fixed p) (Pool.loopX m d o n a) s
  | 0, _, _, h => Leaves.ofComp h
  | n + 1, a, s, h => by
    unfold Pool.loopX
    have tail : ∀ (v : Option Int × Pool.Acc) (s : Pool), Fixed p s → Leaves (Fixed p) (match v with
        | (goal, a) => match goal with
          | none => Pool.finishX m a
          | some g => do
            let a ← Pool.stepX m d o a g
            Pool.loopX m d o n a) s := by
      rintro ⟨_ | g, a⟩ s h
      · exact finishX_leaves h
      · exact Leaves.bind (stepX_leaves h) fun _ _ _ hq => loopX_leaves n hq
    split
    · refine Leaves.gets (Leaves.bind ?_ fun v q _ hq => tail v q hq)
      split
      · exact Leaves.comps h fun _ _ => Leaves.ofPure h
      · exact Leaves.bind (range_leaves h) fun _ _ _ hq => Leaves.ofPure hq
    · exact finishX_leaves h

theorem executeX_leaves {m : LibM} {d : F64} {o : Option F64} {n : Nat} :
    Leaves (Fixed p) (Pool.executeSwapFromX m n d o) p := by
  unfold Pool.executeSwapFromX
  exact Leaves.checks ⟨rfl, rfl, rfl, rfl⟩ fun _ => Leaves.gets (loopX_leaves n ⟨rfl, rfl, rfl, rfl⟩)

theorem finishY_leaves {m : LibM} {a : Pool.Acc} {s : Pool} (h : Fixed p s) : Leaves (Fixed p) (Pool.finishY m a) s := by
  unfold Pool.finishY
  exact Leaves.comps h fun _ _ => Leaves.gets (Leaves.comps h fun _ _ => Leaves.ofPure h)

theorem stepY_leaves {m : LibM} {d : F64} {o : Option F64} {a : Pool.Acc} {g : Int} {s : Pool} (h : Fixed p s) :
    Leaves (Fixed p) (Pool.stepY m d o a g) s := by
  unfold Pool.stepY
  refine Leaves.gets (Leaves.comps h fun r _ => Leaves.checks h fun _ => Leaves.checks h fun _ => Leaves.modifys ?_)
  have tail : ∀ (s : Pool) (a : Pool.Acc), Fixed p s → Leaves (Fixed p) (do
      if r.cross then
        check (decide (r.endTick = g))
        if (mapGet g (← get).ticks).isSome then Pool.crossTick g true
      return a : Py Pool.Acc) s := by
    intro s a h
    cases r.cross
    · exact Leaves.ofPure h
    · refine Leaves.checks h fun _ => Leaves.gets ?_
      cases (mapGet g s.ticks).isSome
      · exact Leaves.ofPure h
      · exact Leaves.bind (crossTick_leaves h) fun _ _ _ hq => Leaves.ofPure hq
  have h1 : ∀ t rp x y f1 f2, Fixed p { s with tick := t, rp := rp, x := x, y := y, xAdj := f1, yFee := f2 } :=
    fun _ _ _ _ _ _ => ⟨h.1, h.2, h.3, h.4⟩
  cases lt zero s.liq
  · exact tail _ _ (h1 _ _ _ _ _ _)
  · refine Leaves.comps (h1 _ _ _ _ _ _) fun _ _ => Leaves.modifys ?_
    refine Leaves.comps ⟨h.1, h.2, h.3, h.4⟩ fun _ _ => Leaves.modifys ?_
    exact tail _ _ ⟨h.1, h.2, h.3, h.4⟩

theorem loopY_leaves {m : LibM} {d : F64} {o : Option F64} : ∀ (n : Nat) {a : Pool.Acc} {s : Pool}, Fixed p s →
    Leaves (Fixed p) (Pool.loopY m d o n a) s
  | 0, _, _, h => Leaves.ofComp h
  | n + 1, a, s, h => by
    unfold Pool.loopY
    have tail : ∀ (v : Option Int × Pool.Acc) (s : Pool), Fixed p s → Leaves (Fixed p) (match v with
        | (goal, a) => match goal with
          | none => Pool.finishY m a
          | some g => do
            let a ← Pool.stepY m d o a g
            Pool.loopY m d o n a) s := by
      rintro ⟨_ | g, a⟩ s h
      · exact finishY_leaves h
      · exact Leaves.bind (stepY_leaves h) fun _ _ _ hq => loopY_leaves n hq
    split
    · refine Leaves.gets (Leaves.bind ?_ fun v q _ hq => tail v q hq)
      split
      · exact Leaves.comps h fun _ _ => Leaves.ofPure h
      · exact Leaves.bind (range_leaves h) fun _ _ _ hq => Leaves.ofPure hq
    · exact finishY_leaves h

theorem executeY_leaves {m : LibM} {d : F64} {o : Option F64} {n : Nat} :
    Leaves (Fixed p) (Pool.executeSwapFromY m n d o) p := by
  unfold Pool.executeSwapFromY
  exact Leaves.checks ⟨rfl, rfl, rfl, rfl⟩ fun _ => Leaves.gets (loopY_leaves n ⟨rfl, rfl, rfl, rfl⟩)

end Hmm.Proto
