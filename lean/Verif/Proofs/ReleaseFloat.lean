import Verif.Model.ReleaseFloat
import Verif.Proofs.FloatPool

/-
The floating-point pool with and without overflow checks.
-/

namespace Hmm.Flt.Unchecked

open F64 Pool

/-- Equal results, except that the program with checks may panic where `Z` holds. -/
def Same {α : Type} (Z : Prop) (x y : R α) : Prop := x = y ∨ (Z ∧ y = .error .panic)

theorem Same.refl {α : Type} {Z : Prop} (x : R α) : Same Z x x := .inl rfl

theorem Same.bind {α β : Type} {Z : Prop} {x y : R α} {f g : α → R β} (h : Same Z x y)
    (hf : ∀ a, y = .ok a → Same Z (f a) (g a)) : Same Z (x >>= f) (y >>= g) := by
  rcases h with rfl | ⟨hz, rfl⟩
  · cases x with
    | error e => exact .inl rfl
    | ok a => exact hf a rfl
  · exact .inr ⟨hz, rfl⟩

theorem Same.next {α β : Type} {Z : Prop} {x : R α} {f g : α → R β}
    (hf : ∀ a, x = .ok a → Same Z (f a) (g a)) : Same Z (x >>= f) (x >>= g) := Same.bind (.refl x) hf

theorem Same.eq {α : Type} {x y : R α} (h : Same False x y) : x = y := h.elim id fun h => h.1.elim

theorem crossTick_same {Z : Prop} {p : Pool} {t : Nat} {b : Bool} (hz : b = false → t = 0 → 0 ∈ p.ticks.map (·.1) → Z) :
    Same Z (crossTick p t b) (p.crossTick t b) := by
  unfold crossTick Pool.crossTick
  split
  · exact .refl _
  simp only
  cases hm : mapGet t p.ticks with
  | none => exact .refl _
  | some ts =>
    simp only
    cases b with
    | true => exact .refl _
    | false =>
      simp only [Bool.false_eq_true, if_false]
      by_cases h0 : t = 0
      · subst h0
        exact .inr ⟨hz rfl rfl (mapGet_isSome.1 (by rw [hm]; rfl)), rfl⟩
      · have e : checkedSub t 1 = .ok (pred32 t) := by
          unfold checkedSub pred32
          rw [if_pos (by omega), if_neg h0]
        rw [e]
        exact .refl _

theorem kept_bottom (Z : Prop) : Pool.Kept fun p => 0 ∈ p.ticks.map (·.1) → Z where
  frame p p' ht _ _ _ _ _ h := by rw [ht]; exact h
  cross p p' t d hc h := by rw [crossTick_keys hc]; exact h

theorem left_same {Z : Prop} {m : LibM} : ∀ (tks : List Nat) {p : Pool}, (0 ∈ p.ticks.map (·.1) → Z) →
    Same Z (tryInRangeLeft m tks p) (Pool.tryInRangeLeft m tks p)
  | [], _, _ => .refl _
  | tk :: tks, p, h => by
    unfold tryInRangeLeft Pool.tryInRangeLeft
    split
    · exact left_same tks h
    simp only
    refine Same.bind (crossTick_same fun _ _ h0 => h h0) fun q hq => ?_
    split
    · exact .refl _
    split
    · exact .refl _
    · exact left_same tks (by rw [crossTick_keys hq]; exact h)

theorem right_eq {m : LibM} : ∀ (tks : List Nat) (p : Pool),
    tryInRangeRight m tks p = Pool.tryInRangeRight m tks p
  | [], _ => rfl
  | tk :: tks, p => by
    unfold tryInRangeRight Pool.tryInRangeRight
    simp only [right_eq tks, (crossTick_same (Z := False) (b := true) (by simp)).eq]

theorem getX_same {Z : Prop} {m : LibM} {p : Pool} (h : 0 ∈ p.ticks.map (·.1) → Z) :
    Same Z (tryGetInRange m p false) (p.tryGetInRange m false) := by
  unfold tryGetInRange Pool.tryGetInRange
  split
  · exact .refl _
  · simp only [Bool.false_eq_true, if_false]
    exact Same.bind (left_same _ h) fun _ _ => .refl _

theorem getY_eq {m : LibM} {p : Pool} : tryGetInRange m p true = p.tryGetInRange m true := by
  unfold tryGetInRange Pool.tryGetInRange
  simp only [if_true, right_eq]

theorem stepX_same {Z : Prop} {m : LibM} {dx o : F64} {p : Pool} {a : SwapAcc} {g : Nat} (h : 0 ∈ p.ticks.map (·.1) → Z) :
    Same Z (stepX m dx o p a g) (Pool.stepX m dx o p a g) := by
  unfold stepX Pool.stepX
  refine Same.next fun r _ => Same.next fun _ _ => Same.next fun _ _ => ?_
  refine Same.bind ?_ fun _ _ => .refl _
  split
  · refine Same.next fun _ _ => ?_
    split
    · split
      · exact crossTick_same fun _ _ h0 => h h0
      · exact .refl _
    · split
      · exact crossTick_same fun _ _ h0 => h h0
      · exact .refl _
  · exact .refl _

theorem stepY_eq {m : LibM} {dy o : F64} {p : Pool} {a : SwapAcc} {g : Nat} :
    stepY m dy o p a g = Pool.stepY m dy o p a g := by
  unfold stepY Pool.stepY
  simp only [(crossTick_same (Z := False) (b := true) (by simp)).eq]

theorem loopX_same {Z : Prop} {m : LibM} {dx o : F64} : ∀ (n : Nat) {p : Pool} {a : SwapAcc},
    (0 ∈ p.ticks.map (·.1) → Z) → Same Z (loopX m dx o n p a) (Pool.loopX m dx o n p a)
  | 0, _, _, _ => .refl _
  | n + 1, p, a, h => by
    unfold loopX Pool.loopX
    split
    · refine Same.bind ?_ fun ⟨q, goal, b⟩ hq => ?_
      · split
        · exact .refl _
        · exact Same.bind (getX_same h) fun _ _ => .refl _
      have hz : 0 ∈ q.ticks.map (·.1) → Z := by
        rw [ite_eq_ok] at hq
        rcases hq with ⟨_, hq⟩ | ⟨_, hq⟩
        · simp only [ok_inj, Prod.mk.injEq] at hq
          rw [← hq.1]; exact h
        · rw [bind_ok] at hq; obtain ⟨⟨q', g', rp'⟩, h1, hq⟩ := hq
          simp only [pure_ok, Prod.mk.injEq] at hq
          rw [← hq.1]
          exact tryGetInRange_kept (kept_bottom Z) h1 h
      cases goal with
      | none => exact .refl _
      | some g =>
        refine Same.bind (stepX_same hz) fun ⟨q', b'⟩ hs => ?_
        exact loopX_same n (stepX_kept (kept_bottom Z) hs hz)
    · exact .refl _

theorem loopY_eq {m : LibM} {dy o : F64} : ∀ (n : Nat) (p : Pool) (a : SwapAcc),
    loopY m dy o n p a = Pool.loopY m dy o n p a
  | 0, _, _ => rfl
  | n + 1, p, a => by
    unfold loopY Pool.loopY
    split
    · refine (Same.bind (Z := False) (.inl (by rw [getY_eq])) fun ⟨q, goal, b⟩ _ => ?_).eq
      cases goal with
      | none => exact .refl _
      | some g => exact Same.bind (.inl stepY_eq) fun ⟨q', b'⟩ _ => .inl (loopY_eq n q' b')
    · rfl

end Hmm.Flt.Unchecked
