import Verif.Spec.Swap
import Verif.Proofs.PoolBasic
import Verif.Proofs.Ticks

/-
The swap loops: unfolding, what a round may touch, the invariant rule, and termination.
-/

namespace Hmm.Pool

open Decimal PoolMath

/-- What follows once the goal is known. -/
def afterGoalX (fl : FloatEnv) (dx o : Decimal) (n : Nat) (q : Pool × Option Nat × SwapAcc) :
    R (Pool × SwapOutput) :=
  match q.2.1 with
  | none => finishX q.1 q.2.2
  | some g => stepX fl dx o q.1 q.2.2 g >>= fun s => loopX fl dx o n s.1 s.2

@[inherit_doc afterGoalX]
def afterGoalY (fl : FloatEnv) (dx o : Decimal) (n : Nat) (q : Pool × Option Nat × SwapAcc) :
    R (Pool × SwapOutput) :=
  match q.2.1 with
  | none => finishY q.1 q.2.2
  | some g => stepY fl dx o q.1 q.2.2 g >>= fun s => loopY fl dx o n s.1 s.2

theorem loopX_succ (fl : FloatEnv) (dx o : Decimal) (n : Nat) (p : Pool) (a : SwapAcc) :
    loopX fl dx o (n + 1) p a = (unwrap (a.recv.lt dx) >>= fun b =>
      if b then goalX p a >>= afterGoalX fl dx o n else finishX p a) := rfl

theorem loopY_succ (fl : FloatEnv) (dx o : Decimal) (n : Nat) (p : Pool) (a : SwapAcc) :
    loopY fl dx o (n + 1) p a = (unwrap (a.recv.lt dx) >>= fun b =>
      if b then goalY p a >>= afterGoalY fl dx o n else finishY p a) := rfl

/-- Snapping down to the grid does not go up. -/
theorem snap_le {t sp r : Nat} (h : tkToPossibleTk t sp false = .ok r) : r ≤ t := by
  obtain ⟨_, rfl⟩ := tkDown h
  exact Nat.div_mul_le_self _ _

/-- After a leftward crossing the pool sits below the tick. -/
theorem cross_left_tick {p p' : Pool} {t : Nat} (h : p.crossTick t false = .ok p') : p'.gs.tick < t := by
  obtain ⟨ts, fx, fy, hx, hy, nt, n, _, _, _, _, _, _, _, e, _, _, rfl⟩ := crossTick_ok h
  obtain ⟨e1, e2⟩ := e rfl
  have := snap_le e2
  simp only; omega

/-- After a rightward crossing the pool sits on the tick. -/
theorem cross_right_tick {p p' : Pool} {t : Nat} (h : p.crossTick t true = .ok p') : p'.gs.tick = t := by
  obtain ⟨ts, fx, fy, hx, hy, nt, n, _, _, _, _, _, _, e, _, _, _, rfl⟩ := crossTick_ok h
  exact e rfl

theorem leftLimit_goal {p : Pool} {s g : Nat} (h : p.leftLimit s = .ok (some g)) :
    g ∈ p.ticks.map (·.1) ∧ g ≤ p.gs.tick ∧ g ≤ s := by
  obtain ⟨t, e1, e2⟩ := leftLimit_ok h
  have hm := List.mem_of_find?_eq_some e2.symm
  have hle := List.find?_some e2.symm
  rw [mem_tickKeys] at hm
  simp only [decide_eq_true_eq] at hle
  have := snap_le e1
  have h1 : Nat.min s p.gs.tick ≤ p.gs.tick := Nat.min_le_right _ _
  have h2 : Nat.min s p.gs.tick ≤ s := Nat.min_le_left _ _
  exact ⟨hm, by omega, by omega⟩

theorem rightLimit_goal {p : Pool} {s c g : Nat} (h : p.rightLimit s c = .ok (some g)) :
    g ∈ p.ticks.map (·.1) ∧ c < g := by
  obtain ⟨t, _, ⟨e1, e2⟩ | ⟨e1, e2⟩⟩ := rightLimit_ok h
  all_goals
    have hm := List.mem_of_find?_eq_some e2.symm
    have hle := List.find?_some e2.symm
    rw [mem_tickKeys] at hm
    simp only [decide_eq_true_eq] at hle
    exact ⟨hm, by omega⟩

theorem tryInRangeLeft_ok : ∀ {tks : List Nat} {p p' : Pool} {goal : Option Nat} {rp : Decimal},
    tryInRangeLeft tks p = .ok (p', goal, rp) → SameBooks p p' ∧ rp = p'.gs.rp ∧
      p'.gs.tick ≤ p.gs.tick ∧ ∀ g, goal = some g → g ∈ p.ticks.map (·.1) ∧ g ≤ p'.gs.tick := by
  intro tks
  induction tks with
  | nil =>
    intro p p' goal rp h
    simp only [tryInRangeLeft, ok_inj, Prod.mk.injEq] at h
    obtain ⟨rfl, rfl, rfl⟩ := h
    exact ⟨SameBooks.refl _, rfl, le_rfl, by simp⟩
  | cons tk tks ih =>
    intro p p' goal rp h
    unfold tryInRangeLeft at h
    rw [ite_ok] at h
    rcases h with ⟨_, h⟩ | ⟨htk, h⟩
    · exact ih h
    rw [bind_ok] at h; obtain ⟨rp1, _, h⟩ := h
    rw [bind_ok] at h; obtain ⟨p1, h2, h⟩ := h
    rw [bind_ok] at h; obtain ⟨g1, h3, h⟩ := h
    rw [ite_ok] at h; rcases h with ⟨_, h⟩ | ⟨_, h⟩; · simp [rpanic] at h
    have hb := SameBooks.cross h2
    have ht := cross_left_tick h2
    rw [ite_ok] at h
    rcases h with ⟨_, h⟩ | ⟨_, h⟩
    · simp only [pure_ok, Prod.mk.injEq] at h
      obtain ⟨rfl, rfl, rfl⟩ := h
      refine ⟨hb, rfl, by omega, ?_⟩
      rintro g rfl
      obtain ⟨e1, e2, _⟩ := leftLimit_goal h3
      rw [hb.keys] at e1
      exact ⟨e1, e2⟩
    · obtain ⟨i1, i2, i3, i4⟩ := ih h
      refine ⟨hb.trans i1, i2, by omega, fun g hg => ?_⟩
      obtain ⟨j1, j2⟩ := i4 g hg
      rw [hb.keys] at j1
      exact ⟨j1, j2⟩

theorem tryInRangeRight_ok : ∀ {tks : List Nat} {p p' : Pool} {goal : Option Nat} {rp : Decimal},
    tryInRangeRight tks p = .ok (p', goal, rp) → SameBooks p p' ∧ rp = p'.gs.rp ∧
      p.gs.tick ≤ p'.gs.tick ∧ ∀ g, goal = some g → g ∈ p.ticks.map (·.1) ∧ p'.gs.tick < g := by
  intro tks
  induction tks with
  | nil =>
    intro p p' goal rp h
    simp only [tryInRangeRight, ok_inj, Prod.mk.injEq] at h
    obtain ⟨rfl, rfl, rfl⟩ := h
    exact ⟨SameBooks.refl _, rfl, le_rfl, by simp⟩
  | cons tk tks ih =>
    intro p p' goal rp h
    unfold tryInRangeRight at h
    rw [ite_ok] at h
    rcases h with ⟨_, h⟩ | ⟨htk, h⟩
    · exact ih h
    rw [bind_ok] at h; obtain ⟨rp1, _, h⟩ := h
    rw [bind_ok] at h; obtain ⟨p1, h2, h⟩ := h
    rw [bind_ok] at h; obtain ⟨g1, h3, h⟩ := h
    rw [ite_ok] at h; rcases h with ⟨_, h⟩ | ⟨_, h⟩; · simp [rpanic] at h
    have hb := SameBooks.cross h2
    have ht := cross_right_tick h2
    rw [ite_ok] at h
    rcases h with ⟨_, h⟩ | ⟨_, h⟩
    · simp only [pure_ok, Prod.mk.injEq] at h
      obtain ⟨rfl, rfl, rfl⟩ := h
      refine ⟨hb, rfl, by omega, ?_⟩
      rintro g rfl
      obtain ⟨e1, e2⟩ := rightLimit_goal h3
      rw [hb.keys] at e1
      exact ⟨e1, by omega⟩
    · obtain ⟨i1, i2, i3, i4⟩ := ih h
      refine ⟨hb.trans i1, i2, by omega, fun g hg => ?_⟩
      obtain ⟨j1, j2⟩ := i4 g hg
      rw [hb.keys] at j1
      exact ⟨j1, j2⟩

theorem tryGetInRange_ok {p p' : Pool} {ltr : Bool} {goal : Option Nat} {rp : Decimal}
    (h : p.tryGetInRange ltr = .ok (p', goal, rp)) :
    (if ltr then tryInRangeRight (p.tickKeys false) p else tryInRangeLeft (p.tickKeys true) p)
      = .ok (p', goal, rp) ∧ p.gs.liq.isPositive = false ∧ rp.isNegative = false := by
  unfold tryGetInRange at h
  rw [ite_ok] at h; rcases h with ⟨_, h⟩ | ⟨h0, h⟩; · simp [rpanic] at h
  rw [bind_ok] at h
  obtain ⟨⟨p1, g1, rp1⟩, h1, h⟩ := h
  simp only at h
  rw [ite_ok] at h; rcases h with ⟨_, h⟩ | ⟨h2, h⟩; · simp [rpanic] at h
  simp only [pure_ok, Prod.mk.injEq] at h
  obtain ⟨rfl, rfl, rfl⟩ := h
  exact ⟨h1, by simpa using h0, by simpa using h2⟩

theorem goalX_ok {p p' : Pool} {a a' : SwapAcc} {goal : Option Nat}
    (h : goalX p a = .ok (p', goal, a')) :
    SameBooks p p' ∧ a' = { a with currRp := a'.currRp } ∧ p'.gs.tick ≤ p.gs.tick ∧
    (∀ g, goal = some g → g ∈ p.ticks.map (·.1) ∧ g ≤ p'.gs.tick) ∧
    ((p' = p ∧ a' = a ∧ p.gs.liq.isPositive = true ∧ p.leftLimit a.currT = .ok goal) ∨
     (p.gs.liq.isPositive = false ∧ a'.currRp = p'.gs.rp ∧
      tryInRangeLeft (p.tickKeys true) p = .ok (p', goal, p'.gs.rp))) := by
  unfold goalX at h
  rw [ite_ok] at h
  rcases h with ⟨h0, h⟩ | ⟨h0, h⟩
  · steps at h
    obtain ⟨g, h1, h2⟩ := h
    simp only [Prod.mk.injEq] at h2
    obtain ⟨rfl, rfl, rfl⟩ := h2
    refine ⟨SameBooks.refl _, rfl, le_rfl, ?_, .inl ⟨rfl, rfl, h0, h1⟩⟩
    rintro g' rfl
    exact ⟨(leftLimit_goal h1).1, (leftLimit_goal h1).2.1⟩
  · steps at h
    obtain ⟨⟨p1, g, rp⟩, h1, h2⟩ := h
    simp only [Prod.mk.injEq] at h2
    obtain ⟨rfl, rfl, rfl⟩ := h2
    obtain ⟨h3, h4, _⟩ := tryGetInRange_ok h1
    simp only [Bool.false_eq_true, if_false] at h3
    obtain ⟨i1, i2, i3, i4⟩ := tryInRangeLeft_ok h3
    exact ⟨i1, rfl, i3, i4, .inr ⟨h4, i2, i2 ▸ h3⟩⟩

theorem goalY_ok {p p' : Pool} {a a' : SwapAcc} {goal : Option Nat}
    (h : goalY p a = .ok (p', goal, a')) :
    SameBooks p p' ∧ a' = { a with currRp := a'.currRp } ∧ p.gs.tick ≤ p'.gs.tick ∧
    (∀ g, goal = some g → g ∈ p.ticks.map (·.1) ∧ p'.gs.tick < g) ∧
    ((p' = p ∧ a' = a ∧ p.gs.liq.isPositive = true ∧ p.rightLimit a.currT p.gs.tick = .ok goal) ∨
     (p.gs.liq.isPositive = false ∧ a'.currRp = p'.gs.rp ∧
      tryInRangeRight (p.tickKeys false) p = .ok (p', goal, p'.gs.rp))) := by
  unfold goalY at h
  rw [ite_ok] at h
  rcases h with ⟨h0, h⟩ | ⟨h0, h⟩
  · steps at h
    obtain ⟨g, h1, h2⟩ := h
    simp only [Prod.mk.injEq] at h2
    obtain ⟨rfl, rfl, rfl⟩ := h2
    refine ⟨SameBooks.refl _, rfl, le_rfl, ?_, .inl ⟨rfl, rfl, h0, h1⟩⟩
    rintro g' rfl
    exact rightLimit_goal h1
  · steps at h
    obtain ⟨⟨p1, g, rp⟩, h1, h2⟩ := h
    simp only [Prod.mk.injEq] at h2
    obtain ⟨rfl, rfl, rfl⟩ := h2
    obtain ⟨h3, h4, _⟩ := tryGetInRange_ok h1
    simp only [if_true] at h3
    obtain ⟨i1, i2, i3, i4⟩ := tryInRangeRight_ok h3
    exact ⟨i1, rfl, i3, i4, .inr ⟨h4, i2, i2 ▸ h3⟩⟩

/-! ### Invariants -/

/-- Rule for the rounds of a sale of X, with one assertion before and one after finding the goal. -/
theorem loopX_rule {fl : FloatEnv} {dx o : Decimal} {H : Pool → SwapAcc → Prop}
    {G : Pool → Option Nat → SwapAcc → Prop}
    (hg : ∀ {p a p1 g a1}, H p a → a.recv.lt dx = .ok true → goalX p a = .ok (p1, g, a1) → G p1 g a1)
    (hs : ∀ {p a g p' a'}, G p (some g) a → stepX fl dx o p a g = .ok (p', a') → H p' a') :
    ∀ {n : Nat} {p : Pool} {a : SwapAcc} {p' : Pool} {r : SwapOutput}, H p a →
      loopX fl dx o n p a = .ok (p', r) → ∃ a', finishX p' a' = .ok (p', r) ∧
        ((H p' a' ∧ a'.recv.lt dx = .ok false) ∨ G p' none a') := by
  intro n
  induction n with
  | zero => intro p a p' r _ h; cases h
  | succ n ih =>
    intro p a p' r hP h
    have hfin : ∀ {p a p' r}, finishX p a = .ok (p', r) → p' = p := by
      intro p a p' r h
      unfold finishX at h
      steps at h
      obtain ⟨_, _, _, _, _, _, h⟩ := h
      simp only [Prod.mk.injEq] at h
      exact h.1.symm
    rw [loopX_succ, bind_ok] at h
    obtain ⟨b, hb, h⟩ := h
    cases b
    · have := hfin h; subst this
      exact ⟨a, h, .inl ⟨hP, unwrap_ok.1 hb⟩⟩
    · simp only [if_true] at h
      rw [bind_ok] at h
      obtain ⟨⟨p1, g, a1⟩, h1, h⟩ := h
      have hP1 := hg hP (unwrap_ok.1 hb) h1
      cases g with
      | none =>
        have := hfin h; subst this
        exact ⟨a1, h, .inr hP1⟩
      | some g =>
        unfold afterGoalX at h
        simp only at h
        rw [bind_ok] at h
        obtain ⟨⟨p2, a2⟩, h2, h⟩ := h
        exact ih (hs hP1 h2) h

/-- Whatever every round preserves holds at the end of a sale of X. -/
theorem loopX_inv {fl : FloatEnv} {dx o : Decimal} {P : Pool → SwapAcc → Prop}
    (hg : ∀ {p a p1 g a1}, P p a → goalX p a = .ok (p1, g, a1) → P p1 a1)
    (hs : ∀ {p0 a0 p a g p' a'}, goalX p0 a0 = .ok (p, some g, a) → P p a →
      stepX fl dx o p a g = .ok (p', a') → P p' a')
    {n : Nat} {p : Pool} {a : SwapAcc} {p' : Pool} {r : SwapOutput} (hP : P p a)
    (h : loopX fl dx o n p a = .ok (p', r)) : ∃ a', P p' a' ∧ finishX p' a' = .ok (p', r) ∧
        (a'.recv.lt dx = .ok false ∨ ∃ p0 a0, goalX p0 a0 = .ok (p', none, a')) := by
  obtain ⟨a', h1, ⟨h2, h3⟩ | ⟨h2, h3⟩⟩ := loopX_rule (H := P)
    (G := fun p g a => P p a ∧ ∃ p0 a0, goalX p0 a0 = .ok (p, g, a))
    (fun hP _ h => ⟨hg hP h, _, _, h⟩) (fun hG h => hG.2.elim fun _ hG' => hG'.elim fun _ hG' => hs hG' hG.1 h) hP h
  · exact ⟨a', h2, h1, .inl h3⟩
  · exact ⟨a', h2, h1, .inr h3⟩

/-- Rule for the rounds of a sale of Y, with one assertion before and one after finding the goal. -/
theorem loopY_rule {fl : FloatEnv} {dy o : Decimal} {H : Pool → SwapAcc → Prop}
    {G : Pool → Option Nat → SwapAcc → Prop}
    (hg : ∀ {p a p1 g a1}, H p a → a.recv.lt dy = .ok true → goalY p a = .ok (p1, g, a1) → G p1 g a1)
    (hs : ∀ {p a g p' a'}, G p (some g) a → stepY fl dy o p a g = .ok (p', a') → H p' a') :
    ∀ {n : Nat} {p : Pool} {a : SwapAcc} {p' : Pool} {r : SwapOutput}, H p a →
      loopY fl dy o n p a = .ok (p', r) → ∃ a', finishY p' a' = .ok (p', r) ∧
        ((H p' a' ∧ a'.recv.lt dy = .ok false) ∨ G p' none a') := by
  intro n
  induction n with
  | zero => intro p a p' r _ h; cases h
  | succ n ih =>
    intro p a p' r hP h
    have hfin : ∀ {p a p' r}, finishY p a = .ok (p', r) → p' = p := by
      intro p a p' r h
      unfold finishY at h
      steps at h
      obtain ⟨_, _, _, _, _, _, h⟩ := h
      simp only [Prod.mk.injEq] at h
      exact h.1.symm
    rw [loopY_succ, bind_ok] at h
    obtain ⟨b, hb, h⟩ := h
    cases b
    · have := hfin h; subst this
      exact ⟨a, h, .inl ⟨hP, unwrap_ok.1 hb⟩⟩
    · simp only [if_true] at h
      rw [bind_ok] at h
      obtain ⟨⟨p1, g, a1⟩, h1, h⟩ := h
      have hP1 := hg hP (unwrap_ok.1 hb) h1
      cases g with
      | none =>
        have := hfin h; subst this
        exact ⟨a1, h, .inr hP1⟩
      | some g =>
        unfold afterGoalY at h
        simp only at h
        rw [bind_ok] at h
        obtain ⟨⟨p2, a2⟩, h2, h⟩ := h
        exact ih (hs hP1 h2) h

/-- Whatever every round preserves holds at the end of a sale of Y. -/
theorem loopY_inv {fl : FloatEnv} {dy o : Decimal} {P : Pool → SwapAcc → Prop}
    (hg : ∀ {p a p1 g a1}, P p a → goalY p a = .ok (p1, g, a1) → P p1 a1)
    (hs : ∀ {p0 a0 p a g p' a'}, goalY p0 a0 = .ok (p, some g, a) → P p a →
      stepY fl dy o p a g = .ok (p', a') → P p' a')
    {n : Nat} {p : Pool} {a : SwapAcc} {p' : Pool} {r : SwapOutput} (hP : P p a)
    (h : loopY fl dy o n p a = .ok (p', r)) : ∃ a', P p' a' ∧ finishY p' a' = .ok (p', r) ∧
        (a'.recv.lt dy = .ok false ∨ ∃ p0 a0, goalY p0 a0 = .ok (p', none, a')) := by
  obtain ⟨a', h1, ⟨h2, h3⟩ | ⟨h2, h3⟩⟩ := loopY_rule (H := P)
    (G := fun p g a => P p a ∧ ∃ p0 a0, goalY p0 a0 = .ok (p, g, a))
    (fun hP _ h => ⟨hg hP h, _, _, h⟩) (fun hG h => hG.2.elim fun _ hG' => hG'.elim fun _ hG' => hs hG' hG.1 h) hP h
  · exact ⟨a', h2, h1, .inl h3⟩
  · exact ⟨a', h2, h1, .inr h3⟩

/-! ### What the totals of a step add up to -/

theorem swapOutput_ok {recv send adj fee avg ep : Decimal} {r : SwapOutput}
    (h : SwapOutput.new recv send adj fee avg ep = .ok r) :
    0 ≤ recv.toRat ∧ send.toRat ≤ 0 ∧ (recv.toRat = 0 ↔ send.toRat = 0) ∧ 0 ≤ adj.toRat ∧ 0 ≤ fee.toRat ∧
    0 ≤ avg.toRat ∧ 0 ≤ ep.toRat ∧ r = ⟨recv, send, adj, fee, avg, ep⟩ := by
  unfold SwapOutput.new at h
  rw [ite_ok] at h; rcases h with ⟨_, h⟩ | ⟨h1, h⟩; · simp [rpanic] at h
  rw [ite_ok] at h; rcases h with ⟨_, h⟩ | ⟨h2, h⟩; · simp [rpanic] at h
  rw [ite_ok] at h; rcases h with ⟨_, h⟩ | ⟨h3, h⟩; · simp [rpanic] at h
  rw [ite_ok] at h; rcases h with ⟨_, h⟩ | ⟨h4, h⟩; · simp [rpanic] at h
  rw [ite_ok] at h; rcases h with ⟨_, h⟩ | ⟨h5, h⟩; · simp [rpanic] at h
  rw [ite_ok] at h; rcases h with ⟨_, h⟩ | ⟨h6, h⟩; · simp [rpanic] at h
  cases h
  rw [isNegative_toRat, not_lt] at h1
  rw [isPositive_toRat, not_lt] at h2
  simp only [Bool.and_eq_true, Bool.or_eq_true, Bool.not_eq_true', not_and, not_or, isNegative_toRat,
    isPositive_toRat, isZero_toRat, not_lt] at h3 h4 h5 h6
  have h4' : recv.toRat = 0 → send.toRat = 0 := by
    intro h; have := h4 h
    rw [Bool.not_eq_false] at this; exact isZero_toRat.1 this
  refine ⟨h1, h2, ⟨h4', fun hs => ?_⟩, h5.1, h5.2, h6.1, h6.2, rfl⟩
  by_contra hr
  exact h3 (lt_of_le_of_ne h1 (Ne.symm hr)) hs

theorem finishX_ok {p p' : Pool} {a : SwapAcc} {r : SwapOutput} (h : finishX p a = .ok (p', r)) :
    p' = p ∧ r.recv = a.recv ∧ r.send = a.send ∧ r.sendHmmAdj = a.adj ∧ r.recvFee = a.fee ∧
    0 ≤ r.recv.toRat ∧ r.send.toRat ≤ 0 ∧ (r.recv.toRat = 0 ↔ r.send.toRat = 0) ∧
    p.gs.rp.powInt 2 = .ok r.endPrice ∧
    (if a.recv.isZero then .ok PoolMath.zero else a.send.neg.div a.recv) = .ok r.avgPrice := by
  unfold finishX at h
  steps at h
  obtain ⟨avg, h1, ep, h2, o, h3, h⟩ := h
  simp only [Prod.mk.injEq] at h
  obtain ⟨rfl, rfl⟩ := h
  obtain ⟨g1, g2, g3, _, _, _, _, rfl⟩ := swapOutput_ok h3
  exact ⟨rfl, rfl, rfl, rfl, rfl, g1, g2, g3, h2, h1⟩

theorem finishY_ok {p p' : Pool} {a : SwapAcc} {r : SwapOutput} (h : finishY p a = .ok (p', r)) :
    p' = p ∧ r.recv = a.recv ∧ r.send = a.send ∧ r.sendHmmAdj = a.adj ∧ r.recvFee = a.fee ∧
    0 ≤ r.recv.toRat ∧ r.send.toRat ≤ 0 ∧ (r.recv.toRat = 0 ↔ r.send.toRat = 0) ∧
    p.gs.rp.powInt 2 = .ok r.endPrice ∧
    (if a.send.isZero then .ok PoolMath.zero else a.recv.div a.send.neg) = .ok r.avgPrice := by
  unfold finishY at h
  steps at h
  obtain ⟨avg, h1, ep, h2, o, h3, h⟩ := h
  simp only [Prod.mk.injEq] at h
  obtain ⟨rfl, rfl⟩ := h
  obtain ⟨g1, g2, g3, _, _, _, _, rfl⟩ := swapOutput_ok h3
  exact ⟨rfl, rfl, rfl, rfl, rfl, g1, g2, g3, h2, h1⟩

end Hmm.Pool
