import Verif.Model.FloatPool
import Verif.Proofs.Maps
import Verif.Proofs.Basic

/-
What the operations of the floating-point pool do, stated once for the proofs about it.
-/

namespace Hmm.Flt.Pool

open F64

/-- The record a tick has, or would be given. -/
def tickOr (p : Pool) (t : Nat) : TickState :=
  match mapGet t p.ticks with
  | some ts => ts
  | none => ⟨F64.zero, F64.zero, if p.gs.tick ≥ t then p.gs.fees else Fees.zero⟩

theorem ite_eq_ok {α : Type} {b : Bool} {x y : R α} {a : α} :
    (if b = true then x else y) = .ok a ↔ (b = true ∧ x = .ok a) ∨ (b = false ∧ y = .ok a) := by
  cases b <;> simp

theorem initializeTick_ok {p p' : Pool} {t : Nat} (h : p.initializeTick t = .ok p') :
    p' = { p with ticks := treeInsert t ⟨F64.zero, F64.zero, if p.gs.tick ≥ t then p.gs.fees else Fees.zero⟩ p.ticks } := by
  unfold initializeTick at h
  have h0 : lt F64.zero F64.zero = false := by decide +kernel
  simp only [TickState.new, h0, Bool.false_eq_true, if_false] at h
  rw [bind_ok] at h
  obtain ⟨_, h1, h⟩ := h
  rw [ok_inj] at h1; subst h1
  rw [pure_ok] at h
  exact h.symm

/-- `update_tick`: only the record of that tick changes. -/
theorem updateTick_ok {p p' : Pool} {t : Nat} {d : F64} {up : Bool} (h : p.updateTick t d up = .ok p') :
    lt (add (p.tickOr t).liqGross d) F64.zero = false ∧
    ∃ ticks, p' = { p with ticks := ticks } ∧
      (∀ j, j ≠ t → mapGet j ticks = mapGet j p.ticks) ∧
      (mapGet t ticks = if F64.eq (add (p.tickOr t).liqGross d) F64.zero then none
        else some ⟨add (p.tickOr t).liqNet (if up then d.neg else d), add (p.tickOr t).liqGross d,
          (p.tickOr t).fees⟩) ∧
      (Ascending p.ticks → Ascending ticks) := by
  unfold updateTick at h
  rw [bind_ok] at h
  obtain ⟨q, h1, h⟩ := h
  -- after initialisation the record is there
  have hq : mapGet t q.ticks = some (p.tickOr t) ∧ (∃ ticks, q = { p with ticks := ticks }) ∧
      (∀ j, j ≠ t → mapGet j q.ticks = mapGet j p.ticks) ∧ (Ascending p.ticks → Ascending q.ticks) := by
    unfold tickOr
    cases hg : mapGet t p.ticks with
    | none =>
      rw [hg] at h1
      have := initializeTick_ok h1
      subst this
      exact ⟨mapGet_treeInsert_same _ _ _, ⟨_, rfl⟩, fun j hj => mapGet_treeInsert_other hj _ _,
        fun ha => ha.treeInsert _ _⟩
    | some ts =>
      rw [hg] at h1
      simp only [ok_inj] at h1
      subst h1
      exact ⟨hg, ⟨p.ticks, rfl⟩, fun _ _ => rfl, id⟩
  obtain ⟨hg, ⟨ticks0, rfl⟩, ho, ha⟩ := hq
  rw [hg] at h
  simp only at h ho ha hg
  rw [bind_ok] at h
  obtain ⟨ts, h2, h⟩ := h
  unfold TickState.addLiqGross TickState.addLiqNet at h2
  simp only at h2
  rw [ite_eq_ok] at h2
  rcases h2 with ⟨_, h2⟩ | ⟨h0, h2⟩
  · exact absurd h2 (by simp [rpanic])
  rw [ok_inj] at h2; subst h2
  refine ⟨h0, ?_⟩
  have hk : t ∈ ticks0.map (·.1) := by rw [← mapGet_isSome, hg]; rfl
  simp only at h
  split at h
  · rename_i he
    rw [pure_ok] at h; subst h
    rw [if_pos he]
    refine ⟨_, rfl, fun j hj => ?_, mapGet_erase_same _ _, fun hA => ((ha hA).set hk _).erase _⟩
    rw [mapGet_erase_other hj, mapGet_set_other hj, ho j hj]
  · rename_i he
    rw [pure_ok] at h; subst h
    rw [if_neg he]
    refine ⟨_, rfl, fun j hj => ?_, mapGet_set_same _ _ _, fun hA => (ha hA).set hk _⟩
    rw [mapGet_set_other hj, ho j hj]

/-- `cross_tick`: the tick's fee record is flipped, the liquidity changes by its net liquidity. -/
theorem crossTick_ok {p p' : Pool} {t : Nat} {ltr : Bool} (h : p.crossTick t ltr = .ok p') :
    ∃ ts new, mapGet t p.ticks = some ts ∧ (ltr = false → p.gs.tick = t) ∧
      (ltr = true → new = t) ∧ (ltr = false → 1 ≤ t ∧ new = tkToPossibleTk (t - 1) p.spacing false) ∧
      lt (add p.gs.liq (if ltr then ts.liqNet else ts.liqNet.neg)) F64.zero = false ∧
      p' = { p with
        ticks := mapSet t { ts with fees := ⟨sub p.gs.fees.fx ts.fees.fx, sub p.gs.fees.fy ts.fees.fy,
          sub p.gs.fees.hx ts.fees.hx, sub p.gs.fees.hy ts.fees.hy⟩ } p.ticks,
        gs := { p.gs with tick := new, liq := add p.gs.liq (if ltr then ts.liqNet else ts.liqNet.neg) } } := by
  unfold crossTick at h
  rw [ite_ok] at h
  rcases h with ⟨_, h⟩ | ⟨h0, h⟩
  · exact absurd h (by simp [rpanic])
  cases hg : mapGet t p.ticks with
  | none => rw [hg] at h; exact absurd h (by simp [rpanic])
  | some ts =>
    rw [hg] at h
    simp only at h
    rw [bind_ok] at h
    obtain ⟨new, h1, h⟩ := h
    refine ⟨ts, new, rfl, ?_, ?_, ?_, ?_⟩
    · intro hl; subst hl
      by_contra hne
      exact h0 (by simp [hne])
    · intro hl; subst hl
      simp only [if_true, ok_inj] at h1
      exact h1.symm
    · intro hl; subst hl
      simp only [Bool.false_eq_true, if_false] at h1
      rw [bind_ok] at h1
      obtain ⟨k, h2, h1⟩ := h1
      rw [checkedSub_ok] at h2
      rw [pure_ok] at h1
      obtain ⟨h2, rfl⟩ := h2
      exact ⟨h2, h1.symm⟩
    · unfold addGlblLiq GlobalState.addLiq setTick at h
      rw [bind_ok] at h
      obtain ⟨g, h3, h⟩ := h
      rw [ite_eq_ok] at h3
      rcases h3 with ⟨_, h3⟩ | ⟨h4, h3⟩
      · exact absurd h3 (by simp [rpanic])
      · rw [ok_inj] at h3; subst h3
        rw [pure_ok] at h
        exact ⟨h4, h.symm⟩

/-- Everything that `tickKeys` depends on: the keys. -/
theorem crossTick_keys {p p' : Pool} {t : Nat} {ltr : Bool} (h : p.crossTick t ltr = .ok p') :
    p'.ticks.map (·.1) = p.ticks.map (·.1) := by
  obtain ⟨ts, new, hg, _, _, _, _, rfl⟩ := crossTick_ok h
  exact keys_set (by rw [← mapGet_isSome, hg]; rfl)

/-- What is kept by crossings and by whatever leaves ticks, positions and settings alone is kept by a swap. -/
structure Kept (P : Pool → Prop) : Prop where
  frame : ∀ p p' : Pool, p'.ticks = p.ticks → p'.positions = p.positions → p'.spacing = p.spacing →
    p'.c = p.c → p'.feeRate = p.feeRate → p'.gs.liq = p.gs.liq → P p → P p'
  cross : ∀ (p p' : Pool) (t : Nat) (d : Bool), p.crossTick t d = .ok p' → P p → P p'

theorem tryInRangeLeft_kept {P : Pool → Prop} (hP : Kept P) {m : LibM} {tks : List Nat} {p p' : Pool} {g : Option Nat}
    {rp : F64} (h : tryInRangeLeft m tks p = .ok (p', g, rp)) (h0 : P p) : P p' := by
  induction tks generalizing p with
  | nil => simp only [tryInRangeLeft, ok_inj, Prod.mk.injEq] at h; rw [← h.1]; exact h0
  | cons tk tks ih =>
    rw [tryInRangeLeft] at h
    rw [ite_ok] at h
    rcases h with ⟨_, h⟩ | ⟨_, h⟩
    · exact ih h h0
    · simp only at h
      rw [bind_ok] at h
      obtain ⟨q, h1, h⟩ := h
      have hq : P q := hP.cross _ _ _ _ h1 (hP.frame p _ rfl rfl rfl rfl rfl rfl h0)
      rw [ite_eq_ok] at h
      rcases h with ⟨_, h⟩ | ⟨_, h⟩
      · exact absurd h (by simp [rpanic])
      · rw [ite_eq_ok] at h
        rcases h with ⟨_, h⟩ | ⟨_, h⟩
        · rw [pure_ok, Prod.mk.injEq] at h; rw [← h.1]; exact hq
        · exact ih h hq

theorem tryInRangeRight_kept {P : Pool → Prop} (hP : Kept P) {m : LibM} {tks : List Nat} {p p' : Pool} {g : Option Nat}
    {rp : F64} (h : tryInRangeRight m tks p = .ok (p', g, rp)) (h0 : P p) : P p' := by
  induction tks generalizing p with
  | nil => simp only [tryInRangeRight, ok_inj, Prod.mk.injEq] at h; rw [← h.1]; exact h0
  | cons tk tks ih =>
    rw [tryInRangeRight] at h
    rw [ite_ok] at h
    rcases h with ⟨_, h⟩ | ⟨_, h⟩
    · exact ih h h0
    · simp only at h
      rw [bind_ok] at h
      obtain ⟨q, h1, h⟩ := h
      have hq : P q := hP.cross _ _ _ _ h1 (hP.frame p _ rfl rfl rfl rfl rfl rfl h0)
      rw [bind_ok] at h
      obtain ⟨goal, _, h⟩ := h
      rw [ite_eq_ok] at h
      rcases h with ⟨_, h⟩ | ⟨_, h⟩
      · exact absurd h (by simp [rpanic])
      · rw [ite_eq_ok] at h
        rcases h with ⟨_, h⟩ | ⟨_, h⟩
        · rw [pure_ok, Prod.mk.injEq] at h; rw [← h.1]; exact hq
        · exact ih h hq

theorem tryGetInRange_kept {P : Pool → Prop} (hP : Kept P) {m : LibM} {p p' : Pool} {d : Bool} {g : Option Nat}
    {rp : F64} (h : p.tryGetInRange m d = .ok (p', g, rp)) (h0 : P p) : P p' := by
  unfold tryGetInRange at h
  rw [ite_eq_ok] at h
  rcases h with ⟨_, h⟩ | ⟨_, h⟩
  · exact absurd h (by simp [rpanic])
  · rw [bind_ok] at h
    obtain ⟨⟨q, goal, rp'⟩, h1, h⟩ := h
    simp only at h
    have hq : P q := by
      cases d
      · exact tryInRangeLeft_kept hP h1 h0
      · exact tryInRangeRight_kept hP h1 h0
    rw [ite_eq_ok] at h
    rcases h with ⟨_, h⟩ | ⟨_, h⟩
    · exact absurd h (by simp [rpanic])
    · rw [pure_ok, Prod.mk.injEq] at h; rw [← h.1]; exact hq

/-- The pool after a round of a sale of X, before a tick is crossed. -/
def midX (p : Pool) (r : SwapWithinResult) : Pool :=
  { p with
    gs := { p.gs with
      tick := r.endTick, rp := r.endRp,
      fees := if lt F64.zero p.gs.liq then
          { p.gs.fees with
            fx := add p.gs.fees.fx (div r.recvFee p.gs.liq), hy := add p.gs.fees.hy (div r.sendHmmAdj p.gs.liq) }
        else p.gs.fees },
    x := add p.x r.recv, y := add p.y (sub r.send r.sendHmmAdj),
    xFee := add p.xFee r.recvFee, yAdj := add p.yAdj r.sendHmmAdj }

/-- The pool after a round of a sale of Y, before a tick is crossed. -/
def midY (p : Pool) (r : SwapWithinResult) : Pool :=
  { p with
    gs := { p.gs with
      tick := r.endTick, rp := r.endRp,
      fees := if lt F64.zero p.gs.liq then
          { p.gs.fees with
            fy := add p.gs.fees.fy (div r.recvFee p.gs.liq), hx := add p.gs.fees.hx (div r.sendHmmAdj p.gs.liq) }
        else p.gs.fees },
    y := add p.y r.recv, x := add p.x (sub r.send r.sendHmmAdj),
    yFee := add p.yFee r.recvFee, xAdj := add p.xAdj r.sendHmmAdj }

/-- A round of a sale of X, step by step. -/
theorem stepX_ok {m : LibM} {dx o : F64} {p p' : Pool} {a a' : SwapAcc} {gtk : Nat}
    (h : stepX m dx o p a gtk = .ok (p', a')) :
    ∃ r, p.swapWithinX m a.currRp gtk p.gs.liq (sub dx a.recv) o = .ok r ∧
      le F64.zero (sub (add p.y r.send) r.sendHmmAdj) = true ∧
      le (add r.recv r.recvFee) (sub dx a.recv) = true ∧
      a' = ⟨add a.recv (add r.recv r.recvFee), add a.send r.send, add a.adj r.sendHmmAdj,
        add a.fee r.recvFee, r.endTick, r.endRp⟩ ∧
      ((r.cross = false ∧ p' = p.midX r) ∨
       (r.cross = true ∧ r.endTick = gtk ∧
        ((mapGet gtk p.ticks = none ∧ p' = p.midX r) ∨
         ((mapGet gtk p.ticks).isSome ∧ (p.midX r).crossTick gtk false = .ok p')))) := by
  unfold stepX at h
  rw [bind_ok] at h
  obtain ⟨r, h1, h⟩ := h
  rw [bind_ok] at h
  obtain ⟨_, h2, h⟩ := h
  rw [rassert_ok] at h2
  rw [bind_ok] at h
  obtain ⟨_, h3, h⟩ := h
  rw [rassert_ok] at h3
  refine ⟨r, h1, h2, h3, ?_⟩
  have hm : ∀ (q : Pool), q = (let p := { (p.setTick r.endTick).setRp r.endRp with
      x := add p.x r.recv, y := add p.y (sub r.send r.sendHmmAdj),
      xFee := add p.xFee r.recvFee, yAdj := add p.yAdj r.sendHmmAdj }
    let p := if lt F64.zero p.gs.liq then
        p.setFees { p.gs.fees with
          fx := add p.gs.fees.fx (div r.recvFee p.gs.liq), hy := add p.gs.fees.hy (div r.sendHmmAdj p.gs.liq) }
      else p
    p) → q = p.midX r := by
    intro q hq
    rw [hq]
    unfold midX setFees setRp setTick
    simp only
    cases lt F64.zero p.gs.liq <;> simp
  replace hm := hm _ rfl
  simp only at hm h
  rw [hm] at h
  rw [bind_ok] at h
  obtain ⟨q, h4, h⟩ := h
  rw [pure_ok, Prod.mk.injEq] at h
  obtain ⟨rfl, rfl⟩ := h
  refine ⟨rfl, ?_⟩
  rw [ite_eq_ok] at h4
  rcases h4 with ⟨hc, h4⟩ | ⟨hc, h4⟩
  · right
    rw [bind_ok] at h4
    obtain ⟨_, h5, h4⟩ := h4
    rw [rassert_ok, decide_eq_true_eq] at h5
    refine ⟨hc, h5, ?_⟩
    rw [ite_eq_ok] at h4
    rcases h4 with ⟨h6, h4⟩ | ⟨h6, h4⟩
    · exact Or.inr ⟨h6, h4⟩
    · rw [ok_inj] at h4
      have h7 : mapGet gtk (p.midX r).ticks = none := by simpa using h6
      exact Or.inl ⟨h7, h4.symm⟩
  · left
    rw [ok_inj] at h4
    exact ⟨hc, h4.symm⟩

theorem stepX_kept {P : Pool → Prop} (hP : Kept P) {m : LibM} {dx o : F64} {p p' : Pool} {a a' : SwapAcc} {gtk : Nat}
    (h : stepX m dx o p a gtk = .ok (p', a')) (h0 : P p) : P p' := by
  obtain ⟨r, _, _, _, _, h⟩ := stepX_ok h
  have hm : P (p.midX r) := hP.frame p _ rfl rfl rfl rfl rfl rfl h0
  rcases h with ⟨_, rfl⟩ | ⟨_, _, ⟨_, rfl⟩ | ⟨_, h⟩⟩
  · exact hm
  · exact hm
  · exact hP.cross _ _ _ _ h hm

/-- A round of a sale of Y, step by step. -/
theorem stepY_ok {m : LibM} {dx o : F64} {p p' : Pool} {a a' : SwapAcc} {gtk : Nat}
    (h : stepY m dx o p a gtk = .ok (p', a')) :
    ∃ r, p.swapWithinY m a.currRp gtk p.gs.liq (sub dx a.recv) o = .ok r ∧
      le F64.zero (sub (add p.x r.send) r.sendHmmAdj) = true ∧
      le (add r.recv r.recvFee) (sub dx a.recv) = true ∧
      a' = ⟨add a.recv (add r.recv r.recvFee), add a.send r.send, add a.adj r.sendHmmAdj,
        add a.fee r.recvFee, r.endTick, r.endRp⟩ ∧
      ((r.cross = false ∧ p' = p.midY r) ∨
       (r.cross = true ∧ r.endTick = gtk ∧
        ((mapGet gtk p.ticks = none ∧ p' = p.midY r) ∨
         ((mapGet gtk p.ticks).isSome ∧ (p.midY r).crossTick gtk true = .ok p')))) := by
  unfold stepY at h
  rw [bind_ok] at h
  obtain ⟨r, h1, h⟩ := h
  rw [bind_ok] at h
  obtain ⟨_, h2, h⟩ := h
  rw [rassert_ok] at h2
  rw [bind_ok] at h
  obtain ⟨_, h3, h⟩ := h
  rw [rassert_ok] at h3
  refine ⟨r, h1, h2, h3, ?_⟩
  have hm : ∀ (q : Pool), q = (let p := { (p.setTick r.endTick).setRp r.endRp with
      y := add p.y r.recv, x := add p.x (sub r.send r.sendHmmAdj),
      yFee := add p.yFee r.recvFee, xAdj := add p.xAdj r.sendHmmAdj }
    let p := if lt F64.zero p.gs.liq then
        p.setFees { p.gs.fees with
          fy := add p.gs.fees.fy (div r.recvFee p.gs.liq), hx := add p.gs.fees.hx (div r.sendHmmAdj p.gs.liq) }
      else p
    p) → q = p.midY r := by
    intro q hq
    rw [hq]
    unfold midY setFees setRp setTick
    simp only
    cases lt F64.zero p.gs.liq <;> simp
  replace hm := hm _ rfl
  simp only at hm h
  rw [hm] at h
  rw [bind_ok] at h
  obtain ⟨q, h4, h⟩ := h
  rw [pure_ok, Prod.mk.injEq] at h
  obtain ⟨rfl, rfl⟩ := h
  refine ⟨rfl, ?_⟩
  rw [ite_eq_ok] at h4
  rcases h4 with ⟨hc, h4⟩ | ⟨hc, h4⟩
  · right
    rw [bind_ok] at h4
    obtain ⟨_, h5, h4⟩ := h4
    rw [rassert_ok, decide_eq_true_eq] at h5
    refine ⟨hc, h5, ?_⟩
    rw [ite_eq_ok] at h4
    rcases h4 with ⟨h6, h4⟩ | ⟨h6, h4⟩
    · exact Or.inr ⟨h6, h4⟩
    · rw [ok_inj] at h4
      have h7 : mapGet gtk (p.midY r).ticks = none := by simpa using h6
      exact Or.inl ⟨h7, h4.symm⟩
  · left
    rw [ok_inj] at h4
    exact ⟨hc, h4.symm⟩

theorem stepY_kept {P : Pool → Prop} (hP : Kept P) {m : LibM} {dx o : F64} {p p' : Pool} {a a' : SwapAcc} {gtk : Nat}
    (h : stepY m dx o p a gtk = .ok (p', a')) (h0 : P p) : P p' := by
  obtain ⟨r, _, _, _, _, h⟩ := stepY_ok h
  have hm : P (p.midY r) := hP.frame p _ rfl rfl rfl rfl rfl rfl h0
  rcases h with ⟨_, rfl⟩ | ⟨_, _, ⟨_, rfl⟩ | ⟨_, h⟩⟩
  · exact hm
  · exact hm
  · exact hP.cross _ _ _ _ h hm

theorem finishX_pool {p p' : Pool} {a : SwapAcc} {o : SwapOutput} (h : finishX p a = .ok (p', o)) : p' = p := by
  unfold finishX at h
  simp only at h
  rw [bind_ok] at h
  obtain ⟨_, _, h⟩ := h
  rw [pure_ok, Prod.mk.injEq] at h
  exact h.1.symm

theorem finishY_pool {p p' : Pool} {a : SwapAcc} {o : SwapOutput} (h : finishY p a = .ok (p', o)) : p' = p := by
  unfold finishY at h
  simp only at h
  rw [bind_ok] at h
  obtain ⟨_, _, h⟩ := h
  rw [pure_ok, Prod.mk.injEq] at h
  exact h.1.symm

/-- One round of the loop of a sale of X, up to the choice of the goal. -/
theorem loopX_succ {m : LibM} {dx o : F64} {fuel : Nat} {p p' : Pool} {a : SwapAcc} {out : SwapOutput}
    (h : loopX m dx o (fuel + 1) p a = .ok (p', out)) :
    (lt a.recv dx = false ∧ finishX p a = .ok (p', out)) ∨
    (lt a.recv dx = true ∧ ∃ q goal rp,
      ((lt F64.zero p.gs.liq = true ∧ q = p ∧ goal = p.leftLimit a.currT ∧ rp = a.currRp) ∨
       (lt F64.zero p.gs.liq = false ∧ p.tryGetInRange m false = .ok (q, goal, rp))) ∧
      ((goal = none ∧ finishX q { a with currRp := rp } = .ok (p', out)) ∨
       ∃ gtk q' a', goal = some gtk ∧ stepX m dx o q { a with currRp := rp } gtk = .ok (q', a') ∧
        loopX m dx o fuel q' a' = .ok (p', out))) := by
  rw [loopX] at h
  rw [ite_eq_ok] at h
  rcases h with ⟨hl, h⟩ | ⟨hl, h⟩
  · right
    refine ⟨hl, ?_⟩
    rw [bind_ok] at h
    obtain ⟨⟨q, goal, a1⟩, h1, h⟩ := h
    simp only at h
    have key : ∃ rp, a1 = { a with currRp := rp } ∧
        ((lt F64.zero p.gs.liq = true ∧ q = p ∧ goal = p.leftLimit a.currT ∧ rp = a.currRp) ∨
         (lt F64.zero p.gs.liq = false ∧ p.tryGetInRange m false = .ok (q, goal, rp))) := by
      rw [ite_eq_ok] at h1
      rcases h1 with ⟨hz, h1⟩ | ⟨hz, h1⟩
      · rw [ok_inj, Prod.mk.injEq, Prod.mk.injEq] at h1
        exact ⟨a.currRp, h1.2.2.symm, Or.inl ⟨hz, h1.1.symm, h1.2.1.symm, rfl⟩⟩
      · rw [bind_ok] at h1
        obtain ⟨⟨q1, g1, r1⟩, h2, h1⟩ := h1
        simp only [pure_ok, Prod.mk.injEq] at h1
        obtain ⟨rfl, rfl, rfl⟩ := h1
        exact ⟨r1, rfl, Or.inr ⟨hz, h2⟩⟩
    obtain ⟨rp, rfl, hk⟩ := key
    refine ⟨q, goal, rp, hk, ?_⟩
    cases goal with
    | none => left; exact ⟨rfl, h⟩
    | some gtk =>
      right
      simp only at h
      rw [bind_ok] at h
      obtain ⟨⟨q', a'⟩, h3, h⟩ := h
      exact ⟨gtk, q', a', rfl, h3, h⟩
  · left; exact ⟨hl, h⟩

/-- One round of the loop of a sale of Y, up to the choice of the goal. -/
theorem loopY_succ {m : LibM} {dx o : F64} {fuel : Nat} {p p' : Pool} {a : SwapAcc} {out : SwapOutput}
    (h : loopY m dx o (fuel + 1) p a = .ok (p', out)) :
    (lt a.recv dx = false ∧ finishY p a = .ok (p', out)) ∨
    (lt a.recv dx = true ∧ ∃ q goal rp,
      ((lt F64.zero p.gs.liq = true ∧ q = p ∧ p.rightLimit a.currT p.gs.tick = .ok goal ∧ rp = a.currRp) ∨
       (lt F64.zero p.gs.liq = false ∧ p.tryGetInRange m true = .ok (q, goal, rp))) ∧
      ((goal = none ∧ finishY q { a with currRp := rp } = .ok (p', out)) ∨
       ∃ gtk q' a', goal = some gtk ∧ stepY m dx o q { a with currRp := rp } gtk = .ok (q', a') ∧
        loopY m dx o fuel q' a' = .ok (p', out))) := by
  rw [loopY] at h
  rw [ite_eq_ok] at h
  rcases h with ⟨hl, h⟩ | ⟨hl, h⟩
  · right
    refine ⟨hl, ?_⟩
    rw [bind_ok] at h
    obtain ⟨⟨q, goal, a1⟩, h1, h⟩ := h
    simp only at h
    have key : ∃ rp, a1 = { a with currRp := rp } ∧
        ((lt F64.zero p.gs.liq = true ∧ q = p ∧ p.rightLimit a.currT p.gs.tick = .ok goal ∧ rp = a.currRp) ∨
         (lt F64.zero p.gs.liq = false ∧ p.tryGetInRange m true = .ok (q, goal, rp))) := by
      rw [ite_eq_ok] at h1
      rcases h1 with ⟨hz, h1⟩ | ⟨hz, h1⟩
      · rw [bind_ok] at h1
        obtain ⟨g1, h2, h1⟩ := h1
        rw [pure_ok, Prod.mk.injEq, Prod.mk.injEq] at h1
        obtain ⟨rfl, rfl, rfl⟩ := h1
        exact ⟨a.currRp, rfl, Or.inl ⟨hz, rfl, h2, rfl⟩⟩
      · rw [bind_ok] at h1
        obtain ⟨⟨q1, g1, r1⟩, h2, h1⟩ := h1
        simp only [pure_ok, Prod.mk.injEq] at h1
        obtain ⟨rfl, rfl, rfl⟩ := h1
        exact ⟨r1, rfl, Or.inr ⟨hz, h2⟩⟩
    obtain ⟨rp, rfl, hk⟩ := key
    refine ⟨q, goal, rp, hk, ?_⟩
    cases goal with
    | none => left; exact ⟨rfl, h⟩
    | some gtk =>
      right
      simp only at h
      rw [bind_ok] at h
      obtain ⟨⟨q', a'⟩, h3, h⟩ := h
      exact ⟨gtk, q', a', rfl, h3, h⟩
  · left; exact ⟨hl, h⟩

theorem loopX_kept {P : Pool → Prop} (hP : Kept P) {m : LibM} {dx o : F64} {fuel : Nat} {p p' : Pool} {a : SwapAcc}
    {out : SwapOutput} (h : loopX m dx o fuel p a = .ok (p', out)) (h0 : P p) : P p' := by
  induction fuel generalizing p a with
  | zero => exact absurd h (by simp [loopX])
  | succ fuel ih =>
    rcases loopX_succ h with ⟨_, h⟩ | ⟨_, q, goal, rp, hq, h⟩
    · rw [finishX_pool h]; exact h0
    · have hq' : P q := by
        rcases hq with ⟨_, rfl, _⟩ | ⟨_, hq⟩
        · exact h0
        · exact tryGetInRange_kept hP hq h0
      rcases h with ⟨_, h⟩ | ⟨gtk, q', a', _, h1, h⟩
      · rw [finishX_pool h]; exact hq'
      · exact ih h (stepX_kept hP h1 hq')

theorem loopY_kept {P : Pool → Prop} (hP : Kept P) {m : LibM} {dx o : F64} {fuel : Nat} {p p' : Pool} {a : SwapAcc}
    {out : SwapOutput} (h : loopY m dx o fuel p a = .ok (p', out)) (h0 : P p) : P p' := by
  induction fuel generalizing p a with
  | zero => exact absurd h (by simp [loopY])
  | succ fuel ih =>
    rcases loopY_succ h with ⟨_, h⟩ | ⟨_, q, goal, rp, hq, h⟩
    · rw [finishY_pool h]; exact h0
    · have hq' : P q := by
        rcases hq with ⟨_, rfl, _⟩ | ⟨_, hq⟩
        · exact h0
        · exact tryGetInRange_kept hP hq h0
      rcases h with ⟨_, h⟩ | ⟨gtk, q', a', _, h1, h⟩
      · rw [finishY_pool h]; exact hq'
      · exact ih h (stepY_kept hP h1 hq')

theorem swapX_kept {P : Pool → Prop} (hP : Kept P) {m : LibM} {dx o : F64} {fuel : Nat} {p p' : Pool}
    {out : SwapOutput} (h : p.executeSwapFromX m fuel dx o = .ok (p', out)) (h0 : P p) : P p' := by
  unfold executeSwapFromX at h
  rw [ite_eq_ok] at h
  rcases h with ⟨_, h⟩ | ⟨_, h⟩
  · exact absurd h (by simp [rpanic])
  · exact loopX_kept hP h h0

theorem swapY_kept {P : Pool → Prop} (hP : Kept P) {m : LibM} {dx o : F64} {fuel : Nat} {p p' : Pool}
    {out : SwapOutput} (h : p.executeSwapFromY m fuel dx o = .ok (p', out)) (h0 : P p) : P p' := by
  unfold executeSwapFromY at h
  rw [ite_eq_ok] at h
  rcases h with ⟨_, h⟩ | ⟨_, h⟩
  · exact absurd h (by simp [rpanic])
  · exact loopY_kept hP h h0

/-! ### Positions -/

/-- The outcome of the position-map part of `_set_position`. -/
theorem setPositionMap_ok {pos pos' : List (PositionKey × PositionState)} {key : PositionKey} {d base : F64}
    {nf old : Fees} (h : setPositionMap pos key d nf = .ok (pos', old, base)) :
    (mapGet key pos = none ∧ lt d F64.zero = false ∧ pos' = mapSet key ⟨d, Fees.zero⟩ pos ∧ old = Fees.zero ∧
      base = F64.zero) ∨
    (∃ poz, mapGet key pos = some poz ∧ old = poz.fees ∧ base = poz.liq ∧
      (lt d F64.zero = true → lt (add poz.liq d) F64.zero = false) ∧
      ((F64.eq (add poz.liq d) F64.zero = true ∧ pos' = mapErase key pos) ∨
       (F64.eq (add poz.liq d) F64.zero = false ∧ lt (add poz.liq d) F64.zero = false ∧
        pos' = mapSet key ⟨add poz.liq d, nf⟩ pos))) := by
  unfold setPositionMap at h
  cases hg : mapGet key pos with
  | none =>
    rw [hg] at h
    simp only at h
    left
    rw [ite_eq_ok] at h
    rcases h with ⟨_, h⟩ | ⟨h0, h⟩
    · exact absurd h (by simp [rpanic])
    · rw [bind_ok] at h
      obtain ⟨ps, h1, h⟩ := h
      unfold PositionState.new at h1
      rw [h0] at h1
      simp only [Bool.false_eq_true, if_false, ok_inj] at h1
      subst h1
      simp only [pure_ok, Prod.mk.injEq] at h
      exact ⟨rfl, h0, h.1.symm, h.2.1.symm, h.2.2.symm⟩
  | some poz =>
    rw [hg] at h
    simp only at h
    right
    rw [ite_eq_ok] at h
    rcases h with ⟨_, h⟩ | ⟨h0, h⟩
    · exact absurd h (by simp [rpanic])
    · refine ⟨poz, rfl, ?_⟩
      have hc : lt d F64.zero = true → lt (add poz.liq d) F64.zero = false := by
        intro hd; rw [hd, Bool.true_and] at h0; exact h0
      rw [ite_eq_ok] at h
      rcases h with ⟨h1, h⟩ | ⟨h1, h⟩
      · simp only [pure_ok, Prod.mk.injEq] at h
        exact ⟨h.2.1.symm, h.2.2.symm, hc, Or.inl ⟨h1, h.1.symm⟩⟩
      · rw [bind_ok] at h
        obtain ⟨poz', h2, h⟩ := h
        unfold PositionState.addLiq at h2
        rw [ite_eq_ok] at h2
        rcases h2 with ⟨_, h2⟩ | ⟨h3, h2⟩
        · exact absurd h2 (by simp [rpanic])
        · rw [ok_inj] at h2; subst h2
          simp only [pure_ok, Prod.mk.injEq] at h
          exact ⟨h.2.1.symm, h.2.2.symm, hc, Or.inr ⟨h1, h3, h.1.symm⟩⟩

/-- `_set_position`, step by step. -/
theorem setPosition_ok {p p' : Pool} {user lower upper : Nat} {d : F64} {f : Fees}
    (h : p.setPosition user lower upper d = .ok (p', f)) :
    ∃ (nf old : Fees) (base : F64) (pos : List (PositionKey × PositionState)) (q1 q2 : Pool),
      p.feeRng (·.fx) lower upper = .ok nf.fx ∧ p.feeRng (·.fy) lower upper = .ok nf.fy ∧
      p.feeRng (·.hx) lower upper = .ok nf.hx ∧ p.feeRng (·.hy) lower upper = .ok nf.hy ∧
      setPositionMap p.positions ⟨user, lower, upper⟩ d nf = .ok (pos, old, base) ∧
      (le F64.zero (sub nf.fx old.fx) && le F64.zero (sub nf.fy old.fy) && le F64.zero (sub nf.hx old.hx) &&
        le F64.zero (sub nf.hy old.hy)) = true ∧
      updateTick { p with positions := pos } lower d false = .ok q1 ∧ q1.updateTick upper d true = .ok q2 ∧
      ((p.gs.tick ≥ lower ∧ p.gs.tick < upper ∧ lt (add p.gs.liq d) F64.zero = false ∧
        p' = { q2 with gs := { p.gs with liq := add p.gs.liq d } }) ∨
       (¬(p.gs.tick ≥ lower ∧ p.gs.tick < upper) ∧ p' = q2)) ∧
      f = ⟨mul base (sub nf.fx old.fx), mul base (sub nf.fy old.fy), mul base (sub nf.hx old.hx),
        mul base (sub nf.hy old.hy)⟩ := by
  unfold setPosition at h
  rw [bind_ok] at h; obtain ⟨fx, h1, h⟩ := h
  rw [bind_ok] at h; obtain ⟨fy, h2, h⟩ := h
  rw [bind_ok] at h; obtain ⟨hx, h3, h⟩ := h
  rw [bind_ok] at h; obtain ⟨hy, h4, h⟩ := h
  rw [bind_ok] at h; obtain ⟨⟨pos, old, base⟩, h5, h⟩ := h
  simp only at h
  rw [bind_ok] at h; obtain ⟨_, h6, h⟩ := h
  rw [rassert_ok] at h6
  rw [bind_ok] at h; obtain ⟨q1, h7, h⟩ := h
  rw [bind_ok] at h; obtain ⟨q2, h8, h⟩ := h
  rw [bind_ok] at h; obtain ⟨q3, h9, h⟩ := h
  rw [pure_ok, Prod.mk.injEq] at h
  obtain ⟨rfl, rfl⟩ := h
  have e1 : q1.gs = p.gs := by obtain ⟨_, t, rfl, _⟩ := updateTick_ok h7; rfl
  have e2 : q2.gs = p.gs := by obtain ⟨_, t, e, _⟩ := updateTick_ok h8; rw [e]; exact e1
  refine ⟨⟨fx, fy, hx, hy⟩, old, base, pos, q1, q2, h1, h2, h3, h4, h5, h6, h7, h8, ?_, rfl⟩
  rw [ite_ok] at h9
  rcases h9 with ⟨⟨c1, c2⟩, h9⟩ | ⟨c, h9⟩
  · left
    unfold addGlblLiq GlobalState.addLiq at h9
    rw [bind_ok] at h9
    obtain ⟨g, h10, h9⟩ := h9
    rw [ite_eq_ok] at h10
    rcases h10 with ⟨_, h10⟩ | ⟨h11, h10⟩
    · exact absurd h10 (by simp [rpanic])
    · rw [ok_inj] at h10; subst h10
      rw [pure_ok] at h9
      rw [e2] at c1 c2 h11 h9
      exact ⟨c1, c2, h11, h9.symm⟩
  · right
    rw [ok_inj] at h9
    rw [e2] at c
    exact ⟨c, h9.symm⟩

/-- `try_get_in_range` changes nothing but ticks, price, tick and liquidity. -/
theorem tryGetInRange_frame {m : LibM} {p p' : Pool} {d : Bool} {g : Option Nat} {rp : F64}
    (h : p.tryGetInRange m d = .ok (p', g, rp)) :
    ∃ ticks liq tick r, p' = { p with ticks := ticks, gs := { p.gs with liq := liq, tick := tick, rp := r } } := by
  have hcross : ∀ {q q' : Pool} {t : Nat} {d : Bool}, q.crossTick t d = .ok q' →
      (∃ ticks liq tick r, q = { p with ticks := ticks, gs := { p.gs with liq := liq, tick := tick, rp := r } }) →
      ∃ ticks liq tick r, q' = { p with ticks := ticks, gs := { p.gs with liq := liq, tick := tick, rp := r } } := by
    intro q q' t d hc hq
    obtain ⟨_, _, _, _, rfl⟩ := hq
    obtain ⟨_, _, _, _, _, _, _, rfl⟩ := crossTick_ok hc
    exact ⟨_, _, _, _, rfl⟩
  have left : ∀ (tks : List Nat) (q : Pool),
      (∃ ticks liq tick r, q = { p with ticks := ticks, gs := { p.gs with liq := liq, tick := tick, rp := r } }) →
      tryInRangeLeft m tks q = .ok (p', g, rp) →
      ∃ ticks liq tick r, p' = { p with ticks := ticks, gs := { p.gs with liq := liq, tick := tick, rp := r } } := by
    intro tks
    induction tks with
    | nil =>
      intro q hq h
      simp only [tryInRangeLeft, ok_inj, Prod.mk.injEq] at h; rw [← h.1]; exact hq
    | cons tk tks ih =>
      intro q hq h
      rw [tryInRangeLeft] at h
      rw [ite_ok] at h
      rcases h with ⟨_, h⟩ | ⟨_, h⟩
      · exact ih q hq h
      · simp only at h
        rw [bind_ok] at h
        obtain ⟨q1, h1, h⟩ := h
        have hq1 := hcross h1 (by obtain ⟨_, _, _, _, rfl⟩ := hq; exact ⟨_, _, _, _, rfl⟩)
        rw [ite_eq_ok] at h
        rcases h with ⟨_, h⟩ | ⟨_, h⟩
        · exact absurd h (by simp [rpanic])
        · rw [ite_eq_ok] at h
          rcases h with ⟨_, h⟩ | ⟨_, h⟩
          · rw [pure_ok, Prod.mk.injEq] at h; rw [← h.1]; exact hq1
          · exact ih q1 hq1 h
  have right : ∀ (tks : List Nat) (q : Pool),
      (∃ ticks liq tick r, q = { p with ticks := ticks, gs := { p.gs with liq := liq, tick := tick, rp := r } }) →
      tryInRangeRight m tks q = .ok (p', g, rp) →
      ∃ ticks liq tick r, p' = { p with ticks := ticks, gs := { p.gs with liq := liq, tick := tick, rp := r } } := by
    intro tks
    induction tks with
    | nil =>
      intro q hq h
      simp only [tryInRangeRight, ok_inj, Prod.mk.injEq] at h; rw [← h.1]; exact hq
    | cons tk tks ih =>
      intro q hq h
      rw [tryInRangeRight] at h
      rw [ite_ok] at h
      rcases h with ⟨_, h⟩ | ⟨_, h⟩
      · exact ih q hq h
      · simp only at h
        rw [bind_ok] at h
        obtain ⟨q1, h1, h⟩ := h
        have hq1 := hcross h1 (by obtain ⟨_, _, _, _, rfl⟩ := hq; exact ⟨_, _, _, _, rfl⟩)
        rw [bind_ok] at h
        obtain ⟨_, _, h⟩ := h
        rw [ite_eq_ok] at h
        rcases h with ⟨_, h⟩ | ⟨_, h⟩
        · exact absurd h (by simp [rpanic])
        · rw [ite_eq_ok] at h
          rcases h with ⟨_, h⟩ | ⟨_, h⟩
          · rw [pure_ok, Prod.mk.injEq] at h; rw [← h.1]; exact hq1
          · exact ih q1 hq1 h
  unfold tryGetInRange at h
  rw [ite_eq_ok] at h
  rcases h with ⟨_, h⟩ | ⟨_, h⟩
  · exact absurd h (by simp [rpanic])
  · rw [bind_ok] at h
    obtain ⟨⟨q, goal, rp'⟩, h1, h⟩ := h
    simp only at h
    rw [ite_eq_ok] at h
    rcases h with ⟨_, h⟩ | ⟨_, h⟩
    · exact absurd h (by simp [rpanic])
    · rw [pure_ok, Prod.mk.injEq, Prod.mk.injEq] at h
      obtain ⟨rfl, rfl, rfl⟩ := h
      cases d
      · exact left _ p ⟨_, _, _, _, rfl⟩ h1
      · exact right _ p ⟨_, _, _, _, rfl⟩ h1

/-- What the closing block reports. -/
theorem finishX_ok {p p' : Pool} {a : SwapAcc} {o : SwapOutput} (h : finishX p a = .ok (p', o)) :
    p' = p ∧ o.recv = a.recv ∧ o.send = a.send ∧ o.sendHmmAdj = a.adj ∧ o.recvFee = a.fee ∧
    o.endPrice = mul p.gs.rp p.gs.rp := by
  unfold finishX SwapOutput.new at h
  simp only at h
  rw [bind_ok] at h
  obtain ⟨_, h1, h⟩ := h
  rw [pure_ok, Prod.mk.injEq] at h
  obtain ⟨rfl, rfl⟩ := h
  repeat' rw [ite_eq_ok] at h1
  simp only [rpanic, reduceCtorEq, and_false, false_or, ok_inj] at h1
  obtain ⟨_, _, _, _, h1⟩ := h1
  rw [← h1]
  exact ⟨rfl, rfl, rfl, rfl, rfl, rfl⟩

theorem finishY_ok {p p' : Pool} {a : SwapAcc} {o : SwapOutput} (h : finishY p a = .ok (p', o)) :
    p' = p ∧ o.recv = a.recv ∧ o.send = a.send ∧ o.sendHmmAdj = a.adj ∧ o.recvFee = a.fee ∧
    o.endPrice = mul p.gs.rp p.gs.rp := by
  unfold finishY SwapOutput.new at h
  simp only at h
  rw [bind_ok] at h
  obtain ⟨_, h1, h⟩ := h
  rw [pure_ok, Prod.mk.injEq] at h
  obtain ⟨rfl, rfl⟩ := h
  repeat' rw [ite_eq_ok] at h1
  simp only [rpanic, reduceCtorEq, and_false, false_or, ok_inj] at h1
  obtain ⟨_, _, _, _, h1⟩ := h1
  rw [← h1]
  exact ⟨rfl, rfl, rfl, rfl, rfl, rfl⟩

/-- `deposit`, step by step. -/
theorem deposit_ok {m : LibM} {p p' : Pool} {r : Receipt} {user : Nat} {x y rpa rpb : F64}
    (h : p.deposit m user x y rpa rpb = .ok (p', r)) :
    ∃ lower upper rpaU rpbU liq q f,
      lower = p.rpToPossibleTick m rpa false ∧ upper = p.rpToPossibleTick m rpb false ∧
      rpaU = tickToRp m lower ∧ rpbU = tickToRp m upper ∧
      liq = (liqFromXYRpRng x y p.gs.rp rpaU rpbU).floor ∧
      lt x F64.zero = false ∧ lt y F64.zero = false ∧ lt x r.x = false ∧ lt y r.y = false ∧
      p.setPosition user lower upper liq = .ok (q, f) ∧
      p' = ({ q with x := add q.x r.x, y := add q.y r.y } : Pool).payFees f ∧
      r = ⟨xFromLRpRng liq p.gs.rp rpaU rpbU, yFromLRpRng liq p.gs.rp rpaU rpbU, f, sub (sub r.x f.fx) f.hx,
        sub (sub r.y f.fy) f.hy⟩ := by
  unfold deposit at h
  simp only at h
  rw [ite_eq_ok] at h
  rcases h with ⟨_, h⟩ | ⟨c0, h⟩
  · exact absurd h (by simp [rpanic])
  rw [ite_eq_ok] at h
  rcases h with ⟨_, h⟩ | ⟨c1, h⟩
  · exact absurd h (by simp [rpanic])
  rw [ite_eq_ok] at h
  rcases h with ⟨_, h⟩ | ⟨c2, h⟩
  · exact absurd h (by simp [rpanic])
  rw [bind_ok] at h
  obtain ⟨⟨q, f⟩, h1, h⟩ := h
  simp only [pure_ok, Prod.mk.injEq] at h
  obtain ⟨rfl, rfl⟩ := h
  rw [Bool.or_eq_false_iff] at c0
  exact ⟨_, _, _, _, _, q, f, rfl, rfl, rfl, rfl, rfl, c0.1, c0.2, c1, c2, h1, rfl, rfl⟩

/-- `withdraw`, step by step. -/
theorem withdraw_ok {m : LibM} {p p' : Pool} {r : Receipt} {user : Nat} {liq rpa rpb : F64}
    (h : p.withdraw m user liq rpa rpb = .ok (p', r)) :
    ∃ lower upper rpaU rpbU q f,
      lower = p.rpToPossibleTick m rpa false ∧ upper = p.rpToPossibleTick m rpb false ∧
      rpaU = tickToRp m lower ∧ rpbU = tickToRp m upper ∧ lt liq F64.zero = false ∧
      p.setPosition user lower upper liq.neg = .ok (q, f) ∧
      p' = ({ q with x := sub q.x r.x, y := sub q.y r.y } : Pool).payFees f ∧
      r = ⟨mul (xFromLRpRng liq q.gs.rp rpaU rpbU) adjWithdrawal, mul (yFromLRpRng liq q.gs.rp rpaU rpbU) adjWithdrawal,
        f, add (add r.x f.fx) f.hx, add (add r.y f.fy) f.hy⟩ := by
  unfold withdraw at h
  simp only at h
  rw [ite_eq_ok] at h
  rcases h with ⟨_, h⟩ | ⟨c0, h⟩
  · exact absurd h (by simp [rpanic])
  rw [bind_ok] at h
  obtain ⟨⟨q, f⟩, h1, h⟩ := h
  simp only [pure_ok, Prod.mk.injEq] at h
  obtain ⟨rfl, rfl⟩ := h
  exact ⟨_, _, _, _, q, f, rfl, rfl, rfl, rfl, c0, h1, rfl, rfl⟩

/-- What a change of a position leaves alone. -/
theorem setPosition_frame {p p' : Pool} {user lower upper : Nat} {d : F64} {f : Fees}
    (h : p.setPosition user lower upper d = .ok (p', f)) :
    ∃ ticks positions liq, p' = { p with ticks := ticks, positions := positions, gs := { p.gs with liq := liq } } ∧
      (∀ t, t ≠ lower → t ≠ upper → mapGet t ticks = mapGet t p.ticks) ∧
      (∀ k, k ≠ (⟨user, lower, upper⟩ : PositionKey) → mapGet k positions = mapGet k p.positions) ∧
      (Ascending p.ticks → Ascending ticks) ∧
      (liq = p.gs.liq ∨ (lower ≤ p.gs.tick ∧ p.gs.tick < upper ∧ liq = add p.gs.liq d)) := by
  obtain ⟨nf, old, base, pos, q1, q2, _, _, _, _, h5, _, h7, h8, h9, _⟩ := setPosition_ok h
  obtain ⟨_, t1, rfl, ho1, _, ha1⟩ := updateTick_ok h7
  obtain ⟨_, t2, rfl, ho2, _, ha2⟩ := updateTick_ok h8
  simp only at ho1 ho2 ha1 ha2
  have hp : ∀ k, k ≠ (⟨user, lower, upper⟩ : PositionKey) → mapGet k pos = mapGet k p.positions := by
    intro k hk
    rcases setPositionMap_ok h5 with ⟨_, _, rfl, _⟩ | ⟨poz, _, _, _, _, ⟨_, rfl⟩ | ⟨_, _, rfl⟩⟩
    · exact mapGet_set_other hk _ _
    · exact mapGet_erase_other hk _
    · exact mapGet_set_other hk _ _
  have ht : ∀ t, t ≠ lower → t ≠ upper → mapGet t t2 = mapGet t p.ticks := fun t h1 h2 => by
    rw [ho2 t h2, ho1 t h1]
  rcases h9 with ⟨c1, c2, _, rfl⟩ | ⟨_, rfl⟩
  · exact ⟨t2, pos, _, rfl, ht, hp, fun ha => ha2 (ha1 ha), Or.inr ⟨c1, c2, rfl⟩⟩
  · exact ⟨t2, pos, p.gs.liq, rfl, ht, hp, fun ha => ha2 (ha1 ha), Or.inl rfl⟩

end Hmm.Flt.Pool
