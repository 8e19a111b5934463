import Verif.Proofs.Active
import Verif.Props.Swap

/-
How swaps end: with the whole offer taken, or with no initialised tick left in the direction of travel.
-/

namespace Hmm.Pool

open Decimal PoolMath

/-- No initialised tick at or below the current one. -/
def NoneLeft (p : Pool) : Prop := ∀ t ∈ p.ticks.map (·.1), p.gs.tick < t

/-- No initialised tick above the current one. -/
def NoneRight (p : Pool) : Prop := ∀ t ∈ p.ticks.map (·.1), t ≤ p.gs.tick

theorem leftLimit_none {p : Pool} (hb : Booked p) {s : Nat} (hs : p.gs.tick ≤ s)
    (h : p.leftLimit s = .ok none) : NoneLeft p := by
  obtain ⟨t, e1, e2⟩ := leftLimit_ok h
  intro k hk
  rw [show Nat.min s p.gs.tick = p.gs.tick from Nat.min_eq_right hs] at e1
  by_contra hlt
  have hkt : k ≤ t := (C26_down e1).2.2 k (hb.grid hk) (not_lt.1 hlt)
  have := (List.find?_eq_none.1 e2.symm) k (mem_tickKeys.2 hk)
  simp at this
  omega

theorem rightLimit_none {p : Pool} {s : Nat} (hs : s ≤ p.gs.tick)
    (h : p.rightLimit s p.gs.tick = .ok none) : NoneRight p := by
  obtain ⟨t, e1, ⟨rfl, e2⟩ | ⟨e0, e2⟩⟩ := rightLimit_ok h
  · intro k hk
    have := (List.find?_eq_none.1 e2.symm) k (mem_tickKeys.2 hk)
    simpa using this
  · have := snap_le e1
    omega

theorem tryLeft_none : ∀ {tks : List Nat} {p p' : Pool} {rp : Decimal}, Booked p →
    tryInRangeLeft tks p = .ok (p', none, rp) → (∀ t ∈ tks, p'.gs.tick < t) ∨ NoneLeft p' := by
  intro tks
  induction tks with
  | nil => intro p p' rp _ _; exact .inl (by simp)
  | cons tk tks ih =>
    intro p p' rp hb h
    have hle := (tryInRangeLeft_ok h).2.2.1
    unfold tryInRangeLeft at h
    rw [ite_ok] at h
    rcases h with ⟨h0, h⟩ | ⟨_, h⟩
    · refine (ih hb h).imp_left fun k t ht => ?_
      rcases List.mem_cons.1 ht with rfl | ht
      · omega
      · exact k t ht
    rw [bind_ok] at h; obtain ⟨rp1, _, h⟩ := h
    rw [bind_ok] at h; obtain ⟨p1, h2, h⟩ := h
    rw [bind_ok] at h; obtain ⟨g1, h3, h⟩ := h
    rw [ite_ok] at h; rcases h with ⟨_, h⟩ | ⟨_, h⟩; · simp [rpanic] at h
    have hb1 := hb.walk h2
    have ht := cross_left_tick h2
    rw [ite_ok] at h
    rcases h with ⟨_, h⟩ | ⟨_, h⟩
    · simp only [pure_ok, Prod.mk.injEq] at h
      obtain ⟨rfl, rfl, rfl⟩ := h
      exact .inr (leftLimit_none hb1 le_rfl h3)
    · have hle1 := (tryInRangeLeft_ok h).2.2.1
      refine (ih hb1 h).imp_left fun k t ht => ?_
      rcases List.mem_cons.1 ht with rfl | ht
      · omega
      · exact k t ht

theorem tryRight_none : ∀ {tks : List Nat} {p p' : Pool} {rp : Decimal},
    tryInRangeRight tks p = .ok (p', none, rp) → (∀ t ∈ tks, t ≤ p'.gs.tick) ∨ NoneRight p' := by
  intro tks
  induction tks with
  | nil => intro p p' rp _; exact .inl (by simp)
  | cons tk tks ih =>
    intro p p' rp h
    have hle := (tryInRangeRight_ok h).2.2.1
    unfold tryInRangeRight at h
    rw [ite_ok] at h
    rcases h with ⟨h0, h⟩ | ⟨_, h⟩
    · refine (ih h).imp_left fun k t ht => ?_
      rcases List.mem_cons.1 ht with rfl | ht
      · omega
      · exact k t ht
    rw [bind_ok] at h; obtain ⟨rp1, _, h⟩ := h
    rw [bind_ok] at h; obtain ⟨p1, h2, h⟩ := h
    rw [bind_ok] at h; obtain ⟨g1, h3, h⟩ := h
    rw [ite_ok] at h; rcases h with ⟨_, h⟩ | ⟨_, h⟩; · simp [rpanic] at h
    have ht := cross_right_tick h2
    rw [ite_ok] at h
    rcases h with ⟨_, h⟩ | ⟨_, h⟩
    · simp only [pure_ok, Prod.mk.injEq] at h
      obtain ⟨rfl, rfl, rfl⟩ := h
      rw [← ht] at h3
      exact .inr (rightLimit_none le_rfl h3)
    · have hle1 := (tryInRangeRight_ok h).2.2.1
      refine (ih h).imp_left fun k t ht => ?_
      rcases List.mem_cons.1 ht with rfl | ht
      · omega
      · exact k t ht

theorem goalX_none {p p' : Pool} {a a' : SwapAcc} (hb : Booked p) (ha : p.gs.tick ≤ a.currT)
    (h : goalX p a = .ok (p', none, a')) : NoneLeft p' := by
  obtain ⟨hs, _, _, _, ⟨rfl, rfl, _, h⟩ | ⟨_, _, h⟩⟩ := goalX_ok h
  · exact leftLimit_none hb ha h
  · rcases tryLeft_none hb h with h | h
    · intro t ht
      exact h t (mem_tickKeys.2 (hs.keys ▸ ht))
    · exact h

theorem goalY_none {p p' : Pool} {a a' : SwapAcc} (ha : a.currT ≤ p.gs.tick)
    (h : goalY p a = .ok (p', none, a')) : NoneRight p' := by
  obtain ⟨hs, _, _, _, ⟨rfl, rfl, _, h⟩ | ⟨_, _, h⟩⟩ := goalY_ok h
  · exact rightLimit_none ha h
  · rcases tryRight_none h with h | h
    · intro t ht
      exact h t (mem_tickKeys.2 (hs.keys ▸ ht))
    · exact h

theorem currT_stepX {fl : FloatEnv} {dx o : Decimal} {p p' : Pool} {a a' : SwapAcc} {g : Nat}
    (hs : stepX fl dx o p a g = .ok (p', a')) : p'.gs.tick ≤ a'.currT := by
  obtain ⟨rem, r, ysum, newY, c1, chk, rs, newX, xFee, yAdj, fees, p1, _, _, _, _, _, _, _, _, _, _,
    _, _, _, e, _, _, _, _, _, hp1, h18⟩ := stepX_ok hs
  rcases h18 with ⟨_, e2, _, hc⟩ | ⟨_, _, _, rfl⟩ | ⟨_, rfl⟩
  · have := cross_left_tick hc
    omega
  · rw [hp1, e]
  · rw [hp1, e]

theorem currT_stepY {fl : FloatEnv} {dx o : Decimal} {p p' : Pool} {a a' : SwapAcc} {g : Nat}
    (hs : stepY fl dx o p a g = .ok (p', a')) : a'.currT ≤ p'.gs.tick := by
  obtain ⟨rem, r, ysum, newY, c1, chk, rs, newX, xFee, yAdj, fees, p1, _, _, _, _, _, _, _, _, _, _,
    _, _, _, e, _, _, _, _, _, hp1, h18⟩ := stepY_ok hs
  rcases h18 with ⟨_, e2, _, hc⟩ | ⟨_, _, _, rfl⟩ | ⟨_, rfl⟩
  · have := cross_right_tick hc
    omega
  · rw [hp1, e]
  · rw [hp1, e]

theorem outcomeX {fl : FloatEnv} {p p' : Pool} {dx o : Decimal} {r : SwapOutput} (hb : Booked p)
    (h : p.executeSwapFromX fl dx o = .ok (p', r)) : dx.toRat ≤ r.recv.toRat ∨ NoneLeft p' := by
  unfold executeSwapFromX at h
  rw [ite_ok] at h
  rcases h with ⟨_, h⟩ | ⟨_, h⟩
  · simp [rpanic] at h
  obtain ⟨a', hf, ⟨_, h2⟩ | h2⟩ := loopX_rule (H := fun q a => Booked q ∧ q.gs.tick ≤ a.currT)
    (G := fun q g a => Booked q ∧ (g = none → NoneLeft q))
    (fun hP _ hg => ⟨goalX_inv hP.1 hg fun hp _ _ h => hp.walk h, fun hn => by subst hn; exact goalX_none hP.1 hP.2 hg⟩)
    (fun hG hs => ⟨hG.1.stepX hs, currT_stepX hs⟩) ⟨hb, le_rfl⟩ h
  · left
    rw [(finishX_ok hf).2.1]
    exact (lt_le h2).2.2 rfl
  · exact .inr (h2.2 rfl)

theorem outcomeY {fl : FloatEnv} {p p' : Pool} {dy o : Decimal} {r : SwapOutput}
    (h : p.executeSwapFromY fl dy o = .ok (p', r)) : dy.toRat ≤ r.recv.toRat ∨ NoneRight p' := by
  unfold executeSwapFromY at h
  rw [ite_ok] at h
  rcases h with ⟨_, h⟩ | ⟨_, h⟩
  · simp [rpanic] at h
  obtain ⟨a', hf, ⟨_, h2⟩ | h2⟩ := loopY_rule (H := fun q a => a.currT ≤ q.gs.tick)
    (G := fun q g a => g = none → NoneRight q)
    (fun hP _ hg => fun hn => by subst hn; exact goalY_none hP hg)
    (fun hG hs => currT_stepY hs) le_rfl h
  · left
    rw [(finishY_ok hf).2.1]
    exact (lt_le h2).2.2 rfl
  · exact .inr (h2 rfl)

end Hmm.Pool
