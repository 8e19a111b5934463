import Verif.Proofs.Solvency
import Verif.Props.Swap

/-
In every state a pool can get into its root price is at least one, the price of tick zero.
-/

namespace Hmm.Pool

open Decimal PoolMath

theorem tryLeft_ge : ∀ {tks : List Nat} {p p' : Pool} {goal : Option Nat} {rp : Decimal},
    tryInRangeLeft tks p = .ok (p', goal, rp) → 1 ≤ p.gs.rp.toRat → 1 ≤ p'.gs.rp.toRat := by
  intro tks
  induction tks with
  | nil =>
    intro p p' goal rp h h1
    simp only [tryInRangeLeft, ok_inj, Prod.mk.injEq] at h
    obtain ⟨rfl, rfl, rfl⟩ := h
    exact h1
  | cons tk tks ih =>
    intro p p' goal rp h h1
    unfold tryInRangeLeft at h
    rw [ite_ok] at h
    rcases h with ⟨_, h⟩ | ⟨htk, h⟩
    · exact ih h h1
    rw [bind_ok] at h; obtain ⟨rp1, hrp, h⟩ := h
    rw [bind_ok] at h; obtain ⟨p1, h2, h⟩ := h
    rw [bind_ok] at h; obtain ⟨g1, h3, h⟩ := h
    rw [ite_ok] at h; rcases h with ⟨_, h⟩ | ⟨_, h⟩; · simp [rpanic] at h
    have hp1 : 1 ≤ p1.gs.rp.toRat := by
      rw [(crossTick_frame h2).2.2.2.2.2.2.2.2.2.2.2.1]
      exact tickPrice_ge hrp
    rw [ite_ok] at h
    rcases h with ⟨_, h⟩ | ⟨_, h⟩
    · simp only [pure_ok, Prod.mk.injEq] at h
      obtain ⟨rfl, rfl, rfl⟩ := h
      exact hp1
    · exact ih h hp1

theorem tryRight_ge : ∀ {tks : List Nat} {p p' : Pool} {goal : Option Nat} {rp : Decimal},
    tryInRangeRight tks p = .ok (p', goal, rp) → 1 ≤ p.gs.rp.toRat → 1 ≤ p'.gs.rp.toRat := by
  intro tks
  induction tks with
  | nil =>
    intro p p' goal rp h h1
    simp only [tryInRangeRight, ok_inj, Prod.mk.injEq] at h
    obtain ⟨rfl, rfl, rfl⟩ := h
    exact h1
  | cons tk tks ih =>
    intro p p' goal rp h h1
    unfold tryInRangeRight at h
    rw [ite_ok] at h
    rcases h with ⟨_, h⟩ | ⟨htk, h⟩
    · exact ih h h1
    rw [bind_ok] at h; obtain ⟨rp1, hrp, h⟩ := h
    rw [bind_ok] at h; obtain ⟨p1, h2, h⟩ := h
    rw [bind_ok] at h; obtain ⟨g1, h3, h⟩ := h
    rw [ite_ok] at h; rcases h with ⟨_, h⟩ | ⟨_, h⟩; · simp [rpanic] at h
    have hp1 : 1 ≤ p1.gs.rp.toRat := by
      rw [(crossTick_frame h2).2.2.2.2.2.2.2.2.2.2.2.1]
      exact tickPrice_ge hrp
    rw [ite_ok] at h
    rcases h with ⟨_, h⟩ | ⟨_, h⟩
    · simp only [pure_ok, Prod.mk.injEq] at h
      obtain ⟨rfl, rfl, rfl⟩ := h
      exact hp1
    · exact ih h hp1

/-- The pool's price and the price the round starts at. -/
def Floored (p : Pool) (a : SwapAcc) : Prop := 1 ≤ p.gs.rp.toRat ∧ 1 ≤ a.currRp.toRat

theorem Floored.stepX {fl : FloatEnv} {dx o : Decimal} {p p' : Pool} {a a' : SwapAcc} {g : Nat}
    (h : stepX fl dx o p a g = .ok (p', a')) : Floored p' a' := by
  obtain ⟨rem, r, ysum, newY, c1, chk, rs, newX, xFee, yAdj, fees, p1, _, h2, _, _, _, _, _, _, _, _,
    _, _, _, _, hr, _, _, _, _, hp1, hc⟩ := stepX_ok h
  obtain ⟨q, hq, h3, _⟩ := C46_from_x h2
  have h1 : 1 ≤ r.endRp.toRat := (tickPrice_ge hq).trans h3
  refine ⟨?_, hr ▸ h1⟩
  have e : p1.gs.rp = r.endRp := by rw [hp1]
  rcases hc with ⟨_, _, _, hc⟩ | ⟨_, _, _, rfl⟩ | ⟨_, rfl⟩
  · rw [(crossTick_frame hc).2.2.2.2.2.2.2.2.2.2.2.1, e]; exact h1
  · rw [e]; exact h1
  · rw [e]; exact h1

theorem Floored.stepY {fl : FloatEnv} {dy o : Decimal} {p p' : Pool} {a a' : SwapAcc} {g : Nat} (h0 : Floored p a)
    (h : stepY fl dy o p a g = .ok (p', a')) : Floored p' a' := by
  obtain ⟨rem, r, ysum, newY, c1, chk, rs, newX, xFee, yAdj, fees, p1, _, h2, _, _, _, _, _, _, _, _,
    _, _, _, _, hr, _, _, _, _, hp1, hc⟩ := stepY_ok h
  obtain ⟨q, hq, h3, _⟩ := C46_from_y h2
  have h1 : 1 ≤ r.endRp.toRat := h0.2.trans h3
  refine ⟨?_, hr ▸ h1⟩
  have e : p1.gs.rp = r.endRp := by rw [hp1]
  rcases hc with ⟨_, _, _, hc⟩ | ⟨_, _, _, rfl⟩ | ⟨_, rfl⟩
  · rw [(crossTick_frame hc).2.2.2.2.2.2.2.2.2.2.2.1, e]; exact h1
  · rw [e]; exact h1
  · rw [e]; exact h1

theorem Floored.goalX {p p' : Pool} {a a' : SwapAcc} {g : Option Nat} (h0 : Floored p a)
    (h : goalX p a = .ok (p', g, a')) : Floored p' a' := by
  obtain ⟨_, _, _, _, ⟨rfl, rfl, _, _⟩ | ⟨_, h2, h3⟩⟩ := goalX_ok h
  · exact h0
  · have := tryLeft_ge h3 h0.1
    exact ⟨this, h2 ▸ this⟩

theorem Floored.goalY {p p' : Pool} {a a' : SwapAcc} {g : Option Nat} (h0 : Floored p a)
    (h : goalY p a = .ok (p', g, a')) : Floored p' a' := by
  obtain ⟨_, _, _, _, ⟨rfl, rfl, _, _⟩ | ⟨_, h2, h3⟩⟩ := goalY_ok h
  · exact h0
  · have := tryRight_ge h3 h0.1
    exact ⟨this, h2 ▸ this⟩

theorem Floored.sellX {fl : FloatEnv} {p p' : Pool} {dx o : Decimal} {r : SwapOutput}
    (h : p.executeSwapFromX fl dx o = .ok (p', r)) (h0 : 1 ≤ p.gs.rp.toRat) : 1 ≤ p'.gs.rp.toRat := by
  unfold executeSwapFromX at h
  rw [ite_ok] at h; rcases h with ⟨_, h⟩ | ⟨_, h⟩; · simp [rpanic] at h
  have hf : Floored p p.acc0 := ⟨h0, h0⟩
  obtain ⟨_, k, _⟩ := loopX_inv (P := Floored) (fun h1 h2 => h1.goalX h2) (fun _ _ h => .stepX h) hf h
  exact k.1

theorem Floored.sellY {fl : FloatEnv} {p p' : Pool} {dy o : Decimal} {r : SwapOutput}
    (h : p.executeSwapFromY fl dy o = .ok (p', r)) (h0 : 1 ≤ p.gs.rp.toRat) : 1 ≤ p'.gs.rp.toRat := by
  unfold executeSwapFromY at h
  rw [ite_ok] at h; rcases h with ⟨_, h⟩ | ⟨_, h⟩; · simp [rpanic] at h
  have hf : Floored p p.acc0 := ⟨h0, h0⟩
  obtain ⟨_, k, _⟩ := loopY_inv (P := Floored) (fun h1 h2 => h1.goalY h2) (fun _ h1 h => h1.stepY h) hf h
  exact k.1

/-- Ticks start at price one, so prices do. -/
theorem rp_ge_one {p : Pool} (h : Reachable p) : 1 ≤ p.gs.rp.toRat := by
  induction h with
  | new h =>
    obtain ⟨_, _, _, _, _, _, hq, rfl⟩ := new_ok h
    exact tickPrice_ge hq
  | step _ h ih =>
    cases h with
    | deposit h =>
      obtain ⟨_, _, _, _, _, _, _, _, _, _, _, _, _, _, _, _, _, _, _, _, _, _, _, _, hs, _, _, _, _, hf, rfl⟩ := deposit_ok h
      simp only
      rw [(payFees_frame hf).2.2.1, setPosition_frame hs]; exact ih
    | withdraw h =>
      obtain ⟨_, _, _, _, _, _, _, _, _, _, _, _, _, _, _, _, _, hs, _, _, _, _, _, _, _, _, _, _, _, hf, rfl⟩ := withdraw_ok h
      simp only
      rw [(payFees_frame hf).2.2.1, setPosition_frame hs]; exact ih
    | sellX h => exact Floored.sellX h ih
    | sellY h => exact Floored.sellY h ih

end Hmm.Pool
