import Verif.Proofs.PriceFloor
import Verif.Props.Active

/-
C75: where a whole swap takes the price.
-/

namespace Hmm.Pool

open Decimal PoolMath
open Hmm.Sample hiding get

/-- The price of `q` has not risen over that of `p`, nor fallen below the lowest initialised tick of `p`. -/
def Fell (p q : Pool) : Prop :=
  q.ticks.map (·.1) = p.ticks.map (·.1) ∧ q.gs.rp.toRat ≤ p.gs.rp.toRat ∧
    (q.gs.rp = p.gs.rp ∨ ∃ k ∈ p.ticks.map (·.1), tickPrice k ≤ q.gs.rp.toRat)

/-- The price of `q` has not fallen below that of `p`, nor risen over the highest initialised tick of `p`. -/
def Rose (p q : Pool) : Prop :=
  q.ticks.map (·.1) = p.ticks.map (·.1) ∧ p.gs.rp.toRat ≤ q.gs.rp.toRat ∧
    (q.gs.rp = p.gs.rp ∨ ∃ k ∈ p.ticks.map (·.1), q.gs.rp.toRat ≤ tickPrice k)

theorem Fell.trans {p q r : Pool} (h : Fell p q) (h' : Fell q r) : Fell p r := by
  refine ⟨h'.1.trans h.1, h'.2.1.trans h.2.1, ?_⟩
  rcases h'.2.2 with e | ⟨k, hk, e⟩
  · rcases h.2.2 with e' | ⟨k, hk, e'⟩
    · exact .inl (e.trans e')
    · exact .inr ⟨k, hk, by rw [e]; exact e'⟩
  · exact .inr ⟨k, h.1 ▸ hk, e⟩

theorem Rose.trans {p q r : Pool} (h : Rose p q) (h' : Rose q r) : Rose p r := by
  refine ⟨h'.1.trans h.1, h.2.1.trans h'.2.1, ?_⟩
  rcases h'.2.2 with e | ⟨k, hk, e⟩
  · rcases h.2.2 with e' | ⟨k, hk, e'⟩
    · exact .inl (e.trans e')
    · exact .inr ⟨k, hk, by rw [e]; exact e'⟩
  · exact .inr ⟨k, h.1 ▸ hk, e⟩

theorem Fell.walk : ∀ {tks : List Nat} {p p' : Pool} {goal : Option Nat} {rp : Decimal},
    tryInRangeLeft tks p = .ok (p', goal, rp) →
    (∀ k ∈ tks, k ≤ p.gs.tick → k ∈ p.ticks.map (·.1) ∧ ∀ q, tickToRp k = .ok q → q.toRat ≤ p.gs.rp.toRat) → Fell p p' := by
  intro tks
  induction tks with
  | nil =>
    intro p p' goal rp h _
    simp only [tryInRangeLeft, ok_inj, Prod.mk.injEq] at h
    obtain ⟨rfl, rfl, rfl⟩ := h
    exact ⟨rfl, le_rfl, .inl rfl⟩
  | cons tk tks ih =>
    intro p p' goal rp h hk
    unfold tryInRangeLeft at h
    rw [ite_ok] at h
    rcases h with ⟨_, h⟩ | ⟨htk, h⟩
    · exact ih h fun k hm => hk k (List.mem_cons_of_mem _ hm)
    rw [bind_ok] at h; obtain ⟨rp1, hrp, h⟩ := h
    rw [bind_ok] at h; obtain ⟨p1, h2, h⟩ := h
    rw [bind_ok] at h; obtain ⟨g1, h3, h⟩ := h
    rw [ite_ok] at h; rcases h with ⟨_, h⟩ | ⟨_, h⟩; · simp [rpanic] at h
    obtain ⟨hm, hq⟩ := hk tk List.mem_cons_self (by omega)
    have e1 : p1.gs.rp = rp1 := (crossTick_frame h2).2.2.2.2.2.2.2.2.2.2.2.1
    have e2 : p1.ticks.map (·.1) = p.ticks.map (·.1) := (crossTick_frame h2).2.2.2.2.2.2.2.2.2.2.1
    have hf : Fell p p1 := ⟨e2, by rw [e1]; exact hq _ hrp, .inr ⟨tk, hm, by rw [e1, tickPrice_eq hrp]⟩⟩
    rw [ite_ok] at h
    rcases h with ⟨_, h⟩ | ⟨_, h⟩
    · simp only [pure_ok, Prod.mk.injEq] at h
      obtain ⟨rfl, rfl, rfl⟩ := h
      exact hf
    · have ht := cross_left_tick h2
      refine hf.trans (ih h fun k hm hle => ⟨?_, fun q hq => ?_⟩)
      · rw [e2]; exact (hk k (List.mem_cons_of_mem _ hm) (by omega)).1
      · rw [e1]; exact price_mono (by omega) hq hrp

theorem Rose.walk : ∀ {tks : List Nat} {p p' : Pool} {goal : Option Nat} {rp : Decimal},
    tryInRangeRight tks p = .ok (p', goal, rp) →
    (∀ k ∈ tks, p.gs.tick < k → k ∈ p.ticks.map (·.1) ∧ ∀ q, tickToRp k = .ok q → p.gs.rp.toRat ≤ q.toRat) → Rose p p' := by
  intro tks
  induction tks with
  | nil =>
    intro p p' goal rp h _
    simp only [tryInRangeRight, ok_inj, Prod.mk.injEq] at h
    obtain ⟨rfl, rfl, rfl⟩ := h
    exact ⟨rfl, le_rfl, .inl rfl⟩
  | cons tk tks ih =>
    intro p p' goal rp h hk
    unfold tryInRangeRight at h
    rw [ite_ok] at h
    rcases h with ⟨_, h⟩ | ⟨htk, h⟩
    · exact ih h fun k hm => hk k (List.mem_cons_of_mem _ hm)
    rw [bind_ok] at h; obtain ⟨rp1, hrp, h⟩ := h
    rw [bind_ok] at h; obtain ⟨p1, h2, h⟩ := h
    rw [bind_ok] at h; obtain ⟨g1, h3, h⟩ := h
    rw [ite_ok] at h; rcases h with ⟨_, h⟩ | ⟨_, h⟩; · simp [rpanic] at h
    obtain ⟨hm, hq⟩ := hk tk List.mem_cons_self (by omega)
    have e1 : p1.gs.rp = rp1 := (crossTick_frame h2).2.2.2.2.2.2.2.2.2.2.2.1
    have e2 : p1.ticks.map (·.1) = p.ticks.map (·.1) := (crossTick_frame h2).2.2.2.2.2.2.2.2.2.2.1
    have hf : Rose p p1 := ⟨e2, by rw [e1]; exact hq _ hrp, .inr ⟨tk, hm, by rw [e1, tickPrice_eq hrp]⟩⟩
    rw [ite_ok] at h
    rcases h with ⟨_, h⟩ | ⟨_, h⟩
    · simp only [pure_ok, Prod.mk.injEq] at h
      obtain ⟨rfl, rfl, rfl⟩ := h
      exact hf
    · have ht := cross_right_tick h2
      refine hf.trans (ih h fun k hm hle => ⟨?_, fun q hq => ?_⟩)
      · rw [e2]; exact (hk k (List.mem_cons_of_mem _ hm) (by omega)).1
      · rw [e1]; exact price_mono (by omega) hrp hq

theorem Fell.goal {p p' : Pool} {a a' : SwapAcc} {g : Option Nat} (hs : Sound p) (h : goalX p a = .ok (p', g, a')) :
    Fell p p' := by
  obtain ⟨_, _, _, _, ⟨rfl, rfl, _, _⟩ | ⟨_, _, h3⟩⟩ := goalX_ok h
  · exact ⟨rfl, le_rfl, .inl rfl⟩
  · refine .walk h3 fun k hk hle => ⟨mem_tickKeys.1 hk, fun q hq => ?_⟩
    exact (hs.cell k q (hs.booked.grid (mem_tickKeys.1 hk)) hq).1 hle

theorem Rose.goal {p p' : Pool} {a a' : SwapAcc} {g : Option Nat} (hs : Sound p) (h : goalY p a = .ok (p', g, a')) :
    Rose p p' := by
  obtain ⟨_, _, _, _, ⟨rfl, rfl, _, _⟩ | ⟨_, _, h3⟩⟩ := goalY_ok h
  · exact ⟨rfl, le_rfl, .inl rfl⟩
  · refine .walk h3 fun k hk hle => ⟨mem_tickKeys.1 hk, fun q hq => ?_⟩
    exact (hs.cell k q (hs.booked.grid (mem_tickKeys.1 hk)) hq).2 hle

theorem Fell.step {fl : FloatEnv} {dx o : Decimal} {p p' : Pool} {a a' : SwapAcc} {g : Nat} (ha : a.currRp = p.gs.rp)
    (hg : g ∈ p.ticks.map (·.1)) (h : stepX fl dx o p a g = .ok (p', a')) : Fell p p' := by
  obtain ⟨rem, r, ysum, newY, c1, chk, rs, newX, xFee, yAdj, fees, p1, _, h2, _, _, _, _, _, _, _, _,
    _, _, _, _, hr, _, _, _, _, hp1, hc⟩ := stepX_ok h
  obtain ⟨q, hq, h3, h4⟩ := C46_from_x h2
  rw [ha] at h4
  have key : p'.ticks.map (·.1) = p.ticks.map (·.1) ∧ p'.gs.rp = r.endRp := by
    rcases hc with ⟨_, _, _, hc⟩ | ⟨_, _, _, rfl⟩ | ⟨_, rfl⟩
    · have := crossTick_frame hc
      exact ⟨by rw [this.2.2.2.2.2.2.2.2.2.2.1, hp1], by rw [this.2.2.2.2.2.2.2.2.2.2.2.1, hp1]⟩
    · rw [hp1]; exact ⟨rfl, rfl⟩
    · rw [hp1]; exact ⟨rfl, rfl⟩
  exact ⟨key.1, by rw [key.2]; exact h4, .inr ⟨g, hg, by rw [key.2, tickPrice_eq hq]; exact h3⟩⟩

theorem Rose.step {fl : FloatEnv} {dy o : Decimal} {p p' : Pool} {a a' : SwapAcc} {g : Nat} (ha : a.currRp = p.gs.rp)
    (hg : g ∈ p.ticks.map (·.1)) (h : stepY fl dy o p a g = .ok (p', a')) : Rose p p' := by
  obtain ⟨rem, r, ysum, newY, c1, chk, rs, newX, xFee, yAdj, fees, p1, _, h2, _, _, _, _, _, _, _, _,
    _, _, _, _, hr, _, _, _, _, hp1, hc⟩ := stepY_ok h
  obtain ⟨q, hq, h3, h4⟩ := C46_from_y h2
  rw [ha] at h3
  have key : p'.ticks.map (·.1) = p.ticks.map (·.1) ∧ p'.gs.rp = r.endRp := by
    rcases hc with ⟨_, _, _, hc⟩ | ⟨_, _, _, rfl⟩ | ⟨_, rfl⟩
    · have := crossTick_frame hc
      exact ⟨by rw [this.2.2.2.2.2.2.2.2.2.2.1, hp1], by rw [this.2.2.2.2.2.2.2.2.2.2.2.1, hp1]⟩
    · rw [hp1]; exact ⟨rfl, rfl⟩
    · rw [hp1]; exact ⟨rfl, rfl⟩
  exact ⟨key.1, by rw [key.2]; exact h3, .inr ⟨g, hg, by rw [key.2, tickPrice_eq hq]; exact h4⟩⟩

/-- C75: in no state whatsoever is the root price below one. -/
theorem C75_floor {p : Pool} (hp : Reachable p) : 1 ≤ p.gs.rp.toRat := rp_ge_one hp

/-- C75 for sales of X: the price does not rise, and unless it stays exactly the same it does not fall below
the lowest initialised tick either. -/
theorem C75_sell_x {fl : FloatEnv} {p p' : Pool} {dx o : Decimal} {r : SwapOutput} (hp : ClearReachable p)
    (h : p.executeSwapFromX fl dx o = .ok (p', r)) : p'.gs.rp.toRat ≤ p.gs.rp.toRat ∧
      (p'.gs.rp = p.gs.rp ∨ ∃ k ∈ p.ticks.map (·.1), tickPrice k ≤ p'.gs.rp.toRat) := by
  have hs := Sound.clearReachable hp
  unfold executeSwapFromX at h
  rw [ite_ok] at h
  rcases h with ⟨_, h⟩ | ⟨h0, h⟩
  · simp [rpanic] at h
  have hd : dx.isPositive = true := by simpa using h0
  obtain ⟨a', hf, ⟨⟨_, hF⟩, _⟩ | ⟨_, hF⟩⟩ := loopX_rule (H := fun q a => PhaseX dx p q a ∧ Fell p q)
    (G := fun q g a => AimedX p q g a ∧ Fell p q)
    (fun hP hl hg => ⟨hP.1.goal hl hg, by
      rcases hP.1 with ⟨hs, _⟩ | ⟨hl', _⟩
      · exact hP.2.trans (.goal hs hg)
      · rw [hl] at hl'; cases hl'⟩)
    (fun hG hst => ⟨hG.1.step hd hst, hG.2.trans (.step hG.1.2.2.1 (hG.1.2.2.2 _ rfl).1 hst)⟩)
    ⟨.inl ⟨hs, .refl _, rfl, le_rfl⟩, rfl, le_rfl, .inl rfl⟩ h
  · exact hF.2
  · exact hF.2

/-- C75 for sales of Y: the price does not fall, and unless it stays exactly the same it does not rise above
the highest initialised tick either. -/
theorem C75_sell_y {fl : FloatEnv} {p p' : Pool} {dy o : Decimal} {r : SwapOutput} (hp : ClearReachable p)
    (h : p.executeSwapFromY fl dy o = .ok (p', r)) : p.gs.rp.toRat ≤ p'.gs.rp.toRat ∧
      (p'.gs.rp = p.gs.rp ∨ ∃ k ∈ p.ticks.map (·.1), p'.gs.rp.toRat ≤ tickPrice k) := by
  have hs := Sound.clearReachable hp
  unfold executeSwapFromY at h
  rw [ite_ok] at h
  rcases h with ⟨_, h⟩ | ⟨h0, h⟩
  · simp [rpanic] at h
  have hd : dy.isPositive = true := by simpa using h0
  obtain ⟨a', hf, ⟨⟨_, hF⟩, _⟩ | ⟨_, hF⟩⟩ := loopY_rule (H := fun q a => PhaseY dy p q a ∧ Rose p q)
    (G := fun q g a => AimedY p q g a ∧ Rose p q)
    (fun hP hl hg => ⟨hP.1.goal hl hg, by
      rcases hP.1 with ⟨hs, _⟩ | ⟨hl', _⟩
      · exact hP.2.trans (.goal hs hg)
      · rw [hl] at hl'; cases hl'⟩)
    (fun hG hst => ⟨hG.1.step hd hst, hG.2.trans (.step hG.1.2.2.1 (hG.1.2.2.2 _ rfl).1 hst)⟩)
    ⟨.inl ⟨hs, .refl _, rfl, rfl⟩, rfl, le_rfl, .inl rfl⟩ h
  · exact hF.2
  · exact hF.2

/-- A sale of 17 X takes the price of the sample pool down over tick 15, and a sale of 17 Y takes it up over
tick 25. -/
example : ClearReachable pool ∧
    (∃ p' r, pool.executeSwapFromX fl (D 17) zero = .ok (p', r) ∧ p'.gs.rp.value < pool.gs.rp.value ∧ p'.gs.tick < 15) ∧
    ∃ p' r, pool.executeSwapFromY fl (D 17) zero = .ok (p', r) ∧ pool.gs.rp.value < p'.gs.rp.value ∧ 25 ≤ p'.gs.tick := by
  refine ⟨pool_clear, ⟨(Sample.get (pool.executeSwapFromX fl (D 17) zero)).1, (Sample.get (pool.executeSwapFromX fl (D 17) zero)).2,
    by decide +kernel, by decide +kernel, by decide +kernel⟩, (Sample.get (pool.executeSwapFromY fl (D 17) zero)).1,
    (Sample.get (pool.executeSwapFromY fl (D 17) zero)).2, by decide +kernel, by decide +kernel, by decide +kernel⟩

end Hmm.Pool
