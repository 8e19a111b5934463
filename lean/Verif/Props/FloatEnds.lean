import Verif.Proofs.FloatEnds
import Verif.Props.FloatWithdraw

/-
C86: swaps of the floating-point pool end.
-/

namespace Hmm.Flt.Pool

open F64 Sample

/-- Does not run out of rounds. -/
def Halts {α : Type} (x : R α) : Prop := x ≠ .error .diverge

section
attribute [local irreducible] unit limit

theorem halts_bind {α β : Type} {x : R α} {f : α → R β} (hx : Halts x) (hf : ∀ v, x = .ok v → Halts (f v)) :
    Halts (x >>= f) := by
  cases x with
  | error e => exact fun h => hx (by cases e <;> first | rfl | cases h)
  | ok v => exact hf v rfl

theorem halts_ok {α : Type} (v : α) : Halts (Except.ok v : R α) := by intro h; cases h

theorem halts_pure {α : Type} (v : α) : Halts (pure v : R α) := by intro h; cases h

theorem halts_panic {α : Type} : Halts (rpanic : R α) := by intro h; cases h

theorem halts_rassert (b : Bool) : Halts (rassert b) := by cases b <;> (intro h; cases h)

theorem halts_ite {α : Type} {c : Prop} [Decidable c] {x y : R α} (hx : Halts x) (hy : Halts y) :
    Halts (if c then x else y) := by split <;> assumption

theorem addGlblLiq_halts (p : Pool) (d : F64) : Halts (p.addGlblLiq d) := by
  unfold addGlblLiq GlobalState.addLiq
  exact halts_bind (halts_ite halts_panic (halts_ok _)) fun _ _ => halts_pure _

theorem crossTick_halts (p : Pool) (t : Nat) (d : Bool) : Halts (p.crossTick t d) := by
  unfold crossTick
  refine halts_ite halts_panic ?_
  simp only
  split
  · exact halts_panic
  · refine halts_bind ?_ fun _ _ => addGlblLiq_halts _ _
    refine halts_ite (halts_ok _) (halts_bind ?_ fun _ _ => halts_pure _)
    unfold checkedSub
    split <;> (intro h; cases h)

theorem rightLimit_halts (p : Pool) (t c : Nat) : Halts (p.rightLimit t c) := by
  unfold rightLimit
  exact halts_ite (halts_ok _) (halts_ite (halts_ok _) halts_panic)

theorem tryInRangeLeft_halts (m : LibM) : ∀ (tks : List Nat) (p : Pool), Halts (tryInRangeLeft m tks p)
  | [], p => halts_ok _
  | tk :: tks, p => by
    unfold tryInRangeLeft
    refine halts_ite (tryInRangeLeft_halts m tks p) (halts_bind (crossTick_halts _ _ _) fun q _ => ?_)
    exact halts_ite halts_panic (halts_ite (halts_pure _) (tryInRangeLeft_halts m tks q))

theorem tryInRangeRight_halts (m : LibM) : ∀ (tks : List Nat) (p : Pool), Halts (tryInRangeRight m tks p)
  | [], p => halts_ok _
  | tk :: tks, p => by
    unfold tryInRangeRight
    refine halts_ite (tryInRangeRight_halts m tks p) (halts_bind (crossTick_halts _ _ _) fun q _ => ?_)
    refine halts_bind (rightLimit_halts _ _ _) fun _ _ => ?_
    exact halts_ite halts_panic (halts_ite (halts_pure _) (tryInRangeRight_halts m tks q))

theorem tryGetInRange_halts (m : LibM) (p : Pool) (d : Bool) : Halts (p.tryGetInRange m d) := by
  unfold tryGetInRange
  refine halts_ite halts_panic (halts_bind ?_ fun v _ => ?_)
  · exact halts_ite (tryInRangeRight_halts _ _ _) (tryInRangeLeft_halts _ _ _)
  · obtain ⟨q, g, rp⟩ := v
    exact halts_ite halts_panic (halts_pure _)

theorem fillX_halts (m : LibM) (p : Pool) (s : F64) (g : Nat) (l d : F64) : Halts (p.fillX m s g l d) := by
  unfold fillX
  exact halts_ite halts_panic (halts_ite halts_panic (halts_ite (halts_ok _)
    (halts_ite halts_panic (halts_ite halts_panic (halts_ok _)))))

theorem fillY_halts (m : LibM) (p : Pool) (s : F64) (g : Nat) (l d : F64) : Halts (p.fillY m s g l d) := by
  unfold fillY
  exact halts_ite halts_panic (halts_ite halts_panic (halts_ite (halts_ok _)
    (halts_ite halts_panic (halts_ite halts_panic (halts_ok _)))))

theorem within_new_halts (a b : F64) (t : Nat) (c : F64) (d : Bool) (e f : F64) :
    Halts (SwapWithinResult.new a b t c d e f) := by
  unfold SwapWithinResult.new
  exact halts_ite halts_panic (halts_ite halts_panic (halts_ite halts_panic (halts_ite halts_panic (halts_ok _))))

theorem swapWithinX_halts (m : LibM) (p : Pool) (s : F64) (g : Nat) (l d o : F64) :
    Halts (p.swapWithinX m s g l d o) := by
  unfold swapWithinX
  refine halts_ite halts_panic (halts_bind (fillX_halts _ _ _ _ _ _) fun v _ => ?_)
  obtain ⟨a, b, c, t, e⟩ := v
  refine halts_bind ?_ fun _ _ => ?_
  · unfold doneDyX
    exact halts_ite (halts_ok _) (halts_ite (halts_ok _) (halts_ite (halts_ok _) halts_panic))
  · exact halts_ite halts_panic (halts_ite halts_panic (halts_ite halts_panic (within_new_halts _ _ _ _ _ _ _)))

theorem swapWithinY_halts (m : LibM) (p : Pool) (s : F64) (g : Nat) (l d o : F64) :
    Halts (p.swapWithinY m s g l d o) := by
  unfold swapWithinY
  refine halts_ite halts_panic (halts_bind (fillY_halts _ _ _ _ _ _) fun v _ => ?_)
  obtain ⟨a, b, c, t, e⟩ := v
  refine halts_bind ?_ fun _ _ => ?_
  · unfold doneDxY
    exact halts_ite (halts_ok _) (halts_ite (halts_ok _) (halts_ite (halts_ok _) halts_panic))
  · exact halts_ite halts_panic (halts_ite halts_panic (halts_ite halts_panic (within_new_halts _ _ _ _ _ _ _)))

theorem output_halts (a b c d e f : F64) : Halts (SwapOutput.new a b c d e f) := by
  unfold SwapOutput.new
  exact halts_ite halts_panic (halts_ite halts_panic (halts_ite halts_panic (halts_ite halts_panic (halts_ok _))))

theorem finishX_halts (p : Pool) (a : SwapAcc) : Halts (finishX p a) := by
  unfold finishX
  exact halts_bind (output_halts _ _ _ _ _ _) fun _ _ => halts_pure _

theorem finishY_halts (p : Pool) (a : SwapAcc) : Halts (finishY p a) := by
  unfold finishY
  exact halts_bind (output_halts _ _ _ _ _ _) fun _ _ => halts_pure _

theorem stepX_halts (m : LibM) (dx o : F64) (p : Pool) (a : SwapAcc) (g : Nat) : Halts (stepX m dx o p a g) := by
  unfold stepX
  refine halts_bind (swapWithinX_halts _ _ _ _ _ _ _) fun r _ => ?_
  refine halts_bind (halts_rassert _) fun _ _ => ?_
  refine halts_bind (halts_rassert _) fun _ _ => ?_
  refine halts_bind ?_ fun _ _ => halts_pure _
  refine halts_ite (halts_bind (halts_rassert _) fun _ _ => ?_) (halts_ok _)
  exact halts_ite (crossTick_halts _ _ _) (halts_ok _)

theorem stepY_halts (m : LibM) (dx o : F64) (p : Pool) (a : SwapAcc) (g : Nat) : Halts (stepY m dx o p a g) := by
  unfold stepY
  refine halts_bind (swapWithinY_halts _ _ _ _ _ _ _) fun r _ => ?_
  refine halts_bind (halts_rassert _) fun _ _ => ?_
  refine halts_bind (halts_rassert _) fun _ _ => ?_
  refine halts_bind ?_ fun _ _ => halts_pure _
  refine halts_ite (halts_bind (halts_rassert _) fun _ _ => ?_) (halts_ok _)
  exact halts_ite (crossTick_halts _ _ _) (halts_ok _)

/-- Rounds still needed for a sale of X: `n` more of them may take the whole rest. -/
theorem loopX_halts {m : LibM} {dx o : F64} (hd : dx.Rep) : ∀ (fuel : Nat) (p : Pool) (a : SwapAcc),
    p.spacing < 2 ^ 32 → Taken a →
    ((lt a.recv dx = false ∧ 1 ≤ fuel) ∨ (Almost dx a ∧ p.below + 2 ≤ fuel) ∨ p.below + p.keys.length + 3 ≤ fuel) →
    Halts (loopX m dx o fuel p a)
  | 0, p, a, _, _, h => by rcases h with h | h | h <;> omega
  | fuel + 1, p, a, hs, ht, h => by
    unfold loopX
    cases hl : lt a.recv dx with
    | false => simp only [Bool.false_eq_true, if_false]; exact finishX_halts _ _
    | true =>
      simp only [if_true]
      have h : (Almost dx a ∧ p.below + 1 ≤ fuel) ∨ p.below + p.keys.length + 2 ≤ fuel := by
        rcases h with ⟨h, _⟩ | ⟨h1, h2⟩ | h
        · rw [hl] at h; cases h
        · exact Or.inl ⟨h1, by omega⟩
        · exact Or.inr (by omega)
      -- the next round, from any pool `q` whose tick is not higher
      have next : ∀ (q : Pool) (g : Nat) (b : SwapAcc), q.keys = p.keys → q.spacing = p.spacing →
          q.gs.tick ≤ p.gs.tick → g ∈ q.keys ∧ g ≤ q.gs.tick → b.recv = a.recv →
          Halts (stepX m dx o q b g >>= fun x => loopX m dx o fuel x.1 x.2) := by
        intro q g b hk hsq hqt hg hb
        refine halts_bind (stepX_halts _ _ _ _ _ _) fun v hv => ?_
        obtain ⟨q', a'⟩ := v
        have hsq' : q.spacing < 2 ^ 32 := by rw [hsq]; exact hs
        have htb : Taken b := by unfold Taken; rw [hb]; exact ht
        obtain ⟨k1, k2, k3, k4, k5⟩ := stepX_round hsq' hd (by rw [hb]; exact hl) htb hg hv
        have hqb : q.below ≤ p.below := by
          unfold below
          rw [hk]
          exact List.countP_mono_left (fun k _ hk => by rw [decide_eq_true_eq] at hk ⊢; omega)
        have hbl : q'.below ≤ p.keys.length := by
          unfold below; rw [k1, hk]; exact List.countP_le_length
        have hab : Almost dx b ↔ Almost dx a := by unfold Almost; rw [hb]
        refine loopX_halts hd fuel q' a' (by rw [k2]; exact hsq') k3 ?_
        rw [k1, hk]
        rcases k5 with ⟨k5, k6⟩ | k5
        · rcases h with ⟨h1, h2⟩ | h
          · exact Or.inl ⟨k6 (hab.2 h1), by omega⟩
          · exact Or.inr (Or.inl ⟨k5, by omega⟩)
        · rcases h with ⟨h1, h2⟩ | h
          · exact Or.inr (Or.inl ⟨k4 (hab.2 h1), by omega⟩)
          · exact Or.inr (Or.inr (by omega))
      cases hz : lt F64.zero p.gs.liq with
      | true =>
        simp only [if_true]
        refine halts_bind (halts_ok _) fun v hv => ?_
        rw [ok_inj] at hv
        subst hv
        simp only
        cases hgl : p.leftLimit a.currT with
        | none => exact finishX_halts _ _
        | some g => exact next p g a rfl rfl (le_refl _) (leftLimit_le hs hgl) rfl
      | false =>
        simp only [Bool.false_eq_true, if_false]
        refine halts_bind (halts_bind (tryGetInRange_halts _ _ _) fun v _ => ?_) fun v hv => ?_
        · exact halts_pure _
        · rw [bind_ok] at hv
          obtain ⟨⟨q, goal, rp⟩, h1, hv⟩ := hv
          simp only [pure_ok] at hv
          subst hv
          obtain ⟨k1, k2, k3, k4⟩ := tryGetInRange_left hs h1
          simp only
          cases goal with
          | none => exact finishX_halts _ _
          | some g => exact next q g _ k1 k2 k3 (k4 g rfl) rfl

/-- Rounds still needed for a sale of Y. -/
theorem loopY_halts {m : LibM} {dx o : F64} (hd : dx.Rep) : ∀ (fuel : Nat) (p : Pool) (a : SwapAcc), Taken a →
    ((lt a.recv dx = false ∧ 1 ≤ fuel) ∨ (Almost dx a ∧ p.above + 2 ≤ fuel) ∨ p.above + p.keys.length + 3 ≤ fuel) →
    Halts (loopY m dx o fuel p a)
  | 0, p, a, _, h => by rcases h with h | h | h <;> omega
  | fuel + 1, p, a, ht, h => by
    unfold loopY
    cases hl : lt a.recv dx with
    | false => simp only [Bool.false_eq_true, if_false]; exact finishY_halts _ _
    | true =>
      simp only [if_true]
      have h : (Almost dx a ∧ p.above + 1 ≤ fuel) ∨ p.above + p.keys.length + 2 ≤ fuel := by
        rcases h with ⟨h, _⟩ | ⟨h1, h2⟩ | h
        · rw [hl] at h; cases h
        · exact Or.inl ⟨h1, by omega⟩
        · exact Or.inr (by omega)
      have next : ∀ (q : Pool) (g : Nat) (b : SwapAcc), q.keys = p.keys →
          p.gs.tick ≤ q.gs.tick → g ∈ q.keys ∧ q.gs.tick < g → b.recv = a.recv →
          Halts (stepY m dx o q b g >>= fun x => loopY m dx o fuel x.1 x.2) := by
        intro q g b hk hqt hg hb
        refine halts_bind (stepY_halts _ _ _ _ _ _) fun v hv => ?_
        obtain ⟨q', a'⟩ := v
        have htb : Taken b := by unfold Taken; rw [hb]; exact ht
        obtain ⟨k1, k3, k4, k5⟩ := stepY_round hd (by rw [hb]; exact hl) htb hg hv
        have hqb : q.above ≤ p.above := by
          unfold above
          rw [hk]
          exact List.countP_mono_left (fun k _ hk => by rw [decide_eq_true_eq] at hk ⊢; omega)
        have hbl : q'.above ≤ p.keys.length := by
          unfold above; rw [k1, hk]; exact List.countP_le_length
        have hab : Almost dx b ↔ Almost dx a := by unfold Almost; rw [hb]
        refine loopY_halts hd fuel q' a' k3 ?_
        rw [k1, hk]
        rcases k5 with ⟨k5, k6⟩ | k5
        · rcases h with ⟨h1, h2⟩ | h
          · exact Or.inl ⟨k6 (hab.2 h1), by omega⟩
          · exact Or.inr (Or.inl ⟨k5, by omega⟩)
        · rcases h with ⟨h1, h2⟩ | h
          · exact Or.inr (Or.inl ⟨k4 (hab.2 h1), by omega⟩)
          · exact Or.inr (Or.inr (by omega))
      cases hz : lt F64.zero p.gs.liq with
      | true =>
        simp only [if_true]
        refine halts_bind (halts_bind (rightLimit_halts _ _ _) fun _ _ => halts_pure _) fun v hv => ?_
        rw [bind_ok] at hv
        obtain ⟨goal, h1, hv⟩ := hv
        rw [pure_ok] at hv
        subst hv
        simp only
        cases goal with
        | none => exact finishY_halts _ _
        | some g => exact next p g a rfl (le_refl _) (rightLimit_gt h1) rfl
      | false =>
        simp only [Bool.false_eq_true, if_false]
        refine halts_bind (halts_bind (tryGetInRange_halts _ _ _) fun v _ => ?_) fun v hv => ?_
        · exact halts_pure _
        · rw [bind_ok] at hv
          obtain ⟨⟨q, goal, rp⟩, h1, hv⟩ := hv
          simp only [pure_ok] at hv
          subst hv
          obtain ⟨k1, _, k3, k4⟩ := tryGetInRange_right h1
          simp only
          cases goal with
          | none => exact finishY_halts _ _
          | some g => exact next q g _ k1 k3 (k4 g rfl) rfl

theorem bind_congr_halts {α β : Type} {x : R α} {f g : α → R β} (h : ∀ v, x = .ok v → Halts (f v) → g v = f v)
    (hx : Halts (x >>= f)) : (x >>= g) = (x >>= f) := by
  cases x with
  | error e => rfl
  | ok v => exact h v rfl hx

/-- More rounds than needed change nothing. -/
theorem loopX_more {m : LibM} {dx o : F64} : ∀ (fuel : Nat) (p : Pool) (a : SwapAcc),
    Halts (loopX m dx o fuel p a) → loopX m dx o (fuel + 1) p a = loopX m dx o fuel p a
  | 0, p, a, h => absurd rfl h
  | fuel + 1, p, a, h => by
    rw [loopX]
    rw [loopX] at h
    conv_rhs => rw [loopX]
    cases hl : lt a.recv dx with
    | false => rfl
    | true =>
      rw [hl] at h
      simp only [if_true] at h ⊢
      refine bind_congr_halts (fun v hv h => ?_) h
      obtain ⟨q, goal, b⟩ := v
      cases goal with
      | none => rfl
      | some g =>
        simp only at h ⊢
        refine bind_congr_halts (fun w hw h => ?_) h
        exact loopX_more fuel w.1 w.2 h

theorem loopY_more {m : LibM} {dx o : F64} : ∀ (fuel : Nat) (p : Pool) (a : SwapAcc),
    Halts (loopY m dx o fuel p a) → loopY m dx o (fuel + 1) p a = loopY m dx o fuel p a
  | 0, p, a, h => absurd rfl h
  | fuel + 1, p, a, h => by
    rw [loopY]
    rw [loopY] at h
    conv_rhs => rw [loopY]
    cases hl : lt a.recv dx with
    | false => rfl
    | true =>
      rw [hl] at h
      simp only [if_true] at h ⊢
      refine bind_congr_halts (fun v hv h => ?_) h
      obtain ⟨q, goal, b⟩ := v
      cases goal with
      | none => rfl
      | some g =>
        simp only at h ⊢
        refine bind_congr_halts (fun w hw h => ?_) h
        exact loopY_more fuel w.1 w.2 h

theorem acc0_taken (p : Pool) : Taken p.acc0 := ⟨by show le F64.zero F64.zero = true; decide, zero_rep⟩

/-- C86: a sale of X ends after at most `2 n + 3` rounds, where `n` is the number of initialised ticks, in every
state the pool's types allow (the spacing is a `u32`), with every library, offer (finite, infinite or NaN) and
oracle price; allowing more rounds changes nothing. -/
theorem swapX_ends (m : LibM) (p : Pool) (dx o : F64) (hs : p.spacing < 2 ^ 32) (hd : dx.Rep) :
    ∃ r, r ≠ .error .diverge ∧ ∀ fuel, 2 * p.ticks.length + 3 ≤ fuel → p.executeSwapFromX m fuel dx o = r := by
  have hk : p.keys.length = p.ticks.length := by simp [keys]
  have hb : p.below ≤ p.keys.length := List.countP_le_length
  have h : ∀ k, loopX m dx o (2 * p.ticks.length + 3 + k) p p.acc0 = loopX m dx o (2 * p.ticks.length + 3) p p.acc0 := by
    intro k
    induction k with
    | zero => rfl
    | succ k ih =>
      rw [← ih, ← add_assoc]
      exact loopX_more _ p p.acc0 (loopX_halts hd _ p p.acc0 hs (acc0_taken p) (Or.inr (Or.inr (by omega))))
  refine ⟨p.executeSwapFromX m (2 * p.ticks.length + 3) dx o, ?_, ?_⟩
  · unfold executeSwapFromX
    exact halts_ite halts_panic (loopX_halts hd _ p p.acc0 hs (acc0_taken p) (Or.inr (Or.inr (by omega))))
  · intro fuel hf
    obtain ⟨k, rfl⟩ := Nat.exists_eq_add_of_le hf
    unfold executeSwapFromX
    rw [h k]

/-- C86 for sales of Y. -/
theorem swapY_ends (m : LibM) (p : Pool) (dy o : F64) (hd : dy.Rep) :
    ∃ r, r ≠ .error .diverge ∧ ∀ fuel, 2 * p.ticks.length + 3 ≤ fuel → p.executeSwapFromY m fuel dy o = r := by
  have hk : p.keys.length = p.ticks.length := by simp [keys]
  have hb : p.above ≤ p.keys.length := List.countP_le_length
  have h : ∀ k, loopY m dy o (2 * p.ticks.length + 3 + k) p p.acc0 = loopY m dy o (2 * p.ticks.length + 3) p p.acc0 := by
    intro k
    induction k with
    | zero => rfl
    | succ k ih =>
      rw [← ih, ← add_assoc]
      exact loopY_more _ p p.acc0 (loopY_halts hd _ p p.acc0 (acc0_taken p) (Or.inr (Or.inr (by omega))))
  refine ⟨p.executeSwapFromY m (2 * p.ticks.length + 3) dy o, ?_, ?_⟩
  · unfold executeSwapFromY
    exact halts_ite halts_panic (loopY_halts hd _ p p.acc0 (acc0_taken p) (Or.inr (Or.inr (by omega))))
  · intro fuel hf
    obtain ⟨k, rfl⟩ := Nat.exists_eq_add_of_le hf
    unfold executeSwapFromY
    rw [h k]

end

/-- A case in which the whole rest is taken twice: with fee rate 0.9 a sale of 3.9 X falls short of 3.9 by a
rounding error in the first round, and needs a second. -/
theorem ends_case : ∃ p r, eth F64.zero (lit 9 10) = .ok p ∧
    p.executeSwapFromX libm 2 (lit 39 10) (rt 2000) = .error .diverge ∧
    p.executeSwapFromX libm 3 (lit 39 10) (rt 2000) = .ok r ∧ r.2.recv = lit 39 10 ∧
    p.spacing < 2 ^ 32 ∧ p.ticks.length = 2 := by
  have h : (match eth F64.zero (lit 9 10) with
    | .error _ => false
    | .ok p => decide (p.spacing < 2 ^ 32) && decide (p.ticks.length = 2) &&
      match p.executeSwapFromX libm 3 (lit 39 10) (rt 2000) with
      | .error _ => false
      | .ok r => decide (r.2.recv = lit 39 10) &&
        match p.executeSwapFromX libm 2 (lit 39 10) (rt 2000) with
        | .error .diverge => true
        | _ => false) = true := by decide +kernel
  split at h
  · cases h
  rename_i p hp
  rw [Bool.and_eq_true] at h
  obtain ⟨h1, h⟩ := h
  split at h
  · cases h
  rename_i r hr
  simp only [Bool.and_eq_true, decide_eq_true_eq] at h h1
  obtain ⟨h2, h⟩ := h
  split at h
  · rename_i hd
    exact ⟨p, r, hp, hd, hr, h2, h1.1, h1.2⟩
  · cases h

end Hmm.Flt.Pool
