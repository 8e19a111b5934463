import Verif.Props.FloatEnds
import Verif.Props.FloatNan

/-
C87: what a swap of the floating-point pool takes.
-/

namespace Hmm.Flt.Pool

open F64 Sample

/-- C87, full statement for sales of X: a sale takes at most the offer, and less only if no initialised tick is
left in its direction. -/
def TakesOffer : Prop := ∀ (m : LibM) (p p' : Pool) (fuel : Nat) (dx o : F64) (out : SwapOutput),
  Reach m p → dx.Rep → dx.Finite → p.executeSwapFromX m fuel dx o = .ok (p', out) →
  le out.recv dx = true ∧ (lt out.recv dx = true →
    ∀ k, (mapGet k p'.ticks).isSome → tkToPossibleTk p'.gs.tick p'.spacing false < k)

section
attribute [local irreducible] unit limit

theorem two1022 : (fin false (2 ^ 2096)).Is (2 ^ 1022 : ℚ) ∧ (fin false (2 ^ 2096)).Rep ∧
    (fin false (2 ^ 2097)).Is (2 ^ 1023 : ℚ) ∧ (fin false (2 ^ 2097)).Rep := by
  have e1 : 2 ^ 2096 = 2 ^ 1022 * unit := by rw [unit_eq, ← pow_add]
  have e2 : 2 ^ 2097 = 2 ^ 1023 * unit := by rw [unit_eq, ← pow_add]
  refine ⟨?_, ?_, ?_, ?_⟩
  · rw [e1]
    have := whole_is (2 ^ 1022)
    push_cast at this
    exact this
  · refine rep_fin.2 ⟨?_, 1, 2096, by norm_num, by rw [one_mul]⟩
    rw [limit_eq]; exact Nat.pow_lt_pow_right (by decide) (by decide)
  · rw [e2]
    have := whole_is (2 ^ 1023)
    push_cast at this
    exact this
  · refine rep_fin.2 ⟨?_, 1, 2097, by norm_num, by rw [one_mul]⟩
    rw [limit_eq]; exact Nat.pow_lt_pow_right (by decide) (by decide)

/-- A round takes at most the rest, up to rounding. -/
theorem round_bound {dx recv M F : F64} {D : ℚ} (hd : dx.Rep) (hD : dx.Is D) (hb : D ≤ 2 ^ 1022)
    (ht : le F64.zero recv = true) (hl : lt recv dx = true) (hM : lt M F64.zero = false) (hF : lt F F64.zero = false)
    (hS : le (add M F) (sub dx recv) = true) :
    ∃ r', (add recv (add M F)).Is r' ∧ r' ≤ D * (1 + 3 / 2 ^ 53) := by
  obtain ⟨hSn, _⟩ := le_not_nan hS
  obtain ⟨hMn, hFn⟩ := add_parts hSn
  have hS0 := add_nonneg (nonneg_of hM hMn) (nonneg_of hF hFn)
  obtain ⟨r, hr, hr0⟩ : ∃ q, recv.Is q ∧ 0 ≤ q := by
    rcases nonneg_iff.1 ht with rfl | h
    · obtain ⟨s, n, rfl, _⟩ := hD; cases hl
    · exact h
  have hrD := (lt_is hr hD).1 hl
  obtain ⟨v, hv⟩ : (sub dx recv).Finite := (sub_rounded hD hr).finite hD hd (by
    rw [abs_of_nonneg (by linarith), abs_of_nonneg (by linarith)]; linarith)
  have hve := sub_error hD hr hv
  rw [abs_of_pos (show 0 < D - r by linarith)] at hve
  have hve2 := (abs_le.1 hve).2
  obtain ⟨S, hSi, hSnn⟩ : ∃ q, (add M F).Is q ∧ 0 ≤ q := by
    rcases nonneg_iff.1 hS0 with h | h
    · rw [h] at hS
      obtain ⟨s, n, hfin, _⟩ := hv
      rw [hfin] at hS; cases hS
    · exact h
  have hSv := (le_is hSi hv).1 hS
  have hsum : r + S ≤ D * (1 + 1 / 2 ^ 53) := by
    norm_num at hve2 ⊢
    nlinarith
  have hR := add_rounded hr hSi
  obtain ⟨r', hr'⟩ := hR.finite two1022.2.2.1 two1022.2.2.2 (by
    rw [abs_of_nonneg (by linarith), abs_of_nonneg (by positivity)]
    have : D * (1 + 1 / 2 ^ 53) ≤ 2 * D := by norm_num; nlinarith
    calc r + S ≤ 2 * D := by linarith
      _ ≤ 2 * 2 ^ 1022 := by linarith
      _ = 2 ^ 1023 := (pow_succ' 2 1022).symm)
  have hre := add_error hr hSi hr'
  rw [abs_of_nonneg (show 0 ≤ r + S by linarith)] at hre
  have hre2 := (abs_le.1 hre).2
  refine ⟨r', hr', ?_⟩
  norm_num at hre2 hsum ⊢
  nlinarith

/-- After the search to the left has found nothing, no initialised tick is left there. -/
theorem tryInRangeLeft_none {m : LibM} {q : Pool} {rp : F64} : ∀ (tks : List Nat) (p : Pool),
    p.spacing < 2 ^ 32 → tryInRangeLeft m tks p = .ok (q, none, rp) →
    (∀ k ∈ tks, q.gs.tick < k) ∨ (∃ t, q.leftLimit t = none ∧ q.gs.tick ≤ t)
  | [], p, _, h => Or.inl fun k hk => by cases hk
  | tk :: tks, p, hs, h => by
    unfold tryInRangeLeft at h
    rw [ite_ok] at h
    rcases h with ⟨hgt, h⟩ | ⟨hle, h⟩
    · have hd := tryInRangeLeft_down tks p hs h
      rcases tryInRangeLeft_none tks p hs h with h1 | h1
      · left
        intro k hk
        rcases List.mem_cons.1 hk with rfl | hk
        · omega
        · exact h1 k hk
      · exact Or.inr h1
    · simp only at h
      rw [bind_ok] at h
      obtain ⟨p1, h1, h⟩ := h
      obtain ⟨k1, s1, t1⟩ := crossTick_left (p := (p.setTick tk).setRp (tickToRp m tk)) hs h1
      have hs1 : p1.spacing < 2 ^ 32 := by rw [s1]; exact hs
      rw [ite_eq_ok] at h
      rcases h with ⟨_, h⟩ | ⟨_, h⟩
      · exact absurd h (by simp [rpanic])
      · rw [ite_eq_ok] at h
        rcases h with ⟨_, h⟩ | ⟨_, h⟩
        · rw [pure_ok, Prod.mk.injEq, Prod.mk.injEq] at h
          obtain ⟨rfl, h2, _⟩ := h
          exact Or.inr ⟨_, h2, le_refl _⟩
        · have hd := tryInRangeLeft_down tks p1 hs1 h
          rcases tryInRangeLeft_none tks p1 hs1 h with h2 | h2
          · left
            intro k hk
            rcases List.mem_cons.1 hk with rfl | hk
            · omega
            · exact h2 k hk
          · exact Or.inr h2

theorem leftLimit_none {p : Pool} {t : Nat} (ht : p.gs.tick ≤ t) (h : p.leftLimit t = none) :
    ∀ k ∈ p.keys, tkToPossibleTk p.gs.tick p.spacing false < k := by
  unfold leftLimit at h
  simp only at h
  rw [List.find?_eq_none] at h
  intro k hk
  have h1 := h k (by simpa [tickKeys, keys] using hk)
  rw [decide_eq_true_eq] at h1
  have e : Nat.min t p.gs.tick = p.gs.tick := Nat.min_eq_right ht
  rw [e] at h1
  unfold tickToPossibleTick at h1
  omega

theorem tryGetInRange_left_none {m : LibM} {p q : Pool} {rp : F64} (hs : p.spacing < 2 ^ 32)
    (h : p.tryGetInRange m false = .ok (q, none, rp)) :
    ∀ k ∈ q.keys, tkToPossibleTk q.gs.tick q.spacing false < k := by
  have hd := tryGetInRange_left hs h
  unfold tryGetInRange at h
  rw [ite_eq_ok] at h
  rcases h with ⟨_, h⟩ | ⟨_, h⟩
  · exact absurd h (by simp [rpanic])
  · rw [bind_ok] at h
    obtain ⟨⟨q1, g1, r1⟩, h1, h⟩ := h
    simp only at h
    rw [ite_eq_ok] at h
    rcases h with ⟨_, h⟩ | ⟨_, h⟩
    · exact absurd h (by simp [rpanic])
    · rw [pure_ok, Prod.mk.injEq, Prod.mk.injEq] at h
      obtain ⟨rfl, rfl, rfl⟩ := h
      rcases tryInRangeLeft_none _ p hs h1 with h2 | ⟨t, h2, h3⟩
      · intro k hk
        rw [hd.1] at hk
        have := h2 k (by simpa [tickKeys, keys] using hk)
        have := snap_le (t := q1.gs.tick) (s := q1.spacing) (by rw [hd.2.1]; exact hs)
        omega
      · exact leftLimit_none h3 h2

/-- After a round of a sale of X the tick is not above `curr_t`. -/
theorem stepX_currT {m : LibM} {dx o : F64} {p p' : Pool} {a a' : SwapAcc} {g : Nat} (hs : p.spacing < 2 ^ 32)
    (h : stepX m dx o p a g = .ok (p', a')) : p'.gs.tick ≤ a'.currT := by
  obtain ⟨r, h1, _, h3, rfl, h4⟩ := stepX_ok h
  rcases h4 with ⟨_, rfl⟩ | ⟨_, he, ⟨_, rfl⟩ | ⟨_, hc⟩⟩
  · exact le_refl _
  · exact le_refl _
  · have := (crossTick_left (p := p.midX r) hs hc).2.2
    show p'.gs.tick ≤ r.endTick
    omega

theorem stepY_currT {m : LibM} {dx o : F64} {p p' : Pool} {a a' : SwapAcc} {g : Nat}
    (h : stepY m dx o p a g = .ok (p', a')) : p'.gs.tick = a'.currT ∧ p'.spacing = p.spacing := by
  obtain ⟨r, h1, _, h3, rfl, h4⟩ := stepY_ok h
  rcases h4 with ⟨_, rfl⟩ | ⟨_, he, ⟨_, rfl⟩ | ⟨_, hc⟩⟩
  · exact ⟨rfl, rfl⟩
  · exact ⟨rfl, rfl⟩
  · obtain ⟨_, k1, k2⟩ := crossTick_right (p := p.midY r) hc
    exact ⟨by show p'.gs.tick = r.endTick; omega, k1⟩

/-- The loop of a sale of X. -/
theorem loopX_takes {m : LibM} {dx o : F64} {D : ℚ} (hd : dx.Rep) (hD : dx.Is D) (hb : D ≤ 2 ^ 1022) :
    ∀ (fuel : Nat) (p p' : Pool) (a : SwapAcc) (out : SwapOutput) (r : ℚ), p.spacing < 2 ^ 32 → Taken a →
    p.gs.tick ≤ a.currT → a.recv.Is r → r ≤ D * (1 + 3 / 2 ^ 53) → loopX m dx o fuel p a = .ok (p', out) →
    ∃ r', out.recv.Is r' ∧ r ≤ r' ∧ r' ≤ D * (1 + 3 / 2 ^ 53) ∧
      (D ≤ r' ∨ ∀ k ∈ p'.keys, tkToPossibleTk p'.gs.tick p'.spacing false < k)
  | 0, p, p', a, out, r, _, _, _, _, _, h => by exact absurd h (by simp [loopX])
  | fuel + 1, p, p', a, out, r, hs, ht, hc, hr, hle, h => by
    rcases loopX_succ h with ⟨hl, h⟩ | ⟨hl, q, goal, rp, hq, h⟩
    · obtain ⟨_, e, _⟩ := finishX_ok h
      refine ⟨r, by rw [e]; exact hr, le_refl _, hle, Or.inl ?_⟩
      by_contra hcon
      rw [(lt_is hr hD).2 (not_le.1 hcon)] at hl
      cases hl
    · have hq' : q.keys = p.keys ∧ q.spacing = p.spacing ∧ q.gs.tick ≤ a.currT ∧
          (∀ g, goal = some g → g ∈ q.keys ∧ g ≤ q.gs.tick) ∧
          (goal = none → ∀ k ∈ q.keys, tkToPossibleTk q.gs.tick q.spacing false < k) := by
        rcases hq with ⟨_, rfl, rfl, _⟩ | ⟨_, h1⟩
        · exact ⟨rfl, rfl, hc, fun g hg => leftLimit_le hs hg, fun hn => leftLimit_none hc hn⟩
        · obtain ⟨k1, k2, k3, k4⟩ := tryGetInRange_left hs h1
          refine ⟨k1, k2, le_trans k3 hc, k4, ?_⟩
          rintro rfl
          exact tryGetInRange_left_none hs h1
      obtain ⟨k1, k2, k3, k4, k5⟩ := hq'
      rcases h with ⟨hg, h⟩ | ⟨g, q', a', hg, h1, h⟩
      · obtain ⟨rfl, e, _⟩ := finishX_ok h
        exact ⟨r, by rw [e]; exact hr, le_refl _, hle, Or.inr (k5 hg)⟩
      · have hsq : q.spacing < 2 ^ 32 := by rw [k2]; exact hs
        obtain ⟨_, e2, e3, _, _⟩ := stepX_round (a := { a with currRp := rp }) hsq hd hl ht (k4 g hg) h1
        have hct := stepX_currT hsq h1
        obtain ⟨w, w1, _, w3, w4, _⟩ := stepX_ok h1
        obtain ⟨v1, v2, _⟩ := swapWithinX_ok w1
        obtain ⟨r1, hr1, hle1⟩ := round_bound hd hD hb ht.1 hl v1 v2 w3
        have hS0 := add_nonneg (nonneg_of v1 (add_parts (le_not_nan w3).1).1) (nonneg_of v2 (add_parts (le_not_nan w3).1).2)
        have hge := add_ge hr ht.2 hS0 rfl hr1
        obtain ⟨r2, f1, f2, f3, f4⟩ := loopX_takes hd hD hb fuel q' p' a' out r1 (by rw [e2]; exact hsq) e3 hct
          (by rw [w4]; exact hr1) hle1 h
        exact ⟨r2, f1, le_trans hge f2, f3, f4⟩

/-- C87 for sales of X up to rounding: every sale of X that returns has taken at most the offer, up to three units
of the last binary place, and less than the offer only if no initialised tick is left at or below the current
one.  Missing: exactness, which is false (`takes_offer_false`), and offers above `2^1022`. -/
theorem swapX_takes_partial {m : LibM} {p p' : Pool} {fuel : Nat} {dx o : F64} {out : SwapOutput} {D : ℚ}
    (hs : p.spacing < 2 ^ 32) (hd : dx.Rep) (hD : dx.Is D) (hb : D ≤ 2 ^ 1022)
    (h : p.executeSwapFromX m fuel dx o = .ok (p', out)) :
    ∃ r, out.recv.Is r ∧ 0 ≤ r ∧ r ≤ D * (1 + 3 / 2 ^ 53) ∧
      (D ≤ r ∨ ∀ k, (mapGet k p'.ticks).isSome → tkToPossibleTk p'.gs.tick p'.spacing false < k) := by
  unfold executeSwapFromX at h
  rw [ite_eq_ok] at h
  rcases h with ⟨_, h⟩ | ⟨h0, h⟩
  · exact absurd h (by simp [rpanic])
  have hpos : 0 < D := by
    by_contra hc
    rw [(le_is hD zero_is).2 (not_lt.1 hc)] at h0
    cases h0
  obtain ⟨r, h1, h2, h3, h4⟩ := loopX_takes hd hD hb fuel p p' p.acc0 out 0 hs (acc0_taken p) (le_refl _) zero_is
    (by norm_num; linarith) h
  refine ⟨r, h1, h2, h3, ?_⟩
  rcases h4 with h4 | h4
  · exact Or.inl h4
  · right
    intro k hk
    rw [mapGet_isSome] at hk
    exact h4 k hk

/-! ### Sales of Y -/

theorem tryInRangeRight_none {m : LibM} {q : Pool} {rp : F64} : ∀ (tks : List Nat) (p : Pool),
    tryInRangeRight m tks p = .ok (q, none, rp) → p.spacing < 2 ^ 32 →
    (∀ k ∈ tks, k ≤ q.gs.tick) ∨ q.rightLimit q.gs.tick q.gs.tick = .ok none
  | [], p, h, _ => Or.inl fun k hk => by cases hk
  | tk :: tks, p, h, hs => by
    unfold tryInRangeRight at h
    rw [ite_ok] at h
    rcases h with ⟨hgt, h⟩ | ⟨hle, h⟩
    · have hd := tryInRangeRight_up tks p h
      rcases tryInRangeRight_none tks p h hs with h1 | h1
      · left
        intro k hk
        rcases List.mem_cons.1 hk with rfl | hk
        · omega
        · exact h1 k hk
      · exact Or.inr h1
    · simp only at h
      rw [bind_ok] at h
      obtain ⟨p1, h1, h⟩ := h
      obtain ⟨k1, s1, t1⟩ := crossTick_right (p := (p.setTick tk).setRp (tickToRp m tk)) h1
      rw [bind_ok] at h
      obtain ⟨goal, h2, h⟩ := h
      rw [ite_eq_ok] at h
      rcases h with ⟨_, h⟩ | ⟨_, h⟩
      · exact absurd h (by simp [rpanic])
      · rw [ite_eq_ok] at h
        rcases h with ⟨_, h⟩ | ⟨_, h⟩
        · rw [pure_ok, Prod.mk.injEq, Prod.mk.injEq] at h
          obtain ⟨rfl, h3, _⟩ := h
          right
          rw [t1, h2, h3]
        · have hd := tryInRangeRight_up tks p1 h
          rcases tryInRangeRight_none tks p1 h (by rw [s1]; exact hs) with h3 | h3
          · left
            intro k hk
            rcases List.mem_cons.1 hk with rfl | hk
            · omega
            · exact h3 k hk
          · exact Or.inr h3

theorem rightLimit_none {p : Pool} (hs : p.spacing < 2 ^ 32) (h : p.rightLimit p.gs.tick p.gs.tick = .ok none) :
    ∀ k ∈ p.keys, k ≤ p.gs.tick := by
  unfold rightLimit at h
  simp only at h
  have hsn : p.tickToPossibleTick p.gs.tick false ≤ p.gs.tick := snap_le hs
  rw [ite_ok] at h
  rcases h with ⟨h0, h⟩ | ⟨h0, h⟩
  · rw [ok_inj, List.find?_eq_none] at h
    intro k hk
    have := h k (by simpa [tickKeys, keys] using hk)
    rw [decide_eq_true_eq] at this
    omega
  · rw [ite_ok] at h
    rcases h with ⟨h1, h⟩ | ⟨_, h⟩
    · omega
    · exact absurd h (by simp [rpanic])

theorem tryGetInRange_right_none {m : LibM} {p q : Pool} {rp : F64} (hs : p.spacing < 2 ^ 32)
    (h : p.tryGetInRange m true = .ok (q, none, rp)) : ∀ k ∈ q.keys, k ≤ q.gs.tick := by
  have hd := tryGetInRange_right h
  unfold tryGetInRange at h
  rw [ite_eq_ok] at h
  rcases h with ⟨_, h⟩ | ⟨_, h⟩
  · exact absurd h (by simp [rpanic])
  · rw [bind_ok] at h
    obtain ⟨⟨q1, g1, r1⟩, h1, h⟩ := h
    simp only at h
    rw [ite_eq_ok] at h
    rcases h with ⟨_, h⟩ | ⟨_, h⟩
    · exact absurd h (by simp [rpanic])
    · rw [pure_ok, Prod.mk.injEq, Prod.mk.injEq] at h
      obtain ⟨rfl, rfl, rfl⟩ := h
      rcases tryInRangeRight_none _ p h1 hs with h2 | h2
      · intro k hk
        rw [hd.1] at hk
        exact h2 k (by simpa [tickKeys, keys] using hk)
      · exact rightLimit_none (by rw [hd.2.1]; exact hs) h2

theorem loopY_takes {m : LibM} {dx o : F64} {D : ℚ} (hd : dx.Rep) (hD : dx.Is D) (hb : D ≤ 2 ^ 1022) :
    ∀ (fuel : Nat) (p p' : Pool) (a : SwapAcc) (out : SwapOutput) (r : ℚ), p.spacing < 2 ^ 32 → Taken a →
    p.gs.tick = a.currT → a.recv.Is r → r ≤ D * (1 + 3 / 2 ^ 53) → loopY m dx o fuel p a = .ok (p', out) →
    ∃ r', out.recv.Is r' ∧ r ≤ r' ∧ r' ≤ D * (1 + 3 / 2 ^ 53) ∧ (D ≤ r' ∨ ∀ k ∈ p'.keys, k ≤ p'.gs.tick)
  | 0, p, p', a, out, r, _, _, _, _, _, h => by exact absurd h (by simp [loopY])
  | fuel + 1, p, p', a, out, r, hs, ht, hc, hr, hle, h => by
    rcases loopY_succ h with ⟨hl, h⟩ | ⟨hl, q, goal, rp, hq, h⟩
    · obtain ⟨_, e, _⟩ := finishY_ok h
      refine ⟨r, by rw [e]; exact hr, le_refl _, hle, Or.inl ?_⟩
      by_contra hcon
      rw [(lt_is hr hD).2 (not_le.1 hcon)] at hl
      cases hl
    · have hq' : q.keys = p.keys ∧ q.spacing = p.spacing ∧
          (∀ g, goal = some g → g ∈ q.keys ∧ q.gs.tick < g) ∧ (goal = none → ∀ k ∈ q.keys, k ≤ q.gs.tick) := by
        rcases hq with ⟨_, rfl, h1, _⟩ | ⟨_, h1⟩
        · rw [← hc] at h1
          refine ⟨rfl, rfl, fun g hg => ?_, fun hn => ?_⟩
          · rw [hg] at h1; exact rightLimit_gt h1
          · rw [hn] at h1; exact rightLimit_none hs h1
        · obtain ⟨k1, k2, k3, k4⟩ := tryGetInRange_right h1
          refine ⟨k1, k2, k4, ?_⟩
          rintro rfl
          exact tryGetInRange_right_none hs h1
      obtain ⟨k1, k2, k4, k5⟩ := hq'
      rcases h with ⟨hg, h⟩ | ⟨g, q', a', hg, h1, h⟩
      · obtain ⟨rfl, e, _⟩ := finishY_ok h
        exact ⟨r, by rw [e]; exact hr, le_refl _, hle, Or.inr (k5 hg)⟩
      · have hsq : q.spacing < 2 ^ 32 := by rw [k2]; exact hs
        obtain ⟨_, e3, _, _⟩ := stepY_round (a := { a with currRp := rp }) hd hl ht (k4 g hg) h1
        obtain ⟨hct, e2⟩ := stepY_currT h1
        obtain ⟨w, w1, _, w3, w4, _⟩ := stepY_ok h1
        obtain ⟨v1, v2, _⟩ := swapWithinY_ok w1
        obtain ⟨r1, hr1, hle1⟩ := round_bound hd hD hb ht.1 hl v1 v2 w3
        have hS0 := add_nonneg (nonneg_of v1 (add_parts (le_not_nan w3).1).1) (nonneg_of v2 (add_parts (le_not_nan w3).1).2)
        have hge := add_ge hr ht.2 hS0 rfl hr1
        obtain ⟨r2, f1, f2, f3, f4⟩ := loopY_takes hd hD hb fuel q' p' a' out r1 (by rw [e2]; exact hsq) e3 hct
          (by rw [w4]; exact hr1) hle1 h
        exact ⟨r2, f1, le_trans hge f2, f3, f4⟩

/-- C87 for sales of Y, up to rounding in the same way: less than the offer is taken only if no initialised tick
is left above the current one. -/
theorem swapY_takes_partial {m : LibM} {p p' : Pool} {fuel : Nat} {dy o : F64} {out : SwapOutput} {D : ℚ}
    (hs : p.spacing < 2 ^ 32) (hd : dy.Rep) (hD : dy.Is D) (hb : D ≤ 2 ^ 1022)
    (h : p.executeSwapFromY m fuel dy o = .ok (p', out)) :
    ∃ r, out.recv.Is r ∧ 0 ≤ r ∧ r ≤ D * (1 + 3 / 2 ^ 53) ∧
      (D ≤ r ∨ ∀ k, (mapGet k p'.ticks).isSome → k ≤ p'.gs.tick) := by
  unfold executeSwapFromY at h
  rw [ite_eq_ok] at h
  rcases h with ⟨_, h⟩ | ⟨h0, h⟩
  · exact absurd h (by simp [rpanic])
  have hpos : 0 < D := by
    by_contra hc
    rw [(le_is hD zero_is).2 (not_lt.1 hc)] at h0
    cases h0
  obtain ⟨r, h1, h2, h3, h4⟩ := loopY_takes hd hD hb fuel p p' p.acc0 out 0 hs (acc0_taken p) rfl zero_is
    (by norm_num; linarith) h
  refine ⟨r, h1, h2, h3, ?_⟩
  rcases h4 with h4 | h4
  · exact Or.inl h4
  · right
    intro k hk
    rw [mapGet_isSome] at hk
    exact h4 k hk

end

/-- The pool of the tests with a second, narrower position. -/
def nested : R Pool := do
  let p ← eth F64.zero (lit 3 1000)
  return (← p.deposit libm 3 (ofNat 2) (ofNat 4000) (rt 1950) (rt 2100)).1

theorem nested_reach {p : Pool} (h : nested = .ok p) : Reach libm p := by
  unfold nested at h
  rw [bind_ok] at h
  obtain ⟨q, h1, h⟩ := h
  rw [bind_ok] at h
  obtain ⟨⟨q1, r⟩, h2, h⟩ := h
  rw [pure_ok] at h; subst h
  exact .deposit (eth_reach h1) h2

/-- A sale of 3.22 X takes more than 3.22 X, in two rounds. -/
theorem takes_more : ∃ p p' out, nested = .ok p ∧ p.executeSwapFromX libm 9 (lit 322 100) (rt 2000) = .ok (p', out) ∧
    lt (lit 322 100) out.recv = true ∧ isFin (lit 322 100) = true := by
  have h : (match nested with
    | .error _ => false
    | .ok p => match p.executeSwapFromX libm 9 (lit 322 100) (rt 2000) with
      | .error _ => false
      | .ok (_, out) => lt (lit 322 100) out.recv && isFin (lit 322 100)) = true := by decide +kernel
  split at h
  · cases h
  rename_i p hp
  split at h
  · cases h
  rename_i p' out hr
  rw [Bool.and_eq_true] at h
  exact ⟨p, p', out, hp, hr, h⟩

section
attribute [local irreducible] unit limit

theorem lit_rep (a b : Nat) : (lit a b).Rep := ofRatio_rep _ _ _

theorem lt_not_le {a b : F64} (h : lt a b = true) : le b a = false := by
  cases a with
  | nan => exact absurd rfl (lt_not_nan h).1
  | inf s =>
    cases b with
    | nan => exact absurd rfl (lt_not_nan h).2
    | inf t => cases s <;> cases t <;> first | rfl | cases h
    | fin t n => cases s <;> first | rfl | cases h
  | fin s n =>
    cases b with
    | nan => exact absurd rfl (lt_not_nan h).2
    | inf t => cases t <;> first | rfl | cases h
    | fin t k =>
      obtain ⟨p, hp⟩ := finite_fin s n
      obtain ⟨q, hq⟩ := finite_fin t k
      cases hle : le (fin t k) (fin s n) with
      | false => rfl
      | true =>
        have a := (lt_is hp hq).1 h
        have b := (le_is hq hp).1 hle
        linarith

/-- C87 as stated is false. -/
theorem takes_offer_false : ¬ TakesOffer := by
  intro hall
  obtain ⟨p, p', out, hp, hr, hl, hf⟩ := takes_more
  have h1 := (hall libm p p' 9 _ _ out (nested_reach hp) (lit_rep 322 100) (finite_of hf) hr).1
  rw [lt_not_le hl] at h1
  cases h1

end

/-- With fee rate 0.9 a sale of 5.7 X panics although sales of 5.6 and 5.8 X return: the amount and its fee, added
up in doubles, exceed the offer. -/
theorem rounding_panics : ∃ p, eth F64.zero (lit 9 10) = .ok p ∧
    (∃ r, p.executeSwapFromX libm 9 (lit 56 10) (rt 2000) = .ok r) ∧
    p.executeSwapFromX libm 9 (lit 57 10) (rt 2000) = .error .panic ∧
    (∃ r, p.executeSwapFromX libm 9 (lit 58 10) (rt 2000) = .ok r) := by
  have h : (match eth F64.zero (lit 9 10) with
    | .error _ => false
    | .ok p => match p.executeSwapFromX libm 9 (lit 56 10) (rt 2000) with
      | .error _ => false
      | .ok _ => match p.executeSwapFromX libm 9 (lit 58 10) (rt 2000) with
        | .error _ => false
        | .ok _ => match p.executeSwapFromX libm 9 (lit 57 10) (rt 2000) with
          | .error .panic => true
          | _ => false) = true := by decide +kernel
  split at h
  · cases h
  rename_i p hp
  split at h
  · cases h
  rename_i r1 h1
  split at h
  · cases h
  rename_i r2 h2
  split at h
  · rename_i h3
    exact ⟨p, hp, ⟨r1, h1⟩, h3, r2, h2⟩
  · cases h

end Hmm.Flt.Pool
