import Verif.Proofs.FloatFill

/-
How often the loops of the floating-point swaps can go round.
-/

namespace Hmm.Flt

open F64

attribute [local irreducible] unit limit

theorem toU32_le (a : F64) : a.toU32 ≤ 2 ^ 32 - 1 := by
  unfold toU32
  split
  · omega
  · split <;> omega
  · split
    · omega
    · exact Nat.min_le_right _ _

/-- Ticks are never moved up by rounding down to the grid. -/
theorem snap_le {t s : Nat} (hs' : s < 2 ^ 32) : tkToPossibleTk t s false ≤ t := by
  by_cases ht : t < 2 ^ 32
  · rcases Nat.eq_zero_or_pos s with rfl | hs
    · have e : ofNat 0 = fin false 0 := by
        unfold ofNat lit; rw [ofRatio_whole (by norm_num), Nat.zero_mul]
      unfold tkToPossibleTk
      simp only [Bool.false_eq_true, if_false]
      rw [e]
      have ht' := ofNat_is (k := t) (by omega)
      obtain ⟨w, n, hn, _⟩ := ht'
      rw [hn]
      unfold div
      simp only [if_true]
      by_cases h0 : n = 0
      · rw [if_pos h0]; exact Nat.zero_le _
      · rw [if_neg h0]
        exact Nat.zero_le _
    · obtain ⟨v, hv, h1, h2, _, _⟩ := quot_is ht hs hs'
      have hfl : ⌊v⌋ = ((t / s : ℕ) : ℤ) := by
        rw [Int.floor_eq_iff, Int.cast_natCast]; exact ⟨h1, h2⟩
      have hF := floor_is hv
      rw [hfl] at hF
      have hle : t / s * s ≤ t := Nat.div_mul_le_self t s
      have hS : (ofNat s).IsInt s := by
        have := ofNat_is (k := s) (by omega)
        unfold IsInt; exact_mod_cast this
      have hM := mul_whole hF hS (by omega)
      unfold tkToPossibleTk
      simp only [Bool.false_eq_true, if_false]
      rw [toU32_int hM]
      omega
  · have := toU32_le (mul (div (ofNat t) (ofNat s)).floor (ofNat s))
    unfold tkToPossibleTk
    simp only [Bool.false_eq_true, if_false]
    omega

namespace Pool

/-- The keys of the ticks. -/
def keys (p : Pool) : List Nat := p.ticks.map (·.1)

/-- Number of initialised ticks at or below the current one. -/
def below (p : Pool) : Nat := p.keys.countP fun k => decide (k ≤ p.gs.tick)

/-- Number of initialised ticks above the current one. -/
def above (p : Pool) : Nat := p.keys.countP fun k => decide (p.gs.tick < k)

theorem countP_lt {l : List Nat} {f g : Nat → Bool} (h : ∀ k, f k = true → g k = true) {k : Nat} (hk : k ∈ l)
    (h1 : f k = false) (h2 : g k = true) : l.countP f < l.countP g := by
  induction l with
  | nil => cases hk
  | cons a l ih =>
    rw [List.countP_cons, List.countP_cons]
    have hm := List.countP_mono_left (l := l) (fun x _ => h x)
    rcases List.mem_cons.1 hk with rfl | hk
    · rw [h1, h2]; simp; omega
    · have := ih hk
      cases hf : f a
      · simp; split <;> omega
      · rw [h a hf]; simp; omega

/-- The goal of a sale of X is an initialised tick at or below the current one. -/
theorem leftLimit_le {p : Pool} (hs : p.spacing < 2 ^ 32) {t g : Nat} (h : p.leftLimit t = some g) :
    g ∈ p.keys ∧ g ≤ p.gs.tick := by
  unfold leftLimit at h
  simp only at h
  have h1 := List.mem_of_find?_eq_some h
  have h2 := List.find?_some h
  rw [decide_eq_true_eq] at h2
  refine ⟨?_, ?_⟩
  · unfold tickKeys at h1
    simpa [keys] using h1
  · have h3 : p.tickToPossibleTick (Nat.min t p.gs.tick) false ≤ Nat.min t p.gs.tick := snap_le hs
    have : Nat.min t p.gs.tick ≤ p.gs.tick := Nat.min_le_right _ _
    omega

/-- The goal of a sale of Y is an initialised tick above the current one. -/
theorem rightLimit_gt {p : Pool} {t c g : Nat} (h : p.rightLimit t c = .ok (some g)) : g ∈ p.keys ∧ c < g := by
  unfold rightLimit at h
  simp only at h
  rw [ite_ok] at h
  rcases h with ⟨h0, h⟩ | ⟨_, h⟩
  · rw [ok_inj] at h
    have h1 := List.mem_of_find?_eq_some h
    have h2 := List.find?_some h
    rw [decide_eq_true_eq] at h2
    refine ⟨by simpa [keys, tickKeys] using h1, by omega⟩
  · rw [ite_ok] at h
    rcases h with ⟨h0, h⟩ | ⟨_, h⟩
    · rw [ok_inj] at h
      have h1 := List.mem_of_find?_eq_some h
      have h2 := List.find?_some h
      rw [decide_eq_true_eq] at h2
      refine ⟨by simpa [keys, tickKeys] using h1, by omega⟩
    · exact absurd h (by simp [rpanic])

theorem crossTick_left {p p' : Pool} (hs : p.spacing < 2 ^ 32) {t : Nat} (h : p.crossTick t false = .ok p') :
    p'.keys = p.keys ∧ p'.spacing = p.spacing ∧ p'.gs.tick < t := by
  have hk := crossTick_keys h
  obtain ⟨ts, new, _, _, _, h4, _, rfl⟩ := crossTick_ok h
  obtain ⟨h5, h6⟩ := h4 rfl
  refine ⟨hk, rfl, ?_⟩
  have := snap_le (t := t - 1) hs
  show new < t
  omega

theorem crossTick_right {p p' : Pool} {t : Nat} (h : p.crossTick t true = .ok p') :
    p'.keys = p.keys ∧ p'.spacing = p.spacing ∧ p'.gs.tick = t := by
  have hk := crossTick_keys h
  obtain ⟨ts, new, _, _, h3, _, _, rfl⟩ := crossTick_ok h
  exact ⟨hk, rfl, h3 rfl⟩

theorem tryInRangeLeft_down {m : LibM} {q : Pool} {g : Option Nat} {rp : F64} : ∀ (tks : List Nat) (p : Pool),
    p.spacing < 2 ^ 32 → tryInRangeLeft m tks p = .ok (q, g, rp) →
    q.keys = p.keys ∧ q.spacing = p.spacing ∧ q.gs.tick ≤ p.gs.tick ∧ ∀ t, g = some t → t ∈ q.keys ∧ t ≤ q.gs.tick
  | [], p, _, h => by
    unfold tryInRangeLeft at h
    rw [ok_inj, Prod.mk.injEq, Prod.mk.injEq] at h
    obtain ⟨rfl, rfl, rfl⟩ := h
    exact ⟨rfl, rfl, le_refl _, fun t ht => by cases ht⟩
  | tk :: tks, p, hs, h => by
    unfold tryInRangeLeft at h
    rw [ite_ok] at h
    rcases h with ⟨_, h⟩ | ⟨hle, h⟩
    · exact tryInRangeLeft_down tks p hs h
    · simp only at h
      rw [bind_ok] at h
      obtain ⟨p1, h1, h⟩ := h
      obtain ⟨k1, s1, t1⟩ := crossTick_left (p := (p.setTick tk).setRp (tickToRp m tk)) hs h1
      have hs1 : p1.spacing < 2 ^ 32 := by rw [s1]; exact hs
      rw [ite_eq_ok] at h
      rcases h with ⟨_, h⟩ | ⟨_, h⟩
      · exact absurd h (by simp [rpanic])
      · rw [ite_eq_ok] at h
        rcases h with ⟨_, h⟩ | ⟨_, h⟩
        · rw [pure_ok, Prod.mk.injEq, Prod.mk.injEq] at h
          obtain ⟨rfl, h2, _⟩ := h
          refine ⟨k1, s1, by omega, fun t ht => ?_⟩
          rw [ht] at h2
          exact leftLimit_le hs1 h2
        · obtain ⟨e1, e2, e3, e4⟩ := tryInRangeLeft_down tks p1 hs1 h
          exact ⟨e1.trans k1, e2.trans s1, by omega, e4⟩

theorem tryInRangeRight_up {m : LibM} {q : Pool} {g : Option Nat} {rp : F64} : ∀ (tks : List Nat) (p : Pool),
    tryInRangeRight m tks p = .ok (q, g, rp) →
    q.keys = p.keys ∧ q.spacing = p.spacing ∧ p.gs.tick ≤ q.gs.tick ∧ ∀ t, g = some t → t ∈ q.keys ∧ q.gs.tick < t
  | [], p, h => by
    unfold tryInRangeRight at h
    rw [ok_inj, Prod.mk.injEq, Prod.mk.injEq] at h
    obtain ⟨rfl, rfl, rfl⟩ := h
    exact ⟨rfl, rfl, le_refl _, fun t ht => by cases ht⟩
  | tk :: tks, p, h => by
    unfold tryInRangeRight at h
    rw [ite_ok] at h
    rcases h with ⟨_, h⟩ | ⟨hle, h⟩
    · exact tryInRangeRight_up tks p h
    · simp only at h
      rw [bind_ok] at h
      obtain ⟨p1, h1, h⟩ := h
      obtain ⟨k1, s1, t1⟩ := crossTick_right (p := (p.setTick tk).setRp (tickToRp m tk)) h1
      rw [bind_ok] at h
      obtain ⟨goal, h2, h⟩ := h
      rw [ite_eq_ok] at h
      rcases h with ⟨_, h⟩ | ⟨_, h⟩
      · exact absurd h (by simp [rpanic])
      · rw [ite_eq_ok] at h
        rcases h with ⟨_, h⟩ | ⟨_, h⟩
        · rw [pure_ok, Prod.mk.injEq, Prod.mk.injEq] at h
          obtain ⟨rfl, h3, _⟩ := h
          refine ⟨k1, s1, by omega, fun t ht => ?_⟩
          rw [h3, ht] at h2
          rw [t1]
          exact rightLimit_gt h2
        · obtain ⟨e1, e2, e3, e4⟩ := tryInRangeRight_up tks p1 h
          exact ⟨e1.trans k1, e2.trans s1, by omega, e4⟩

theorem tryGetInRange_left {m : LibM} {p q : Pool} {g : Option Nat} {rp : F64} (hs : p.spacing < 2 ^ 32)
    (h : p.tryGetInRange m false = .ok (q, g, rp)) :
    q.keys = p.keys ∧ q.spacing = p.spacing ∧ q.gs.tick ≤ p.gs.tick ∧ ∀ t, g = some t → t ∈ q.keys ∧ t ≤ q.gs.tick := by
  unfold tryGetInRange at h
  rw [ite_eq_ok] at h
  rcases h with ⟨_, h⟩ | ⟨_, h⟩
  · exact absurd h (by simp [rpanic])
  · rw [bind_ok] at h
    obtain ⟨⟨q1, g1, r1⟩, h1, h⟩ := h
    simp only at h
    rw [ite_eq_ok] at h
    rcases h with ⟨_, h⟩ | ⟨_, h⟩
    · exact absurd h (by simp [rpanic])
    · rw [pure_ok, Prod.mk.injEq, Prod.mk.injEq] at h
      obtain ⟨rfl, rfl, rfl⟩ := h
      exact tryInRangeLeft_down _ p hs h1

theorem tryGetInRange_right {m : LibM} {p q : Pool} {g : Option Nat} {rp : F64}
    (h : p.tryGetInRange m true = .ok (q, g, rp)) :
    q.keys = p.keys ∧ q.spacing = p.spacing ∧ p.gs.tick ≤ q.gs.tick ∧ ∀ t, g = some t → t ∈ q.keys ∧ q.gs.tick < t := by
  unfold tryGetInRange at h
  rw [ite_eq_ok] at h
  rcases h with ⟨_, h⟩ | ⟨_, h⟩
  · exact absurd h (by simp [rpanic])
  · rw [bind_ok] at h
    obtain ⟨⟨q1, g1, r1⟩, h1, h⟩ := h
    simp only at h
    rw [ite_eq_ok] at h
    rcases h with ⟨_, h⟩ | ⟨_, h⟩
    · exact absurd h (by simp [rpanic])
    · rw [pure_ok, Prod.mk.injEq, Prod.mk.injEq] at h
      obtain ⟨rfl, rfl, rfl⟩ := h
      exact tryInRangeRight_up _ p h1

/-! ### One round -/

theorem SwapWithinResult.new_ok {recv send endRp adj fee : F64} {endTick : Nat} {cross : Bool} {r : SwapWithinResult}
    (h : SwapWithinResult.new recv send endTick endRp cross adj fee = .ok r) :
    r = ⟨recv, send, endTick, endRp, cross, adj, fee⟩ ∧ lt recv F64.zero = false ∧ lt F64.zero send = false ∧
      lt adj F64.zero = false ∧ lt fee F64.zero = false ∧ lt endRp F64.zero = false := by
  unfold SwapWithinResult.new at h
  rw [ite_eq_ok] at h
  rcases h with ⟨_, h⟩ | ⟨h1, h⟩
  · exact absurd h (by simp [rpanic])
  rw [ite_eq_ok] at h
  rcases h with ⟨_, h⟩ | ⟨h2, h⟩
  · exact absurd h (by simp [rpanic])
  rw [ite_eq_ok] at h
  rcases h with ⟨_, h⟩ | ⟨h3, h⟩
  · exact absurd h (by simp [rpanic])
  rw [ite_eq_ok] at h
  rcases h with ⟨_, h⟩ | ⟨h4, h⟩
  · exact absurd h (by simp [rpanic])
  rw [ok_inj] at h
  rw [Bool.or_eq_false_iff] at h3
  exact ⟨h.symm, h1, h2, h3.1, h3.2, h4⟩

theorem fillX_ok {m : LibM} {p : Pool} {s : F64} {goal : Nat} {liq dx : F64} {a b : F64} {c : Bool} {t : Nat} {e : F64}
    (h : p.fillX m s goal liq dx = .ok (a, b, c, t, e)) : c = false → b = sub dx a := by
  unfold fillX at h
  simp only at h
  rw [ite_eq_ok] at h
  rcases h with ⟨_, h⟩ | ⟨_, h⟩
  · exact absurd h (by simp [rpanic])
  rw [ite_eq_ok] at h
  rcases h with ⟨_, h⟩ | ⟨_, h⟩
  · exact absurd h (by simp [rpanic])
  rw [ite_eq_ok] at h
  rcases h with ⟨_, h⟩ | ⟨_, h⟩
  · rw [ok_inj] at h
    simp only [Prod.mk.injEq] at h
    intro hc
    rw [← h.2.2.1] at hc; cases hc
  rw [ite_eq_ok] at h
  rcases h with ⟨_, h⟩ | ⟨_, h⟩
  · exact absurd h (by simp [rpanic])
  rw [ite_eq_ok] at h
  rcases h with ⟨_, h⟩ | ⟨_, h⟩
  · exact absurd h (by simp [rpanic])
  rw [ok_inj] at h
  simp only [Prod.mk.injEq] at h
  intro _
  rw [← h.1, ← h.2.1]

theorem fillY_ok {m : LibM} {p : Pool} {s : F64} {goal : Nat} {liq dx : F64} {a b : F64} {c : Bool} {t : Nat} {e : F64}
    (h : p.fillY m s goal liq dx = .ok (a, b, c, t, e)) : c = false → b = sub dx a := by
  unfold fillY at h
  simp only at h
  rw [ite_eq_ok] at h
  rcases h with ⟨_, h⟩ | ⟨_, h⟩
  · exact absurd h (by simp [rpanic])
  rw [ite_eq_ok] at h
  rcases h with ⟨_, h⟩ | ⟨_, h⟩
  · exact absurd h (by simp [rpanic])
  rw [ite_eq_ok] at h
  rcases h with ⟨_, h⟩ | ⟨_, h⟩
  · rw [ok_inj] at h
    simp only [Prod.mk.injEq] at h
    intro hc
    rw [← h.2.2.1] at hc; cases hc
  rw [ite_eq_ok] at h
  rcases h with ⟨_, h⟩ | ⟨_, h⟩
  · exact absurd h (by simp [rpanic])
  rw [ite_eq_ok] at h
  rcases h with ⟨_, h⟩ | ⟨_, h⟩
  · exact absurd h (by simp [rpanic])
  rw [ok_inj] at h
  simp only [Prod.mk.injEq] at h
  intro _
  rw [← h.1, ← h.2.1]

theorem swapWithinX_ok {m : LibM} {p : Pool} {s : F64} {goal : Nat} {liq dx o : F64} {r : SwapWithinResult}
    (h : p.swapWithinX m s goal liq dx o = .ok r) :
    lt r.recv F64.zero = false ∧ lt r.recvFee F64.zero = false ∧ (r.cross = false → r.recvFee = sub dx r.recv) := by
  unfold swapWithinX at h
  rw [ite_eq_ok] at h
  rcases h with ⟨_, h⟩ | ⟨_, h⟩
  · exact absurd h (by simp [rpanic])
  rw [bind_ok] at h
  obtain ⟨⟨a, b, c, t, e⟩, h1, h⟩ := h
  simp only at h
  rw [bind_ok] at h
  obtain ⟨dy, _, h⟩ := h
  rw [ite_eq_ok] at h
  rcases h with ⟨_, h⟩ | ⟨_, h⟩
  · exact absurd h (by simp [rpanic])
  rw [ite_eq_ok] at h
  rcases h with ⟨_, h⟩ | ⟨_, h⟩
  · exact absurd h (by simp [rpanic])
  rw [ite_eq_ok] at h
  rcases h with ⟨_, h⟩ | ⟨_, h⟩
  · exact absurd h (by simp [rpanic])
  obtain ⟨rfl, h2, _, _, h3, _⟩ := SwapWithinResult.new_ok h
  exact ⟨h2, h3, fillX_ok h1⟩

theorem swapWithinY_ok {m : LibM} {p : Pool} {s : F64} {goal : Nat} {liq dx o : F64} {r : SwapWithinResult}
    (h : p.swapWithinY m s goal liq dx o = .ok r) :
    lt r.recv F64.zero = false ∧ lt r.recvFee F64.zero = false ∧ (r.cross = false → r.recvFee = sub dx r.recv) := by
  unfold swapWithinY at h
  rw [ite_eq_ok] at h
  rcases h with ⟨_, h⟩ | ⟨_, h⟩
  · exact absurd h (by simp [rpanic])
  rw [bind_ok] at h
  obtain ⟨⟨a, b, c, t, e⟩, h1, h⟩ := h
  simp only at h
  rw [bind_ok] at h
  obtain ⟨dy, _, h⟩ := h
  rw [ite_eq_ok] at h
  rcases h with ⟨_, h⟩ | ⟨_, h⟩
  · exact absurd h (by simp [rpanic])
  rw [ite_eq_ok] at h
  rcases h with ⟨_, h⟩ | ⟨_, h⟩
  · exact absurd h (by simp [rpanic])
  rw [ite_eq_ok] at h
  rcases h with ⟨_, h⟩ | ⟨_, h⟩
  · exact absurd h (by simp [rpanic])
  obtain ⟨rfl, h2, _, _, h3, _⟩ := SwapWithinResult.new_ok h
  exact ⟨h2, h3, fillY_ok h1⟩

/-- What has been taken so far: a non-negative double. -/
def Taken (a : SwapAcc) : Prop := le F64.zero a.recv = true ∧ a.recv.Rep

/-- If something is missing, it is at most a rounding error. -/
def Almost (dx : F64) (a : SwapAcc) : Prop :=
  lt a.recv dx = true → ∃ D r, dx.Is D ∧ a.recv.Is r ∧ D * (1 - 4 / 2 ^ 53) ≤ r

/-- Amounts after a round. -/
theorem round_amounts {dx recv M F : F64} (hd : dx.Rep) (ht : le F64.zero recv = true) (hr : recv.Rep)
    (hl : lt recv dx = true) (hM : lt M F64.zero = false) (hF : lt F F64.zero = false)
    (hS : le (add M F) (sub dx recv) = true) :
    le F64.zero (add recv (add M F)) = true ∧
    ((lt recv dx = true → ∃ D r, dx.Is D ∧ recv.Is r ∧ D * (1 - 4 / 2 ^ 53) ≤ r) →
      lt (add recv (add M F)) dx = true → ∃ D r, dx.Is D ∧ (add recv (add M F)).Is r ∧ D * (1 - 4 / 2 ^ 53) ≤ r) ∧
    (F = sub (sub dx recv) M →
      (lt (add recv (add M F)) dx = true →
        ∃ D r, dx.Is D ∧ (add recv (add M F)).Is r ∧ D * (1 - 4 / 2 ^ 53) ≤ r) ∧
      ((lt recv dx = true → ∃ D r, dx.Is D ∧ recv.Is r ∧ D * (1 - 4 / 2 ^ 53) ≤ r) →
        lt (add recv (add M F)) dx = false)) := by
  obtain ⟨hSn, _⟩ := le_not_nan hS
  obtain ⟨hMn, hFn⟩ := add_parts hSn
  have hS0 := add_nonneg (nonneg_of hM hMn) (nonneg_of hF hFn)
  have hA := add_nonneg ht hS0
  refine ⟨hA, ?_, ?_⟩
  · intro hal hl'
    obtain ⟨D, r, hD, hrr, hle⟩ := hal hl
    rcases nonneg_iff.1 hA with h | ⟨r', hr', _⟩
    · rw [h] at hl'
      obtain ⟨s, n, rfl, _⟩ := hD
      cases hl'
    · exact ⟨D, r', hD, hr', le_trans hle (add_ge hrr hr hS0 rfl hr')⟩
  · rintro rfl
    constructor
    · intro hl'
      obtain ⟨D, r, r', hD, _, hr', _, h1, _⟩ := fill_rest hd hl ht hM hF hS hl'
      exact ⟨D, r', hD, hr', h1⟩
    · intro hal
      cases hl' : lt (add recv (add M (sub (sub dx recv) M))) dx with
      | false => rfl
      | true =>
        obtain ⟨D, r, r', hD, hrr, hr', _, _, h1⟩ := fill_rest hd hl ht hM hF hS hl'
        obtain ⟨D2, r2, hD2, hr2, h2⟩ := hal hl
        rw [hD.unique hD2, hrr.unique hr2] at h1
        linarith

/-- A round of a sale of X. -/
theorem stepX_round {m : LibM} {dx o : F64} {p p' : Pool} {a a' : SwapAcc} {g : Nat} (hs : p.spacing < 2 ^ 32)
    (hd : dx.Rep) (hl : lt a.recv dx = true) (ht : Taken a) (hg : g ∈ p.keys ∧ g ≤ p.gs.tick)
    (h : stepX m dx o p a g = .ok (p', a')) :
    p'.keys = p.keys ∧ p'.spacing = p.spacing ∧ Taken a' ∧ (Almost dx a → Almost dx a') ∧
      ((Almost dx a' ∧ (Almost dx a → lt a'.recv dx = false)) ∨ p'.below < p.below) := by
  obtain ⟨r, h1, _, h3, rfl, h4⟩ := stepX_ok h
  obtain ⟨w1, w2, w3⟩ := swapWithinX_ok h1
  obtain ⟨r1, r2, r3⟩ := round_amounts hd ht.1 ht.2 hl w1 w2 h3
  refine ⟨?_, ?_, ⟨r1, add_rep _ _⟩, r2, ?_⟩
  · rcases h4 with ⟨_, rfl⟩ | ⟨_, _, ⟨_, rfl⟩ | ⟨_, hc⟩⟩
    · rfl
    · rfl
    · exact (crossTick_left (p := p.midX r) hs hc).1
  · rcases h4 with ⟨_, rfl⟩ | ⟨_, _, ⟨_, rfl⟩ | ⟨_, hc⟩⟩
    · rfl
    · rfl
    · exact (crossTick_left (p := p.midX r) hs hc).2.1
  · rcases h4 with ⟨hc, rfl⟩ | ⟨_, _, ⟨hn, rfl⟩ | ⟨_, hc⟩⟩
    · left
      exact r3 (w3 hc)
    · rw [mapGet_none] at hn
      exact absurd hg.1 hn
    · right
      obtain ⟨k1, _, k2⟩ := crossTick_left (p := p.midX r) hs hc
      unfold below
      rw [k1]
      show List.countP _ p.keys < _
      exact countP_lt (k := g) (fun k hk => by rw [decide_eq_true_eq] at hk ⊢; omega) hg.1
        (by rw [decide_eq_false_iff_not]; omega) (by rw [decide_eq_true_eq]; exact hg.2)

/-- A round of a sale of Y. -/
theorem stepY_round {m : LibM} {dx o : F64} {p p' : Pool} {a a' : SwapAcc} {g : Nat}
    (hd : dx.Rep) (hl : lt a.recv dx = true) (ht : Taken a) (hg : g ∈ p.keys ∧ p.gs.tick < g)
    (h : stepY m dx o p a g = .ok (p', a')) :
    p'.keys = p.keys ∧ Taken a' ∧ (Almost dx a → Almost dx a') ∧
      ((Almost dx a' ∧ (Almost dx a → lt a'.recv dx = false)) ∨ p'.above < p.above) := by
  obtain ⟨r, h1, _, h3, rfl, h4⟩ := stepY_ok h
  obtain ⟨w1, w2, w3⟩ := swapWithinY_ok h1
  obtain ⟨r1, r2, r3⟩ := round_amounts hd ht.1 ht.2 hl w1 w2 h3
  refine ⟨?_, ⟨r1, add_rep _ _⟩, r2, ?_⟩
  · rcases h4 with ⟨_, rfl⟩ | ⟨_, _, ⟨_, rfl⟩ | ⟨_, hc⟩⟩
    · rfl
    · rfl
    · exact (crossTick_right (p := p.midY r) hc).1
  · rcases h4 with ⟨hc, rfl⟩ | ⟨_, _, ⟨hn, rfl⟩ | ⟨_, hc⟩⟩
    · left
      exact r3 (w3 hc)
    · rw [mapGet_none] at hn
      exact absurd hg.1 hn
    · right
      obtain ⟨k1, _, k2⟩ := crossTick_right (p := p.midY r) hc
      unfold above
      rw [k1]
      show List.countP _ p.keys < _
      exact countP_lt (k := g) (fun k hk => by rw [decide_eq_true_eq] at hk ⊢; omega) hg.1
        (by rw [decide_eq_false_iff_not]; omega) (by rw [decide_eq_true_eq]; exact hg.2)

end Pool

end Hmm.Flt
