import Verif.Proofs.Bitmap

/-
Properties of the tick bitmap: C49 - C51.
-/

namespace Hmm

open Bitmap

/-! ### C49 The tick bitmap is a set -/

/-- C49: after any history a valid tick is reported active exactly when the last operation on it was an
activation. -/
theorem C49_set (ops : List Op) {t : Int} (ht : Valid t) :
    (after ops).tickIsActive t = .ok (lastActivated ops t) := by
  suffices h : (after ops).Active t ↔ lastActivated ops t = true by
    rw [isActive_valid _ ht]
    unfold Active at h
    rw [isActive_valid _ ht, Except.ok.injEq] at h
    congr 1
    exact Bool.eq_iff_iff.2 h
  have key : ∀ rops : List Op, (rops.reverse.foldl apply empty).Active t ↔
      (match rops.find? (fun o => o.tick == t) with
        | some o => o.isActivate
        | none => false) = true := by
    intro rops
    induction rops with
    | nil =>
      simp only [List.reverse_nil, List.foldl_nil, List.find?_nil]
      rw [active_iff]
      simp [empty]
    | cons o rops ih =>
      rw [List.reverse_cons, List.foldl_append, List.foldl_cons, List.foldl_nil, List.find?_cons]
      generalize rops.reverse.foldl apply empty = b at ih ⊢
      cases o with
      | activate u =>
        by_cases hu : Valid u
        · have hb := activate_valid b hu
          have happ : apply b (.activate u) = b.setByte (u.toNat / 8) (b.byte (u.toNat / 8) ||| 2 ^ (u.toNat % 8)) := by
            unfold apply; simp only [hb]
          rw [happ, activate_active hu ht hb]
          by_cases he : u = t
          · subst he; simp [Op.tick, Op.isActivate]
          · have : ((Op.activate u).tick == t) = false := by simp [Op.tick, he]
            rw [this]
            simp only
            rw [ih]
            constructor
            · rintro (h | h)
              · exact absurd h.symm he
              · exact h
            · exact .inr
        · have : apply b (.activate u) = b := by
            unfold apply activateTick; simp only [index_invalid hu]; rfl
          rw [this, ih]
          have hne : u ≠ t := by rintro rfl; exact hu ht
          have : ((Op.activate u).tick == t) = false := by simp [Op.tick, hne]
          rw [this]
      | unset u =>
        by_cases hu : Valid u
        · have hb := unset_valid b hu
          have happ : apply b (.unset u) =
              b.setByte (u.toNat / 8) (b.byte (u.toNat / 8) &&& (255 ^^^ 2 ^ (u.toNat % 8))) := by
            unfold apply; simp only [hb]
          rw [happ, unset_active hu ht hb]
          by_cases he : u = t
          · subst he; simp [Op.tick, Op.isActivate]
          · have : ((Op.unset u).tick == t) = false := by simp [Op.tick, he]
            rw [this]
            simp only
            rw [ih]
            exact ⟨fun h => h.2, fun h => ⟨fun h' => he h'.symm, h⟩⟩
        · have : apply b (.unset u) = b := by
            unfold apply unsetTick; simp only [index_invalid hu]; rfl
          rw [this, ih]
          have hne : u ≠ t := by rintro rfl; exact hu ht
          have : ((Op.unset u).tick == t) = false := by simp [Op.tick, hne]
          rw [this]
  have := key ops.reverse
  rw [List.reverse_reverse] at this
  exact this

/-- C49: operations on valid ticks never panic, all others always do. -/
theorem C49_range (b : Bitmap) (t : Int) :
    (0 ≤ t ∧ t < 80000 → (∃ b', b.activateTick t = .ok b') ∧ (∃ b', b.unsetTick t = .ok b') ∧
      (∃ r, b.tickIsActive t = .ok r)) ∧
    (¬ (0 ≤ t ∧ t < 80000) → b.activateTick t = .error .panic ∧ b.unsetTick t = .error .panic ∧
      b.tickIsActive t = .error .panic ∧ ∀ d, b.getNextTick t d = .error .panic) := by
  refine ⟨fun h => ⟨⟨_, activate_valid b h⟩, ⟨_, unset_valid b h⟩, ⟨_, isActive_valid b h⟩⟩, fun h => ?_⟩
  unfold activateTick unsetTick tickIsActive getNextTick
  rw [index_invalid h]
  exact ⟨rfl, rfl, rfl, fun _ => rfl⟩

-- activate 5, 40000, 5; unset 5; activate 79999; unset 80000 (panics): 40000 and 79999 remain
example : (after [.activate 5, .activate 40000, .activate 5, .unset 5, .activate 79999,
      .unset 80000]).tickIsActive 5 = .ok false ∧
    (after [.activate 5, .activate 40000, .activate 5, .unset 5, .activate 79999,
      .unset 80000]).tickIsActive 40000 = .ok true ∧
    (after [.activate 5, .activate 40000, .activate 5, .unset 5, .activate 79999,
      .unset 80000]).tickIsActive 79999 = .ok true := by decide +kernel

/-! ### C50 Next-tick search to the right is exact -/

/-- C50: from a valid tick the search to the right (direction 1) returns the least active tick above
it, or nothing exactly when there is none.  It never panics. -/
theorem C50_right (b : Bitmap) {t : Int} (ht : Valid t) :
    (∃ u, b.getNextTick t 1 = .ok (some u) ∧ t < u ∧ b.Active u ∧ ∀ v, t < v → v < u → ¬ b.Active v) ∨
    (b.getNextTick t 1 = .ok none ∧ ∀ v, t < v → ¬ b.Active v) := by
  obtain ⟨n, rfl⟩ : ∃ n : Nat, t = n := ⟨t.toNat, by obtain ⟨h1, _⟩ := ht; omega⟩
  have hn : n < 80000 := by obtain ⟨_, h2⟩ := ht; omega
  have hix : (ixOf (n : Int)).toNat = n % 8 := by rw [ixOf_valid ht]; omega
  have hidx := index_valid ht
  rw [Int.toNat_natCast] at hidx
  -- active ticks in natural numbers
  have hact : ∀ v : Int, b.Active v → ∃ m : Nat, v = m ∧ m < 80000 ∧ (b.byte (m / 8)).testBit (m % 8) = true := by
    intro v hv
    obtain ⟨⟨h1, h2⟩, h3⟩ := (active_iff b v).1 hv
    exact ⟨v.toNat, by omega, by omega, h3⟩
  unfold getNextTick
  rw [hidx, hix]
  simp only [bind, Except.bind]
  rcases byteNext_right (b.byte (n / 8)) (n % 8) true with ⟨r, h1, h2, h3, h4, h5⟩ | ⟨h1, h2⟩
  · left
    rw [h1]
    simp only [if_true] at h2 h5
    refine ⟨_, rfl, ?_, ?_, fun v hv1 hv2 hv => ?_⟩
    · omega
    · rw [active_iff]
      refine ⟨⟨by omega, by omega⟩, ?_⟩
      rw [show (((n / 8 : ℕ) : Int) * 8 + r).toNat = n / 8 * 8 + r by omega,
        show (n / 8 * 8 + r) / 8 = n / 8 by omega, show (n / 8 * 8 + r) % 8 = r by omega]
      exact h4
    · obtain ⟨m, rfl, hm, hbit⟩ := hact v hv
      rw [show m / 8 = n / 8 by omega, h5 _ (by omega) (by omega)] at hbit
      cases hbit
  · rw [h1]
    simp only [if_true] at h2
    have hword : ∀ m : Nat, n < m → m < (n / 8 + 1) * 8 → (b.byte (m / 8)).testBit (m % 8) = false := by
      intro m hm1 hm2
      rw [show m / 8 = n / 8 by omega]
      exact h2 _ (by omega) (by omega)
    rw [if_neg (by norm_num)]
    rcases scanRight_spec b (n % 8) (bitmapSize - (n / 8 + 1)) (n / 8 + 1) with
      ⟨r, g1, g2, g3, g4, g5⟩ | ⟨g1, g2⟩
    · left
      unfold bitmapSize at *
      refine ⟨r, by rw [g1]; rfl, by omega, (active_nat b r (by omega)).2 g4, fun v hv1 hv2 hv => ?_⟩
      obtain ⟨m, rfl, hm, hbit⟩ := hact v hv
      by_cases hc : m < (n / 8 + 1) * 8
      · rw [hword m (by omega) hc] at hbit; cases hbit
      · rw [g5 m (by omega) (by omega)] at hbit; cases hbit
    · right
      unfold bitmapSize at *
      refine ⟨by rw [g1]; rfl, fun v hv1 hv => ?_⟩
      obtain ⟨m, rfl, hm, hbit⟩ := hact v hv
      by_cases hc : m < (n / 8 + 1) * 8
      · rw [hword m (by omega) hc] at hbit; cases hbit
      · rw [g2 m (by omega) (by omega)] at hbit; cases hbit

example : (after [.activate 5, .activate 7, .activate 78990]).getNextTick 5 1 = .ok (some 7) ∧
    (after [.activate 5, .activate 7, .activate 1990]).getNextTick 7 1 = .ok (some 1990) := by
  decide +kernel

/-! ### C51 Next-tick search to the left is exact -/

/-- C51: from a valid tick the search to the left (direction 0) returns the greatest active tick below
it, or nothing exactly when there is none.  It never panics. -/
theorem C51_left (b : Bitmap) {t : Int} (ht : Valid t) :
    (∃ u, b.getNextTick t 0 = .ok (some u) ∧ u < t ∧ b.Active u ∧ ∀ v, u < v → v < t → ¬ b.Active v) ∨
    (b.getNextTick t 0 = .ok none ∧ ∀ v, v < t → ¬ b.Active v) := by
  obtain ⟨n, rfl⟩ : ∃ n : Nat, t = n := ⟨t.toNat, by obtain ⟨h1, _⟩ := ht; omega⟩
  have hn : n < 80000 := by obtain ⟨_, h2⟩ := ht; omega
  have hix : (ixOf (n : Int)).toNat = n % 8 := by rw [ixOf_valid ht]; omega
  have hidx := index_valid ht
  rw [Int.toNat_natCast] at hidx
  have hact : ∀ v : Int, b.Active v → ∃ m : Nat, v = m ∧ m < 80000 ∧ (b.byte (m / 8)).testBit (m % 8) = true := by
    intro v hv
    obtain ⟨⟨h1, h2⟩, h3⟩ := (active_iff b v).1 hv
    exact ⟨v.toNat, by omega, by omega, h3⟩
  unfold getNextTick
  rw [hidx, hix]
  simp only [bind, Except.bind]
  rcases byteNext_left (b.byte (n / 8)) (n % 8) true with ⟨r, h1, h2, h3, h5⟩ | ⟨h1, h2⟩
  · left
    rw [h1]
    simp only [if_true] at h2 h5
    refine ⟨_, rfl, ?_, ?_, fun v hv1 hv2 hv => ?_⟩
    · omega
    · rw [active_iff]
      refine ⟨⟨by omega, by omega⟩, ?_⟩
      rw [show (((n / 8 : ℕ) : Int) * 8 + r).toNat = n / 8 * 8 + r by omega,
        show (n / 8 * 8 + r) / 8 = n / 8 by omega, show (n / 8 * 8 + r) % 8 = r by omega]
      exact h3
    · obtain ⟨m, rfl, hm, hbit⟩ := hact v hv
      rw [show m / 8 = n / 8 by omega, h5 _ (by omega) (by omega)] at hbit
      cases hbit
  · rw [h1]
    simp only [if_true] at h2
    have hword : ∀ m : Nat, m < n → n / 8 * 8 ≤ m → (b.byte (m / 8)).testBit (m % 8) = false := by
      intro m hm1 hm2
      rw [show m / 8 = n / 8 by omega]
      exact h2 _ (by omega)
    simp only [if_true]
    rcases scanLeft_spec b (n % 8) (n / 8) with ⟨r, g1, g3, g4, g5⟩ | ⟨g1, g2⟩
    · left
      refine ⟨r, by rw [g1]; rfl, by omega, (active_nat b r (by omega)).2 g4, fun v hv1 hv2 hv => ?_⟩
      obtain ⟨m, rfl, hm, hbit⟩ := hact v hv
      by_cases hc : n / 8 * 8 ≤ m
      · rw [hword m (by omega) hc] at hbit; cases hbit
      · rw [g5 m (by omega) (by omega)] at hbit; cases hbit
    · right
      refine ⟨by rw [g1]; rfl, fun v hv1 hv => ?_⟩
      obtain ⟨m, rfl, hm, hbit⟩ := hact v hv
      by_cases hc : n / 8 * 8 ≤ m
      · rw [hword m (by omega) hc] at hbit; cases hbit
      · rw [g2 m (by omega)] at hbit; cases hbit

example : (after [.activate 5, .activate 7, .activate 1990]).getNextTick 1990 0 = .ok (some 7) ∧
    (after [.activate 5, .activate 7]).getNextTick 5 0 = .ok none := by
  decide +kernel

end Hmm
