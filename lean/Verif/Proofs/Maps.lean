import Verif.Model.Maps
import Mathlib.Data.List.Basic
import Mathlib.Algebra.BigOperators.Group.List.Basic
import Mathlib.Tactic.Ring
import Mathlib.Tactic.Linarith
import Mathlib.Algebra.Order.Field.Rat

/-
Helper lemmas about the association lists.
-/

namespace Hmm

variable {κ α : Type} [DecidableEq κ]

theorem mapGet_set_same (k : κ) (v : α) (m : List (κ × α)) : mapGet k (mapSet k v m) = some v := by
  induction m with
  | nil => simp [mapSet, mapGet]
  | cons e m ih =>
    obtain ⟨k', v'⟩ := e
    by_cases h : k' = k <;> simp [mapSet, mapGet, h, ih]

theorem mapGet_set_other {k j : κ} (h : j ≠ k) (v : α) (m : List (κ × α)) :
    mapGet j (mapSet k v m) = mapGet j m := by
  induction m with
  | nil => simp [mapSet, mapGet, Ne.symm h]
  | cons e m ih =>
    obtain ⟨k', v'⟩ := e
    by_cases h1 : k' = k
    · subst h1; simp [mapSet, mapGet, Ne.symm h]
    · by_cases h2 : k' = j
      · subst h2; simp [mapSet, mapGet, h1]
      · simp [mapSet, mapGet, h1, h2, ih]

theorem mapGet_erase_same (k : κ) (m : List (κ × α)) : mapGet k (mapErase k m) = none := by
  induction m with
  | nil => simp [mapErase, mapGet]
  | cons e m ih =>
    obtain ⟨k', v'⟩ := e
    by_cases h : k' = k <;> simp [mapErase, mapGet, h, ih]

theorem mapGet_erase_other {k j : κ} (h : j ≠ k) (m : List (κ × α)) :
    mapGet j (mapErase k m) = mapGet j m := by
  induction m with
  | nil => simp [mapErase, mapGet]
  | cons e m ih =>
    obtain ⟨k', v'⟩ := e
    by_cases h1 : k' = k
    · subst h1; simp [mapErase, mapGet, Ne.symm h, ih]
    · by_cases h2 : k' = j
      · subst h2; simp [mapErase, mapGet, h1]
      · simp [mapErase, mapGet, h1, h2, ih]

theorem mapGet_treeInsert_same (k : Nat) (v : α) (m : List (Nat × α)) :
    mapGet k (treeInsert k v m) = some v := by
  induction m with
  | nil => simp [treeInsert, mapGet]
  | cons e m ih =>
    obtain ⟨k', v'⟩ := e
    by_cases h : k < k'
    · simp [treeInsert, mapGet, h]
    · by_cases h2 : k' = k <;> simp [treeInsert, mapGet, h, h2, ih]

theorem mapGet_treeInsert_other {k j : Nat} (h : j ≠ k) (v : α) (m : List (Nat × α)) :
    mapGet j (treeInsert k v m) = mapGet j m := by
  induction m with
  | nil => simp [treeInsert, mapGet, Ne.symm h]
  | cons e m ih =>
    obtain ⟨k', v'⟩ := e
    by_cases h1 : k < k'
    · simp [treeInsert, mapGet, h1, Ne.symm h]
    · by_cases h2 : k' = k
      · subst h2; simp [treeInsert, mapGet, Ne.symm h]
      · by_cases h3 : k' = j
        · subst h3; simp [treeInsert, mapGet, h1, h2]
        · simp [treeInsert, mapGet, h1, h2, h3, ih]

/-- Looking a key up finds something exactly when the key is listed. -/
theorem mapGet_isSome {k : κ} {m : List (κ × α)} : (mapGet k m).isSome = true ↔ k ∈ m.map (·.1) := by
  induction m with
  | nil => simp [mapGet]
  | cons e m ih =>
    obtain ⟨k', v'⟩ := e
    by_cases h : k' = k
    · simp [mapGet, h]
    · simp only [mapGet, h, if_false, ih, List.map_cons, List.mem_cons]
      constructor
      · exact Or.inr
      · rintro (h' | h')
        · exact absurd h'.symm h
        · exact h'

theorem mapGet_none {k : κ} {m : List (κ × α)} : mapGet k m = none ↔ k ∉ m.map (·.1) := by
  rw [← mapGet_isSome]; cases mapGet k m <;> simp

theorem mapGet_mem {k : κ} {v : α} {m : List (κ × α)} (h : mapGet k m = some v) : (k, v) ∈ m := by
  induction m with
  | nil => simp [mapGet] at h
  | cons e m ih =>
    obtain ⟨k', v'⟩ := e
    by_cases h1 : k' = k
    · subst h1; simp [mapGet] at h; subst h; simp
    · simp [mapGet, h1] at h; exact List.mem_cons_of_mem _ (ih h)

/-- Overwriting an existing key keeps the list of keys. -/
theorem keys_set {k : κ} {v : α} {m : List (κ × α)} (h : k ∈ m.map (·.1)) :
    (mapSet k v m).map (·.1) = m.map (·.1) := by
  induction m with
  | nil => simp at h
  | cons e m ih =>
    obtain ⟨k', v'⟩ := e
    by_cases h1 : k' = k
    · simp [mapSet, h1]
    · simp only [List.map_cons, List.mem_cons] at h
      rcases h with h | h
      · exact absurd h.symm h1
      · simp [mapSet, h1, ih h]

theorem mem_keys_set {k j : κ} {v : α} {m : List (κ × α)} :
    j ∈ (mapSet k v m).map (·.1) ↔ j = k ∨ j ∈ m.map (·.1) := by
  rw [← mapGet_isSome, ← mapGet_isSome]
  by_cases h : j = k
  · subst h; simp [mapGet_set_same]
  · simp [mapGet_set_other h, h]

theorem mem_keys_erase {k j : κ} {m : List (κ × α)} :
    j ∈ (mapErase k m).map (·.1) ↔ j ≠ k ∧ j ∈ m.map (·.1) := by
  rw [← mapGet_isSome, ← mapGet_isSome]
  by_cases h : j = k
  · subst h; simp [mapGet_erase_same]
  · simp [mapGet_erase_other h, h]

theorem mem_keys_treeInsert {k j : Nat} {v : α} {m : List (Nat × α)} :
    j ∈ (treeInsert k v m).map (·.1) ↔ j = k ∨ j ∈ m.map (·.1) := by
  rw [← mapGet_isSome, ← mapGet_isSome]
  by_cases h : j = k
  · subst h; simp [mapGet_treeInsert_same]
  · simp [mapGet_treeInsert_other h, h]

/-- The keys of a map are pairwise different. -/
def UniqueKeys (m : List (κ × α)) : Prop := (m.map (·.1)).Nodup

theorem UniqueKeys.set {m : List (κ × α)} (h : UniqueKeys m) (k : κ) (v : α) :
    UniqueKeys (mapSet k v m) := by
  unfold UniqueKeys at *
  by_cases hk : k ∈ m.map (·.1)
  · rw [keys_set hk]; exact h
  · induction m with
    | nil => simp [mapSet]
    | cons e m ih =>
      obtain ⟨k', v'⟩ := e
      simp only [List.map_cons, List.mem_cons, not_or] at hk
      have h1 : k' ≠ k := fun h => hk.1 h.symm
      simp only [List.map_cons, List.nodup_cons] at h
      simp only [mapSet, h1, if_false, List.map_cons, List.nodup_cons]
      exact ⟨fun hm => (mem_keys_set.1 hm).elim (fun e => h1 e) h.1, ih h.2 hk.2⟩

theorem UniqueKeys.erase {m : List (κ × α)} (h : UniqueKeys m) (k : κ) : UniqueKeys (mapErase k m) := by
  unfold UniqueKeys at *
  induction m with
  | nil => simp [mapErase]
  | cons e m ih =>
    obtain ⟨k', v'⟩ := e
    simp only [List.map_cons, List.nodup_cons] at h
    by_cases h1 : k' = k
    · simp only [mapErase, h1, if_true]; exact ih h.2
    · simp only [mapErase, h1, if_false, List.map_cons, List.nodup_cons]
      exact ⟨fun hm => h.1 (mem_keys_erase.1 hm).2, ih h.2⟩

/-- Erasing an absent key does nothing. -/
theorem mapErase_absent {k : κ} {m : List (κ × α)} (h : mapGet k m = none) : mapErase k m = m := by
  induction m with
  | nil => rfl
  | cons e m ih =>
    obtain ⟨k', v'⟩ := e
    by_cases h1 : k' = k
    · simp [mapGet, h1] at h
    · simp [mapGet, h1] at h; simp [mapErase, h1, ih h]

/-- Strictly ascending keys, the iteration order of a `BTreeMap`. -/
def Ascending (m : List (Nat × α)) : Prop := (m.map (·.1)).Pairwise (· < ·)

theorem Ascending.nil : Ascending ([] : List (Nat × α)) := List.Pairwise.nil

theorem Ascending.set {m : List (Nat × α)} (h : Ascending m) {k : Nat} (hk : k ∈ m.map (·.1)) (v : α) :
    Ascending (mapSet k v m) := by
  unfold Ascending at *; rw [keys_set hk]; exact h

theorem Ascending.erase {m : List (Nat × α)} (h : Ascending m) (k : Nat) : Ascending (mapErase k m) := by
  unfold Ascending at *
  induction m with
  | nil => simp [mapErase]
  | cons e m ih =>
    obtain ⟨k', v'⟩ := e
    simp only [List.map_cons, List.pairwise_cons] at h
    by_cases h1 : k' = k
    · simp only [mapErase, h1, if_true]; exact ih h.2
    · simp only [mapErase, h1, if_false, List.map_cons, List.pairwise_cons]
      exact ⟨fun j hj => h.1 j (mem_keys_erase.1 hj).2, ih h.2⟩

theorem Ascending.treeInsert {m : List (Nat × α)} (h : Ascending m) (k : Nat) (v : α) :
    Ascending (treeInsert k v m) := by
  unfold Ascending at *
  induction m with
  | nil => simp [Hmm.treeInsert]
  | cons e m ih =>
    obtain ⟨k', v'⟩ := e
    simp only [List.map_cons, List.pairwise_cons] at h
    by_cases h1 : k < k'
    · simp only [Hmm.treeInsert, h1, if_true, List.map_cons, List.pairwise_cons]
      refine ⟨fun j hj => ?_, fun j hj => h.1 j hj, h.2⟩
      simp only [List.mem_cons] at hj
      rcases hj with rfl | hj
      · exact h1
      · exact lt_trans h1 (h.1 j hj)
    · by_cases h2 : k' = k
      · subst h2
        simp only [Hmm.treeInsert, lt_irrefl, if_false, if_true, List.map_cons, List.pairwise_cons]
        exact h
      · simp only [Hmm.treeInsert, h1, h2, if_false, List.map_cons, List.pairwise_cons]
        refine ⟨fun j hj => ?_, ih h.2⟩
        rcases mem_keys_treeInsert.1 hj with rfl | hj
        · omega
        · exact h.1 j hj

/-- A total over all entries. -/
def mapSum (f : κ → α → ℚ) (m : List (κ × α)) : ℚ := (m.map fun e => f e.1 e.2).sum

omit [DecidableEq κ] in
theorem mapSum_nil (f : κ → α → ℚ) : mapSum f [] = 0 := rfl

omit [DecidableEq κ] in
theorem mapSum_cons (f : κ → α → ℚ) (k : κ) (v : α) (m : List (κ × α)) :
    mapSum f ((k, v) :: m) = f k v + mapSum f m := by simp [mapSum]

/-- Effect of inserting or overwriting on a total. -/
theorem mapSum_set (f : κ → α → ℚ) (k : κ) (v : α) (m : List (κ × α)) :
    mapSum f (mapSet k v m) = mapSum f m + f k v - (mapGet k m).elim 0 (f k) := by
  induction m with
  | nil => simp [mapSet, mapSum, mapGet]
  | cons e m ih =>
    obtain ⟨k', v'⟩ := e
    by_cases h : k' = k
    · subst h; simp only [mapSet, if_true, mapGet, mapSum_cons, Option.elim_some]; ring
    · simp only [mapSet, h, if_false, mapGet, mapSum_cons, ih]; ring

/-- Effect of erasing on a total. -/
theorem mapSum_erase (f : κ → α → ℚ) (k : κ) {m : List (κ × α)} (hu : UniqueKeys m) :
    mapSum f (mapErase k m) = mapSum f m - (mapGet k m).elim 0 (f k) := by
  unfold UniqueKeys at hu
  induction m with
  | nil => simp [mapErase, mapSum, mapGet]
  | cons e m ih =>
    obtain ⟨k', v'⟩ := e
    simp only [List.map_cons, List.nodup_cons] at hu
    by_cases h : k' = k
    · subst h
      simp only [mapErase, if_true, mapGet, mapSum_cons, Option.elim_some]
      rw [mapErase_absent (mapGet_none.2 hu.1)]; ring
    · simp only [mapErase, h, if_false, mapGet, mapSum_cons, ih hu.2]; ring

omit [DecidableEq κ] in
theorem mapSum_nonneg {f : κ → α → ℚ} {m : List (κ × α)} (h : ∀ k v, (k, v) ∈ m → 0 ≤ f k v) :
    0 ≤ mapSum f m := by
  induction m with
  | nil => simp [mapSum]
  | cons e m ih =>
    obtain ⟨k', v'⟩ := e
    rw [mapSum_cons]
    have := h k' v' (by simp)
    have := ih fun k v hm => h k v (by simp [hm])
    linarith

omit [DecidableEq κ] in
/-- One entry is at most the total. -/
theorem le_mapSum {f : κ → α → ℚ} {m : List (κ × α)} (h : ∀ k v, (k, v) ∈ m → 0 ≤ f k v)
    {k : κ} {v : α} (hm : (k, v) ∈ m) : f k v ≤ mapSum f m := by
  induction m with
  | nil => simp at hm
  | cons e m ih =>
    obtain ⟨k', v'⟩ := e
    rw [mapSum_cons]
    have h0 := h k' v' (by simp)
    have hr := mapSum_nonneg (f := f) (m := m) fun k v hm => h k v (by simp [hm])
    simp only [List.mem_cons] at hm
    rcases hm with e | hm
    · cases e; linarith
    · have := ih (fun k v hm => h k v (by simp [hm])) hm
      linarith

omit [DecidableEq κ] in
theorem mapSum_congr {f g : κ → α → ℚ} {m : List (κ × α)} (h : ∀ k v, (k, v) ∈ m → f k v = g k v) :
    mapSum f m = mapSum g m := by
  induction m with
  | nil => rfl
  | cons e m ih =>
    obtain ⟨k', v'⟩ := e
    rw [mapSum_cons, mapSum_cons, h k' v' (by simp), ih fun k v hm => h k v (by simp [hm])]

end Hmm
