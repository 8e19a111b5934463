import Verif.Proofs.Rounding

/-
Properties of decimal comparison: C08, C09.
-/

namespace Hmm

open Decimal

/-! ### C08 Comparisons agree with the represented numbers: false for negative zero -/

/-- C08 is false of the code: negative zero and zero represent the same number and compare as
different. -/
theorem C08_false : ¬ ∀ a b : Decimal, a.scale = b.scale →
    ∀ r, a.lt b = .ok r → (r = true ↔ a.toRat < b.toRat) := by
  intro h
  have := (h ⟨0, 2, true⟩ ⟨0, 2, false⟩ rfl true (by decide)).1 rfl
  rw [toRat_zero rfl, toRat_zero rfl] at this
  exact lt_irrefl _ this

/-- C08: negative zero does come out of ordinary operations: (-1.50) * 0.00 is the negative zero, which
then is reported unequal to, and smaller than, zero. -/
theorem C08_false_reachable :
    (Decimal.mk 150 2 true).mul ⟨0, 2, false⟩ = .ok ⟨0, 2, true⟩ ∧
    (Decimal.mk 0 2 true).eq ⟨0, 2, false⟩ = .ok false ∧
    (Decimal.mk 0 2 true).lt ⟨0, 2, false⟩ = .ok true ∧
    (Decimal.mk 0 2 true).gte ⟨0, 2, false⟩ = .ok false := by decide

theorem div_lt_pow {a b : ℚ} (s : Nat) : a / 10 ^ s < b / 10 ^ s ↔ a < b :=
  div_lt_div_iff_of_pos_right (by positivity)

/-- Without negative zero the order of the numbers is the order of the signed values. -/
theorem toRat_lt_iff {a b : Decimal} (hs : a.scale = b.scale) : a.toRat < b.toRat ↔ a.sval < b.sval := by
  rw [sval_toRat, sval_toRat, hs, div_lt_pow]
  exact_mod_cast Iff.rfl

theorem toRat_eq_iff {a b : Decimal} (hs : a.scale = b.scale) : a.toRat = b.toRat ↔ a.sval = b.sval := by
  rw [sval_toRat, sval_toRat, hs, div_left_inj' (by positivity)]
  exact_mod_cast Iff.rfl

/-- C08, the part that holds: when neither operand is negative zero, every comparison returns the
truth value of the relation between the represented numbers.  Missing: negative zero (`C08_false`). -/
theorem C08_compare_partial {a b : Decimal} (hs : a.scale = b.scale)
    (ha : ¬ a.isNegZero) (hb : ¬ b.isNegZero) :
    a.eq b = .ok (decide (a.toRat = b.toRat)) ∧ a.lt b = .ok (decide (a.toRat < b.toRat)) ∧
    a.gt b = .ok (decide (a.toRat > b.toRat)) ∧ a.gte b = .ok (decide (a.toRat ≥ b.toRat)) ∧
    a.lte b = .ok (decide (a.toRat ≤ b.toRat)) := by
  have e1 := toRat_eq_iff hs
  have e2 := toRat_lt_iff hs
  have e3 := toRat_lt_iff hs.symm
  have e4 : a.toRat ≤ b.toRat ↔ a.sval ≤ b.sval := by rw [← not_lt, e3, not_lt]
  have e5 : b.toRat ≤ a.toRat ↔ b.sval ≤ a.sval := by rw [← not_lt, e2, not_lt]
  simp only [gt_iff_lt, ge_iff_le, e1, e2, e3, e4, e5]
  obtain ⟨av, as, an⟩ := a
  obtain ⟨bv, bs, bn⟩ := b
  simp only at hs
  subst hs
  unfold isNegZero at ha hb
  unfold Decimal.eq Decimal.lt Decimal.gt Decimal.gte Decimal.lte sval
  refine ⟨?_, ?_, ?_, ?_, ?_⟩ <;> cases an <;> cases bn <;> simp at ha hb <;> simp <;>
    first | omega | rfl

example : ¬ (Decimal.mk 5 1 true).isNegZero ∧ (Decimal.mk 5 1 true).lt ⟨3, 1, true⟩ = .ok true := by
  unfold isNegZero; decide

/-! ### C09 Comparisons are mutually consistent (all decimals, negative zero included) -/

/-- C09: operands of different scale are always refused, operands of equal scale never. -/
theorem C09_scales (a b : Decimal) :
    (a.scale ≠ b.scale →
      a.eq b = .error (.code .differentScale) ∧ a.lt b = .error (.code .differentScale) ∧
      a.gt b = .error (.code .differentScale) ∧ a.lte b = .error (.code .differentScale) ∧
      a.gte b = .error (.code .differentScale)) ∧
    (a.scale = b.scale → (∃ r, a.eq b = .ok r) ∧ (∃ r, a.lt b = .ok r) ∧ (∃ r, a.gt b = .ok r) ∧
      (∃ r, a.lte b = .ok r) ∧ (∃ r, a.gte b = .ok r)) := by
  unfold Decimal.eq Decimal.lt Decimal.gt Decimal.gte Decimal.lte
  constructor
  · intro h; simp [h, rerr]
  · intro h
    cases a.negative <;> cases b.negative <;> simp [h]

/-- C09: exactly one of `lt`, `eq`, `gt` holds. -/
theorem C09_trichotomy {a b : Decimal} (hs : a.scale = b.scale) :
    (a.lt b = .ok true ∧ a.eq b = .ok false ∧ a.gt b = .ok false) ∨
    (a.lt b = .ok false ∧ a.eq b = .ok true ∧ a.gt b = .ok false) ∨
    (a.lt b = .ok false ∧ a.eq b = .ok false ∧ a.gt b = .ok true) := by
  unfold Decimal.eq Decimal.lt Decimal.gt
  rcases lt_trichotomy a.value b.value with h | h | h <;>
    cases a.negative <;> cases b.negative <;> simp [hs, h] <;> omega

/-- C09: `eq` holds exactly for identical decimals. -/
theorem C09_eq_iff (a b : Decimal) : a.eq b = .ok true ↔ a = b := by
  obtain ⟨av, as, an⟩ := a
  obtain ⟨bv, bs, bn⟩ := b
  unfold Decimal.eq
  by_cases h : as = bs
  · simp [h]
  · simp [h, rerr]

/-- C09: `gte` negates `lt`, `lte` negates `gt`, and `gt` is `lt` with the operands exchanged. -/
theorem C09_negations {a b : Decimal} {r : Bool} :
    (a.gte b = .ok r ↔ a.lt b = .ok (!r)) ∧ (a.lte b = .ok r ↔ a.gt b = .ok (!r)) ∧
    (a.gt b = .ok r ↔ b.lt a = .ok r) := by
  unfold Decimal.lt Decimal.gt Decimal.gte Decimal.lte
  by_cases hs : a.scale = b.scale
  · cases a.negative <;> cases b.negative <;> cases r <;> simp [hs]
  · simp [hs, rerr, Ne.symm hs]

/-- C09: `lt` is transitive. -/
theorem C09_lt_trans {a b c : Decimal} (h1 : a.lt b = .ok true) (h2 : b.lt c = .ok true) :
    a.lt c = .ok true := by
  unfold Decimal.lt at *
  by_cases hs : a.scale = b.scale
  · by_cases hs' : b.scale = c.scale
    · revert h1 h2
      cases a.negative <;> cases b.negative <;> cases c.negative <;> simp [hs, hs'] <;> omega
    · simp [hs', rerr] at h2
  · simp [hs, rerr] at h1

/-- C09: `min` and `max` return one of the operands, ordered accordingly, whenever the scales agree. -/
theorem C09_min_max {a b : Decimal} (hs : a.scale = b.scale) :
    ∃ lo hi, a.min b = .ok lo ∧ a.max b = .ok hi ∧ lo.lte hi = .ok true ∧
      ((lo = a ∧ hi = b) ∨ (lo = b ∧ hi = a)) := by
  unfold Decimal.min Decimal.max
  rcases C09_trichotomy hs with ⟨h1, h2, h3⟩ | ⟨h1, h2, h3⟩ | ⟨h1, h2, h3⟩
  · have e1 : a.lte b = .ok true := (C09_negations (r := true)).2.1.2 h3
    have e2 : a.gte b = .ok false := (C09_negations (r := false)).1.2 h1
    rw [e1, e2]
    exact ⟨a, b, rfl, rfl, e1, .inl ⟨rfl, rfl⟩⟩
  · have := (C09_eq_iff a b).1 h2
    subst this
    have e1 : a.lte a = .ok true := (C09_negations (r := true)).2.1.2 h3
    have e2 : a.gte a = .ok true := (C09_negations (r := true)).1.2 h1
    rw [e1, e2]
    exact ⟨a, a, rfl, rfl, e1, .inl ⟨rfl, rfl⟩⟩
  · have e1 : a.lte b = .ok false := (C09_negations (r := false)).2.1.2 h3
    have e2 : a.gte b = .ok true := (C09_negations (r := true)).1.2 h1
    have e3 : b.lt a = .ok true := (C09_negations (r := true)).2.2.1 h3
    have e4 : b.lte a = .ok true := by
      have := (C09_negations (a := b) (b := a) (r := true)).2.1
      rw [this, (C09_negations (a := b) (b := a)).2.2]; exact h1
    rw [e1, e2]
    exact ⟨b, a, rfl, rfl, e4, .inr ⟨rfl, rfl⟩⟩

/-- C09: `min` and `max` of decimals of different scale panic (they unwrap the comparison). -/
theorem C09_min_max_scales {a b : Decimal} (hs : a.scale ≠ b.scale) :
    a.min b = .error .panic ∧ a.max b = .error .panic := by
  unfold Decimal.min Decimal.max Decimal.lte Decimal.gte
  simp [hs, rerr, unwrap]
  rfl

example : (Decimal.mk 5 1 true).min ⟨3, 1, true⟩ = .ok ⟨5, 1, true⟩ ∧
    (Decimal.mk 5 1 true).max ⟨3, 1, true⟩ = .ok ⟨3, 1, true⟩ ∧
    (Decimal.mk 5 1 true).lt ⟨0, 1, true⟩ = .ok true ∧
    (Decimal.mk 0 1 true).lt ⟨0, 1, false⟩ = .ok true := by decide

end Hmm
