import Verif.Props.DecimalCompare

/-
Comparisons, negative zero included: the rest of C08.
-/

namespace Hmm

open Decimal

/-- C08, exactly: at equal scales every comparison is right, except between the two zeros. -/
theorem C08_right {a b : Decimal} (hs : a.scale = b.scale) (h : ¬ (a.value = 0 ∧ b.value = 0 ∧ a.negative ≠ b.negative)) :
    a.eq b = .ok (decide (a.toRat = b.toRat)) ∧ a.lt b = .ok (decide (a.toRat < b.toRat)) ∧
    a.gt b = .ok (decide (a.toRat > b.toRat)) ∧ a.gte b = .ok (decide (a.toRat ≥ b.toRat)) ∧
    a.lte b = .ok (decide (a.toRat ≤ b.toRat)) := by
  have e1 := toRat_eq_iff hs
  have e2 := toRat_lt_iff hs
  have e3 := toRat_lt_iff hs.symm
  have e4 : a.toRat ≤ b.toRat ↔ a.sval ≤ b.sval := by rw [← not_lt, e3, not_lt]
  have e5 : b.toRat ≤ a.toRat ↔ b.sval ≤ a.sval := by rw [← not_lt, e2, not_lt]
  simp only [gt_iff_lt, ge_iff_le, e1, e2, e3, e4, e5]
  obtain ⟨av, as, an⟩ := a
  obtain ⟨bv, bs, bn⟩ := b
  simp only at hs
  subst hs
  unfold Decimal.eq Decimal.lt Decimal.gt Decimal.gte Decimal.lte sval
  refine ⟨?_, ?_, ?_, ?_, ?_⟩ <;> cases an <;> cases bn <;> simp at h <;> simp <;>
    first | omega | rfl

/-- C08, exactly: of two different zeros the negative one is reported smaller. -/
theorem C08_zeros {a b : Decimal} (hs : a.scale = b.scale) (h : a.value = 0 ∧ b.value = 0 ∧ a.negative ≠ b.negative) :
    a.toRat = b.toRat ∧ a.eq b = .ok false ∧ a.lt b = .ok a.negative ∧ a.gt b = .ok b.negative ∧
    a.gte b = .ok b.negative ∧ a.lte b = .ok a.negative := by
  obtain ⟨av, as, an⟩ := a
  obtain ⟨bv, bs, bn⟩ := b
  simp only at hs h
  obtain ⟨rfl, rfl, h⟩ := h
  subst hs
  refine ⟨by rw [toRat_zero rfl, toRat_zero rfl], ?_⟩
  unfold Decimal.eq Decimal.lt Decimal.gt Decimal.gte Decimal.lte
  cases an <;> cases bn <;> simp at h <;> simp

/-- A negative zero compared with a half, and with zero. -/
example : (Decimal.mk 0 1 true).lt ⟨5, 1, false⟩ = .ok true ∧ (Decimal.mk 0 1 true).gt ⟨5, 1, true⟩ = .ok true ∧
    (Decimal.mk 0 1 false).gt ⟨0, 1, true⟩ = .ok true := by decide

end Hmm
