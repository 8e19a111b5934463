import Verif.Proofs.Basic

/-
Each decimal operation unfolded: when it returns and what, in terms of integer values.
Helper lemmas only; the properties are in `Verif/Props`.
-/

namespace Hmm.Decimal

theorem mul_ok {a b c : Decimal} : a.mul b = .ok c ↔
    a.value * b.value < u128Size ∧ 10 ^ b.scale < u128Size ∧
    c = ⟨a.value * b.value / 10 ^ b.scale, a.scale, !(a.negative == b.negative)⟩ := by
  unfold mul denominator
  steps
  constructor
  · rintro ⟨p, ⟨h1, rfl⟩, d, ⟨h2, rfl⟩, v, ⟨_, rfl⟩, rfl⟩
    exact ⟨h1, h2, rfl⟩
  · rintro ⟨h1, h2, rfl⟩
    exact ⟨_, ⟨h1, rfl⟩, _, ⟨h2, rfl⟩, _, ⟨(pow10_pos _).ne', rfl⟩, rfl⟩

theorem mul_error {a b : Decimal} {e : Err} : a.mul b = .error e ↔
    e = .panic ∧ (u128Size ≤ a.value * b.value ∨ u128Size ≤ 10 ^ b.scale) := by
  unfold mul denominator
  esteps
  constructor
  · rintro (⟨h, rfl⟩ | ⟨p, ⟨h1, rfl⟩, ⟨h, rfl⟩ | ⟨d, ⟨h2, rfl⟩, ⟨h, rfl⟩ | h⟩⟩)
    · exact ⟨rfl, .inl h⟩
    · exact ⟨rfl, .inr h⟩
    · exact absurd h (pow10_pos _).ne'
    · simp at h
  · rintro ⟨rfl, h⟩
    by_cases h1 : u128Size ≤ a.value * b.value
    · exact .inl ⟨h1, rfl⟩
    · rcases h with h | h
      · exact absurd h h1
      · exact .inr ⟨_, ⟨by omega, rfl⟩, .inl ⟨h, rfl⟩⟩

theorem mulInt_ok {a c : Decimal} {n : Nat} : a.mulInt n = .ok c ↔
    a.value * n < u128Size ∧ c = ⟨a.value * n, a.scale, a.negative⟩ := by
  unfold mulInt
  steps
  constructor
  · rintro ⟨p, ⟨h1, rfl⟩, rfl⟩; exact ⟨h1, rfl⟩
  · rintro ⟨h1, rfl⟩; exact ⟨_, ⟨h1, rfl⟩, rfl⟩

theorem mulUp_ok {a b c : Decimal} : a.mulUp b = .ok c ↔
    a.value * b.value + (10 ^ b.scale - 1) < u128Size ∧ 10 ^ b.scale < u128Size ∧
    c = ⟨(a.value * b.value + (10 ^ b.scale - 1)) / 10 ^ b.scale, a.scale,
      !(a.negative == b.negative)⟩ := by
  have hp := pow10_pos b.scale
  unfold mulUp denominator
  steps
  constructor
  · rintro ⟨d, ⟨h2, rfl⟩, p, ⟨h1, rfl⟩, d1, ⟨h3, rfl⟩, s, ⟨h4, rfl⟩, v, ⟨_, rfl⟩, rfl⟩
    exact ⟨h4, h2, rfl⟩
  · rintro ⟨h1, h2, rfl⟩
    exact ⟨_, ⟨h2, rfl⟩, _, ⟨by omega, rfl⟩, _, ⟨hp, rfl⟩, _, ⟨h1, rfl⟩, _, ⟨hp.ne', rfl⟩, rfl⟩

theorem div_ok {a b c : Decimal} : a.div b = .ok c ↔
    a.value * 10 ^ b.scale < u128Size ∧ 10 ^ b.scale < u128Size ∧ b.value ≠ 0 ∧
    c = ⟨a.value * 10 ^ b.scale / b.value, a.scale, !(a.negative == b.negative)⟩ := by
  unfold div denominator
  steps
  constructor
  · rintro ⟨d, ⟨h2, rfl⟩, p, ⟨h1, rfl⟩, v, ⟨h3, rfl⟩, rfl⟩
    exact ⟨h1, h2, h3, rfl⟩
  · rintro ⟨h1, h2, h3, rfl⟩
    exact ⟨_, ⟨h2, rfl⟩, _, ⟨h1, rfl⟩, _, ⟨h3, rfl⟩, rfl⟩

theorem div_error {a b : Decimal} {e : Err} : a.div b = .error e ↔
    e = .panic ∧ (b.value = 0 ∨ u128Size ≤ a.value * 10 ^ b.scale ∨ u128Size ≤ 10 ^ b.scale) := by
  unfold div denominator
  esteps
  constructor
  · rintro (⟨h, rfl⟩ | ⟨p, ⟨h1, rfl⟩, ⟨h, rfl⟩ | ⟨d, ⟨h2, rfl⟩, ⟨h, rfl⟩ | h⟩⟩)
    · exact ⟨rfl, .inr (.inr h)⟩
    · exact ⟨rfl, .inr (.inl h)⟩
    · exact ⟨rfl, .inl h⟩
    · simp at h
  · rintro ⟨rfl, h⟩
    by_cases h1 : u128Size ≤ 10 ^ b.scale
    · exact .inl ⟨h1, rfl⟩
    refine .inr ⟨_, ⟨by omega, rfl⟩, ?_⟩
    by_cases h2 : u128Size ≤ a.value * 10 ^ b.scale
    · exact .inl ⟨h2, rfl⟩
    refine .inr ⟨_, ⟨by omega, rfl⟩, ?_⟩
    rcases h with h | h | h
    · exact .inl ⟨h, rfl⟩
    · exact absurd h h2
    · exact absurd h h1

theorem divUp_ok {a b c : Decimal} : a.divUp b = .ok c ↔
    a.value * 10 ^ b.scale + (b.value - 1) < u128Size ∧ 10 ^ b.scale < u128Size ∧ b.value ≠ 0 ∧
    c = ⟨(a.value * 10 ^ b.scale + (b.value - 1)) / b.value, a.scale,
      !(a.negative == b.negative)⟩ := by
  unfold divUp denominator
  steps
  constructor
  · rintro ⟨d, ⟨h2, rfl⟩, p, ⟨h1, rfl⟩, d1, ⟨h3, rfl⟩, s, ⟨h4, rfl⟩, v, ⟨h5, rfl⟩, rfl⟩
    exact ⟨h4, h2, h5, rfl⟩
  · rintro ⟨h1, h2, h3, rfl⟩
    exact ⟨_, ⟨h2, rfl⟩, _, ⟨by omega, rfl⟩, _, ⟨by omega, rfl⟩, _, ⟨h1, rfl⟩, _, ⟨h3, rfl⟩, rfl⟩

theorem toScale_ok {d c : Decimal} {s : Nat} : d.toScale s = .ok c ↔
    (s < d.scale ∧ 10 ^ (d.scale - s) < u128Size ∧
      c = ⟨d.value / 10 ^ (d.scale - s), s, d.negative⟩) ∨
    (d.scale ≤ s ∧ 10 ^ (s - d.scale) < u128Size ∧ d.value * 10 ^ (s - d.scale) < u128Size ∧
      c = ⟨d.value * 10 ^ (s - d.scale), s, d.negative⟩) := by
  unfold toScale
  rw [ite_ok]
  steps
  constructor
  · rintro (⟨h, p, ⟨h1, rfl⟩, v, ⟨h2, rfl⟩, rfl⟩ | ⟨h, p, ⟨h1, rfl⟩, v, ⟨h2, rfl⟩, rfl⟩)
    · exact .inl ⟨h, h1, rfl⟩
    · exact .inr ⟨by omega, h1, h2, rfl⟩
  · rintro (⟨h, h1, rfl⟩ | ⟨h, h1, h2, rfl⟩)
    · exact .inl ⟨h, _, ⟨h1, rfl⟩, _, ⟨(pow10_pos _).ne', rfl⟩, rfl⟩
    · exact .inr ⟨by omega, _, ⟨h1, rfl⟩, _, ⟨h2, rfl⟩, rfl⟩

theorem toScale_error {d : Decimal} {s : Nat} {e : Err} : d.toScale s = .error e ↔
    e = .panic ∧ ((s < d.scale ∧ u128Size ≤ 10 ^ (d.scale - s)) ∨
      (d.scale ≤ s ∧ (u128Size ≤ 10 ^ (s - d.scale) ∨ u128Size ≤ d.value * 10 ^ (s - d.scale)))) := by
  unfold toScale
  rw [ite_error]
  esteps
  constructor
  · rintro (⟨h, ⟨h1, rfl⟩ | ⟨p, ⟨h1, rfl⟩, ⟨h2, rfl⟩ | h⟩⟩ |
      ⟨h, ⟨h1, rfl⟩ | ⟨p, ⟨h1, rfl⟩, ⟨h2, rfl⟩ | h⟩⟩)
    · exact ⟨rfl, .inl ⟨h, h1⟩⟩
    · exact absurd h2 (pow10_pos _).ne'
    · simp at h
    · exact ⟨rfl, .inr ⟨by omega, .inl h1⟩⟩
    · exact ⟨rfl, .inr ⟨by omega, .inr h2⟩⟩
    · simp at h
  · rintro ⟨rfl, ⟨h, h1⟩ | ⟨h, h1⟩⟩
    · exact .inl ⟨h, .inl ⟨h1, rfl⟩⟩
    · refine .inr ⟨by omega, ?_⟩
      by_cases h2 : u128Size ≤ 10 ^ (s - d.scale)
      · exact .inl ⟨h2, rfl⟩
      · refine .inr ⟨_, ⟨by omega, rfl⟩, .inl ⟨?_, rfl⟩⟩
        exact h1.resolve_left h2

/-- Signed integer value. -/
def sval (d : Decimal) : Int := if d.negative then -d.value else d.value

theorem sval_toRat (d : Decimal) : d.toRat = (d.sval : ℚ) / 10 ^ d.scale := by
  unfold toRat sval
  cases d.negative <;> simp
  ring

/-- `add` by cases, with the tests as propositions. -/
theorem add_cases (a b : Decimal) : a.add b =
    if a.scale = b.scale then
      if a.negative = b.negative then
        (checkedAdd a.value b.value >>= fun v => pure ⟨v, a.scale, a.negative⟩)
      else if a.value > b.value then .ok ⟨a.value - b.value, a.scale, a.negative⟩
      else if a.value < b.value then .ok ⟨b.value - a.value, a.scale, b.negative⟩
      else .ok ⟨0, a.scale, false⟩
    else rerr .differentScale := by
  unfold add
  by_cases h1 : a.scale = b.scale <;> by_cases h2 : a.negative = b.negative <;>
    by_cases h3 : a.value > b.value <;> by_cases h4 : a.value < b.value <;>
    simp only [h1, h2, h3, h4, beq_iff_eq, Bool.not_eq_true', beq_eq_false_iff_ne, ne_eq,
      not_true_eq_false, not_false_eq_true, if_true, if_false]
  · simp [checkedSub, le_of_lt h3]
  · simp [checkedSub, le_of_lt h3]
  · simp [checkedSub, le_of_lt h4]
  · rfl

theorem add_ok {a b c : Decimal} : a.add b = .ok c ↔
    a.scale = b.scale ∧ (a.negative = b.negative → a.value + b.value < u128Size) ∧
    c.scale = a.scale ∧ c.sval = a.sval + b.sval ∧
    (c.value = 0 → c.negative = (a.negative && b.negative)) := by
  rw [add_cases]
  obtain ⟨av, as, an⟩ := a
  obtain ⟨bv, bs, bn⟩ := b
  obtain ⟨cv, cs, cn⟩ := c
  simp only [sval, ite_ok]
  steps
  simp only [Decimal.mk.injEq]
  constructor
  · rintro (⟨rfl, ⟨rfl, v, ⟨h, rfl⟩, rfl, rfl, rfl⟩ | ⟨hn, ⟨h, rfl, rfl, rfl⟩ | ⟨h, ⟨h1, rfl, rfl, rfl⟩ | ⟨h1, rfl, rfl, rfl⟩⟩⟩⟩ | ⟨_, h⟩)
    · cases an <;> simp [h]; omega
    · cases an <;> cases bn <;> simp at hn ⊢ <;> omega
    · cases an <;> cases bn <;> simp at hn ⊢ <;> omega
    · cases an <;> cases bn <;> simp at hn ⊢ <;> omega
    · exact h.elim
  · rintro ⟨rfl, h, rfl, h2, h3⟩
    refine .inl ⟨rfl, ?_⟩
    by_cases hn : an = bn
    · subst hn
      refine .inl ⟨rfl, av + bv, ⟨h rfl, rfl⟩, ?_, rfl, ?_⟩ <;>
      cases an <;> cases cn <;> simp at h2 h3 ⊢ <;> omega
    · refine .inr ⟨hn, ?_⟩
      cases an <;> cases bn <;> cases cn <;> simp at hn h2 h3 ⊢ <;> omega

theorem add_error {a b : Decimal} {e : Err} : a.add b = .error e ↔
    (a.scale ≠ b.scale ∧ e = .code .differentScale) ∨
    (a.scale = b.scale ∧ a.negative = b.negative ∧ u128Size ≤ a.value + b.value ∧ e = .panic) := by
  rw [add_cases]
  simp only [ite_error]
  esteps
  simp only [and_false, or_false, exists_false]
  constructor
  · rintro (⟨h1, h2, h3, h4⟩ | ⟨h1, h2⟩)
    · exact .inr ⟨h1, h2, h3, h4⟩
    · exact .inl ⟨h1, h2⟩
  · rintro (⟨h1, h2⟩ | ⟨h1, h2, h3, h4⟩)
    · exact .inr ⟨h1, h2⟩
    · exact .inl ⟨h1, h2, h3, h4⟩

theorem sval_flip (b : Decimal) : sval ⟨b.value, b.scale, !b.negative⟩ = -b.sval := by
  unfold sval; cases b.negative <;> simp

theorem sub_ok {a b c : Decimal} : a.sub b = .ok c ↔
    a.scale = b.scale ∧ (a.negative ≠ b.negative → a.value + b.value < u128Size) ∧
    c.scale = a.scale ∧ c.sval = a.sval - b.sval ∧
    (c.value = 0 → c.negative = (a.negative && !b.negative)) := by
  unfold sub
  rw [add_ok, sval_flip]
  have : (a.negative = !b.negative) ↔ a.negative ≠ b.negative := by
    cases a.negative <;> cases b.negative <;> simp
  simp only [this, sub_eq_add_neg]

end Hmm.Decimal
