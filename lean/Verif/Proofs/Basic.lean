import Verif.Spec.Decimal
import Mathlib.Tactic.Linarith
import Mathlib.Tactic.Ring
import Mathlib.Tactic.FieldSimp
import Mathlib.Tactic.Positivity
import Mathlib.Tactic.NormNum
import Mathlib.Tactic.Push

/-
Helper lemmas about results, checked operations and represented numbers.
-/

namespace Hmm

theorem bind_ok {α β : Type} {x : R α} {f : α → R β} {b : β} :
    (x >>= f) = .ok b ↔ ∃ a, x = .ok a ∧ f a = .ok b := by
  cases x with
  | error e => simp [bind, Except.bind]
  | ok a => simp [bind, Except.bind]

theorem pure_ok {α : Type} {a b : α} : (pure a : R α) = .ok b ↔ a = b := by
  simp [pure, Except.pure]

theorem ok_inj {α : Type} {a b : α} : (Except.ok a : R α) = .ok b ↔ a = b := by
  constructor
  · intro h; cases h; rfl
  · rintro rfl; rfl

theorem error_ne_ok {α : Type} {e : Err} {b : α} : (Except.error e : R α) = .ok b ↔ False := by
  simp

theorem rpanic_ne_ok {α : Type} {b : α} : (rpanic : R α) = .ok b ↔ False := by
  simp [rpanic]

theorem rerr_ne_ok {α : Type} {c : Code} {b : α} : (rerr c : R α) = .ok b ↔ False := by
  simp [rerr]

theorem unwrap_ok {α : Type} {x : R α} {a : α} : unwrap x = .ok a ↔ x = .ok a := by
  cases x with
  | error e => cases e <;> simp [unwrap]
  | ok b => simp [unwrap]

theorem rassert_ok {b : Bool} {u : Unit} : rassert b = .ok u ↔ b = true := by
  cases b <;> simp [rassert]

theorem u128_ok {n m : Nat} : u128 n = .ok m ↔ n < u128Size ∧ n = m := by
  unfold u128; split <;> simp [*]

theorem u64_ok {n m : Nat} : u64 n = .ok m ↔ n < u64Size ∧ n = m := by
  unfold u64; split <;> simp [*]

theorem checkedAdd_ok {a b c : Nat} : checkedAdd a b = .ok c ↔ a + b < u128Size ∧ a + b = c := u128_ok

theorem checkedMul_ok {a b c : Nat} : checkedMul a b = .ok c ↔ a * b < u128Size ∧ a * b = c := u128_ok

theorem checkedSub_ok {a b c : Nat} : checkedSub a b = .ok c ↔ b ≤ a ∧ a - b = c := by
  unfold checkedSub; split <;> simp [*]

theorem checkedDiv_ok {a b c : Nat} : checkedDiv a b = .ok c ↔ b ≠ 0 ∧ a / b = c := by
  unfold checkedDiv; split <;> simp [*]

theorem pow10_ok {k c : Nat} : pow10 k = .ok c ↔ 10 ^ k < u128Size ∧ 10 ^ k = c := u128_ok

theorem ite_ok {α : Type} {p : Prop} [Decidable p] {x y : R α} {a : α} :
    (if p then x else y) = .ok a ↔ (p ∧ x = .ok a) ∨ (¬p ∧ y = .ok a) := by
  split <;> simp [*]

/-! ### Failure of a step -/

theorem bind_error {α β : Type} {x : R α} {f : α → R β} {e : Err} :
    (x >>= f) = .error e ↔ x = .error e ∨ ∃ a, x = .ok a ∧ f a = .error e := by
  cases x with
  | error e' => simp [bind, Except.bind]
  | ok a => simp [bind, Except.bind]

theorem pure_error {α : Type} {a : α} {e : Err} : (pure a : R α) = .error e ↔ False := by
  simp [pure, Except.pure]

theorem error_inj {α : Type} {e e' : Err} : (Except.error e : R α) = .error e' ↔ e' = e := by
  constructor
  · intro h; cases h; rfl
  · rintro rfl; rfl

theorem ok_error {α : Type} {a : α} {e : Err} : (Except.ok a : R α) = .error e ↔ False := by simp

theorem rpanic_error {α : Type} {e : Err} : (rpanic : R α) = .error e ↔ e = .panic := by
  simp [rpanic, eq_comm]

theorem rerr_error {α : Type} {c : Code} {e : Err} : (rerr c : R α) = .error e ↔ e = .code c := by
  simp [rerr, eq_comm]

theorem u128_error {n : Nat} {e : Err} : u128 n = .error e ↔ u128Size ≤ n ∧ e = .panic := by
  unfold u128; split
  · simp; omega
  · simp; constructor
    · rintro rfl; constructor
      · omega
      · rfl
    · rintro ⟨_, rfl⟩; rfl

theorem u64_error {n : Nat} {e : Err} : u64 n = .error e ↔ u64Size ≤ n ∧ e = .panic := by
  unfold u64; split
  · simp; omega
  · simp; constructor
    · rintro rfl; constructor
      · omega
      · rfl
    · rintro ⟨_, rfl⟩; rfl

theorem checkedAdd_error {a b : Nat} {e : Err} :
    checkedAdd a b = .error e ↔ u128Size ≤ a + b ∧ e = .panic := u128_error

theorem checkedMul_error {a b : Nat} {e : Err} :
    checkedMul a b = .error e ↔ u128Size ≤ a * b ∧ e = .panic := u128_error

theorem pow10_error {k : Nat} {e : Err} : pow10 k = .error e ↔ u128Size ≤ 10 ^ k ∧ e = .panic :=
  u128_error

theorem checkedSub_error {a b : Nat} {e : Err} :
    checkedSub a b = .error e ↔ a < b ∧ e = .panic := by
  unfold checkedSub; split
  · simp; omega
  · simp; constructor
    · rintro rfl; constructor
      · omega
      · rfl
    · rintro ⟨_, rfl⟩; rfl

theorem checkedDiv_error {a b : Nat} {e : Err} :
    checkedDiv a b = .error e ↔ b = 0 ∧ e = .panic := by
  unfold checkedDiv; split <;> simp [*, eq_comm]

theorem ite_error {α : Type} {p : Prop} [Decidable p] {x y : R α} {e : Err} :
    (if p then x else y) = .error e ↔ (p ∧ x = .error e) ∨ (¬p ∧ y = .error e) := by
  split <;> simp [*]

/-- Splits "a do-block failed" into the step that failed. -/
macro "esteps" : tactic =>
  `(tactic| simp only [bind_error, pure_error, ok_error, error_inj, rpanic_error, rerr_error,
    checkedAdd_error, checkedMul_error, checkedSub_error, checkedDiv_error, pow10_error,
    bind_ok, pure_ok, ok_inj, error_ne_ok, rpanic_ne_ok, rerr_ne_ok, unwrap_ok,
    rassert_ok, checkedAdd_ok, checkedMul_ok, checkedSub_ok, checkedDiv_ok, pow10_ok])

/-- A power of ten fits in 128 bits exactly up to exponent 38. -/
theorem pow10_lt_iff {k : Nat} : 10 ^ k < u128Size ↔ k ≤ 38 := by
  constructor
  · intro h
    by_contra hk
    have : 10 ^ 39 ≤ 10 ^ k := Nat.pow_le_pow_right (by norm_num) (by omega)
    have h2 : (u128Size : Nat) < 10 ^ 39 := by decide
    omega
  · intro h
    have : 10 ^ k ≤ 10 ^ 38 := Nat.pow_le_pow_right (by norm_num) h
    have h2 : 10 ^ 38 < u128Size := by decide
    omega

theorem pow10_le {k : Nat} (h : k ≤ 38) : pow10 k = .ok (10 ^ k) :=
  pow10_ok.2 ⟨pow10_lt_iff.2 h, rfl⟩

theorem pow10_pos (k : Nat) : 0 < 10 ^ k := Nat.pow_pos (by norm_num)

theorem pow10Q_pos (k : Nat) : (0 : ℚ) < 10 ^ k := by positivity

/-- The lemmas that turn "a do-block returned" into its steps. -/
macro "steps" : tactic =>
  `(tactic| simp only [bind_ok, pure_ok, ok_inj, error_ne_ok, rpanic_ne_ok, rerr_ne_ok, unwrap_ok,
    rassert_ok, checkedAdd_ok, checkedMul_ok, checkedSub_ok, checkedDiv_ok, pow10_ok])

@[inherit_doc tacticSteps]
macro "steps" " at " h:ident : tactic =>
  `(tactic| simp only [bind_ok, pure_ok, ok_inj, error_ne_ok, rpanic_ne_ok, rerr_ne_ok, unwrap_ok,
    rassert_ok, checkedAdd_ok, checkedMul_ok, checkedSub_ok, checkedDiv_ok, pow10_ok] at $h:ident)

namespace Decimal

/-- The sign factor. -/
def sgn (d : Decimal) : ℚ := if d.negative then -1 else 1

theorem toRat_eq (d : Decimal) : d.toRat = d.sgn * d.mag := rfl

theorem mag_nonneg (d : Decimal) : 0 ≤ d.mag := by unfold mag; positivity

theorem abs_sgn (d : Decimal) : |d.sgn| = 1 := by unfold sgn; split <;> simp

theorem abs_toRat (d : Decimal) : |d.toRat| = d.mag := by
  rw [toRat_eq, abs_mul, abs_sgn, one_mul, abs_of_nonneg (mag_nonneg d)]

theorem toRat_of_nonneg {d : Decimal} (h : d.negative = false) : d.toRat = d.mag := by
  simp [toRat, mag, h]

theorem toRat_of_neg {d : Decimal} (h : d.negative = true) : d.toRat = -d.mag := by
  simp [toRat, mag, h]

theorem toRat_zero {d : Decimal} (h : d.value = 0) : d.toRat = 0 := by
  simp [toRat, h]

theorem mag_eq_zero {d : Decimal} : d.mag = 0 ↔ d.value = 0 := by
  unfold mag
  rw [div_eq_zero_iff]
  simp

theorem toRat_eq_zero {d : Decimal} : d.toRat = 0 ↔ d.value = 0 := by
  rw [← abs_eq_zero, abs_toRat, mag_eq_zero]

/-- The value as the scaled magnitude. -/
theorem value_eq (d : Decimal) : (d.value : ℚ) = d.mag * 10 ^ d.scale := by
  unfold mag; field_simp

theorem isNegative_iff {d : Decimal} : d.isNegative = true ↔ d.negative = true ∧ d.value ≠ 0 := by
  simp [isNegative, isZero]

theorem isPositive_iff {d : Decimal} : d.isPositive = true ↔ d.negative = false ∧ d.value ≠ 0 := by
  simp [isPositive, isZero]

theorem isZero_iff {d : Decimal} : d.isZero = true ↔ d.value = 0 := by
  simp [isZero]

theorem isNegative_toRat {d : Decimal} : d.isNegative = true ↔ d.toRat < 0 := by
  rw [isNegative_iff]
  constructor
  · rintro ⟨h, h0⟩
    rw [toRat_of_neg h]
    have := mag_nonneg d
    have h1 : d.mag ≠ 0 := fun h2 => h0 (mag_eq_zero.1 h2)
    have : 0 < d.mag := lt_of_le_of_ne this (Ne.symm h1)
    linarith
  · intro h
    cases hn : d.negative
    · rw [toRat_of_nonneg hn] at h
      have := mag_nonneg d
      linarith
    · refine ⟨rfl, fun h0 => ?_⟩
      rw [toRat_zero h0] at h
      exact lt_irrefl _ h

theorem isPositive_toRat {d : Decimal} : d.isPositive = true ↔ 0 < d.toRat := by
  rw [isPositive_iff]
  constructor
  · rintro ⟨h, h0⟩
    rw [toRat_of_nonneg h]
    have := mag_nonneg d
    exact lt_of_le_of_ne this (Ne.symm fun h2 => h0 (mag_eq_zero.1 h2))
  · intro h
    cases hn : d.negative
    · exact ⟨rfl, fun h0 => by rw [toRat_zero h0] at h; exact lt_irrefl _ h⟩
    · rw [toRat_of_neg hn] at h
      have := mag_nonneg d
      linarith

end Decimal

end Hmm
