import Verif.Model.PoolMath
import Verif.Proofs.Rounding

/-
Decimals that are non-negative and share a scale: the operations in terms of natural numbers.
-/

namespace Hmm

namespace PoolMath

theorem unwrap_eq {α : Type} (a : α) : unwrap (.ok a) = .ok a := rfl
theorem bind_eq {α β : Type} (a : α) (f : α → R β) : ((Except.ok a : R α) >>= f) = f a := rfl

theorem zero_eq : (Decimal.new 0 0 false).toComputeScale = .ok zero := by decide
theorem one_eq : (Decimal.fromInt 1).toComputeScale = .ok one := by decide
theorem two_eq : (Decimal.fromInt 2).toComputeScale = .ok two := by decide

end PoolMath

namespace Decimal

theorem Amount.eq {s : Nat} {d : Decimal} (h : d.Amount s) : ∃ v, d = ⟨v, s, false⟩ := by
  obtain ⟨v, s', n⟩ := d
  obtain ⟨rfl, rfl⟩ := h
  exact ⟨v, rfl⟩

theorem amount_mk (v s : Nat) : (Decimal.mk v s false).Amount s := ⟨rfl, rfl⟩

theorem toRat_mk (v s : Nat) : (Decimal.mk v s false).toRat = (v : ℚ) / 10 ^ s := by
  rw [toRat_of_nonneg rfl]; rfl

theorem toRat_mk_neg (v s : Nat) : (Decimal.mk v s true).toRat = -((v : ℚ) / 10 ^ s) := by
  rw [toRat_of_neg rfl]; rfl

theorem toRat_le_mk {a b s : Nat} : (Decimal.mk a s false).toRat ≤ (Decimal.mk b s false).toRat ↔ a ≤ b := by
  rw [toRat_mk, toRat_mk, div_le_div_iff_of_pos_right (pow10Q_pos _)]
  exact_mod_cast Iff.rfl

theorem toRat_lt_mk {a b s : Nat} : (Decimal.mk a s false).toRat < (Decimal.mk b s false).toRat ↔ a < b := by
  rw [toRat_mk, toRat_mk, div_lt_div_iff_of_pos_right (pow10Q_pos _)]
  exact_mod_cast Iff.rfl

theorem toRat_pos_mk {a s : Nat} : 0 < (Decimal.mk a s false).toRat ↔ 0 < a := by
  rw [toRat_mk, lt_div_iff₀ (pow10Q_pos _)]
  simp

theorem mul_nn {a b s s' : Nat} {c : Decimal}
    (h : (Decimal.mk a s false).mul ⟨b, s', false⟩ = .ok c) : c = ⟨a * b / 10 ^ s', s, false⟩ :=
  (mul_ok.1 h).2.2

theorem div_nn {a b s s' : Nat} {c : Decimal}
    (h : (Decimal.mk a s false).div ⟨b, s', false⟩ = .ok c) :
    0 < b ∧ c = ⟨a * 10 ^ s' / b, s, false⟩ :=
  ⟨Nat.pos_of_ne_zero (div_ok.1 h).2.2.1, (div_ok.1 h).2.2.2⟩

theorem sub_nn (a b s : Nat) : (Decimal.mk a s false).sub ⟨b, s, false⟩ =
    .ok (if b ≤ a then ⟨a - b, s, false⟩ else ⟨b - a, s, true⟩) := by
  unfold Decimal.sub
  rw [add_cases]
  simp only [if_true, Bool.not_false, Bool.false_eq_true, if_false]
  by_cases h1 : a > b
  · rw [if_pos h1, if_pos (by omega)]
  · by_cases h2 : a < b
    · rw [if_neg h1, if_pos h2, if_neg (by omega)]
    · rw [if_neg h1, if_neg h2, if_pos (by omega)]
      have : a - b = 0 := by omega
      rw [this]

theorem sub_nn_le {a b : Nat} (s : Nat) (h : b ≤ a) : (Decimal.mk a s false).sub ⟨b, s, false⟩ =
    .ok ⟨a - b, s, false⟩ := by rw [sub_nn, if_pos h]

theorem add_nn {a b s : Nat} {c : Decimal}
    (h : (Decimal.mk a s false).add ⟨b, s, false⟩ = .ok c) : c = ⟨a + b, s, false⟩ := by
  rw [add_cases, if_pos rfl, if_pos rfl] at h
  steps at h
  obtain ⟨v, ⟨_, rfl⟩, rfl⟩ := h
  rfl

theorem lt_nn (a b s : Nat) : (Decimal.mk a s false).lt ⟨b, s, false⟩ = .ok (decide (a < b)) := by
  unfold Decimal.lt; simp

theorem lte_nn (a b s : Nat) : (Decimal.mk a s false).lte ⟨b, s, false⟩ = .ok (decide (a ≤ b)) := by
  unfold Decimal.lte; simp

theorem gt_nn (a b s : Nat) : (Decimal.mk a s false).gt ⟨b, s, false⟩ = .ok (decide (a > b)) := by
  unfold Decimal.gt; simp

theorem gte_nn (a b s : Nat) : (Decimal.mk a s false).gte ⟨b, s, false⟩ = .ok (decide (a ≥ b)) := by
  unfold Decimal.gte; simp

theorem min_nn (a b s : Nat) : (Decimal.mk a s false).min ⟨b, s, false⟩ =
    .ok ⟨Min.min a b, s, false⟩ := by
  unfold Decimal.min
  rw [lte_nn]
  simp only [unwrap, bind, Except.bind]
  by_cases h : a ≤ b
  · simp [h, pure, Except.pure]
  · simp [h, pure, Except.pure, Nat.min_eq_right (Nat.le_of_lt (Nat.lt_of_not_le h))]

theorem max_nn (a b s : Nat) : (Decimal.mk a s false).max ⟨b, s, false⟩ =
    .ok ⟨Max.max a b, s, false⟩ := by
  unfold Decimal.max
  rw [gte_nn]
  simp only [unwrap, bind, Except.bind]
  by_cases h : b ≤ a
  · simp [h, pure, Except.pure]
  · simp [h, pure, Except.pure, Nat.max_eq_right (Nat.le_of_lt (Nat.lt_of_not_le h))]

theorem isNegative_nn (a s : Nat) : (Decimal.mk a s false).isNegative = false := rfl

theorem isZero_mk (a s : Nat) (n : Bool) : (Decimal.mk a s n).isZero = true ↔ a = 0 := by
  unfold isZero; simp

end Decimal

namespace PoolMath

open Decimal

variable {s : Nat}

/-- The X amount, in natural numbers. -/
theorem xFrom_nn {l p a b : Nat} {c : Decimal}
    (h : xFromLRpRng ⟨l, s, false⟩ ⟨p, s, false⟩ ⟨a, s, false⟩ ⟨b, s, false⟩ = .ok c) :
    p ≠ 0 ∧ a ≠ 0 ∧ b ≠ 0 ∧
    ((max (min p b) a ≤ b ∧ 0 < max (min p b) a * b / 10 ^ s ∧
      c = ⟨l * (b - max (min p b) a) / 10 ^ s * 10 ^ s / (max (min p b) a * b / 10 ^ s), s, false⟩) ∨
     (b < a ∧ 0 < a * b / 10 ^ s ∧ c = ⟨l * (a - b) / 10 ^ s * 10 ^ s / (a * b / 10 ^ s), s, true⟩)) := by
  unfold xFromLRpRng at h
  rw [ite_ok] at h
  rcases h with ⟨_, h⟩ | ⟨hz, h⟩
  · cases h
  simp only [Bool.or_eq_true, isZero_mk, not_or] at hz
  refine ⟨hz.1.1, hz.2, hz.1.2, ?_⟩
  rw [min_nn] at h
  simp only [bind, Except.bind] at h
  rw [max_nn] at h
  simp only at h
  rw [sub_nn] at h
  simp only [unwrap] at h
  generalize hq : max (min p b) a = q at *
  cases hm : (Decimal.mk q s false).mul ⟨b, s, false⟩ with
  | error e => rw [hm] at h; cases h
  | ok m =>
    rw [hm] at h
    have hm' := mul_nn hm
    subst hm'
    simp only at h
    by_cases hle : q ≤ b
    · rw [if_pos hle] at h
      cases hm2 : (Decimal.mk l s false).mul ⟨b - q, s, false⟩ with
      | error e => rw [hm2] at h; cases h
      | ok m2 =>
        rw [hm2] at h
        have hm2' := mul_nn hm2
        subst hm2'
        simp only at h
        obtain ⟨h1, h2⟩ := div_nn h
        exact .inl ⟨hle, h1, h2⟩
    · rw [if_neg hle] at h
      cases hm2 : (Decimal.mk l s false).mul ⟨q - b, s, true⟩ with
      | error e => rw [hm2] at h; cases h
      | ok m2 =>
        rw [hm2] at h
        obtain ⟨_, _, rfl⟩ := mul_ok.1 hm2
        simp only at h
        obtain ⟨_, _, h1, h2⟩ := div_ok.1 h
        have : q = a := by omega
        subst this
        exact .inr ⟨by omega, Nat.pos_of_ne_zero h1, h2⟩

/-- The Y amount, in natural numbers. -/
theorem yFrom_nn {l p a b : Nat} {c : Decimal}
    (h : yFromLRpRng ⟨l, s, false⟩ ⟨p, s, false⟩ ⟨a, s, false⟩ ⟨b, s, false⟩ = .ok c) :
    c = ⟨l * (max (min p b) a - a) / 10 ^ s, s, false⟩ := by
  unfold yFromLRpRng at h
  rw [min_nn] at h
  simp only [bind, Except.bind] at h
  rw [max_nn] at h
  simp only at h
  rw [sub_nn_le s (le_max_right _ _)] at h
  simp only [unwrap, isNegative_nn, Bool.false_eq_true, if_false] at h
  exact mul_nn h

theorem liqX_nn {x a b : Nat} {c : Decimal}
    (h : liqXOnly ⟨x, s, false⟩ ⟨a, s, false⟩ ⟨b, s, false⟩ = .ok c) :
    a < b ∧ c = ⟨x * a / 10 ^ s * b / 10 ^ s * 10 ^ s / (b - a), s, false⟩ := by
  unfold liqXOnly at h
  rw [sub_nn] at h
  simp only [unwrap, bind, Except.bind] at h
  by_cases hle : a ≤ b
  · rw [if_pos hle] at h
    rw [ite_ok] at h
    rcases h with ⟨_, h⟩ | ⟨hz, h⟩
    · cases h
    simp only [isNegative_nn, Bool.false_or, isZero_mk] at hz
    cases h1 : (Decimal.mk x s false).mul ⟨a, s, false⟩ with
    | error e => rw [h1] at h; cases h
    | ok m =>
      rw [h1] at h
      have := mul_nn h1; subst this
      simp only at h
      cases h2 : (Decimal.mk (x * a / 10 ^ s) s false).mul ⟨b, s, false⟩ with
      | error e => rw [h2] at h; cases h
      | ok m =>
        rw [h2] at h
        have := mul_nn h2; subst this
        exact ⟨by omega, (div_nn h).2⟩
  · rw [if_neg hle] at h
    rw [if_pos (by unfold isNegative isZero; simp; try omega)] at h
    cases h

theorem liqY_nn {y a b : Nat} {c : Decimal}
    (h : liqYOnly ⟨y, s, false⟩ ⟨a, s, false⟩ ⟨b, s, false⟩ = .ok c) :
    a < b ∧ c = ⟨y * 10 ^ s / (b - a), s, false⟩ := by
  unfold liqYOnly at h
  rw [sub_nn] at h
  simp only [unwrap, bind, Except.bind] at h
  by_cases hle : a ≤ b
  · rw [if_pos hle] at h
    rw [ite_ok] at h
    rcases h with ⟨_, h⟩ | ⟨hz, h⟩
    · cases h
    simp only [isNegative_nn, Bool.false_or, isZero_mk] at hz
    exact ⟨by omega, (div_nn h).2⟩
  · rw [if_neg hle] at h
    rw [if_pos (by unfold isNegative isZero; simp; try omega)] at h
    cases h

theorem liqFrom_nn {x y p a b : Nat} {c : Decimal}
    (h : liqFromXYRpRng ⟨x, s, false⟩ ⟨y, s, false⟩ ⟨p, s, false⟩ ⟨a, s, false⟩ ⟨b, s, false⟩ = .ok c) :
    (p ≤ a ∧ a < b ∧ c = ⟨x * a / 10 ^ s * b / 10 ^ s * 10 ^ s / (b - a), s, false⟩) ∨
    (a < p ∧ p < b ∧ c = ⟨min (x * p / 10 ^ s * b / 10 ^ s * 10 ^ s / (b - p))
      (y * 10 ^ s / (p - a)), s, false⟩) ∨
    (a < p ∧ b ≤ p ∧ a < b ∧ c = ⟨y * 10 ^ s / (b - a), s, false⟩) := by
  unfold liqFromXYRpRng at h
  rw [lte_nn, lt_nn] at h
  simp only [unwrap, bind, Except.bind, decide_eq_true_eq] at h
  by_cases h1 : p ≤ a
  · rw [if_pos h1] at h
    exact .inl ⟨h1, liqX_nn h⟩
  · rw [if_neg h1] at h
    by_cases h2 : p < b
    · rw [if_pos h2] at h
      cases h3 : liqXOnly ⟨x, s, false⟩ ⟨p, s, false⟩ ⟨b, s, false⟩ with
      | error e => rw [h3] at h; cases h
      | ok lx =>
        cases h4 : liqYOnly ⟨y, s, false⟩ ⟨a, s, false⟩ ⟨p, s, false⟩ with
        | error e => rw [h3, h4] at h; cases h
        | ok ly =>
          rw [h3, h4] at h
          obtain ⟨_, rfl⟩ := liqX_nn h3
          obtain ⟨_, rfl⟩ := liqY_nn h4
          simp only at h
          rw [min_nn] at h
          cases h
          exact .inr (.inl ⟨by omega, h2, rfl⟩)
    · rw [if_neg h2] at h
      obtain ⟨g1, g2⟩ := liqY_nn h
      exact .inr (.inr ⟨by omega, by omega, g1, g2⟩)

end PoolMath

end Hmm

namespace Hmm

namespace PoolMath

open Decimal

variable {s : Nat}

/-- The X amount of a price move, in natural numbers. -/
theorem dx_nn {l p q : Nat} {c : Decimal}
    (h : dxFromLDrp ⟨l, s, false⟩ ⟨p, s, false⟩ ⟨q, s, false⟩ = .ok c) :
    0 < p ∧ 0 < q ∧ 0 < p * q / 10 ^ s ∧
    c = (if q ≤ p then ⟨l * (p - q) / 10 ^ s * 10 ^ s / (p * q / 10 ^ s), s, false⟩
      else ⟨l * (q - p) / 10 ^ s * 10 ^ s / (p * q / 10 ^ s), s, true⟩) := by
  unfold dxFromLDrp at h
  rw [ite_ok] at h
  rcases h with ⟨_, h⟩ | ⟨hz, h⟩
  · cases h
  simp only [Bool.or_eq_true, isZero_mk, not_or] at hz
  refine ⟨by omega, by omega, ?_⟩
  rw [sub_nn] at h
  simp only [unwrap, bind, Except.bind] at h
  cases hm : (Decimal.mk p s false).mul ⟨q, s, false⟩ with
  | error e => rw [hm] at h; cases h
  | ok m =>
    rw [hm] at h
    have hm' := mul_nn hm
    subst hm'
    simp only at h
    by_cases hle : q ≤ p
    · rw [if_pos hle] at h ⊢
      cases hm2 : (Decimal.mk l s false).mul ⟨p - q, s, false⟩ with
      | error e => rw [hm2] at h; cases h
      | ok m2 =>
        rw [hm2] at h
        have hm2' := mul_nn hm2
        subst hm2'
        exact div_nn h
    · rw [if_neg hle] at h ⊢
      cases hm2 : (Decimal.mk l s false).mul ⟨q - p, s, true⟩ with
      | error e => rw [hm2] at h; cases h
      | ok m2 =>
        rw [hm2] at h
        obtain ⟨_, _, rfl⟩ := mul_ok.1 hm2
        obtain ⟨_, _, h1, h2⟩ := div_ok.1 h
        exact ⟨Nat.pos_of_ne_zero h1, h2⟩

/-- The Y amount of a price move, in natural numbers. -/
theorem dy_nn {l p q : Nat} {c : Decimal}
    (h : dyFromLDrp ⟨l, s, false⟩ ⟨p, s, false⟩ ⟨q, s, false⟩ = .ok c) :
    c = (if p ≤ q then ⟨(q - p) * l / 10 ^ s, s, false⟩ else ⟨(p - q) * l / 10 ^ s, s, true⟩) := by
  unfold dyFromLDrp at h
  rw [sub_nn] at h
  simp only [unwrap, bind, Except.bind] at h
  by_cases hle : p ≤ q
  · rw [if_pos hle] at h ⊢
    exact mul_nn h
  · rw [if_neg hle] at h ⊢
    exact (mul_ok.1 h).2.2

/-- The price after adding X, in natural numbers. -/
theorem rpDx_nn {l p d : Nat} {c : Decimal}
    (h : rpNewFromLDx ⟨l, s, false⟩ ⟨p, s, false⟩ ⟨d, s, false⟩ = .ok c) :
    0 < d * p / 10 ^ s + l ∧
    c = ⟨l * p / 10 ^ s * 10 ^ s / (d * p / 10 ^ s + l), s, false⟩ := by
  unfold rpNewFromLDx at h
  rw [bind_ok] at h
  obtain ⟨n, h1, h⟩ := h
  have := mul_nn h1; subst this
  rw [bind_ok] at h
  obtain ⟨m, h2, h⟩ := h
  have := mul_nn h2; subst this
  rw [bind_ok] at h
  obtain ⟨d', h3, h⟩ := h
  have := add_nn (unwrap_ok.1 h3); subst this
  rw [ite_ok] at h
  rcases h with ⟨_, h⟩ | ⟨_, h⟩
  · cases h
  rw [bind_ok] at h
  obtain ⟨r, h4, h⟩ := h
  obtain ⟨h5, h6⟩ := div_nn h4
  subst h6
  rw [isNegative_nn] at h
  cases h
  exact ⟨h5, rfl⟩

/-- The price after adding Y, in natural numbers. -/
theorem rpDy_nn {l p d : Nat} {c : Decimal}
    (h : rpNewFromLDy ⟨l, s, false⟩ ⟨p, s, false⟩ ⟨d, s, false⟩ = .ok c) :
    0 < l ∧ c = ⟨d * 10 ^ s / l + p, s, false⟩ := by
  unfold rpNewFromLDy at h
  rw [ite_ok] at h
  rcases h with ⟨_, h⟩ | ⟨_, h⟩
  · cases h
  rw [bind_ok] at h
  obtain ⟨n, h1, h⟩ := h
  obtain ⟨h2, h3⟩ := div_nn h1
  subst h3
  rw [bind_ok] at h
  obtain ⟨m, h4, h⟩ := h
  have := add_nn (unwrap_ok.1 h4); subst this
  rw [isNegative_nn] at h
  cases h
  exact ⟨h2, rfl⟩

theorem dx_swap {l p q : Nat} {c : Decimal}
    (h : dxFromLDrp ⟨l, s, false⟩ ⟨p, s, false⟩ ⟨q, s, false⟩ = .ok c) :
    ∃ c', dxFromLDrp ⟨l, s, false⟩ ⟨q, s, false⟩ ⟨p, s, false⟩ = .ok c' := by
  unfold dxFromLDrp at h ⊢
  rw [ite_ok] at h
  rcases h with ⟨_, h⟩ | ⟨hz, h⟩
  · cases h
  rw [if_neg (by rw [Bool.or_comm]; exact hz)]
  rw [bind_ok] at h
  obtain ⟨d, h1, h⟩ := h
  rw [bind_ok] at h
  obtain ⟨m, h2, h⟩ := h
  rw [bind_ok] at h
  obtain ⟨n, h3, h⟩ := h
  obtain ⟨m1, m2, rfl⟩ := mul_ok.1 h2
  have hm : (Decimal.mk q s false).mul ⟨p, s, false⟩ = .ok ⟨p * q / 10 ^ s, s, false⟩ :=
    mul_ok.2 ⟨by rw [mul_comm]; exact m1, m2, by simp [mul_comm]⟩
  -- the difference only changes its sign
  have hd : ∃ d', (Decimal.mk q s false).sub ⟨p, s, false⟩ = .ok d' ∧ d'.value = d.value ∧ d'.scale = d.scale := by
    rw [sub_nn] at h1
    refine ⟨_, sub_nn q p s, ?_⟩
    rw [unwrap_ok, ok_inj] at h1
    subst h1
    by_cases hle : q ≤ p
    · by_cases hle' : p ≤ q
      · have : p = q := by omega
        subst this; simp
      · rw [if_neg hle', if_pos hle]; exact ⟨rfl, rfl⟩
    · rw [if_pos (by omega), if_neg hle]; exact ⟨rfl, rfl⟩
  obtain ⟨d', hd1, hd2, hd3⟩ := hd
  obtain ⟨n1, n2, rfl⟩ := mul_ok.1 h3
  obtain ⟨q1, q2, q3, _⟩ := div_ok.1 h
  rw [hd1, unwrap_eq, bind_eq, hm, bind_eq,
    mul_ok.2 ⟨by rw [hd2]; exact n1, by rw [hd3]; exact n2, rfl⟩, bind_eq]
  exact ⟨_, div_ok.2 ⟨by simp only [hd2, hd3]; exact q1, q2, q3, rfl⟩⟩

theorem dy_swap {l p q : Nat} {c : Decimal}
    (h : dyFromLDrp ⟨l, s, false⟩ ⟨p, s, false⟩ ⟨q, s, false⟩ = .ok c) :
    ∃ c', dyFromLDrp ⟨l, s, false⟩ ⟨q, s, false⟩ ⟨p, s, false⟩ = .ok c' := by
  unfold dyFromLDrp at h ⊢
  rw [sub_nn, unwrap_eq, bind_eq] at h
  rw [sub_nn, unwrap_eq, bind_eq]
  obtain ⟨h1, h2, _⟩ := mul_ok.1 h
  refine ⟨_, mul_ok.2 ⟨?_, h2, rfl⟩⟩
  by_cases hle : q ≤ p
  · by_cases hle' : p ≤ q
    · have : p = q := by omega
      subst this; simpa using h1
    · rw [if_neg hle'] at h1; rw [if_pos hle]; exact h1
  · rw [if_pos (by omega)] at h1; rw [if_neg hle]; exact h1

/-- The Y amount of a computed liquidity fits. -/
theorem y_fits {x y rp rpa rpb l : Decimal} (hx : x.Amount s) (hy : y.Amount s)
    (hp : rp.Amount s) (ha : rpa.Amount s) (hb : rpb.Amount s)
    (hl : liqFromXYRpRng x y rp rpa rpb = .ok l) :
    ∃ l0, l = ⟨l0, s, false⟩ ∧ 10 ^ s < u128Size ∧
      l0 * (max (min rp.value rpb.value) rpa.value - rpa.value) < u128Size := by
  obtain ⟨x, rfl⟩ := hx.eq
  obtain ⟨y, rfl⟩ := hy.eq
  obtain ⟨p, rfl⟩ := hp.eq
  obtain ⟨a, rfl⟩ := ha.eq
  obtain ⟨b, rfl⟩ := hb.eq
  have hliqY : ∀ {y a b : Nat} {c : Decimal}, liqYOnly ⟨y, s, false⟩ ⟨a, s, false⟩ ⟨b, s, false⟩ = .ok c →
      10 ^ s < u128Size ∧ y * 10 ^ s < u128Size := by
    intro y a b c h
    unfold liqYOnly at h
    rw [bind_ok] at h
    obtain ⟨d, h1, h⟩ := h
    rw [ite_ok] at h
    rcases h with ⟨_, h⟩ | ⟨_, h⟩
    · cases h
    · obtain ⟨g1, g2, _⟩ := div_ok.1 h
      rw [sub_nn, unwrap_ok, ok_inj] at h1
      have : d.scale = s := by subst h1; split <;> rfl
      rw [this] at g1 g2
      exact ⟨g2, g1⟩
  have hliqX : ∀ {y a b : Nat} {c : Decimal}, liqXOnly ⟨y, s, false⟩ ⟨a, s, false⟩ ⟨b, s, false⟩ = .ok c →
      10 ^ s < u128Size := by
    intro y a b c h
    unfold liqXOnly at h
    rw [bind_ok] at h
    obtain ⟨d, h1, h⟩ := h
    rw [ite_ok] at h
    rcases h with ⟨_, h⟩ | ⟨_, h⟩
    · cases h
    · rw [bind_ok] at h
      obtain ⟨m, h2, h⟩ := h
      exact (mul_ok.1 h2).2.1
  have hu : 0 < u128Size := by decide
  unfold liqFromXYRpRng at hl
  rw [lte_nn, lt_nn] at hl
  simp only [unwrap, bind, Except.bind, decide_eq_true_eq] at hl
  simp only
  by_cases h1 : p ≤ a
  · rw [if_pos h1] at hl
    refine ⟨_, (liqX_nn hl).2, hliqX hl, ?_⟩
    have : max (min p b) a - a = 0 := by omega
    rw [this]; simpa using hu
  · rw [if_neg h1] at hl
    by_cases h2 : p < b
    · rw [if_pos h2] at hl
      cases h3 : liqXOnly ⟨x, s, false⟩ ⟨p, s, false⟩ ⟨b, s, false⟩ with
      | error e => rw [h3] at hl; cases hl
      | ok lx =>
        cases h4 : liqYOnly ⟨y, s, false⟩ ⟨a, s, false⟩ ⟨p, s, false⟩ with
        | error e => rw [h3, h4] at hl; cases hl
        | ok ly =>
          rw [h3, h4] at hl
          obtain ⟨_, rfl⟩ := liqX_nn h3
          obtain ⟨_, rfl⟩ := liqY_nn h4
          simp only at hl
          rw [min_nn] at hl
          cases hl
          refine ⟨_, rfl, (hliqY h4).1, ?_⟩
          have : max (min p b) a - a = p - a := by omega
          rw [this]
          calc _ ≤ y * 10 ^ s / (p - a) * (p - a) := Nat.mul_le_mul_right _ (min_le_right _ _)
            _ ≤ _ := Nat.div_mul_le_self _ _
            _ < _ := (hliqY h4).2
    · rw [if_neg h2] at hl
      refine ⟨_, (liqY_nn hl).2, (hliqY hl).1, ?_⟩
      have : max (min p b) a - a = b - a := by have := (liqY_nn hl).1; omega
      rw [this]
      exact lt_of_le_of_lt (Nat.div_mul_le_self _ _) (hliqY hl).2

theorem yFrom_returns {l p a b : Nat} (h : 10 ^ s < u128Size ∧ l * (max (min p b) a - a) < u128Size) :
    ∃ c, yFromLRpRng ⟨l, s, false⟩ ⟨p, s, false⟩ ⟨a, s, false⟩ ⟨b, s, false⟩ = .ok c := by
  unfold yFromLRpRng
  rw [min_nn, bind_eq, max_nn, bind_eq, sub_nn_le s (le_max_right _ _), unwrap_eq, bind_eq,
    isNegative_nn]
  exact ⟨_, mul_ok.2 ⟨h.2, h.1, rfl⟩⟩

/-- The X amount of a computed liquidity, against the offer. -/
theorem x_needed {x y p a b : Nat} {l c : Decimal}
    (hl : liqFromXYRpRng ⟨x, s, false⟩ ⟨y, s, false⟩ ⟨p, s, false⟩ ⟨a, s, false⟩ ⟨b, s, false⟩ = .ok l)
    (h : xFromLRpRng l ⟨p, s, false⟩ ⟨a, s, false⟩ ⟨b, s, false⟩ = .ok c) :
    ∃ c0, c = ⟨c0, s, false⟩ ∧ (c0 = 0 ∨ (0 < max p a * b / 10 ^ s ∧
      c0 * (max p a * b / 10 ^ s) * 10 ^ s ≤ x * (max p a * b))) := by
  have hD := pow10_pos s
  -- the liquidity of the X side
  have key : ∀ q l0 : Nat, q < b → l0 ≤ x * q / 10 ^ s * b / 10 ^ s * 10 ^ s / (b - q) →
      l0 * (b - q) / 10 ^ s * 10 ^ s / (q * b / 10 ^ s) * (q * b / 10 ^ s) * 10 ^ s ≤ x * (q * b) := by
    intro q l0 hq hl0
    calc _ ≤ l0 * (b - q) / 10 ^ s * 10 ^ s * 10 ^ s := Nat.mul_le_mul_right _ (Nat.div_mul_le_self _ _)
      _ ≤ (x * q / 10 ^ s * b / 10 ^ s) * 10 ^ s * 10 ^ s := by
          apply Nat.mul_le_mul_right
          apply Nat.mul_le_mul_right
          apply Nat.div_le_of_le_mul
          rw [mul_comm (10 ^ s)]
          calc _ ≤ x * q / 10 ^ s * b / 10 ^ s * 10 ^ s / (b - q) * (b - q) := Nat.mul_le_mul_right _ hl0
            _ ≤ _ := Nat.div_mul_le_self _ _
      _ ≤ x * q / 10 ^ s * b * 10 ^ s := Nat.mul_le_mul_right _ (Nat.div_mul_le_self _ _)
      _ = x * q / 10 ^ s * 10 ^ s * b := by ring
      _ ≤ x * q * b := Nat.mul_le_mul_right _ (Nat.div_mul_le_self _ _)
      _ = _ := by ring
  rcases liqFrom_nn hl with ⟨h1, h2, rfl⟩ | ⟨h1, h2, rfl⟩ | ⟨h1, h2, h3, rfl⟩
  · rcases xFrom_nn h with ⟨_, _, _, ⟨g1, g2, rfl⟩ | ⟨g1, _⟩⟩
    · have e : max (min p b) a = a := by omega
      have e2 : max p a = a := by omega
      rw [e] at g2 ⊢
      rw [e2]
      exact ⟨_, rfl, .inr ⟨g2, key a _ h2 le_rfl⟩⟩
    · omega
  · rcases xFrom_nn h with ⟨_, _, _, ⟨g1, g2, rfl⟩ | ⟨g1, _⟩⟩
    · have e : max (min p b) a = p := by omega
      have e2 : max p a = p := by omega
      rw [e] at g2 ⊢
      rw [e2]
      exact ⟨_, rfl, .inr ⟨g2, key p _ h2 (min_le_left _ _)⟩⟩
    · omega
  · rcases xFrom_nn h with ⟨_, _, _, ⟨g1, g2, rfl⟩ | ⟨g1, _⟩⟩
    · have e : max (min p b) a = b := by omega
      rw [e]
      exact ⟨_, rfl, .inl (by simp)⟩
    · omega

end PoolMath

end Hmm
