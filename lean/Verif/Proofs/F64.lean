import Verif.Spec.F64
import Verif.Proofs.Basic
import Mathlib.Data.Nat.Log
import Mathlib.Algebra.Order.Floor.Ring
import Mathlib.Data.Rat.Floor

/-
Doubles: rounding, exact whole numbers, order.
-/

namespace Hmm.F64

theorem unit_pos : 0 < unit := Nat.pow_pos (by norm_num)

theorem unit_eq : unit = 2 ^ 1074 := rfl

theorem limit_eq : limit = 2 ^ 2098 := rfl

theorem limit_pos : 0 < limit := Nat.pow_pos (by norm_num)

theorem limit_unit : limit = 2 ^ 1024 * unit := by rw [limit_eq, unit_eq, ← pow_add]

attribute [local irreducible] unit limit

theorem unitQ_pos : (0 : ℚ) < (unit : ℚ) := by exact_mod_cast unit_pos

theorem unitQ_ne : (unit : ℚ) ≠ 0 := unitQ_pos.ne'

/-! ### Values -/

theorem Is.unique {a : F64} {p q : ℚ} (h : a.Is p) (h' : a.Is q) : p = q := by
  obtain ⟨s, n, rfl, rfl⟩ := h
  obtain ⟨s', n', e, rfl⟩ := h'
  cases e; rfl

theorem Is.val {a : F64} {q : ℚ} (h : a.Is q) : a.val = q := by
  obtain ⟨s, n, rfl, rfl⟩ := h; rfl

theorem is_fin (s : Bool) (n : Nat) : (fin s n).Is ((signed s n : ℚ) / (unit : ℚ)) := ⟨s, n, rfl, rfl⟩

theorem Finite.is {a : F64} (h : a.Finite) : a.Is a.val := by
  obtain ⟨q, h⟩ := h; rw [h.val]; exact h

theorem finite_fin (s : Bool) (n : Nat) : (fin s n).Finite := ⟨_, is_fin s n⟩

theorem finite_iff {a : F64} : a.Finite ↔ ∃ s n, a = fin s n := by
  constructor
  · rintro ⟨q, s, n, h, _⟩; exact ⟨s, n, h⟩
  · rintro ⟨s, n, rfl⟩; exact finite_fin s n

theorem not_finite_nan : ¬ nan.Finite := by rw [finite_iff]; rintro ⟨_, _, h⟩; cases h

theorem not_finite_inf {s : Bool} : ¬ (inf s).Finite := by rw [finite_iff]; rintro ⟨_, _, h⟩; cases h

theorem signed_neg (s : Bool) (n : Nat) : signed (!s) n = -signed s n := by
  cases s <;> simp [signed]

theorem neg_is {a : F64} {q : ℚ} (h : a.Is q) : a.neg.Is (-q) := by
  obtain ⟨s, n, rfl, rfl⟩ := h
  refine ⟨!s, n, rfl, ?_⟩
  rw [signed_neg]; push_cast; ring

theorem neg_neg' (a : F64) : a.neg.neg = a := by cases a <;> simp [neg]

theorem neg_finite {a : F64} : a.neg.Finite ↔ a.Finite := by
  constructor
  · intro ⟨q, h⟩; have := neg_is h; rw [neg_neg'] at this; exact ⟨_, this⟩
  · intro ⟨q, h⟩; exact ⟨_, neg_is h⟩

theorem zero_is : zero.Is 0 := ⟨false, 0, rfl, by simp [signed]⟩

theorem one_is : one.Is 1 := ⟨false, unit, rfl, by
  rw [show signed false unit = (unit : ℤ) from rfl, Int.cast_natCast, div_self unitQ_ne]⟩

/-! ### Rounding -/

theorem shiftOf_mono {a b : Nat} (h : a ≤ b) : shiftOf a ≤ shiftOf b := by
  unfold shiftOf
  have : Nat.log2 a ≤ Nat.log2 b := by
    rw [Nat.log2_eq_log_two, Nat.log2_eq_log_two]; exact Nat.log_mono_right h
  omega

theorem shiftOf_pow (n : Nat) : shiftOf (2 ^ n) = n + 1 - 53 := by
  unfold shiftOf; rw [Nat.log2_two_pow]

theorem lt_shift (q : Nat) : q < 2 ^ (53 + shiftOf q) := by
  have h : q < 2 ^ (Nat.log2 q + 1) := Nat.lt_log2_self
  refine lt_of_lt_of_le h (Nat.pow_le_pow_right (by norm_num) ?_)
  unfold shiftOf; omega

theorem shift_le {q : Nat} (h : 0 < shiftOf q) : 2 ^ (52 + shiftOf q) ≤ q := by
  have hq : q ≠ 0 := by rintro rfl; simp [shiftOf] at h
  have h1 : 2 ^ Nat.log2 q ≤ q := Nat.log2_self_le hq
  have : 52 + shiftOf q = Nat.log2 q := by unfold shiftOf at h ⊢; omega
  rw [this]; exact h1

/-- The rounding decision: quotient, remainder and divisor. -/
def rne (m r d : Nat) : Nat :=
  if 2 * r < d then m else if d < 2 * r then m + 1 else if m % 2 = 0 then m else m + 1

theorem roundNat_eq (num den : Nat) : roundNat num den =
    rne (num / (den * 2 ^ shiftOf (num / den))) (num % (den * 2 ^ shiftOf (num / den)))
      (den * 2 ^ shiftOf (num / den)) * 2 ^ shiftOf (num / den) := rfl

theorem rne_cases (m r d : Nat) :
    (rne m r d = m ∧ 2 * r ≤ d) ∨ (rne m r d = m + 1 ∧ d ≤ 2 * r) := by
  unfold rne
  split
  · left; exact ⟨rfl, by omega⟩
  · split
    · right; exact ⟨rfl, by omega⟩
    · split
      · left; exact ⟨rfl, by omega⟩
      · right; exact ⟨rfl, by omega⟩

/-- A number with at most 53 significant digits is not changed. -/
theorem roundNat_exact {n : Nat} (h : 2 ^ shiftOf n ∣ n) : roundNat n 1 = n := by
  rw [roundNat_eq, Nat.div_one, one_mul]
  have h0 : n % 2 ^ shiftOf n = 0 := Nat.mod_eq_zero_of_dvd h
  have hp : 0 < 2 ^ shiftOf n := Nat.pow_pos (by norm_num)
  unfold rne
  rw [h0, if_pos (by omega)]
  exact Nat.div_mul_cancel h

/-- Rounding error: at most half of the last digit. -/
theorem roundNat_error (num : Nat) {den : Nat} (hd : 0 < den) :
    2 * (roundNat num den * den) ≤ 2 * num + den * 2 ^ shiftOf (num / den) ∧
    2 * num ≤ 2 * (roundNat num den * den) + den * 2 ^ shiftOf (num / den) := by
  rw [roundNat_eq]
  have hp : 0 < 2 ^ shiftOf (num / den) := Nat.pow_pos (by norm_num)
  generalize 2 ^ shiftOf (num / den) = k at *
  have hr := Nat.mod_lt num (Nat.mul_pos hd hp)
  have h := Nat.div_add_mod num (den * k)
  generalize num / (den * k) = m at *
  generalize num % (den * k) = r at *
  rcases rne_cases m r (den * k) with ⟨e, h1⟩ | ⟨e, h1⟩
  · rw [e]
    have : m * k * den = den * k * m := by ring
    rw [this]; omega
  · rw [e]
    have : (m + 1) * k * den = den * k * m + den * k := by ring
    rw [this]
    generalize den * k * m = x at *
    generalize den * k = y at *
    omega

theorem roundNat_le_pow (num den : Nat) :
    roundNat num den ≤ 2 ^ (53 + shiftOf (num / den)) := by
  rw [roundNat_eq]
  have hq := lt_shift (num / den)
  rw [pow_add]
  apply Nat.mul_le_mul_right
  have : num / (den * 2 ^ shiftOf (num / den)) < 2 ^ 53 := by
    rw [← Nat.div_div_eq_div_mul]
    rw [pow_add] at hq
    exact Nat.div_lt_of_lt_mul (by rw [mul_comm]; exact hq)
  rcases rne_cases (num / (den * 2 ^ shiftOf (num / den))) (num % (den * 2 ^ shiftOf (num / den)))
    (den * 2 ^ shiftOf (num / den)) with ⟨e, _⟩ | ⟨e, _⟩ <;> rw [e] <;> omega

theorem pow_le_roundNat (num den : Nat) (h : 0 < shiftOf (num / den)) :
    2 ^ (52 + shiftOf (num / den)) ≤ roundNat num den := by
  rw [roundNat_eq]
  have hq := shift_le h
  rw [pow_add] at hq ⊢
  apply Nat.mul_le_mul_right
  have : 2 ^ 52 ≤ num / (den * 2 ^ shiftOf (num / den)) := by
    rw [← Nat.div_div_eq_div_mul, Nat.le_div_iff_mul_le (Nat.pow_pos (by norm_num))]
    exact hq
  rcases rne_cases (num / (den * 2 ^ shiftOf (num / den))) (num % (den * 2 ^ shiftOf (num / den)))
    (den * 2 ^ shiftOf (num / den)) with ⟨e, _⟩ | ⟨e, _⟩ <;> rw [e] <;> omega

theorem div_le_div_cross {a b c d : Nat} (hb : 0 < b) (hd : 0 < d) (h : a * d ≤ c * b) :
    a / b ≤ c / d := by
  rw [Nat.le_div_iff_mul_le hd]
  have h1 : a / b * b ≤ a := Nat.div_mul_le_self a b
  have h2 : a / b * d * b ≤ c * b := by
    calc a / b * d * b = a / b * b * d := by ring
      _ ≤ a * d := Nat.mul_le_mul_right _ h1
      _ ≤ c * b := h
  exact Nat.le_of_mul_le_mul_right h2 hb

/-- Rounding keeps the order. -/
theorem roundNat_mono {a b c d : Nat} (hb : 0 < b) (hd : 0 < d) (h : a * d ≤ c * b) :
    roundNat a b ≤ roundNat c d := by
  have hq := div_le_div_cross hb hd h
  have hk := shiftOf_mono hq
  rcases Nat.lt_or_ge (shiftOf (a / b)) (shiftOf (c / d)) with hlt | hge
  · refine (roundNat_le_pow a b).trans (le_trans ?_ (pow_le_roundNat c d (by omega)))
    exact Nat.pow_le_pow_right (by norm_num) (by omega)
  · have he : shiftOf (a / b) = shiftOf (c / d) := le_antisymm hk hge
    rw [roundNat_eq, roundNat_eq, he]
    have hp : 0 < 2 ^ shiftOf (c / d) := Nat.pow_pos (by norm_num)
    generalize 2 ^ shiftOf (c / d) = k at *
    apply Nat.mul_le_mul_right
    have hm := div_le_div_cross (a := a) (b := b * k) (c := c) (d := d * k) (Nat.mul_pos hb hp)
      (Nat.mul_pos hd hp) (by
        calc a * (d * k) = a * d * k := by ring
          _ ≤ c * b * k := Nat.mul_le_mul_right _ h
          _ = c * (b * k) := by ring)
    rcases Nat.lt_or_ge (a / (b * k)) (c / (d * k)) with hl | hg
    · rcases rne_cases (a / (b * k)) (a % (b * k)) (b * k) with ⟨e, _⟩ | ⟨e, _⟩ <;>
      rcases rne_cases (c / (d * k)) (c % (d * k)) (d * k) with ⟨e', _⟩ | ⟨e', _⟩ <;>
      rw [e, e'] <;> omega
    · have hme : a / (b * k) = c / (d * k) := le_antisymm hm hg
      have h1 := Nat.div_add_mod a (b * k)
      have h2 := Nat.div_add_mod c (d * k)
      rw [hme] at h1 ⊢
      generalize c / (d * k) = m at *
      generalize a % (b * k) = r at *
      generalize c % (d * k) = r' at *
      have hr : r * (d * k) ≤ r' * (b * k) := by
        have : a * (d * k) ≤ c * (b * k) := by
          calc a * (d * k) = a * d * k := by ring
            _ ≤ c * b * k := Nat.mul_le_mul_right _ h
            _ = c * (b * k) := by ring
        rw [← h1, ← h2] at this
        have e1 : (b * k * m + r) * (d * k) = b * k * (d * k) * m + r * (d * k) := by ring
        have e2 : (d * k * m + r') * (b * k) = b * k * (d * k) * m + r' * (b * k) := by ring
        rw [e1, e2] at this
        omega
      have hB : 0 < b * k := Nat.mul_pos hb hp
      have hD : 0 < d * k := Nat.mul_pos hd hp
      generalize b * k = B at *
      generalize d * k = D at *
      unfold rne
      by_cases c1 : 2 * r < B
      · rw [if_pos c1]; split
        · exact le_rfl
        · split
          · omega
          · split <;> omega
      · rw [if_neg c1]
        have c3 : D ≤ 2 * r' := by
          have : B * D ≤ 2 * r' * B := by
            calc B * D ≤ 2 * r * D := Nat.mul_le_mul_right _ (by omega)
              _ = 2 * (r * D) := by ring
              _ ≤ 2 * (r' * B) := by omega
              _ = 2 * r' * B := by ring
          rw [mul_comm B D] at this
          exact Nat.le_of_mul_le_mul_right this hB
        rw [if_neg (by omega : ¬ 2 * r' < D)]
        by_cases c2 : B < 2 * r
        · rw [if_pos c2]
          have c4 : D < 2 * r' := by
            have : B * D < 2 * r' * B := by
              calc B * D < 2 * r * D := Nat.mul_lt_mul_of_pos_right c2 hD
                _ = 2 * (r * D) := by ring
                _ ≤ 2 * (r' * B) := by omega
                _ = 2 * r' * B := by ring
            rw [mul_comm B D] at this
            exact Nat.lt_of_mul_lt_mul_right this
          rw [if_pos c4]
        · rw [if_neg c2]
          split <;> split <;> omega

theorem roundNat_zero (den : Nat) : roundNat 0 den = 0 := by
  rw [roundNat_eq]
  unfold rne
  rw [Nat.zero_div, Nat.zero_mod]
  have : shiftOf 0 = 0 := by decide
  rw [Nat.zero_div, this, pow_zero, mul_one, mul_one]
  split
  · rfl
  · split
    · omega
    · simp

/-! ### Results are doubles, and nearest ones -/

theorem rep_of {n : Nat} (h : ∃ m e, m < 2 ^ 53 ∧ n = m * 2 ^ e) : 2 ^ shiftOf n ∣ n := by
  obtain ⟨m, e, hm, rfl⟩ := h
  by_cases hz : m * 2 ^ e = 0
  · rw [hz]; exact dvd_zero _
  · have h1 : m * 2 ^ e < 2 ^ (53 + e) := by
      rw [pow_add]; exact Nat.mul_lt_mul_of_pos_right hm (Nat.pow_pos (by norm_num))
    have h2 : shiftOf (m * 2 ^ e) ≤ e := by
      unfold shiftOf
      have := (Nat.log2_lt hz).2 h1
      omega
    exact Dvd.dvd.mul_left (pow_dvd_pow 2 h2) m

theorem roundNat_rep (num den : Nat) : ∃ m e, m < 2 ^ 53 ∧ roundNat num den = m * 2 ^ e := by
  have hle := roundNat_le_pow num den
  rw [roundNat_eq] at hle ⊢
  generalize rne _ _ _ = m at *
  generalize shiftOf (num / den) = k at *
  rw [pow_add] at hle
  have : m ≤ 2 ^ 53 := Nat.le_of_mul_le_mul_right hle (Nat.pow_pos (by norm_num))
  rcases Nat.eq_or_lt_of_le this with rfl | hlt
  · exact ⟨1, 53 + k, by norm_num, by rw [pow_add, one_mul]⟩
  · exact ⟨m, k, hlt, rfl⟩

theorem rep_fin {s : Bool} {n : Nat} : (fin s n).Rep ↔ n < limit ∧ ∃ m e, m < 2 ^ 53 ∧ n = m * 2 ^ e := by
  change ((n : ℚ) / unit < 2 ^ 1024 ∧ _) ↔ _
  rw [div_lt_iff₀ unitQ_pos, limit_unit, and_congr_left_iff]
  intro _
  exact_mod_cast Iff.rfl

theorem ofRatio_rep (s : Bool) (num den : Nat) : (ofRatio s num den).Rep := by
  unfold ofRatio
  simp only
  split
  · rename_i h; exact rep_fin.2 ⟨h, roundNat_rep num den⟩
  · trivial

theorem zero_rep {s : Bool} : (fin s 0).Rep := rep_fin.2 ⟨limit_pos, 0, 0, by norm_num, rfl⟩

/-- Results of addition are doubles. -/
theorem add_rep (a b : F64) : (add a b).Rep := by
  unfold add
  split <;> try trivial
  · split <;> trivial
  · split
    · exact ofRatio_rep _ _ _
    · split
      · exact ofRatio_rep _ _ _
      · split
        · exact ofRatio_rep _ _ _
        · exact zero_rep

/-- Results of multiplication are doubles. -/
theorem mul_rep (a b : F64) : (mul a b).Rep := by
  unfold mul
  split <;> try trivial
  · split <;> trivial
  · split <;> trivial
  · exact ofRatio_rep _ _ _

/-- Results of division are doubles. -/
theorem div_rep (a b : F64) : (div a b).Rep := by
  unfold div
  split <;> try trivial
  · exact zero_rep
  · split
    · split <;> trivial
    · exact ofRatio_rep _ _ _

theorem neg_rep {a : F64} (h : a.Rep) : a.neg.Rep := by
  cases a with
  | nan => trivial
  | inf s => trivial
  | fin s n => exact rep_fin.2 (rep_fin.1 h)

/-- No double lies strictly between the two candidates of rounding. -/
theorem no_between {num den : Nat} {r : Nat} (hr : ∃ m e, m < 2 ^ 53 ∧ r = m * 2 ^ e) :
    r ≤ num / (den * 2 ^ shiftOf (num / den)) * 2 ^ shiftOf (num / den) ∨
    (num / (den * 2 ^ shiftOf (num / den)) + 1) * 2 ^ shiftOf (num / den) ≤ r := by
  have hrep := rep_of hr
  rcases Nat.eq_zero_or_pos (shiftOf (num / den)) with h0 | h0
  · rw [h0]; omega
  · by_cases hlo : r ≤ num / (den * 2 ^ shiftOf (num / den)) * 2 ^ shiftOf (num / den)
    · left; exact hlo
    · right
      have hbig : 2 ^ (52 + shiftOf (num / den)) ≤ r := by
        have h1 := shift_le h0
        have h2 : 2 ^ 52 ≤ num / (den * 2 ^ shiftOf (num / den)) := by
          rw [← Nat.div_div_eq_div_mul, Nat.le_div_iff_mul_le (Nat.pow_pos (by norm_num)), ← pow_add]
          exact h1
        have h3 := Nat.mul_le_mul_right (2 ^ shiftOf (num / den)) h2
        rw [pow_add]; omega
      have hk : shiftOf (num / den) ≤ shiftOf r := by
        have h1 := shiftOf_mono hbig
        have h2 : shiftOf (2 ^ (52 + shiftOf (num / den))) = shiftOf (num / den) := by
          rw [shiftOf_pow]; omega
        omega
      obtain ⟨w, hw⟩ := (pow_dvd_pow 2 hk).trans hrep
      rw [hw, mul_comm (2 ^ _) w] at hlo ⊢
      have hp : 0 < 2 ^ shiftOf (num / den) := Nat.pow_pos (by norm_num)
      exact Nat.mul_le_mul_right _ (Nat.lt_of_mul_lt_mul_right (not_le.1 hlo))

/-- The rounded magnitude is at least as near as any other representable one. -/
theorem roundNat_nearest {num den : Nat} (hd : 0 < den) {r : Nat} (hr : ∃ m e, m < 2 ^ 53 ∧ r = m * 2 ^ e) :
    |(num : ℤ) - roundNat num den * den| ≤ |(num : ℤ) - r * den| := by
  have hb := no_between (num := num) (den := den) hr
  rw [roundNat_eq]
  have hp : 0 < 2 ^ shiftOf (num / den) := Nat.pow_pos (by norm_num)
  generalize 2 ^ shiftOf (num / den) = k at *
  have hml := Nat.mod_lt num (Nat.mul_pos hd hp)
  have h := Nat.div_add_mod num (den * k)
  have hc := rne_cases (num / (den * k)) (num % (den * k)) (den * k)
  generalize rne _ _ _ = w at *
  generalize num / (den * k) = m at *
  generalize num % (den * k) = t at *
  have e1 : m * k * den = den * k * m := by ring
  have e2 : (m + 1) * k * den = den * k * m + den * k := by ring
  have hr' : r * den ≤ den * k * m ∨ den * k * m + den * k ≤ r * den := by
    rcases hb with hb | hb
    · left; rw [← e1]; exact Nat.mul_le_mul_right _ hb
    · right; rw [← e2]; exact Nat.mul_le_mul_right _ hb
  have hw : (w * k * den = den * k * m ∧ 2 * t ≤ den * k) ∨
      (w * k * den = den * k * m + den * k ∧ den * k ≤ 2 * t) := by
    rcases hc with ⟨rfl, hc⟩ | ⟨rfl, hc⟩
    · left; exact ⟨e1, hc⟩
    · right; exact ⟨e2, hc⟩
  have c1 : ((w * k : ℕ) : ℤ) * den = ((w * k * den : ℕ) : ℤ) := by push_cast; ring
  have c2 : (r : ℤ) * den = ((r * den : ℕ) : ℤ) := by push_cast; ring
  rw [c1, c2]
  generalize w * k * den = W at *
  generalize r * den = r' at *
  generalize den * k * m = x at *
  generalize den * k = y at *
  rw [abs_le]
  rcases abs_cases ((num : ℤ) - r') with ⟨e, _⟩ | ⟨e, _⟩ <;> rw [e] <;> omega

/-! ### Whole numbers -/

theorem isInt_iff {a : F64} {z : ℤ} : a.IsInt z ↔ ∃ s n, a = fin s n ∧ signed s n = z * unit := by
  unfold IsInt Is
  constructor
  · rintro ⟨s, n, h, e⟩
    refine ⟨s, n, h, ?_⟩
    rw [eq_div_iff unitQ_ne] at e
    exact_mod_cast e.symm
  · rintro ⟨s, n, h, e⟩
    refine ⟨s, n, h, ?_⟩
    rw [eq_div_iff unitQ_ne]
    exact_mod_cast e.symm

theorem isInt_natAbs {s : Bool} {n : Nat} {z : ℤ} (h : signed s n = z * unit) : n = z.natAbs * unit := by
  have : n = (signed s n).natAbs := by cases s <;> simp [signed]
  rw [this, h, Int.natAbs_mul]; rfl

/-- Whole numbers up to `2^53` have at most 53 significant digits. -/
theorem dvd_of_whole {k : Nat} (h : k ≤ 2 ^ 53) : 2 ^ shiftOf (k * unit) ∣ k * unit := by
  rcases Nat.eq_or_lt_of_le h with rfl | hlt
  · have : shiftOf (2 ^ 53 * unit) = 1075 := by
      unfold shiftOf
      rw [unit_eq, ← pow_add, Nat.log2_two_pow]
    rw [this, unit_eq, ← pow_add]
    exact pow_dvd_pow 2 (by norm_num)
  · have h1 : k * unit < 2 ^ (1074 + 53) := by
      rw [pow_add, ← unit_eq, mul_comm]
      exact Nat.mul_lt_mul_of_pos_left hlt unit_pos
    have h2 : shiftOf (k * unit) ≤ 1074 := by
      unfold shiftOf
      by_cases hz : k * unit = 0
      · rw [hz]; decide
      · have := (Nat.log2_lt hz).2 h1
        omega
    have h3 : 2 ^ shiftOf (k * unit) ∣ unit := by
      have := pow_dvd_pow 2 h2
      rw [← unit_eq] at this; exact this
    exact Dvd.dvd.mul_left h3 k

theorem round_whole {k : Nat} (h : k ≤ 2 ^ 53) : roundNat (k * unit) 1 = k * unit :=
  roundNat_exact (dvd_of_whole h)

theorem whole_lt {k : Nat} (h : k ≤ 2 ^ 53) : k * unit < limit := by
  calc k * unit ≤ 2 ^ 53 * unit := Nat.mul_le_mul_right _ h
    _ = 2 ^ 1127 := by rw [unit_eq, ← pow_add]
    _ < limit := by rw [limit_eq]; exact Nat.pow_lt_pow_right (by norm_num) (by norm_num)

theorem ofRatio_whole {s : Bool} {k : Nat} (h : k ≤ 2 ^ 53) :
    ofRatio s (k * unit) 1 = fin s (k * unit) := by
  unfold ofRatio
  simp only [round_whole h]
  rw [if_pos (whole_lt h)]

theorem signed_whole (s : Bool) (k : Nat) : signed s (k * unit) = signed s k * unit := by
  cases s <;> simp [signed]

theorem neg_int {a : F64} {z : ℤ} (h : a.IsInt z) : a.neg.IsInt (-z) := by
  have := neg_is h
  unfold IsInt; push_cast; exact this

/-- Sums of whole numbers are exact up to `2^53`. -/
theorem add_int {a b : F64} {y z : ℤ} (ha : a.IsInt y) (hb : b.IsInt z) (h : |y + z| ≤ 2 ^ 53) :
    (add a b).IsInt (y + z) := by
  rw [isInt_iff] at ha hb ⊢
  obtain ⟨s, m, rfl, e1⟩ := ha
  obtain ⟨t, n, rfl, e2⟩ := hb
  have hm := isInt_natAbs e1
  have hn := isInt_natAbs e2
  have hu : (0 : ℤ) < unit := by exact_mod_cast unit_pos
  have key : ∀ k : Nat, (k : ℤ) = |y + z| → k ≤ 2 ^ 53 := by
    intro k hk
    have : (k : ℤ) ≤ 2 ^ 53 := by rw [hk]; exact h
    exact_mod_cast this
  -- the signed magnitudes
  have hy : y = signed s y.natAbs := by
    have : signed s (y.natAbs * unit) = y * unit := by rw [← hm]; exact e1
    rw [signed_whole] at this
    exact (mul_right_cancel₀ hu.ne' this).symm
  have hz : z = signed t z.natAbs := by
    have : signed t (z.natAbs * unit) = z * unit := by rw [← hn]; exact e2
    rw [signed_whole] at this
    exact (mul_right_cancel₀ hu.ne' this).symm
  generalize y.natAbs = i at *
  generalize z.natAbs = j at *
  subst hm; subst hn
  unfold add
  simp only
  by_cases hst : s = t
  · subst hst
    rw [if_pos rfl, ← Nat.add_mul]
    have hs : y + z = signed s (i + j) := by rw [hy, hz]; cases s <;> simp [signed]; ring
    have hk : i + j ≤ 2 ^ 53 := key _ (by
      rw [hs]; cases s
      · simp only [signed, Bool.false_eq_true, if_false, Nat.abs_cast]
      · simp only [signed, if_true, abs_neg, Nat.abs_cast])
    rw [ofRatio_whole hk]
    exact ⟨s, _, rfl, by rw [signed_whole, hs]⟩
  · rw [if_neg hst]
    have ht : t = !s := by cases s <;> cases t <;> simp_all
    subst ht
    have hs : y + z = signed s i - signed s j := by rw [hy, hz, signed_neg]; ring
    by_cases h1 : j * unit < i * unit
    · have h1' : j < i := Nat.lt_of_mul_lt_mul_right h1
      rw [if_pos h1, ← Nat.sub_mul]
      have hs' : y + z = signed s (i - j) := by rw [hs]; cases s <;> simp [signed] <;> omega
      have hk : i - j ≤ 2 ^ 53 := key _ (by rw [hs']; cases s <;> simp [signed])
      rw [ofRatio_whole hk]
      exact ⟨s, _, rfl, by rw [signed_whole, hs']⟩
    · rw [if_neg h1]
      have h1' : i ≤ j := by
        by_contra hc
        exact h1 (Nat.mul_lt_mul_of_pos_right (by omega) unit_pos)
      by_cases h2 : i * unit < j * unit
      · have h2' : i < j := Nat.lt_of_mul_lt_mul_right h2
        rw [if_pos h2, ← Nat.sub_mul]
        have hs' : y + z = signed (!s) (j - i) := by rw [hs]; cases s <;> simp [signed] <;> omega
        have hk : j - i ≤ 2 ^ 53 := key _ (by rw [hs']; cases s <;> simp [signed])
        rw [ofRatio_whole hk]
        exact ⟨!s, _, rfl, by rw [signed_whole, hs']⟩
      · rw [if_neg h2]
        have : i = j := by
          by_contra hc
          exact h2 (Nat.mul_lt_mul_of_pos_right (by omega) unit_pos)
        subst this
        refine ⟨false, 0, rfl, ?_⟩
        rw [hs]; simp [signed]

theorem zero_int : zero.IsInt 0 := by unfold IsInt; simpa using zero_is

/-! ### Order -/

theorem lt_is {a b : F64} {p q : ℚ} (ha : a.Is p) (hb : b.Is q) : (lt a b = true ↔ p < q) := by
  obtain ⟨s, m, rfl, rfl⟩ := ha
  obtain ⟨t, n, rfl, rfl⟩ := hb
  simp only [lt, decide_eq_true_eq]
  rw [div_lt_div_iff_of_pos_right unitQ_pos]
  exact_mod_cast Iff.rfl

theorem eq_is {a b : F64} {p q : ℚ} (ha : a.Is p) (hb : b.Is q) : (F64.eq a b = true ↔ p = q) := by
  obtain ⟨s, m, rfl, rfl⟩ := ha
  obtain ⟨t, n, rfl, rfl⟩ := hb
  simp only [F64.eq, decide_eq_true_eq]
  rw [div_left_inj' unitQ_ne]
  exact_mod_cast Iff.rfl

theorem le_is {a b : F64} {p q : ℚ} (ha : a.Is p) (hb : b.Is q) : (le a b = true ↔ p ≤ q) := by
  unfold le
  rw [Bool.or_eq_true, lt_is ha hb, eq_is ha hb, le_iff_lt_or_eq]

theorem lt_zero_is {a : F64} {q : ℚ} (ha : a.Is q) : (lt a zero = true ↔ q < 0) := lt_is ha zero_is

theorem zero_lt_is {a : F64} {q : ℚ} (ha : a.Is q) : (lt zero a = true ↔ 0 < q) := lt_is zero_is ha

/-- The floor of a finite double is the floor of its value. -/
theorem floor_is {a : F64} {q : ℚ} (h : a.Is q) : a.floor.IsInt ⌊q⌋ := by
  obtain ⟨s, n, rfl, rfl⟩ := h
  rw [isInt_iff]
  have hu : (0 : ℤ) < unit := by exact_mod_cast unit_pos
  have hfl : ⌊(signed s n : ℚ) / (unit : ℚ)⌋ = signed s n / (unit : ℤ) := by
    exact_mod_cast Rat.floor_intCast_div_natCast (signed s n) unit
  rw [hfl]
  have hdm := Nat.div_add_mod n unit
  have hml := Nat.mod_lt n unit_pos
  unfold floor
  by_cases h0 : n % unit = 0
  · simp only [h0, if_true]
    refine ⟨s, n, rfl, ?_⟩
    rw [Int.ediv_mul_cancel]
    have : (unit : ℤ) ∣ (n : ℤ) := by exact_mod_cast Nat.dvd_of_mod_eq_zero h0
    cases s
    · simpa [signed] using this
    · simpa [signed] using this
  · simp only [h0, if_false]
    cases s with
    | false =>
      refine ⟨false, n / unit * unit, rfl, ?_⟩
      simp [signed]
    | true =>
      refine ⟨true, (n / unit + 1) * unit, rfl, ?_⟩
      simp only [signed, if_true]
      have : (-(n : ℤ)) / (unit : ℤ) = -((n / unit : ℕ) : ℤ) - 1 := by
        rw [Int.ediv_eq_iff_of_pos hu]
        constructor
        · push_cast
          have : (n : ℤ) = unit * (n / unit : ℤ) + (n % unit : ℤ) := by exact_mod_cast hdm.symm
          have h2 : (n % unit : ℤ) < unit := by exact_mod_cast hml
          nlinarith
        · push_cast
          have : (n : ℤ) = unit * (n / unit : ℤ) + (n % unit : ℤ) := by exact_mod_cast hdm.symm
          have h2 : (0 : ℤ) < (n % unit : ℤ) := by
            have : 0 < n % unit := Nat.pos_of_ne_zero h0
            exact_mod_cast this
          nlinarith
      rw [this]; push_cast; ring

theorem floor_finite {a : F64} (h : a.floor.Finite) : a.Finite := by
  cases a with
  | nan => exact absurd h not_finite_nan
  | inf s => exact absurd h not_finite_inf
  | fin s n => exact finite_fin s n

/-! ### What a finite result says about the operands -/

theorem add_finite {a b : F64} (h : (add a b).Finite) : a.Finite ∧ b.Finite := by
  cases a with
  | nan => exact absurd h not_finite_nan
  | inf s =>
    cases b with
    | nan => exact absurd h not_finite_nan
    | inf t =>
      unfold add at h
      simp only at h
      split at h
      · exact absurd h not_finite_inf
      · exact absurd h not_finite_nan
    | fin t n => exact absurd h not_finite_inf
  | fin s m =>
    cases b with
    | nan => exact absurd h not_finite_nan
    | inf t => exact absurd h not_finite_inf
    | fin t n => exact ⟨finite_fin _ _, finite_fin _ _⟩

end Hmm.F64
