import Verif.Proofs.F64
import Mathlib.Algebra.Order.Field.Basic
import Mathlib.Tactic.Linarith
import Mathlib.Tactic.Positivity
import Mathlib.Tactic.FieldSimp

/-
Results of operations on doubles as rounded rational numbers.
-/

namespace Hmm.F64

attribute [local irreducible] unit limit

/-- `a` is the result of rounding `x`. -/
def Rounded (x : ℚ) (a : F64) : Prop :=
  ∃ (w : Bool) (num den : ℕ), 0 < den ∧ a = ofRatio w num den ∧ x = (signed w num : ℚ) / den / unit

theorem exists_sign (z : ℤ) : ∃ w, signed w z.natAbs = z := by
  by_cases h : z < 0
  · exact ⟨true, by simp only [signed, if_true]; omega⟩
  · exact ⟨false, by simp only [signed, Bool.false_eq_true, if_false]; omega⟩

theorem ofRatio_zero (w : Bool) (den : Nat) : ofRatio w 0 den = fin w 0 := by
  unfold ofRatio
  simp only [roundNat_zero]
  rw [if_pos limit_pos]

/-- Addition rounds the exact sum. -/
theorem add_rounded {a b : F64} {p q : ℚ} (ha : a.Is p) (hb : b.Is q) : Rounded (p + q) (add a b) := by
  obtain ⟨s, m, rfl, rfl⟩ := ha
  obtain ⟨t, n, rfl, rfl⟩ := hb
  have key : ∃ w k, add (fin s m) (fin t n) = ofRatio w k 1 ∧ signed w k = signed s m + signed t n := by
    unfold add
    simp only
    by_cases hst : s = t
    · subst hst
      rw [if_pos rfl]
      exact ⟨s, m + n, rfl, by cases s <;> simp [signed]; ring⟩
    · rw [if_neg hst]
      have ht : t = !s := by cases s <;> cases t <;> simp_all
      subst ht
      by_cases h1 : n < m
      · rw [if_pos h1]
        exact ⟨s, m - n, rfl, by rw [signed_neg]; cases s <;> simp [signed] <;> omega⟩
      · rw [if_neg h1]
        by_cases h2 : m < n
        · rw [if_pos h2]
          exact ⟨!s, n - m, rfl, by rw [signed_neg, signed_neg]; cases s <;> simp [signed] <;> omega⟩
        · rw [if_neg h2]
          have : m = n := by omega
          subst this
          exact ⟨false, 0, (ofRatio_zero _ _).symm, by rw [signed_neg]; simp [signed]⟩
  obtain ⟨w, k, e, hk⟩ := key
  refine ⟨w, k, 1, one_pos, e, ?_⟩
  rw [hk]; push_cast; ring

theorem sub_rounded {a b : F64} {p q : ℚ} (ha : a.Is p) (hb : b.Is q) : Rounded (p - q) (sub a b) := by
  have := add_rounded ha (neg_is hb)
  rw [sub_eq_add_neg]; exact this

theorem signed_mul (s t : Bool) (m n : Nat) : signed (s != t) (m * n) = signed s m * signed t n := by
  cases s <;> cases t <;> simp [signed]

/-- Multiplication rounds the exact product. -/
theorem mul_rounded {a b : F64} {p q : ℚ} (ha : a.Is p) (hb : b.Is q) : Rounded (p * q) (mul a b) := by
  obtain ⟨s, m, rfl, rfl⟩ := ha
  obtain ⟨t, n, rfl, rfl⟩ := hb
  refine ⟨s != t, m * n, unit, unit_pos, rfl, ?_⟩
  rw [signed_mul]; push_cast
  field_simp

/-- Division rounds the exact quotient. -/
theorem div_rounded {a b : F64} {p q : ℚ} (ha : a.Is p) (hb : b.Is q) (h0 : q ≠ 0) :
    Rounded (p / q) (div a b) := by
  obtain ⟨s, m, rfl, rfl⟩ := ha
  obtain ⟨t, n, rfl, rfl⟩ := hb
  have hn : n ≠ 0 := by rintro rfl; apply h0; cases t <;> simp [signed]
  have hnq : (n : ℚ) ≠ 0 := by exact_mod_cast hn
  refine ⟨s != t, m * unit, n, Nat.pos_of_ne_zero hn, ?_, ?_⟩
  · unfold div; simp only; rw [if_neg hn]
  · rw [signed_mul]
    have hu := unitQ_ne
    cases s <;> cases t <;> simp [signed] <;> field_simp

theorem Rounded.is {x r : ℚ} {a : F64} (h : Rounded x a) (hr : a.Is r) :
    ∃ (w : Bool) (num den : ℕ), 0 < den ∧ x = (signed w num : ℚ) / den / unit ∧ r = (signed w (roundNat num den) : ℚ) / unit := by
  obtain ⟨w, num, den, hd, rfl, hx⟩ := h
  refine ⟨w, num, den, hd, hx, ?_⟩
  obtain ⟨s, n, e, rfl⟩ := hr
  unfold ofRatio at e
  simp only at e
  split at e
  · cases e; rfl
  · cases e

theorem abs_signed (w : Bool) (n : Nat) : |(signed w n : ℚ)| = n := by
  cases w <;> simp [signed]

/-- The result is a double nearest to the exact value. -/
theorem Rounded.nearest {x r : ℚ} {a : F64} (h : Rounded x a) (hr : a.Is r) : Nearest x r := by
  obtain ⟨w, num, den, hd, rfl, rfl⟩ := h.is hr
  intro d q hd' hq
  obtain ⟨s, n, rfl, rfl⟩ := hq
  have hdq : (0 : ℚ) < den := by exact_mod_cast hd
  have hn := roundNat_nearest (num := num) hd (rep_fin.1 hd').2
  have hn' : |(num : ℚ) - roundNat num den * den| ≤ |(num : ℚ) - n * den| := by exact_mod_cast hn
  -- multiply by the denominators
  have e1 : ∀ v : ℚ, ∀ z : ℤ, v = (z : ℚ) → |(signed w num : ℚ) / den / unit - v / unit| =
      |(signed w num : ℚ) - z * den| / (den * unit) := by
    intro v z e
    have : (signed w num : ℚ) / den / unit - v / unit = ((signed w num : ℚ) - z * den) / (den * unit) := by
      rw [e]; have := unitQ_ne; field_simp
    rw [this, abs_div, abs_of_pos (mul_pos hdq unitQ_pos)]
  rw [e1 _ _ rfl, e1 _ _ rfl]
  apply div_le_div_of_nonneg_right _ (mul_pos hdq unitQ_pos).le
  have e2 : |(signed w num : ℚ) - (signed w (roundNat num den) : ℤ) * den| = |(num : ℚ) - roundNat num den * den| := by
    cases w
    · simp [signed]
    · simp only [signed, if_true]; push_cast
      rw [← abs_neg]; congr 1; ring
  rw [e2]
  refine hn'.trans ?_
  have hpos : (0 : ℚ) ≤ n * den := by positivity
  have hpos' : (0 : ℚ) ≤ num := by positivity
  cases w <;> cases s <;> simp only [signed, Bool.false_eq_true, if_false, if_true] <;> push_cast
  · exact le_rfl
  · rw [abs_le]; constructor
    · rw [abs_of_nonneg (by linarith)]; linarith
    · rw [abs_of_nonneg (by linarith)]; linarith
  · rw [abs_le]; constructor
    · rw [abs_of_nonpos (by linarith)]; linarith
    · rw [abs_of_nonpos (by linarith)]; linarith
  · rw [← abs_neg]; apply le_of_eq; congr 1; ring

/-- Rounding error: half of the last place, or half of the smallest double. -/
theorem Rounded.error {x r : ℚ} {a : F64} (h : Rounded x a) (hr : a.Is r) :
    |r - x| ≤ |x| / 2 ^ 53 + 1 / (2 * unit) := by
  obtain ⟨w, num, den, hd, rfl, rfl⟩ := h.is hr
  have hdq : (0 : ℚ) < den := by exact_mod_cast hd
  obtain ⟨h1, h2⟩ := roundNat_error num hd
  have e1 : |(signed w (roundNat num den) : ℚ) / unit - (signed w num : ℚ) / den / unit| =
      |(roundNat num den : ℚ) * den - num| / (den * unit) := by
    have : (signed w (roundNat num den) : ℚ) / unit - (signed w num : ℚ) / den / unit =
        ((signed w (roundNat num den) : ℚ) * den - signed w num) / (den * unit) := by
      have := unitQ_ne; field_simp
    rw [this, abs_div, abs_of_pos (mul_pos hdq unitQ_pos)]
    congr 1
    cases w
    · simp [signed]
    · simp only [signed, if_true]; push_cast
      rw [← abs_neg]; congr 1; ring
  rw [e1, abs_div, abs_div, abs_signed, abs_of_pos hdq, abs_of_pos unitQ_pos]
  have h1' : 2 * ((roundNat num den : ℚ) * den) ≤ 2 * num + den * 2 ^ shiftOf (num / den) := by exact_mod_cast h1
  have h2' : 2 * (num : ℚ) ≤ 2 * (roundNat num den * den) + den * 2 ^ shiftOf (num / den) := by exact_mod_cast h2
  have h3 : (den : ℚ) * 2 ^ shiftOf (num / den) ≤ num / 2 ^ 52 + den := by
    rcases Nat.eq_zero_or_pos (shiftOf (num / den)) with h0 | h0
    · rw [h0, pow_zero, mul_one]
      have : (0 : ℚ) ≤ num / 2 ^ 52 := by positivity
      linarith
    · have := shift_le h0
      have h4 : 2 ^ (52 + shiftOf (num / den)) * den ≤ num := by
        calc _ ≤ num / den * den := Nat.mul_le_mul_right _ this
          _ ≤ num := Nat.div_mul_le_self _ _
      have h5 : (2 : ℚ) ^ (52 + shiftOf (num / den)) * den ≤ num := by exact_mod_cast h4
      rw [pow_add] at h5
      have h6 : (den : ℚ) * 2 ^ shiftOf (num / den) ≤ num / 2 ^ 52 := by
        rw [le_div_iff₀ (by positivity)]; linarith
      linarith
  have h7 : |(roundNat num den : ℚ) * den - num| ≤ (num / 2 ^ 52 + den) / 2 := by
    rw [abs_le]; constructor <;> linarith
  calc |(roundNat num den : ℚ) * den - num| / (den * unit)
      ≤ ((num / 2 ^ 52 + den) / 2) / (den * unit) :=
        div_le_div_of_nonneg_right h7 (mul_pos hdq unitQ_pos).le
    _ = (num : ℚ) / den / unit / 2 ^ 53 + 1 / (2 * unit) := by
        have := unitQ_ne; field_simp

/-- A value that is a double is not changed. -/
theorem Rounded.exact {x : ℚ} {a d : F64} (h : Rounded x a) (hd : d.Is x) (hr : d.Rep) : a.Is x := by
  obtain ⟨w, num, den, hden, rfl, hx⟩ := h
  obtain ⟨s, n, rfl, hx'⟩ := hd
  have hdq : (0 : ℚ) < den := by exact_mod_cast hden
  have hu := unitQ_ne
  have hz : (signed w num : ℚ) = signed s n * den := by
    rw [hx', div_div, div_eq_div_iff hu (mul_pos hdq unitQ_pos).ne'] at hx
    have : (signed s n : ℚ) * den * unit = signed w num * unit := by linarith
    exact (mul_right_cancel₀ hu this).symm
  have hnum : num = n * den := by
    have := congrArg abs hz
    rw [abs_signed, abs_mul, abs_signed, abs_of_pos hdq] at this
    exact_mod_cast this
  have hR : roundNat num den = n := by
    have h1 := roundNat_mono (a := num) (b := den) (c := n) (d := 1) hden one_pos (by rw [hnum]; omega)
    have h2 := roundNat_mono (a := n) (b := 1) (c := num) (d := den) one_pos hden (by rw [hnum]; omega)
    rw [roundNat_exact (rep_of (rep_fin.1 hr).2)] at h1 h2
    omega
  refine ⟨w, n, ?_, ?_⟩
  · unfold ofRatio; simp only; rw [hR, if_pos (rep_fin.1 hr).1]
  · rw [hx']
    congr 1
    have h3 : (signed w num : ℚ) = signed w n * den := by rw [hnum]; cases w <;> simp [signed]
    rw [h3] at hz
    exact (mul_right_cancel₀ hdq.ne' hz).symm

/-- A sum of doubles has a relative error only. -/
theorem Rounded.error_sum {x r : ℚ} {a : F64} (h : Rounded x a) (hr : a.Is r) {z : ℤ} (hz : x = z / unit) :
    |r - x| ≤ |x| / 2 ^ 53 := by
  by_cases hs : z.natAbs < 2 ^ 53
  · obtain ⟨w, hw⟩ := exists_sign z
    have hrep : (fin w z.natAbs).Rep := rep_fin.2 ⟨by
      refine lt_trans hs ?_
      rw [limit_eq]; exact Nat.pow_lt_pow_right (by norm_num) (by norm_num), z.natAbs, 0, hs, by simp⟩
    have := h.exact (d := fin w z.natAbs) ⟨w, _, rfl, by rw [hw]; exact hz⟩ hrep
    rw [hr.unique this, sub_self, abs_zero]
    positivity
  · obtain ⟨w, num, den, hd, hx, rfl⟩ := h.is hr
    have hdq : (0 : ℚ) < den := by exact_mod_cast hd
    obtain ⟨h1, h2⟩ := roundNat_error num hd
    have hu := unitQ_ne
    have hzz : (signed w num : ℚ) = z * den := by
      rw [hz, div_div, div_eq_div_iff hu (mul_pos hdq unitQ_pos).ne'] at hx
      have : (z : ℚ) * den * unit = signed w num * unit := by linarith
      exact (mul_right_cancel₀ hu this).symm
    have hnum : num = z.natAbs * den := by
      have := congrArg abs hzz
      rw [abs_signed, abs_mul, abs_of_pos hdq] at this
      have h3 : |(z : ℚ)| = z.natAbs := by rw [Nat.cast_natAbs]; simp
      rw [h3] at this
      exact_mod_cast this
    have hq : num / den = z.natAbs := by rw [hnum, Nat.mul_div_cancel _ hd]
    rw [hq] at h1 h2
    have hk : 0 < shiftOf z.natAbs := by
      unfold shiftOf
      have : 53 ≤ Nat.log2 z.natAbs := by
        rw [Nat.le_log2 (by omega)]; omega
      omega
    have h4 := shift_le hk
    have h5 : (2 : ℚ) ^ 52 * 2 ^ shiftOf z.natAbs ≤ z.natAbs := by rw [← pow_add]; exact_mod_cast h4
    have h1' : 2 * ((roundNat num den : ℚ) * den) ≤ 2 * num + den * 2 ^ shiftOf z.natAbs := by exact_mod_cast h1
    have h2' : 2 * (num : ℚ) ≤ 2 * (roundNat num den * den) + den * 2 ^ shiftOf z.natAbs := by exact_mod_cast h2
    have hnq : (num : ℚ) = z.natAbs * den := by exact_mod_cast hnum
    have h6 : |(roundNat num den : ℚ) - z.natAbs| ≤ z.natAbs / 2 ^ 53 := by
      have hb : (2 : ℚ) ^ shiftOf z.natAbs / 2 ≤ z.natAbs / 2 ^ 53 := by
        rw [div_le_div_iff₀ (by norm_num) (by positivity)]; linarith
      rw [hnq] at h1' h2'
      have h1'' : 2 * (roundNat num den : ℚ) ≤ 2 * z.natAbs + 2 ^ shiftOf z.natAbs := by
        refine le_of_mul_le_mul_right ?_ hdq; linarith
      have h2'' : 2 * (z.natAbs : ℚ) ≤ 2 * roundNat num den + 2 ^ shiftOf z.natAbs := by
        refine le_of_mul_le_mul_right ?_ hdq; linarith
      rw [abs_le]; constructor <;> linarith
    have hw : (z : ℚ) = signed w z.natAbs := by
      have : (signed w num : ℚ) = signed w z.natAbs * den := by rw [hnum]; cases w <;> simp [signed]
      rw [this] at hzz
      exact (mul_right_cancel₀ hdq.ne' hzz).symm
    rw [hz, hw, ← sub_div, abs_div, abs_div, abs_signed]
    have : |(signed w (roundNat num den) : ℚ) - signed w z.natAbs| = |(roundNat num den : ℚ) - z.natAbs| := by
      cases w
      · simp only [signed, Bool.false_eq_true, if_false, Int.cast_natCast]
      · simp only [signed, if_true, Int.cast_neg, Int.cast_natCast]
        rw [← abs_neg]; congr 1; ring
    rw [this, div_right_comm]
    exact div_le_div_of_nonneg_right h6 (abs_nonneg _)

/-- Rounding keeps the order. -/
theorem Rounded.mono {x y p q : ℚ} {a b : F64} (ha : Rounded x a) (hb : Rounded y b) (hp : a.Is p)
    (hq : b.Is q) (h : x ≤ y) : p ≤ q := by
  obtain ⟨w, num, den, hd, rfl, rfl⟩ := ha.is hp
  obtain ⟨v, num', den', hd', rfl, rfl⟩ := hb.is hq
  have hdq : (0 : ℚ) < den := by exact_mod_cast hd
  have hdq' : (0 : ℚ) < den' := by exact_mod_cast hd'
  apply div_le_div_of_nonneg_right _ unitQ_pos.le
  rw [div_le_div_iff_of_pos_right unitQ_pos, div_le_div_iff₀ hdq hdq'] at h
  have h' : signed w num * den' ≤ signed v num' * den := by exact_mod_cast h
  have hgoal : signed w (roundNat num den) ≤ signed v (roundNat num' den') := by
    cases w <;> cases v <;> simp only [signed, Bool.false_eq_true, if_false, if_true] at h' ⊢
    · have : num * den' ≤ num' * den := by exact_mod_cast h'
      exact_mod_cast roundNat_mono hd hd' this
    · have h1 : (0 : ℤ) ≤ num * den' := by positivity
      have h2 : (0 : ℤ) ≤ num' * den := by positivity
      have h3 : ((num * den' : ℕ) : ℤ) = 0 := by push_cast; linarith
      have h4 : ((num' * den : ℕ) : ℤ) = 0 := by push_cast; linarith
      have h5 : num = 0 := by
        have : num * den' = 0 := by exact_mod_cast h3
        rcases Nat.mul_eq_zero.1 this with h | h <;> omega
      have h6 : num' = 0 := by
        have : num' * den = 0 := by exact_mod_cast h4
        rcases Nat.mul_eq_zero.1 this with h | h <;> omega
      subst h5; subst h6
      rw [roundNat_zero, roundNat_zero]; simp
    · have h1 : (0 : ℤ) ≤ roundNat num den := by positivity
      have h2 : (0 : ℤ) ≤ roundNat num' den' := by positivity
      linarith
    · have : num' * den ≤ num * den' := by
        have : (num' : ℤ) * den ≤ num * den' := by linarith
        exact_mod_cast this
      have := roundNat_mono hd' hd this
      have h2 : (roundNat num' den' : ℤ) ≤ roundNat num den := by exact_mod_cast this
      linarith
  exact_mod_cast hgoal

/-- The result is never NaN. -/
theorem Rounded.cases {x : ℚ} {a : F64} (h : Rounded x a) :
    (∃ r, a.Is r) ∨ (0 < x ∧ a = inf false) ∨ (x < 0 ∧ a = inf true) := by
  obtain ⟨w, num, den, hd, rfl, hx⟩ := h
  have hdq : (0 : ℚ) < den := by exact_mod_cast hd
  by_cases hl : roundNat num den < limit
  · left
    refine ⟨(signed w (roundNat num den) : ℚ) / unit, w, roundNat num den, ?_, rfl⟩
    unfold ofRatio; simp only; rw [if_pos hl]
  · right
    have hn : 0 < num := by
      rcases Nat.eq_zero_or_pos num with h0 | h0
      · exfalso; rw [h0, roundNat_zero] at hl; exact hl limit_pos
      · exact h0
    have hnq : (0 : ℚ) < num := by exact_mod_cast hn
    have e : ofRatio w num den = inf w := by unfold ofRatio; simp only; rw [if_neg hl]
    rw [e, hx]
    cases w
    · left; exact ⟨by simp only [signed, Bool.false_eq_true, if_false]; push_cast
                      exact div_pos (div_pos hnq hdq) unitQ_pos, rfl⟩
    · right; refine ⟨?_, rfl⟩
      simp only [signed, if_true]; push_cast
      rw [neg_div, neg_div, neg_lt_zero]
      exact div_pos (div_pos hnq hdq) unitQ_pos

/-- No overflow below a double. -/
theorem Rounded.finite {x y : ℚ} {a d : F64} (h : Rounded x a) (hd : d.Is y) (hr : d.Rep) (hxy : |x| ≤ |y|) :
    a.Finite := by
  obtain ⟨w, num, den, hden, rfl, hx⟩ := h
  obtain ⟨s, n, rfl, hy⟩ := hd
  have hdq : (0 : ℚ) < den := by exact_mod_cast hden
  rw [hx, hy, abs_div, abs_div, abs_div, abs_signed, abs_signed, abs_of_pos hdq, abs_of_pos unitQ_pos,
    div_le_div_iff_of_pos_right unitQ_pos, div_le_iff₀ hdq] at hxy
  have hle : num ≤ n * den := by exact_mod_cast hxy
  have := roundNat_mono (a := num) (b := den) (c := n) (d := 1) hden one_pos (by omega)
  rw [roundNat_exact (rep_of (rep_fin.1 hr).2)] at this
  have hlt := (rep_fin.1 hr).1
  unfold ofRatio; simp only
  rw [if_pos (by omega)]
  exact finite_fin _ _

/-- Whole numbers of smallest doubles. -/
theorem Is.units {a : F64} {p : ℚ} (h : a.Is p) : ∃ z : ℤ, p = z / unit := by
  obtain ⟨s, n, _, rfl⟩ := h
  exact ⟨signed s n, rfl⟩

theorem add_error {a b : F64} {p q r : ℚ} (ha : a.Is p) (hb : b.Is q) (hr : (add a b).Is r) :
    |r - (p + q)| ≤ |p + q| / 2 ^ 53 := by
  obtain ⟨y, hy⟩ := ha.units
  obtain ⟨z, hz⟩ := hb.units
  exact (add_rounded ha hb).error_sum hr (z := y + z) (by rw [hy, hz]; push_cast; ring)

theorem sub_error {a b : F64} {p q r : ℚ} (ha : a.Is p) (hb : b.Is q) (hr : (sub a b).Is r) :
    |r - (p - q)| ≤ |p - q| / 2 ^ 53 := by
  have := add_error ha (neg_is hb) hr
  rw [← sub_eq_add_neg] at this; exact this

/-- Two doubles that are relatively closer than `2^-53` are equal. -/
theorem eq_of_close {a b : F64} {p q : ℚ} (ha : a.Is p) (hb : b.Is q) (ra : a.Rep) (rb : b.Rep)
    (hp : 0 ≤ p) (h : p ≤ q) (h' : q - p < q / 2 ^ 53) : p = q := by
  obtain ⟨s, m, rfl, rfl⟩ := ha
  obtain ⟨t, n, rfl, rfl⟩ := hb
  have hu := unitQ_pos
  rw [div_le_div_iff_of_pos_right hu] at h
  have hs : (signed s m : ℚ) = m := by
    have : (0 : ℚ) ≤ signed s m := by
      by_contra hc; exact absurd hp (not_le.2 (div_neg_of_neg_of_pos (not_le.1 hc) hu))
    rw [← abs_signed s m, abs_of_nonneg this]
  rw [hs] at h h' ⊢
  have ht : (signed t n : ℚ) = n := by
    have : (0 : ℚ) ≤ signed t n := le_trans (by positivity) h
    rw [← abs_signed t n, abs_of_nonneg this]
  rw [ht] at h h' ⊢
  have hmn : m ≤ n := by exact_mod_cast h
  have hlt : (n - m) * 2 ^ 53 < n := by
    rw [← sub_div, div_right_comm, div_lt_div_iff_of_pos_right hu, lt_div_iff₀ (by positivity)] at h'
    have : ((n - m : ℕ) : ℚ) * 2 ^ 53 < n := by rw [Nat.cast_sub hmn]; exact h'
    exact_mod_cast this
  have dm := rep_of (rep_fin.1 ra).2
  have dn := rep_of (rep_fin.1 rb).2
  suffices m = n by rw [this]
  have hn1 := lt_shift n
  rcases Nat.eq_zero_or_pos (shiftOf n) with h0 | h0
  · rw [h0] at hn1; omega
  · have hn2 := shift_le h0
    rw [pow_add] at hn1 hn2
    have hp := Nat.pow_pos (n := shiftOf n) (show 0 < 2 by norm_num)
    by_cases hk : shiftOf n ≤ shiftOf m
    · obtain ⟨i, hi⟩ := (pow_dvd_pow 2 hk).trans dm
      obtain ⟨j, hj⟩ := dn
      generalize 2 ^ shiftOf n = k at *
      have hij : i ≤ j := by
        rw [hi, hj] at hmn
        exact Nat.le_of_mul_le_mul_left hmn hp
      rcases Nat.eq_or_lt_of_le hij with rfl | hl
      · omega
      · exfalso
        have : n - m ≥ k := by
          rw [hi, hj, ← Nat.mul_sub]
          exact Nat.le_mul_of_pos_right _ (by omega)
        omega
    · have hm1 := lt_shift m
      have hkm : shiftOf m + 1 ≤ shiftOf n := by omega
      obtain ⟨c, hc⟩ : ∃ c, shiftOf n = c + 1 := ⟨shiftOf n - 1, by omega⟩
      rw [hc, show 2 ^ (c + 1) = 2 ^ c * 2 from pow_succ 2 c] at hn1 hn2 hp dn
      -- `m` lies below the binade of `n`
      have hm2 : m < 2 ^ 53 * 2 ^ c := by
        refine lt_of_lt_of_le hm1 ?_
        rw [pow_add]
        exact Nat.mul_le_mul_left _ (Nat.pow_le_pow_right (by norm_num) (by omega))
      -- and is a multiple of half of its last place
      have hmc : shiftOf m = c := by
        by_contra hne
        have hlt2 : shiftOf m + 1 ≤ c := by omega
        have : m < 2 ^ 52 * 2 ^ c := by
          refine lt_of_lt_of_le hm1 ?_
          rw [← pow_add]
          exact Nat.pow_le_pow_right (by norm_num) (by omega)
        generalize 2 ^ c = k at *
        omega
      rw [hmc] at dm
      obtain ⟨i, hi⟩ := dm
      obtain ⟨j, hj⟩ := dn
      generalize 2 ^ c = k at *
      have hi2 : i < 2 ^ 53 := by
        rw [hi, mul_comm] at hm2
        exact Nat.lt_of_mul_lt_mul_right hm2
      have hgap : m + k ≤ 2 ^ 53 * k := by
        rw [hi]
        calc k * i + k = k * (i + 1) := by ring
          _ ≤ k * 2 ^ 53 := Nat.mul_le_mul_left _ (by omega)
          _ = 2 ^ 53 * k := by ring
      have hn3 : 2 ^ 53 * k ≤ n := by omega
      omega

end Hmm.F64
