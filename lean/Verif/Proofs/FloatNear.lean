import Verif.Spec.FloatAmounts
import Verif.Proofs.FloatRounding
import Mathlib.Tactic.Linarith
import Mathlib.Tactic.Positivity
import Mathlib.Tactic.FieldSimp
import Mathlib.Tactic.Ring
import Mathlib.Tactic.NormNum
import Mathlib.Algebra.Order.Ring.Pow

/-
Relative errors of products, quotients and differences of doubles.
-/

namespace Hmm.F64

section
attribute [local irreducible] unit limit

/-- One minus half of the last place of 1. -/
def shrink : ℚ := 1 - 1 / 2 ^ 53

theorem shrink_pos : 0 < shrink := by unfold shrink; norm_num

theorem shrink_lt : shrink < 1 := by unfold shrink; norm_num

theorem shrink_pow_pos (k : ℕ) : 0 < shrink ^ k := pow_pos shrink_pos k

theorem shrink_pow_le (k : ℕ) : shrink ^ k ≤ 1 := pow_le_one₀ shrink_pos.le shrink_lt.le

/-- Many roundings lose little. -/
theorem shrink_pow_ge (k : ℕ) : 1 - k / 2 ^ 53 ≤ shrink ^ k := by
  have := one_add_mul_le_pow (a := (-1 / 2 ^ 53 : ℚ)) (by norm_num) k
  unfold shrink
  rw [show (1 : ℚ) - 1 / 2 ^ 53 = 1 + -1 / 2 ^ 53 by ring]
  calc (1 : ℚ) - k / 2 ^ 53 = 1 + k * (-1 / 2 ^ 53) := by ring
    _ ≤ _ := this

theorem shrink_pow_half {k : ℕ} (h : k ≤ 1000) : 1 / 2 ≤ shrink ^ k := by
  have := shrink_pow_ge k
  have hk : (k : ℚ) ≤ 1000 := by exact_mod_cast h
  have : (k : ℚ) / 2 ^ 53 ≤ 1 / 2 := by
    rw [div_le_div_iff₀ (by positivity) (by norm_num)]
    norm_num; linarith
  linarith

/-- A number, not negative, known up to `k` roundings. -/
def Near (k : ℕ) (a : F64) (x : ℚ) : Prop := 0 ≤ x ∧ ∃ r, a.Is r ∧ x * shrink ^ k ≤ r ∧ r * shrink ^ k ≤ x

theorem near_is {a : F64} {x : ℚ} (h : a.Is x) (h0 : 0 ≤ x) : Near 0 a x :=
  ⟨h0, x, h, by simp, by simp⟩

theorem Near.val {k : ℕ} {a : F64} {x : ℚ} (h : Near k a x) :
    ∃ r, a.Is r ∧ 0 ≤ r ∧ x * shrink ^ k ≤ r ∧ r * shrink ^ k ≤ x := by
  obtain ⟨h0, r, hr, h1, h2⟩ := h
  exact ⟨r, hr, le_trans (mul_nonneg h0 (shrink_pow_pos k).le) h1, h1, h2⟩

theorem Near.pos {k : ℕ} {a : F64} {x : ℚ} (h : Near k a x) (hx : 0 < x) :
    ∃ r, a.Is r ∧ 0 < r ∧ x * shrink ^ k ≤ r ∧ r * shrink ^ k ≤ x := by
  obtain ⟨h0, r, hr, h1, h2⟩ := h
  exact ⟨r, hr, lt_of_lt_of_le (mul_pos hx (shrink_pow_pos k)) h1, h1, h2⟩

theorem Near.zero {k : ℕ} {a : F64} (h : Near k a 0) : a.Is 0 := by
  obtain ⟨r, hr, h0, _, h2⟩ := h.val
  have : r = 0 := by
    by_contra hc
    have := mul_pos (lt_of_le_of_ne h0 (Ne.symm hc)) (shrink_pow_pos k)
    linarith
  rw [← this]; exact hr

theorem Near.mono {j k : ℕ} {a : F64} {x : ℚ} (h : Near j a x) (hk : j ≤ k) : Near k a x := by
  obtain ⟨r, hr, hp, h1, h2⟩ := h.val
  have := pow_le_pow_of_le_one shrink_pos.le shrink_lt.le hk
  exact ⟨h.1, r, hr, le_trans (mul_le_mul_of_nonneg_left this h.1) h1,
    le_trans (mul_le_mul_of_nonneg_left this hp) h2⟩

theorem Near.within {k : ℕ} {a : F64} {x : ℚ} (h : Near k a x) (hk : k ≤ 1000) : a.Within x k := by
  obtain ⟨r, hr, hp, h1, h2⟩ := h.val
  refine ⟨r, hr, ?_⟩
  have hx := h.1
  rw [abs_of_nonneg hx]
  have hs := shrink_pow_ge k
  have hh := shrink_pow_half hk
  have hk0 : (0 : ℚ) ≤ k := by positivity
  rw [abs_le]
  constructor
  · have : x * (1 - k / 2 ^ 53) ≤ r := le_trans (mul_le_mul_of_nonneg_left hs hx) h1
    have h3 : x * (k / 2 ^ 53) ≤ x * k / 2 ^ 52 := by
      rw [mul_div_assoc]
      apply mul_le_mul_of_nonneg_left _ hx
      apply div_le_div_of_nonneg_left hk0 (by norm_num) (by norm_num)
    linarith
  · have h4 : r ≤ 2 * x := by nlinarith
    have h5 : r * (1 - k / 2 ^ 53) ≤ x := le_trans (mul_le_mul_of_nonneg_left hs hp) h2
    have h6 : r * (k / 2 ^ 53) ≤ 2 * x * (k / 2 ^ 53) := mul_le_mul_of_nonneg_right h4 (by positivity)
    have h7 : 2 * x * (k / 2 ^ 53) = x * k / 2 ^ 52 := by ring
    linarith

/-! ### Rounding numbers of normal size -/

theorem unit_mul_pow : (unit : ℚ) = 2 ^ 1074 := by
  have := unit_eq
  rw [this]; push_cast; rfl

/-- In the normal range the error is relative. -/
theorem Rounded.rel {x r : ℚ} {a : F64} (h : Rounded x a) (hr : a.Is r) (hx : 1 / 2 ^ 1000 ≤ |x|) :
    |r - x| ≤ |x| / 2 ^ 53 := by
  obtain ⟨w, num, den, hd, rfl, rfl⟩ := h.is hr
  have hdq : (0 : ℚ) < den := by exact_mod_cast hd
  obtain ⟨h1, h2⟩ := roundNat_error num hd
  have e1 : |(signed w (roundNat num den) : ℚ) / unit - (signed w num : ℚ) / den / unit| =
      |(roundNat num den : ℚ) * den - num| / (den * unit) := by
    have : (signed w (roundNat num den) : ℚ) / unit - (signed w num : ℚ) / den / unit =
        ((signed w (roundNat num den) : ℚ) * den - signed w num) / (den * unit) := by
      have := unitQ_ne; field_simp
    rw [this, abs_div, abs_of_pos (mul_pos hdq unitQ_pos)]
    congr 1
    cases w
    · simp [signed]
    · simp only [signed, if_true]; push_cast
      rw [← abs_neg]; congr 1; ring
  rw [abs_div, abs_div, abs_signed, abs_of_pos hdq, abs_of_pos unitQ_pos] at hx
  rw [e1, abs_div, abs_div, abs_signed, abs_of_pos hdq, abs_of_pos unitQ_pos]
  have h1' : 2 * ((roundNat num den : ℚ) * den) ≤ 2 * num + den * 2 ^ shiftOf (num / den) := by exact_mod_cast h1
  have h2' : 2 * (num : ℚ) ≤ 2 * (roundNat num den * den) + den * 2 ^ shiftOf (num / den) := by exact_mod_cast h2
  have h0 : 0 < shiftOf (num / den) := by
    have : 2 ^ 53 * den ≤ num := by
      rw [div_div, le_div_iff₀ (mul_pos hdq unitQ_pos), unit_mul_pow] at hx
      have e : (1 / 2 ^ 1000 : ℚ) * (den * 2 ^ 1074) = 2 ^ 74 * den := by
        rw [show (2 : ℚ) ^ 1074 = 2 ^ 1000 * 2 ^ 74 by rw [← pow_add]]
        field_simp
      rw [e] at hx
      have h3 : (2 : ℚ) ^ 53 * den ≤ num := le_trans (mul_le_mul_of_nonneg_right (by norm_num) hdq.le) hx
      exact_mod_cast h3
    have h4 : 2 ^ 53 ≤ num / den := (Nat.le_div_iff_mul_le hd).2 this
    by_contra hc
    have h5 := lt_shift (num / den)
    rw [Nat.eq_zero_of_not_pos hc] at h5
    omega
  have h6 : (den : ℚ) * 2 ^ shiftOf (num / den) ≤ num / 2 ^ 52 := by
    have := shift_le h0
    have h4 : 2 ^ (52 + shiftOf (num / den)) * den ≤ num := by
      calc _ ≤ num / den * den := Nat.mul_le_mul_right _ this
        _ ≤ num := Nat.div_mul_le_self _ _
    have h5 : (2 : ℚ) ^ (52 + shiftOf (num / den)) * den ≤ num := by exact_mod_cast h4
    rw [pow_add] at h5
    rw [le_div_iff₀ (by positivity)]; linarith
  have h7 : |(roundNat num den : ℚ) * den - num| ≤ num / 2 ^ 52 / 2 := by
    rw [abs_le]; constructor <;> linarith
  calc |(roundNat num den : ℚ) * den - num| / (den * unit)
      ≤ (num / 2 ^ 52 / 2) / (den * unit) :=
        div_le_div_of_nonneg_right h7 (mul_pos hdq unitQ_pos).le
    _ = (num : ℚ) / den / unit / 2 ^ 53 := by
        have := unitQ_ne; field_simp

theorem pow1000 : (fin false (2 ^ 2074)).Is (2 ^ 1000 : ℚ) ∧ (fin false (2 ^ 2074)).Rep := by
  constructor
  · refine ⟨false, _, rfl, ?_⟩
    rw [unit_mul_pow, signed, if_neg (by simp)]
    push_cast
    rw [eq_div_iff (by positivity), ← pow_add]
  · refine rep_fin.2 ⟨?_, 1, 2074, by norm_num, by rw [one_mul]⟩
    rw [limit_eq]; exact Nat.pow_lt_pow_right (by decide) (by decide)

/-- Rounding a number of normal size. -/
theorem Rounded.near {x : ℚ} {a : F64} (h : Rounded x a) (h0 : 1 / 2 ^ 1000 ≤ x) (h1 : x ≤ 2 ^ 1000) : Near 1 a x := by
  have hp : 0 < x := lt_of_lt_of_le (by positivity) h0
  obtain ⟨r, hr⟩ := h.finite pow1000.1 pow1000.2 (by
    rw [abs_of_pos hp, abs_of_pos (by positivity)]; exact h1)
  have he := h.rel hr (by rw [abs_of_pos hp]; exact h0)
  rw [abs_of_pos hp, abs_le] at he
  refine ⟨hp.le, r, hr, ?_, ?_⟩
  · rw [pow_one]; unfold shrink
    have : x * (1 - 1 / 2 ^ 53) = x - x / 2 ^ 53 := by ring
    linarith [he.1]
  · rw [pow_one]
    have h2 : r ≤ x * (1 + 1 / 2 ^ 53) := by
      have : x * (1 + 1 / 2 ^ 53) = x + x / 2 ^ 53 := by ring
      linarith [he.2]
    calc r * shrink ≤ x * (1 + 1 / 2 ^ 53) * shrink := mul_le_mul_of_nonneg_right h2 shrink_pos.le
      _ = x * (1 - 1 / 2 ^ 106) := by unfold shrink; ring
      _ ≤ x := by nlinarith [show (0 : ℚ) < 1 / 2 ^ 106 by positivity]

theorem Rounded.near_zero {a : F64} (h : Rounded 0 a) : Near 1 a 0 :=
  near_is (h.exact zero_is zero_rep) le_rfl |>.mono (by omega)

/-- Rounding once more. -/
theorem Near.again {k : ℕ} {b : F64} {x y : ℚ} (hb : Near 1 b y) (hx : 0 ≤ x) (h1 : x * shrink ^ k ≤ y)
    (h2 : y * shrink ^ k ≤ x) : Near (k + 1) b x := by
  obtain ⟨r, hr, hp, h3, h4⟩ := hb.val
  rw [pow_one] at h3 h4
  refine ⟨hx, r, hr, ?_, ?_⟩
  · calc x * shrink ^ (k + 1) = x * shrink ^ k * shrink := by rw [pow_succ]; ring
      _ ≤ y * shrink := mul_le_mul_of_nonneg_right h1 shrink_pos.le
      _ ≤ r := h3
  · calc r * shrink ^ (k + 1) = r * shrink * shrink ^ k := by rw [pow_succ]; ring
      _ ≤ y * shrink ^ k := mul_le_mul_of_nonneg_right h4 (shrink_pow_pos k).le
      _ ≤ x := h2

theorem Sized.pos {e : ℕ} {q : ℚ} (h : Sized e q) : 0 < q := lt_of_lt_of_le (by positivity) h.1

theorem Sized.mono {d e : ℕ} {q : ℚ} (h : Sized d q) (hde : d ≤ e) : Sized e q :=
  ⟨le_trans (one_div_le_one_div_of_le (by positivity) (pow_le_pow_right₀ (by norm_num) hde)) h.1,
    le_trans h.2 (pow_le_pow_right₀ (by norm_num) hde)⟩

theorem Sized.mul {d e : ℕ} {p q : ℚ} (hp : Sized d p) (hq : Sized e q) : Sized (d + e) (p * q) := by
  constructor
  · rw [pow_add, one_div, mul_inv, ← one_div, ← one_div]
    exact mul_le_mul hp.1 hq.1 (by positivity) hp.pos.le
  · rw [pow_add]
    exact mul_le_mul hp.2 hq.2 hq.pos.le (by positivity)

theorem Sized.inv {e : ℕ} {q : ℚ} (h : Sized e q) : Sized e (1 / q) := by
  constructor
  · exact one_div_le_one_div_of_le h.pos h.2
  · rw [div_le_iff₀ h.pos]
    have := h.1
    rw [div_le_iff₀ (by positivity)] at this
    linarith

theorem Sized.div {d e : ℕ} {p q : ℚ} (hp : Sized d p) (hq : Sized e q) : Sized (d + e) (p / q) := by
  rw [div_eq_mul_one_div]; exact hp.mul hq.inv

/-- A number within a factor of two of one of moderate size is in the normal range. -/
theorem Sized.normal {e k : ℕ} {x y : ℚ} (h : Sized e x) (he : e ≤ 999) (hk : k ≤ 1000) (h1 : x * shrink ^ k ≤ y)
    (h2 : y * shrink ^ k ≤ x) (hy : 0 < y) : 1 / 2 ^ 1000 ≤ y ∧ y ≤ 2 ^ 1000 := by
  have hh := shrink_pow_half hk
  have hx := h.mono he
  have hx0 := h.pos
  constructor
  · have : x * (1 / 2) ≤ y := le_trans (mul_le_mul_of_nonneg_left hh hx0.le) h1
    calc (1 : ℚ) / 2 ^ 1000 = 1 / 2 ^ 999 * (1 / 2) := by rw [pow_succ]; field_simp
      _ ≤ x * (1 / 2) := mul_le_mul_of_nonneg_right hx.1 (by norm_num)
      _ ≤ y := this
  · have : y * (1 / 2) ≤ x := le_trans (mul_le_mul_of_nonneg_left hh hy.le) h2
    calc y ≤ 2 * x := by linarith
      _ ≤ 2 * 2 ^ 999 := by linarith [hx.2]
      _ = 2 ^ 1000 := (pow_succ' 2 999).symm

/-- Rounding a number close to one that is zero or of moderate size. -/
theorem Near.round {k e : ℕ} {b : F64} {x y : ℚ} (hb : Rounded y b) (hx : x = 0 ∨ Sized e x) (he : e ≤ 999)
    (hk : k ≤ 1000) (hy : 0 ≤ y) (h1 : x * shrink ^ k ≤ y) (h2 : y * shrink ^ k ≤ x) : Near (k + 1) b x := by
  rcases hx with rfl | hs
  · have : y = 0 := by
      by_contra hc
      have := mul_pos (lt_of_le_of_ne hy (Ne.symm hc)) (shrink_pow_pos k)
      linarith
    rw [this] at hb
    exact (Rounded.near_zero hb).mono (by omega)
  · have hy0 : 0 < y := lt_of_lt_of_le (mul_pos hs.pos (shrink_pow_pos k)) h1
    obtain ⟨n1, n2⟩ := hs.normal he hk h1 h2 hy0
    exact Near.again (hb.near n1 n2) hs.pos.le h1 h2

theorem Near.mul {j k e : ℕ} {a b : F64} {x y : ℚ} (ha : Near j a x) (hb : Near k b y)
    (hs : x * y = 0 ∨ Sized e (x * y)) (he : e ≤ 999) (hjk : j + k ≤ 1000) : Near (j + k + 1) (mul a b) (x * y) := by
  obtain ⟨r, hr, hr0, h1, h2⟩ := ha.val
  obtain ⟨s, hs', hs0, h3, h4⟩ := hb.val
  refine Near.round (mul_rounded hr hs') hs he hjk (mul_nonneg hr0 hs0) ?_ ?_
  · rw [pow_add]
    calc x * y * (shrink ^ j * shrink ^ k) = (x * shrink ^ j) * (y * shrink ^ k) := by ring
      _ ≤ r * s := mul_le_mul h1 h3 (mul_nonneg hb.1 (shrink_pow_pos k).le) hr0
  · rw [pow_add]
    calc r * s * (shrink ^ j * shrink ^ k) = (r * shrink ^ j) * (s * shrink ^ k) := by ring
      _ ≤ x * y := mul_le_mul h2 h4 (mul_nonneg hs0 (shrink_pow_pos k).le) ha.1

theorem Near.div {j k e : ℕ} {a b : F64} {x y : ℚ} (ha : Near j a x) (hb : Near k b y) (hy : 0 < y)
    (hs : x / y = 0 ∨ Sized e (x / y)) (he : e ≤ 999) (hjk : j + k ≤ 1000) : Near (j + k + 1) (div a b) (x / y) := by
  obtain ⟨r, hr, hr0, h1, h2⟩ := ha.val
  obtain ⟨s, hs', hs0, h3, h4⟩ := hb.pos hy
  refine Near.round (div_rounded hr hs' hs0.ne') hs he hjk (div_nonneg hr0 hs0.le) ?_ ?_
  · rw [pow_add, le_div_iff₀ hs0]
    calc x / y * (shrink ^ j * shrink ^ k) * s = (x * shrink ^ j) * (s * shrink ^ k) / y := by ring
      _ ≤ r * y / y := div_le_div_of_nonneg_right
          (mul_le_mul h1 h4 (mul_nonneg hs0.le (shrink_pow_pos k).le) hr0) hy.le
      _ = r := by field_simp
  · rw [pow_add, le_div_iff₀ hy]
    calc r / s * (shrink ^ j * shrink ^ k) * y = (r * shrink ^ j) * (y * shrink ^ k) / s := by ring
      _ ≤ x * s / s := div_le_div_of_nonneg_right
          (mul_le_mul h2 h3 (mul_nonneg hy.le (shrink_pow_pos k).le) ha.1) hs0.le
      _ = x := by field_simp

theorem Near.add {j e : ℕ} {a b : F64} {x y : ℚ} (ha : Near j a x) (hb : Near j b y)
    (hs : x + y = 0 ∨ Sized e (x + y)) (he : e ≤ 999) (hj : j ≤ 1000) : Near (j + 1) (add a b) (x + y) := by
  obtain ⟨r, hr, hr0, h1, h2⟩ := ha.val
  obtain ⟨s, hs', hs0, h3, h4⟩ := hb.val
  exact Near.round (add_rounded hr hs') hs he hj (add_nonneg hr0 hs0) (by linarith) (by linarith)

/-- Doubles that are not tiny are multiples of a not so tiny number. -/
theorem Is.grid {a : F64} {q : ℚ} (h : a.Is q) (hr : a.Rep) {e : ℕ} (he : 1 / 2 ^ e ≤ |q|) (hle : e ≤ 1000) :
    ∃ z : ℤ, q = z / 2 ^ (e + 53) := by
  obtain ⟨s, n, rfl, rfl⟩ := h
  obtain ⟨_, m, i, hm, rfl⟩ := rep_fin.1 hr
  rw [abs_div, abs_signed, abs_of_pos unitQ_pos, le_div_iff₀ unitQ_pos, unit_mul_pow] at he
  have h1 : (2 : ℚ) ^ (1074 - e) ≤ (m * 2 ^ i : ℕ) := by
    refine le_trans (le_of_eq ?_) he
    rw [one_div, inv_mul_eq_div, eq_div_iff (by positivity), ← pow_add]
    congr 1; omega
  have h2 : 2 ^ (1074 - e) ≤ m * 2 ^ i := by exact_mod_cast h1
  have h3 : 1074 - e < 53 + i := by
    by_contra hc
    have : m * 2 ^ i < 2 ^ (1074 - e) := by
      calc m * 2 ^ i < 2 ^ 53 * 2 ^ i := Nat.mul_lt_mul_of_pos_right hm (Nat.pow_pos (by norm_num))
        _ = 2 ^ (53 + i) := (pow_add 2 53 i).symm
        _ ≤ _ := Nat.pow_le_pow_right (by norm_num) (by omega)
    omega
  obtain ⟨j, hj⟩ : ∃ j, i + (e + 53) = 1074 + j := ⟨i + (e + 53) - 1074, by omega⟩
  refine ⟨signed s (m * 2 ^ j), ?_⟩
  rw [unit_mul_pow, div_eq_div_iff (by positivity) (by positivity)]
  have e0 : (m : ℚ) * 2 ^ i * 2 ^ (e + 53) = m * 2 ^ j * 2 ^ 1074 := by
    rw [mul_assoc, mul_assoc, ← pow_add, ← pow_add, hj, Nat.add_comm 1074 j]
  cases s
  · simp only [signed, Bool.false_eq_true, if_false]; push_cast; exact e0
  · simp only [signed, if_true]; push_cast; rw [neg_mul, neg_mul, e0]

/-- Differences of doubles of moderate size are of moderate size. -/
theorem sized_sub {a b : F64} {p q : ℚ} {e : ℕ} (ha : a.Is p) (hb : b.Is q) (ra : a.Rep) (rb : b.Rep) (hp : Sized e p)
    (hq : Sized e q) (hle : e ≤ 900) (h : q < p) : Sized (e + 53) (p - q) := by
  obtain ⟨y, rfl⟩ := ha.grid ra (e := e) (by rw [abs_of_pos hp.pos]; exact hp.1) (by omega)
  obtain ⟨z, rfl⟩ := hb.grid rb (e := e) (by rw [abs_of_pos hq.pos]; exact hq.1) (by omega)
  constructor
  · rw [← sub_div]
    apply div_le_div_of_nonneg_right _ (by positivity)
    have : z < y := by
      have := (div_lt_div_iff_of_pos_right (show (0 : ℚ) < 2 ^ (e + 53) by positivity)).1 h
      exact_mod_cast this
    have h2 : (1 : ℤ) ≤ y - z := by omega
    exact_mod_cast h2
  · have := hq.pos
    have h1 := hp.2
    have h2 : (2 : ℚ) ^ e ≤ 2 ^ (e + 53) := pow_le_pow_right₀ (by norm_num) (by omega)
    linarith

/-- Differences of doubles are rounded once. -/
theorem near_sub {a b : F64} {p q : ℚ} {e : ℕ} (ha : a.Is p) (hb : b.Is q) (ra : a.Rep) (rb : b.Rep) (hp : Sized e p)
    (hq : Sized e q) (hle : e ≤ 900) (h : q < p) : Near 1 (sub a b) (p - q) := by
  have hs := sized_sub ha hb ra rb hp hq hle h
  have := hs.mono (show e + 53 ≤ 1000 by omega)
  exact (sub_rounded ha hb).near this.1 this.2

end

end Hmm.F64
