import Verif.Proofs.PoolMathBasic

/-
Properties of the pool formulas: C27 - C33.

`Amount s d` says that `d` is a non-negative number at scale `s`; all functions below panic or are not
used when the scales differ.
-/

namespace Hmm

open Decimal PoolMath

variable {s : Nat}

/-! ### C27 A deposit never needs more Y than offered -/

/-- C27 -/
theorem C27_y_needed {x y rp rpa rpb l y' : Decimal} (hx : x.Amount s) (hy : y.Amount s)
    (hp : rp.Amount s) (ha : rpa.Amount s) (hb : rpb.Amount s)
    (hl : liqFromXYRpRng x y rp rpa rpb = .ok l) (h : yFromLRpRng l rp rpa rpb = .ok y') :
    0 ≤ y'.toRat ∧ y'.toRat ≤ y.toRat := by
  obtain ⟨x, rfl⟩ := hx.eq
  obtain ⟨y, rfl⟩ := hy.eq
  obtain ⟨p, rfl⟩ := hp.eq
  obtain ⟨a, rfl⟩ := ha.eq
  obtain ⟨b, rfl⟩ := hb.eq
  have hD := pow10_pos s
  have key : ∃ l0, l = ⟨l0, s, false⟩ ∧ l0 * (max (min p b) a - a) ≤ y * 10 ^ s := by
    rcases liqFrom_nn hl with ⟨h1, h2, rfl⟩ | ⟨h1, h2, rfl⟩ | ⟨h1, h2, h3, rfl⟩
    · refine ⟨_, rfl, ?_⟩
      have : max (min p b) a - a = 0 := by omega
      rw [this]; simp
    · refine ⟨_, rfl, ?_⟩
      have : max (min p b) a - a = p - a := by omega
      rw [this]
      calc _ ≤ y * 10 ^ s / (p - a) * (p - a) := Nat.mul_le_mul_right _ (min_le_right _ _)
        _ ≤ _ := Nat.div_mul_le_self _ _
    · refine ⟨_, rfl, ?_⟩
      have : max (min p b) a - a = b - a := by omega
      rw [this]
      exact Nat.div_mul_le_self _ _
  obtain ⟨l0, rfl, hle⟩ := key
  have := yFrom_nn h
  subst this
  refine ⟨by rw [toRat_mk]; positivity, toRat_le_mk.2 ?_⟩
  rw [Nat.div_le_iff_le_mul hD]
  omega

/-- C27: the amount is always computed, it does not panic. -/
theorem C27_returns {x y rp rpa rpb l : Decimal} (hx : x.Amount s) (hy : y.Amount s)
    (hp : rp.Amount s) (ha : rpa.Amount s) (hb : rpb.Amount s)
    (hl : liqFromXYRpRng x y rp rpa rpb = .ok l) : ∃ y', yFromLRpRng l rp rpa rpb = .ok y' := by
  obtain ⟨l0, h1, h2⟩ := y_fits hx hy hp ha hb hl
  obtain ⟨p, rfl⟩ := hp.eq
  obtain ⟨a, rfl⟩ := ha.eq
  obtain ⟨b, rfl⟩ := hb.eq
  subst h1
  exact yFrom_returns h2

-- price at tick 76012, range [73136, 78245], 2 X and 4000 Y offered: 3999.999999999999 Y needed
example : (do
    let p ← tickToRp 76012
    let a ← tickToRp 73136
    let b ← tickToRp 78245
    let l ← liqFromXYRpRng ⟨2000000000000, 12, false⟩ ⟨4000000000000000, 12, false⟩ p a b
    yFromLRpRng l p a b) = .ok ⟨3999999999999999, 12, false⟩ := by decide +kernel

/-! ### C28 A deposit never needs more X than offered: false -/

/-- C28 is false of the code: offering 10 X at tick 1 in the range of ticks 0 to 10 yields a liquidity
that needs 10.000000000001 X.  The divisor `rp * rpb` is rounded down, which rounds the amount up. -/
theorem C28_false : ¬ ∀ x y rp rpa rpb l x' : Decimal, x.Amount 12 → y.Amount 12 → rp.Amount 12 →
    rpa.Amount 12 → rpb.Amount 12 → liqFromXYRpRng x y rp rpa rpb = .ok l →
    xFromLRpRng l rp rpa rpb = .ok x' → x'.toRat ≤ x.toRat := by
  intro h
  have := h ⟨10000000000000, 12, false⟩ ⟨10000000000000000000, 12, false⟩ ⟨1000049998750, 12, false⟩
    ⟨1000000000000, 12, false⟩ ⟨1000500100001, 12, false⟩ ⟨22229445519921472, 12, false⟩
    ⟨10000000000001, 12, false⟩ ⟨rfl, rfl⟩ ⟨rfl, rfl⟩ ⟨rfl, rfl⟩ ⟨rfl, rfl⟩ ⟨rfl, rfl⟩
    (by decide +kernel) (by decide +kernel)
  rw [toRat_le_mk] at this
  omega

/-- C28, the part that holds: the X needed exceeds the offer at most by the factor by which the
product of the (clamped) price and the upper bound is rounded; never more than offered when that
product is exact or when the offer is at most the product.  Missing: the exact inequality
(`C28_false`). -/
theorem C28_x_needed_partial {x y rp rpa rpb l x' : Decimal} (hx : x.Amount s) (hy : y.Amount s)
    (hp : rp.Amount s) (ha : rpa.Amount s) (hb : rpb.Amount s)
    (hl : liqFromXYRpRng x y rp rpa rpb = .ok l) (h : xFromLRpRng l rp rpa rpb = .ok x') :
    0 ≤ x'.toRat ∧
    ∃ q : ℚ, q = max rp.toRat rpa.toRat * rpb.toRat ∧
      x'.toRat * floorAt s q ≤ x.toRat * q ∧
      (floorAt s q = q ∨ x.toRat ≤ floorAt s q → x'.toRat ≤ x.toRat) := by
  obtain ⟨x, rfl⟩ := hx.eq
  obtain ⟨y, rfl⟩ := hy.eq
  obtain ⟨p, rfl⟩ := hp.eq
  obtain ⟨a, rfl⟩ := ha.eq
  obtain ⟨b, rfl⟩ := hb.eq
  have hD := pow10_pos s
  have hDq : (0 : ℚ) < 10 ^ s := pow10Q_pos s
  obtain ⟨c0, rfl, hle⟩ := x_needed hl h
  refine ⟨by rw [toRat_mk]; positivity, _, rfl, ?_⟩
  -- `q` in natural numbers
  have hmax : max (Decimal.mk p s false).toRat (Decimal.mk a s false).toRat = ((max p a : ℕ) : ℚ) / 10 ^ s := by
    rw [toRat_mk, toRat_mk]
    rcases le_total p a with hpa | hpa
    · rw [max_eq_right hpa, max_eq_right]
      apply div_le_div_of_nonneg_right _ hDq.le
      exact_mod_cast hpa
    · rw [max_eq_left hpa, max_eq_left]
      apply div_le_div_of_nonneg_right _ hDq.le
      exact_mod_cast hpa
  have hq : max (Decimal.mk p s false).toRat (Decimal.mk a s false).toRat * (Decimal.mk b s false).toRat =
      ((max p a * b : ℕ) : ℚ) / 10 ^ s / 10 ^ s := by
    rw [hmax, toRat_mk]; push_cast; field_simp
  rw [hq]
  have hfl : floorAt s (((max p a * b : ℕ) : ℚ) / 10 ^ s / 10 ^ s) = ((max p a * b / 10 ^ s : ℕ) : ℚ) / 10 ^ s := by
    have := floorAt_of (s := s) (n := max p a * b) (m := 10 ^ s) (q := ((max p a * b : ℕ) : ℚ) / 10 ^ s / 10 ^ s)
      (by push_cast; field_simp)
    exact this
  rw [hfl, toRat_mk, toRat_mk]
  rcases hle with h0 | ⟨h1, h2⟩
  · subst h0
    refine ⟨by simp; positivity, fun _ => by simp; positivity⟩
  generalize hm : max p a = m at *
  have h2q : (c0 : ℚ) * ((m * b / 10 ^ s : ℕ) : ℚ) * 10 ^ s ≤ (x : ℚ) * ((m * b : ℕ) : ℚ) := by
    exact_mod_cast h2
  refine ⟨?_, ?_⟩
  · rw [div_mul_div_comm, div_div, div_mul_div_comm, div_le_div_iff₀ (by positivity) (by positivity)]
    have : (0 : ℚ) < 10 ^ s * 10 ^ s := by positivity
    nlinarith
  · intro hc
    apply div_le_div_of_nonneg_right _ hDq.le
    have hpos : (0 : ℚ) < ((m * b / 10 ^ s : ℕ) : ℚ) := by exact_mod_cast h1
    rcases hc with hc | hc
    · rw [div_left_inj' hDq.ne'] at hc
      rw [eq_div_iff hDq.ne'] at hc
      rw [← hc] at h2q
      have h3 : (0 : ℚ) < ((m * b / 10 ^ s : ℕ) : ℚ) * 10 ^ s := by positivity
      nlinarith
    · rw [div_le_div_iff_of_pos_right hDq] at hc
      have hc' : x ≤ m * b / 10 ^ s := by exact_mod_cast hc
      have h4 : m * b < (m * b / 10 ^ s + 1) * 10 ^ s := by
        have := Nat.lt_div_mul_add (a := m * b) hD
        rw [Nat.add_mul, one_mul]; omega
      have h5 : c0 ≤ x := by
        by_contra hlt
        generalize m * b / 10 ^ s = f at *
        have h6 : (x + 1) * f ≤ c0 * f := Nat.mul_le_mul_right _ (by omega)
        have h7 : x * (m * b) ≤ x * ((f + 1) * 10 ^ s) := Nat.mul_le_mul_left _ h4.le
        have h8 : (x + 1) * f * 10 ^ s ≤ c0 * f * 10 ^ s := Nat.mul_le_mul_right _ h6
        by_cases hx0 : x = 0
        · subst hx0
          have : 0 < c0 * f * 10 ^ s := Nat.mul_pos (Nat.mul_pos (by omega) h1) hD
          omega
        · have h9 : x * (m * b) < x * ((f + 1) * 10 ^ s) :=
            Nat.mul_lt_mul_of_pos_left h4 (Nat.pos_of_ne_zero hx0)
          have h10 : (x + 1) * f * 10 ^ s < x * (f + 1) * 10 ^ s := by
            calc _ ≤ c0 * f * 10 ^ s := h8
              _ ≤ x * (m * b) := h2
              _ < x * ((f + 1) * 10 ^ s) := h9
              _ = x * (f + 1) * 10 ^ s := by ring
          have h11 := Nat.lt_of_mul_lt_mul_right h10
          have h12 : (x + 1) * f = x * f + f := by ring
          have h13 : x * (f + 1) = x * f + x := by ring
          omega
      exact_mod_cast h5

-- the same deposit as for C27 needs 1.57760436372 X
example : (do
    let p ← tickToRp 76012
    let a ← tickToRp 73136
    let b ← tickToRp 78245
    let l ← liqFromXYRpRng ⟨2000000000000, 12, false⟩ ⟨4000000000000000, 12, false⟩ p a b
    xFromLRpRng l p a b) = .ok ⟨1577604363720, 12, false⟩ := by decide +kernel

/-! ### C29 Position amounts are monotone and superadditive in liquidity -/

/-- C29, X, monotone. -/
theorem C29_x_mono {l l' rp rpa rpb x x' : Decimal} (h1 : l.Amount s) (h2 : l'.Amount s)
    (hp : rp.Amount s) (ha : rpa.Amount s) (hb : rpb.Amount s) (hab : rpa.toRat ≤ rpb.toRat)
    (hle : l.toRat ≤ l'.toRat) (h : xFromLRpRng l rp rpa rpb = .ok x)
    (h' : xFromLRpRng l' rp rpa rpb = .ok x') : 0 ≤ x.toRat ∧ x.toRat ≤ x'.toRat := by
  obtain ⟨l, rfl⟩ := h1.eq
  obtain ⟨l', rfl⟩ := h2.eq
  obtain ⟨p, rfl⟩ := hp.eq
  obtain ⟨a, rfl⟩ := ha.eq
  obtain ⟨b, rfl⟩ := hb.eq
  rw [toRat_le_mk] at hle hab
  rcases xFrom_nn h with ⟨_, _, _, ⟨g1, g2, rfl⟩ | ⟨g1, _⟩⟩
  · rcases xFrom_nn h' with ⟨_, _, _, ⟨_, _, rfl⟩ | ⟨g1, _⟩⟩
    · refine ⟨by rw [toRat_mk]; positivity, toRat_le_mk.2 ?_⟩
      exact Nat.div_le_div_right (Nat.mul_le_mul_right _ (Nat.div_le_div_right (Nat.mul_le_mul_right _ hle)))
    · omega
  · omega

/-- C29, Y, monotone. -/
theorem C29_y_mono {l l' rp rpa rpb y y' : Decimal} (h1 : l.Amount s) (h2 : l'.Amount s)
    (hp : rp.Amount s) (ha : rpa.Amount s) (hb : rpb.Amount s)
    (hle : l.toRat ≤ l'.toRat) (h : yFromLRpRng l rp rpa rpb = .ok y)
    (h' : yFromLRpRng l' rp rpa rpb = .ok y') : 0 ≤ y.toRat ∧ y.toRat ≤ y'.toRat := by
  obtain ⟨l, rfl⟩ := h1.eq
  obtain ⟨l', rfl⟩ := h2.eq
  obtain ⟨p, rfl⟩ := hp.eq
  obtain ⟨a, rfl⟩ := ha.eq
  obtain ⟨b, rfl⟩ := hb.eq
  rw [toRat_le_mk] at hle
  have e1 := yFrom_nn h
  have e2 := yFrom_nn h'
  subst e1 e2
  refine ⟨by rw [toRat_mk]; positivity, toRat_le_mk.2 ?_⟩
  exact Nat.div_le_div_right (Nat.mul_le_mul_right _ hle)

/-- C29, X: the amounts of two parts never sum to more than the amount of the whole. -/
theorem C29_x_super {l1 l2 l rp rpa rpb x1 x2 x : Decimal} (h1 : l1.Amount s) (h2 : l2.Amount s)
    (hp : rp.Amount s) (ha : rpa.Amount s) (hb : rpb.Amount s) (hab : rpa.toRat ≤ rpb.toRat)
    (hsum : l1.add l2 = .ok l) (g1 : xFromLRpRng l1 rp rpa rpb = .ok x1)
    (g2 : xFromLRpRng l2 rp rpa rpb = .ok x2) (g : xFromLRpRng l rp rpa rpb = .ok x) :
    x1.toRat + x2.toRat ≤ x.toRat := by
  obtain ⟨l1, rfl⟩ := h1.eq
  obtain ⟨l2, rfl⟩ := h2.eq
  obtain ⟨p, rfl⟩ := hp.eq
  obtain ⟨a, rfl⟩ := ha.eq
  obtain ⟨b, rfl⟩ := hb.eq
  have := add_nn hsum
  subst this
  rw [toRat_le_mk] at hab
  rcases xFrom_nn g1 with ⟨_, _, _, ⟨_, _, rfl⟩ | ⟨g1, _⟩⟩
  · rcases xFrom_nn g2 with ⟨_, _, _, ⟨_, _, rfl⟩ | ⟨g1, _⟩⟩
    · rcases xFrom_nn g with ⟨_, _, _, ⟨_, _, rfl⟩ | ⟨g1, _⟩⟩
      · rw [toRat_mk, toRat_mk, toRat_mk, ← add_div]
        apply div_le_div_of_nonneg_right _ (pow10Q_pos s).le
        have : ∀ u v w d : ℕ, u + v ≤ w → u / d + v / d ≤ w / d := fun u v w d h =>
          (Nat.div_add_div_le_add_div).trans (Nat.div_le_div_right h)
        exact_mod_cast this _ _ _ _ (by
          rw [← Nat.add_mul]
          exact Nat.mul_le_mul_right _ (this _ _ _ _ (by rw [Nat.add_mul])))
      · omega
    · omega
  · omega

/-- C29, Y: the amounts of two parts never sum to more than the amount of the whole. -/
theorem C29_y_super {l1 l2 l rp rpa rpb y1 y2 y : Decimal} (h1 : l1.Amount s) (h2 : l2.Amount s)
    (hp : rp.Amount s) (ha : rpa.Amount s) (hb : rpb.Amount s)
    (hsum : l1.add l2 = .ok l) (g1 : yFromLRpRng l1 rp rpa rpb = .ok y1)
    (g2 : yFromLRpRng l2 rp rpa rpb = .ok y2) (g : yFromLRpRng l rp rpa rpb = .ok y) :
    y1.toRat + y2.toRat ≤ y.toRat := by
  obtain ⟨l1, rfl⟩ := h1.eq
  obtain ⟨l2, rfl⟩ := h2.eq
  obtain ⟨p, rfl⟩ := hp.eq
  obtain ⟨a, rfl⟩ := ha.eq
  obtain ⟨b, rfl⟩ := hb.eq
  have := add_nn hsum
  subst this
  have e1 := yFrom_nn g1
  have e2 := yFrom_nn g2
  have e3 := yFrom_nn g
  subst e1 e2 e3
  rw [toRat_mk, toRat_mk, toRat_mk, ← add_div]
  apply div_le_div_of_nonneg_right _ (pow10Q_pos s).le
  have : ∀ u v w d : ℕ, u + v ≤ w → u / d + v / d ≤ w / d := fun u v w d h =>
    (Nat.div_add_div_le_add_div).trans (Nat.div_le_div_right h)
  exact_mod_cast this _ _ _ _ (by rw [Nat.add_mul])

-- liquidities 1.7, 2.9 and 4.6 at price 1.5 in the range 1.1 to 1.9, scale 1: X 0.2, 0.3, 0.6
example : xFromLRpRng ⟨17, 1, false⟩ ⟨15, 1, false⟩ ⟨11, 1, false⟩ ⟨19, 1, false⟩ = .ok ⟨2, 1, false⟩ ∧
    xFromLRpRng ⟨29, 1, false⟩ ⟨15, 1, false⟩ ⟨11, 1, false⟩ ⟨19, 1, false⟩ = .ok ⟨3, 1, false⟩ ∧
    xFromLRpRng ⟨46, 1, false⟩ ⟨15, 1, false⟩ ⟨11, 1, false⟩ ⟨19, 1, false⟩ = .ok ⟨6, 1, false⟩ ∧
    yFromLRpRng ⟨17, 1, false⟩ ⟨15, 1, false⟩ ⟨11, 1, false⟩ ⟨19, 1, false⟩ = .ok ⟨6, 1, false⟩ ∧
    yFromLRpRng ⟨29, 1, false⟩ ⟨15, 1, false⟩ ⟨11, 1, false⟩ ⟨19, 1, false⟩ = .ok ⟨11, 1, false⟩ ∧
    yFromLRpRng ⟨46, 1, false⟩ ⟨15, 1, false⟩ ⟨11, 1, false⟩ ⟨19, 1, false⟩ = .ok ⟨18, 1, false⟩ := by
  decide +kernel

/-! ### C30 Single-sided outside the range -/

/-- C30: at or above the upper bound no X. -/
theorem C30_above {l rp rpa rpb x : Decimal} (hl : l.Amount s) (hp : rp.Amount s) (ha : rpa.Amount s)
    (hb : rpb.Amount s) (hab : rpa.toRat ≤ rpb.toRat) (h : rpb.toRat ≤ rp.toRat)
    (hx : xFromLRpRng l rp rpa rpb = .ok x) : x.toRat = 0 := by
  obtain ⟨l, rfl⟩ := hl.eq
  obtain ⟨p, rfl⟩ := hp.eq
  obtain ⟨a, rfl⟩ := ha.eq
  obtain ⟨b, rfl⟩ := hb.eq
  rw [toRat_le_mk] at hab h
  rcases xFrom_nn hx with ⟨_, _, _, ⟨_, _, rfl⟩ | ⟨g1, _⟩⟩
  · apply toRat_zero
    have : b - max (min p b) a = 0 := by omega
    simp [this]
  · omega

/-- C30: at or below the lower bound no Y. -/
theorem C30_below {l rp rpa rpb y : Decimal} (hl : l.Amount s) (hp : rp.Amount s) (ha : rpa.Amount s)
    (hb : rpb.Amount s) (h : rp.toRat ≤ rpa.toRat)
    (hy : yFromLRpRng l rp rpa rpb = .ok y) : y.toRat = 0 := by
  obtain ⟨l, rfl⟩ := hl.eq
  obtain ⟨p, rfl⟩ := hp.eq
  obtain ⟨a, rfl⟩ := ha.eq
  obtain ⟨b, rfl⟩ := hb.eq
  rw [toRat_le_mk] at h
  have e := yFrom_nn hy
  subst e
  apply toRat_zero
  have : max (min p b) a - a = 0 := by omega
  simp [this]

/-- C30: inside the range both amounts are what the formulas `l (1/p - 1/b)` and `l (p - a)` say, up to
rounding: Y is the exact amount rounded down. -/
theorem C30_y_inside {l rp rpa rpb y : Decimal} (hl : l.Amount s) (hp : rp.Amount s) (ha : rpa.Amount s)
    (hb : rpb.Amount s) (h1 : rpa.toRat ≤ rp.toRat) (h2 : rp.toRat ≤ rpb.toRat)
    (hy : yFromLRpRng l rp rpa rpb = .ok y) :
    y.toRat = floorAt s (l.toRat * (rp.toRat - rpa.toRat)) := by
  obtain ⟨l, rfl⟩ := hl.eq
  obtain ⟨p, rfl⟩ := hp.eq
  obtain ⟨a, rfl⟩ := ha.eq
  obtain ⟨b, rfl⟩ := hb.eq
  rw [toRat_le_mk] at h1 h2
  have e := yFrom_nn hy
  subst e
  have : max (min p b) a - a = p - a := by omega
  rw [this, toRat_mk, toRat_mk, toRat_mk, toRat_mk, floorAt_of (n := l * (p - a)) (m := 10 ^ s)]
  push_cast [Nat.cast_sub h1]
  have := pow10Q_pos s
  field_simp

example : xFromLRpRng ⟨17, 1, false⟩ ⟨25, 1, false⟩ ⟨11, 1, false⟩ ⟨19, 1, false⟩ = .ok ⟨0, 1, false⟩ ∧
    yFromLRpRng ⟨17, 1, false⟩ ⟨25, 1, false⟩ ⟨11, 1, false⟩ ⟨19, 1, false⟩ = .ok ⟨13, 1, false⟩ ∧
    yFromLRpRng ⟨17, 1, false⟩ ⟨10, 1, false⟩ ⟨11, 1, false⟩ ⟨19, 1, false⟩ = .ok ⟨0, 1, false⟩ ∧
    xFromLRpRng ⟨17, 1, false⟩ ⟨10, 1, false⟩ ⟨11, 1, false⟩ ⟨19, 1, false⟩ = .ok ⟨6, 1, false⟩ := by
  decide +kernel

/-! ### C31 Price step directions -/

/-- C31: adding X never raises the price. -/
theorem C31_dx {l rp dx rp' : Decimal} (hl : l.Amount s) (hp : rp.Amount s) (hd : dx.Amount s)
    (h : rpNewFromLDx l rp dx = .ok rp') : 0 ≤ rp'.toRat ∧ rp'.toRat ≤ rp.toRat := by
  obtain ⟨l, rfl⟩ := hl.eq
  obtain ⟨p, rfl⟩ := hp.eq
  obtain ⟨d, rfl⟩ := hd.eq
  obtain ⟨h0, rfl⟩ := rpDx_nn h
  refine ⟨by rw [toRat_mk]; positivity, toRat_le_mk.2 ?_⟩
  apply Nat.div_le_of_le_mul
  calc l * p / 10 ^ s * 10 ^ s ≤ l * p := Nat.div_mul_le_self _ _
    _ ≤ (d * p / 10 ^ s + l) * p := Nat.mul_le_mul_right _ (Nat.le_add_left _ _)

/-- C31: adding Y never lowers the price. -/
theorem C31_dy {l rp dy rp' : Decimal} (hl : l.Amount s) (hp : rp.Amount s) (hd : dy.Amount s)
    (h : rpNewFromLDy l rp dy = .ok rp') : rp.toRat ≤ rp'.toRat := by
  obtain ⟨l, rfl⟩ := hl.eq
  obtain ⟨p, rfl⟩ := hp.eq
  obtain ⟨d, rfl⟩ := hd.eq
  obtain ⟨h0, rfl⟩ := rpDy_nn h
  exact toRat_le_mk.2 (Nat.le_add_left _ _)

/-- C31: more X moves the price at least as far, more Y likewise. -/
theorem C31_dx_mono {l rp dx dx' r r' : Decimal} (hl : l.Amount s) (hp : rp.Amount s)
    (hd : dx.Amount s) (hd' : dx'.Amount s) (hle : dx.toRat ≤ dx'.toRat)
    (h : rpNewFromLDx l rp dx = .ok r) (h' : rpNewFromLDx l rp dx' = .ok r') : r'.toRat ≤ r.toRat := by
  obtain ⟨l, rfl⟩ := hl.eq
  obtain ⟨p, rfl⟩ := hp.eq
  obtain ⟨d, rfl⟩ := hd.eq
  obtain ⟨d', rfl⟩ := hd'.eq
  rw [toRat_le_mk] at hle
  obtain ⟨h0, rfl⟩ := rpDx_nn h
  obtain ⟨h0', rfl⟩ := rpDx_nn h'
  rw [toRat_le_mk]
  exact Nat.div_le_div_left (Nat.add_le_add_right (Nat.div_le_div_right (Nat.mul_le_mul_right _ hle)) _) h0

theorem C31_dy_mono {l rp dy dy' r r' : Decimal} (hl : l.Amount s) (hp : rp.Amount s)
    (hd : dy.Amount s) (hd' : dy'.Amount s) (hle : dy.toRat ≤ dy'.toRat)
    (h : rpNewFromLDy l rp dy = .ok r) (h' : rpNewFromLDy l rp dy' = .ok r') : r.toRat ≤ r'.toRat := by
  obtain ⟨l, rfl⟩ := hl.eq
  obtain ⟨p, rfl⟩ := hp.eq
  obtain ⟨d, rfl⟩ := hd.eq
  obtain ⟨d', rfl⟩ := hd'.eq
  rw [toRat_le_mk] at hle
  obtain ⟨h0, rfl⟩ := rpDy_nn h
  obtain ⟨h0', rfl⟩ := rpDy_nn h'
  rw [toRat_le_mk]
  exact Nat.add_le_add_right (Nat.div_le_div_right (Nat.mul_le_mul_right _ hle)) _

example : rpNewFromLDx ⟨4000, 2, false⟩ ⟨150, 2, false⟩ ⟨1000, 2, false⟩ = .ok ⟨109, 2, false⟩ ∧
    rpNewFromLDy ⟨4000, 2, false⟩ ⟨150, 2, false⟩ ⟨1000, 2, false⟩ = .ok ⟨175, 2, false⟩ := by
  decide +kernel

/-! ### C32 Amounts of a price move are antisymmetric and correctly signed -/

/-- C32, X: reversing the move negates the amount; X is received (positive) exactly when the price
falls, given out when it rises. -/
theorem C32_dx {l p q c c' : Decimal} (hl : l.Amount s) (hp : p.Amount s) (hq : q.Amount s)
    (h : dxFromLDrp l p q = .ok c) (h' : dxFromLDrp l q p = .ok c') :
    c'.toRat = -c.toRat ∧ (q.toRat ≤ p.toRat → 0 ≤ c.toRat) ∧ (p.toRat ≤ q.toRat → c.toRat ≤ 0) := by
  obtain ⟨l, rfl⟩ := hl.eq
  obtain ⟨p, rfl⟩ := hp.eq
  obtain ⟨q, rfl⟩ := hq.eq
  obtain ⟨_, _, _, e⟩ := dx_nn h
  obtain ⟨_, _, _, e'⟩ := dx_nn h'
  rw [toRat_le_mk, toRat_le_mk]
  rcases lt_trichotomy p q with hlt | heq | hgt
  · rw [if_neg (by omega)] at e
    rw [if_pos hlt.le] at e'
    subst e e'
    rw [toRat_mk, toRat_mk_neg, neg_neg, mul_comm q p]
    refine ⟨rfl, fun _ => by omega, fun _ => ?_⟩
    rw [neg_nonpos]; positivity
  · subst heq
    rw [if_pos le_rfl] at e e'
    subst e e'
    simp [toRat_mk]
  · rw [if_pos hgt.le] at e
    rw [if_neg (by omega)] at e'
    subst e e'
    rw [toRat_mk, toRat_mk_neg, mul_comm q p]
    refine ⟨rfl, fun _ => by positivity, fun _ => by omega⟩

/-- C32, Y: likewise; Y is received exactly when the price rises. -/
theorem C32_dy {l p q c c' : Decimal} (hl : l.Amount s) (hp : p.Amount s) (hq : q.Amount s)
    (h : dyFromLDrp l p q = .ok c) (h' : dyFromLDrp l q p = .ok c') :
    c'.toRat = -c.toRat ∧ (p.toRat ≤ q.toRat → 0 ≤ c.toRat) ∧ (q.toRat ≤ p.toRat → c.toRat ≤ 0) := by
  obtain ⟨l, rfl⟩ := hl.eq
  obtain ⟨p, rfl⟩ := hp.eq
  obtain ⟨q, rfl⟩ := hq.eq
  have e := dy_nn h
  have e' := dy_nn h'
  rw [toRat_le_mk, toRat_le_mk]
  rcases lt_trichotomy p q with hlt | heq | hgt
  · rw [if_pos hlt.le] at e
    rw [if_neg (by omega)] at e'
    subst e e'
    rw [toRat_mk, toRat_mk_neg]
    refine ⟨rfl, fun _ => by positivity, fun _ => by omega⟩
  · subst heq
    rw [if_pos le_rfl] at e e'
    subst e e'
    simp [toRat_mk]
  · rw [if_neg (by omega)] at e
    rw [if_pos hgt.le] at e'
    subst e e'
    rw [toRat_mk, toRat_mk_neg, neg_neg]
    refine ⟨rfl, fun _ => by omega, fun _ => ?_⟩
    rw [neg_nonpos]; positivity

/-- C32: whether a move is computed does not depend on its direction. -/
theorem C32_dx_returns {l p q c : Decimal} (hl : l.Amount s) (hp : p.Amount s) (hq : q.Amount s)
    (h : dxFromLDrp l p q = .ok c) : ∃ c', dxFromLDrp l q p = .ok c' := by
  obtain ⟨l, rfl⟩ := hl.eq
  obtain ⟨p, rfl⟩ := hp.eq
  obtain ⟨q, rfl⟩ := hq.eq
  exact dx_swap h

theorem C32_dy_returns {l p q c : Decimal} (hl : l.Amount s) (hp : p.Amount s) (hq : q.Amount s)
    (h : dyFromLDrp l p q = .ok c) : ∃ c', dyFromLDrp l q p = .ok c' := by
  obtain ⟨l, rfl⟩ := hl.eq
  obtain ⟨p, rfl⟩ := hp.eq
  obtain ⟨q, rfl⟩ := hq.eq
  exact dy_swap h

example : dxFromLDrp ⟨4000, 2, false⟩ ⟨150, 2, false⟩ ⟨120, 2, false⟩ = .ok ⟨666, 2, false⟩ ∧
    dxFromLDrp ⟨4000, 2, false⟩ ⟨120, 2, false⟩ ⟨150, 2, false⟩ = .ok ⟨666, 2, true⟩ ∧
    dyFromLDrp ⟨4000, 2, false⟩ ⟨150, 2, false⟩ ⟨120, 2, false⟩ = .ok ⟨1200, 2, true⟩ ∧
    dyFromLDrp ⟨4000, 2, false⟩ ⟨120, 2, false⟩ ⟨150, 2, false⟩ = .ok ⟨1200, 2, false⟩ := by
  decide +kernel

/-! ### C33 Paid-out amounts never exceed the exact amounts: true for Y, false for X -/

/-- C33, Y (holds): the amount of a price move is the exact amount rounded towards zero, so what is paid
out when the price falls never exceeds the exact amount and misses less than one unit of it. -/
theorem C33_dy {l p q c : Decimal} (hl : l.Amount s) (hp : p.Amount s) (hq : q.Amount s)
    (h : dyFromLDrp l p q = .ok c) :
    |c.toRat| = floorAt s (l.toRat * |q.toRat - p.toRat|) ∧
    |c.toRat| ≤ l.toRat * |q.toRat - p.toRat| := by
  obtain ⟨l, rfl⟩ := hl.eq
  obtain ⟨p, rfl⟩ := hp.eq
  obtain ⟨q, rfl⟩ := hq.eq
  have hD := pow10Q_pos s
  suffices hf : |c.toRat| = floorAt s ((Decimal.mk l s false).toRat *
      |(Decimal.mk q s false).toRat - (Decimal.mk p s false).toRat|) by
    refine ⟨hf, ?_⟩
    rw [hf]
    apply floorAt_le
    apply mul_nonneg _ (abs_nonneg _)
    rw [toRat_mk]; positivity
  have e := dy_nn h
  by_cases hle : p ≤ q
  · rw [if_pos hle] at e
    subst e
    rw [abs_of_nonneg (by rw [toRat_mk]; positivity), abs_of_nonneg (by rw [sub_nonneg, toRat_le_mk]; exact hle)]
    rw [toRat_mk, toRat_mk, toRat_mk, toRat_mk, floorAt_of (n := (q - p) * l) (m := 10 ^ s)]
    push_cast [Nat.cast_sub hle]
    field_simp
  · rw [if_neg hle] at e
    subst e
    have hle' : q ≤ p := by omega
    rw [toRat_mk_neg, abs_neg, abs_of_nonneg (by positivity),
      abs_of_nonpos (by rw [sub_nonpos, toRat_le_mk]; exact hle'), neg_sub]
    rw [toRat_mk, toRat_mk, toRat_mk, floorAt_of (n := (p - q) * l) (m := 10 ^ s)]
    push_cast [Nat.cast_sub hle']
    field_simp

/-- C33, X is false of the code: raising the price from 1.00004999875 to 1.90054999875 at liquidity 10
pays 4.737865244111 X, one unit more than the exact 4.73786524411... -/
theorem C33_dx_false : ¬ ∀ l p q c : Decimal, l.Amount 12 → p.Amount 12 → q.Amount 12 →
    dxFromLDrp l p q = .ok c → |c.toRat| ≤ l.toRat * |1 / q.toRat - 1 / p.toRat| := by
  intro h
  have := h ⟨10000000000000, 12, false⟩ ⟨1000049998750, 12, false⟩ ⟨1900549998751, 12, false⟩
    ⟨4737865244111, 12, true⟩ ⟨rfl, rfl⟩ ⟨rfl, rfl⟩ ⟨rfl, rfl⟩ (by decide +kernel)
  rw [toRat_mk_neg, toRat_mk, toRat_mk, toRat_mk, abs_neg, abs_of_nonneg (by positivity),
    abs_of_neg (by norm_num)] at this
  norm_num at this

/-- C33, X, the part that holds: what is paid exceeds the exact amount at most by the factor by which
the product of the two prices is rounded down.  Missing: the exact inequality (`C33_dx_false`). -/
theorem C33_dx_partial {l p q c : Decimal} (hl : l.Amount s) (hp : p.Amount s) (hq : q.Amount s)
    (h : dxFromLDrp l p q = .ok c) :
    0 < floorAt s (p.toRat * q.toRat) ∧
    |c.toRat| ≤ l.toRat * |q.toRat - p.toRat| / floorAt s (p.toRat * q.toRat) := by
  obtain ⟨l, rfl⟩ := hl.eq
  obtain ⟨p, rfl⟩ := hp.eq
  obtain ⟨q, rfl⟩ := hq.eq
  have hD := pow10Q_pos s
  obtain ⟨_, _, h3, e⟩ := dx_nn h
  have hf : floorAt s ((Decimal.mk p s false).toRat * (Decimal.mk q s false).toRat) =
      ((p * q / 10 ^ s : ℕ) : ℚ) / 10 ^ s := by
    rw [toRat_mk, toRat_mk, floorAt_of (n := p * q) (m := 10 ^ s)]
    push_cast
    field_simp
  have h3q : (0 : ℚ) < ((p * q / 10 ^ s : ℕ) : ℚ) := by exact_mod_cast h3
  rw [hf]
  refine ⟨by positivity, ?_⟩
  have key : ∀ d f : ℕ, 0 < f → ((l * d / 10 ^ s * 10 ^ s / f : ℕ) : ℚ) / 10 ^ s ≤
      (l : ℚ) / 10 ^ s * ((d : ℚ) / 10 ^ s) / ((f : ℚ) / 10 ^ s) := by
    intro d f hf
    have hfq : (0 : ℚ) < f := by exact_mod_cast hf
    have h1 : l * d / 10 ^ s * 10 ^ s / f * f ≤ l * d :=
      (Nat.div_mul_le_self _ _).trans (Nat.div_mul_le_self _ _)
    have h2 : ((l * d / 10 ^ s * 10 ^ s / f : ℕ) : ℚ) * f ≤ (l : ℚ) * d := by exact_mod_cast h1
    generalize ((l * d / 10 ^ s * 10 ^ s / f : ℕ) : ℚ) = z at h2 ⊢
    have : (l : ℚ) / 10 ^ s * ((d : ℚ) / 10 ^ s) / ((f : ℚ) / 10 ^ s) = (l * d / f) / 10 ^ s := by
      field_simp
    rw [this]
    apply div_le_div_of_nonneg_right _ hD.le
    rw [le_div_iff₀ hfq]
    exact h2
  by_cases hle : q ≤ p
  · rw [if_pos hle] at e
    subst e
    rw [abs_of_nonneg (by rw [toRat_mk]; positivity),
      abs_of_nonpos (by rw [sub_nonpos, toRat_le_mk]; exact hle), neg_sub]
    have := key (p - q) _ h3
    rw [toRat_mk, toRat_mk, toRat_mk, toRat_mk, ← sub_div]
    rw [Nat.cast_sub hle] at this
    exact this
  · rw [if_neg hle] at e
    subst e
    have hle' : p ≤ q := by omega
    rw [toRat_mk_neg, abs_neg, abs_of_nonneg (by positivity),
      abs_of_nonneg (by rw [sub_nonneg, toRat_le_mk]; exact hle')]
    have := key (q - p) _ h3
    rw [toRat_mk, toRat_mk, toRat_mk, ← sub_div]
    rw [Nat.cast_sub hle'] at this
    exact this

end Hmm
