import Verif.Proofs.PoolMathBasic
import Verif.Props.Ticks
import Verif.Props.DecimalArith
import Verif.Props.PoolMath

/-
C117: how the amounts of a position depend on the price, and the functions that take ticks in place of prices.
C118: the bounds of a range from the amounts in it.
-/

namespace Hmm

open Decimal PoolMath

variable {s : Nat}

/-! ### C117 The amounts of a position follow the price -/

/-- C117: when the price rises, a position does not hold more X. -/
theorem C117_x_price {l p q a b x x' : Decimal} (hl : l.Amount s) (hp : p.Amount s) (hq : q.Amount s) (ha : a.Amount s)
    (hb : b.Amount s) (hab : a.toRat ≤ b.toRat) (hpq : p.toRat ≤ q.toRat) (h : xFromLRpRng l p a b = .ok x)
    (h' : xFromLRpRng l q a b = .ok x') : 0 ≤ x'.toRat ∧ x'.toRat ≤ x.toRat := by
  obtain ⟨l, rfl⟩ := hl.eq
  obtain ⟨p, rfl⟩ := hp.eq
  obtain ⟨q, rfl⟩ := hq.eq
  obtain ⟨a, rfl⟩ := ha.eq
  obtain ⟨b, rfl⟩ := hb.eq
  rw [toRat_le_mk] at hab hpq
  rcases xFrom_nn h with ⟨_, _, _, ⟨_, g2, rfl⟩ | ⟨g, _⟩⟩
  swap; · omega
  rcases xFrom_nn h' with ⟨_, _, _, ⟨_, g2', rfl⟩ | ⟨g, _⟩⟩
  swap; · omega
  refine ⟨by rw [toRat_mk]; positivity, toRat_le_mk.2 ?_⟩
  have hm : max (min p b) a ≤ max (min q b) a := by omega
  calc _ ≤ l * (b - max (min q b) a) / 10 ^ s * 10 ^ s / (max (min p b) a * b / 10 ^ s) :=
        Nat.div_le_div_left (Nat.div_le_div_right (Nat.mul_le_mul_right _ hm)) g2
    _ ≤ _ := Nat.div_le_div_right (Nat.mul_le_mul_right _ (Nat.div_le_div_right (Nat.mul_le_mul_left _ (by omega))))

/-- C117: when the price rises, a position does not hold less Y. -/
theorem C117_y_price {l p q a b y y' : Decimal} (hl : l.Amount s) (hp : p.Amount s) (hq : q.Amount s) (ha : a.Amount s)
    (hb : b.Amount s) (hpq : p.toRat ≤ q.toRat) (h : yFromLRpRng l p a b = .ok y)
    (h' : yFromLRpRng l q a b = .ok y') : 0 ≤ y.toRat ∧ y.toRat ≤ y'.toRat := by
  obtain ⟨l, rfl⟩ := hl.eq
  obtain ⟨p, rfl⟩ := hp.eq
  obtain ⟨q, rfl⟩ := hq.eq
  obtain ⟨a, rfl⟩ := ha.eq
  obtain ⟨b, rfl⟩ := hb.eq
  rw [toRat_le_mk] at hpq
  have e1 := yFrom_nn h
  have e2 := yFrom_nn h'
  subst e1 e2
  refine ⟨by rw [toRat_mk]; positivity, toRat_le_mk.2 ?_⟩
  exact Nat.div_le_div_right (Nat.mul_le_mul_left _ (by omega))

/-- The price of a tick is an amount at scale 12. -/
theorem price_amount {t : Nat} {p : Decimal} (h : tickToRp t = .ok p) : p.Amount 12 :=
  ⟨(tickToRp_bounds h).1, (tickToRp_bounds h).2.1⟩

theorem price_mono {t u : Nat} {p q : Decimal} (htu : t ≤ u) (hp : tickToRp t = .ok p) (hq : tickToRp u = .ok q) :
    p.toRat ≤ q.toRat := by
  rcases Nat.eq_or_lt_of_le htu with rfl | h
  · rw [hp] at hq; cases hq; exact le_rfl
  · exact (C23_increasing h hp hq).le

theorem x_tick {l x : Decimal} {t ta tb : Nat} (h : xFromLTickRng l t ta tb = .ok x) :
    ∃ p a b, tickToRp t = .ok p ∧ tickToRp ta = .ok a ∧ tickToRp tb = .ok b ∧ xFromLRpRng l p a b = .ok x := by
  unfold xFromLTickRng at h
  rw [bind_ok] at h; obtain ⟨p, h1, h⟩ := h
  rw [bind_ok] at h; obtain ⟨a, h2, h⟩ := h
  rw [bind_ok] at h; obtain ⟨b, h3, h⟩ := h
  exact ⟨p, a, b, h1, h2, h3, h⟩

theorem y_tick {l y : Decimal} {t ta tb : Nat} (h : yFromLTickRng l t ta tb = .ok y) :
    ∃ p a b, tickToRp t = .ok p ∧ tickToRp ta = .ok a ∧ tickToRp tb = .ok b ∧ yFromLRpRng l p a b = .ok y := by
  unfold yFromLTickRng at h
  rw [bind_ok] at h; obtain ⟨p, h1, h⟩ := h
  rw [bind_ok] at h; obtain ⟨a, h2, h⟩ := h
  rw [bind_ok] at h; obtain ⟨b, h3, h⟩ := h
  exact ⟨p, a, b, h1, h2, h3, h⟩

theorem liq_tick {x y l : Decimal} {t ta tb : Nat} (h : liqFromXYTickRng x y t ta tb = .ok l) :
    ∃ p a b, tickToRp t = .ok p ∧ tickToRp ta = .ok a ∧ tickToRp tb = .ok b ∧ liqFromXYRpRng x y p a b = .ok l := by
  unfold liqFromXYTickRng at h
  rw [bind_ok] at h; obtain ⟨p, h1, h⟩ := h
  rw [bind_ok] at h; obtain ⟨a, h2, h⟩ := h
  rw [bind_ok] at h; obtain ⟨b, h3, h⟩ := h
  exact ⟨p, a, b, h1, h2, h3, h⟩

/-- C117, ticks: at a higher tick a position holds no more X and no less Y. -/
theorem C117_ticks {l x x' y y' : Decimal} {t u ta tb : Nat} (hl : l.Amount 12) (hab : ta ≤ tb) (htu : t ≤ u)
    (hx : xFromLTickRng l t ta tb = .ok x) (hx' : xFromLTickRng l u ta tb = .ok x')
    (hy : yFromLTickRng l t ta tb = .ok y) (hy' : yFromLTickRng l u ta tb = .ok y') :
    0 ≤ x'.toRat ∧ x'.toRat ≤ x.toRat ∧ 0 ≤ y.toRat ∧ y.toRat ≤ y'.toRat := by
  obtain ⟨p, a, b, h1, h2, h3, hx⟩ := x_tick hx
  obtain ⟨q, a', b', g1, g2, g3, hx'⟩ := x_tick hx'
  obtain ⟨p1, a1, b1, k1, k2, k3, hy⟩ := y_tick hy
  obtain ⟨q1, a2, b2, j1, j2, j3, hy'⟩ := y_tick hy'
  rw [h2] at g2 k2 j2; cases g2; cases k2; cases j2
  rw [h3] at g3 k3 j3; cases g3; cases k3; cases j3
  rw [h1] at k1; cases k1
  rw [g1] at j1; cases j1
  have hpq := price_mono htu h1 g1
  obtain ⟨e1, e2⟩ := C117_x_price hl (price_amount h1) (price_amount g1) (price_amount h2) (price_amount h3)
    (price_mono hab h2 h3) hpq hx hx'
  obtain ⟨e3, e4⟩ := C117_y_price hl (price_amount h1) (price_amount g1) (price_amount h2) (price_amount h3) hpq hy hy'
  exact ⟨e1, e2, e3, e4⟩

/-- C117, ticks: exactly when a position holds none of a token: X from the upper tick on; Y up to the lower tick.  Between
them Y is `l (p - a)` rounded down. -/
theorem C117_outside {l x y : Decimal} {t ta tb : Nat} (hl : l.Amount 12) (hab : ta ≤ tb)
    (hx : xFromLTickRng l t ta tb = .ok x) (hy : yFromLTickRng l t ta tb = .ok y) :
    (tb ≤ t → x.toRat = 0) ∧ (t ≤ ta → y.toRat = 0) := by
  obtain ⟨p, a, b, h1, h2, h3, hx⟩ := x_tick hx
  obtain ⟨p1, a1, b1, k1, k2, k3, hy⟩ := y_tick hy
  rw [h1] at k1; cases k1
  rw [h2] at k2; cases k2
  rw [h3] at k3; cases k3
  exact ⟨fun h => C30_above hl (price_amount h1) (price_amount h2) (price_amount h3) (price_mono hab h2 h3)
      (price_mono h h3 h1) hx,
    fun h => C30_below hl (price_amount h1) (price_amount h2) (price_amount h3) (price_mono h h1 h2) hy⟩

/-- C117, ticks: the liquidity for an offer needs no more Y than offered, and no more X if the offer of X is small
against the prices (in general up to the rounding factor of C28). -/
theorem C117_offer {x y l y' x' : Decimal} {t ta tb : Nat} (hx : x.Amount 12) (hy : y.Amount 12)
    (hl : liqFromXYTickRng x y t ta tb = .ok l) (gy : yFromLTickRng l t ta tb = .ok y')
    (gx : xFromLTickRng l t ta tb = .ok x') :
    0 ≤ y'.toRat ∧ y'.toRat ≤ y.toRat ∧ 0 ≤ x'.toRat ∧ (x.toRat ≤ 1 → x'.toRat ≤ x.toRat) := by
  obtain ⟨p, a, b, h1, h2, h3, hl⟩ := liq_tick hl
  obtain ⟨p1, a1, b1, k1, k2, k3, gy⟩ := y_tick gy
  obtain ⟨p2, a2, b2, j1, j2, j3, gx⟩ := x_tick gx
  rw [h1] at k1 j1; cases k1; cases j1
  rw [h2] at k2 j2; cases k2; cases j2
  rw [h3] at k3 j3; cases k3; cases j3
  obtain ⟨e1, e2⟩ := C27_y_needed hx hy (price_amount h1) (price_amount h2) (price_amount h3) hl gy
  obtain ⟨e3, q, hq, _, e4⟩ := C28_x_needed_partial hx hy (price_amount h1) (price_amount h2) (price_amount h3) hl gx
  refine ⟨e1, e2, e3, fun h => e4 (.inr (h.trans ?_))⟩
  have one_le : ∀ {t : Nat} {c : Decimal}, tickToRp t = .ok c → 1 ≤ c.toRat := by
    intro t c hc
    obtain ⟨z, hz⟩ := tickToRp_returns (t := 0) (by decide)
    have hz1 : z.toRat = 1 := by
      have : tickToRp 0 = .ok ⟨1000000000000, 12, false⟩ := by decide +kernel
      rw [this] at hz; cases hz
      rw [toRat_mk]; norm_num
    have := price_mono (Nat.zero_le t) hz hc
    rwa [hz1] at this
  have hb := one_le h3
  have hp := one_le h1
  have hq1 : 1 ≤ q := by
    rw [hq]
    have := hp.trans (le_max_left p.toRat a.toRat)
    nlinarith
  unfold floorAt
  rw [le_div_iff₀ (by positivity), one_mul]
  have : (10 : ℕ) ^ 12 ≤ ⌊q * 10 ^ 12⌋₊ := by
    apply Nat.le_floor
    push_cast
    nlinarith
  exact_mod_cast this

-- a position of liquidity 1000000 from tick 100 to 200 at ticks 50, 150 and 250, and an offer at tick 150
example : xFromLTickRng ⟨1000000000000000000, 12, false⟩ 50 100 200 = .ok ⟨4962399100873010, 12, false⟩ ∧
    xFromLTickRng ⟨1000000000000000000, 12, false⟩ 150 100 200 = .ok ⟨2478098207602615, 12, false⟩ ∧
    xFromLTickRng ⟨1000000000000000000, 12, false⟩ 250 100 200 = .ok ⟨0, 12, false⟩ ∧
    yFromLTickRng ⟨1000000000000000000, 12, false⟩ 50 100 200 = .ok ⟨0, 12, false⟩ ∧
    yFromLTickRng ⟨1000000000000000000, 12, false⟩ 150 100 200 = .ok ⟨2515547979000000, 12, false⟩ ∧
    yFromLTickRng ⟨1000000000000000000, 12, false⟩ 250 100 200 = .ok ⟨5037392380000000, 12, false⟩ := by decide +kernel
example : liqFromXYTickRng ⟨1000000000000, 12, false⟩ ⟨1000000000000, 12, false⟩ 150 100 200
      = .ok ⟨397527699073156, 12, false⟩ ∧
    xFromLTickRng ⟨397527699073156, 12, false⟩ 150 100 200 = .ok ⟨985112678545, 12, false⟩ ∧
    yFromLTickRng ⟨397527699073156, 12, false⟩ 150 100 200 = .ok ⟨999999999999, 12, false⟩ := by decide +kernel

/-! ### C118 Bounds of a range from its amounts -/

theorem amul {a b c : Decimal} (ha : a.Amount s) (hb : b.Amount s) (h : a.mul b = .ok c) :
    c.Amount s ∧ c.toRat ≤ a.toRat * b.toRat ∧ a.toRat * b.toRat < c.toRat + ulp s := by
  obtain ⟨h1, h2, h3⟩ := mul_mag h
  have hc : c.negative = false := by rw [h2, ha.2, hb.2]; rfl
  refine ⟨⟨h1.trans ha.1, hc⟩, ?_, ?_⟩ <;>
    rw [toRat_of_nonneg hc, toRat_of_nonneg ha.2, toRat_of_nonneg hb.2, h3, ha.1]
  · exact floorAt_le (mul_nonneg (mag_nonneg a) (mag_nonneg b))
  · exact lt_floorAt_add

theorem adiv {a b c : Decimal} (ha : a.Amount s) (hb : b.Amount s) (h : a.div b = .ok c) :
    c.Amount s ∧ 0 < b.toRat ∧ c.toRat ≤ a.toRat / b.toRat ∧ a.toRat / b.toRat < c.toRat + ulp s := by
  obtain ⟨h0, h1, h2, h3⟩ := div_mag h
  have hc : c.negative = false := by rw [h2, ha.2, hb.2]; rfl
  refine ⟨⟨h1.trans ha.1, hc⟩, ?_, ?_, ?_⟩
  · obtain ⟨v, rfl⟩ := hb.eq
    exact toRat_pos_mk.2 (Nat.pos_of_ne_zero h0)
  all_goals rw [toRat_of_nonneg hc, toRat_of_nonneg ha.2, toRat_of_nonneg hb.2, h3, ha.1]
  · exact floorAt_le (div_nonneg (mag_nonneg a) (mag_nonneg b))
  · exact lt_floorAt_add

theorem ann {a : Decimal} (ha : a.Amount s) : 0 ≤ a.toRat := by
  rw [toRat_of_nonneg ha.2]; exact mag_nonneg a

/-- A difference that is not negative is an amount. -/
theorem asub {a b c : Decimal} (ha : a.Amount s) (hb : b.Amount s) (h : a.sub b = .ok c) (hn : c.isNegative = false) :
    c.Amount s ∧ c.toRat = a.toRat - b.toRat := by
  obtain ⟨a, rfl⟩ := ha.eq
  obtain ⟨b, rfl⟩ := hb.eq
  rw [sub_nn] at h
  cases h
  by_cases hle : b ≤ a
  · rw [if_pos hle]
    refine ⟨amount_mk _ _, ?_⟩
    rw [toRat_mk, toRat_mk, toRat_mk, Nat.cast_sub hle]
    ring
  · rw [if_neg hle] at hn
    unfold isNegative isZero at hn
    simp at hn
    omega

/-- C118: the lower bound of a range with liquidity `l` that holds `y` at price `p`, that is, the `a` with `l (p - a) = y`, is
returned rounded up to the next unit of the last place. -/
theorem C118_lower {l p y r : Decimal} {a : ℚ} (hl : l.Amount s) (hp : p.Amount s) (hy : y.Amount s)
    (ha : l.toRat * (p.toRat - a) = y.toRat) (h : rpaFromLRpY l p y = .ok r) :
    r.Amount s ∧ a ≤ r.toRat ∧ r.toRat < a + ulp s := by
  unfold rpaFromLRpY at h
  rw [ite_ok] at h
  rcases h with ⟨_, h⟩ | ⟨_, h⟩
  · cases h
  rw [bind_ok] at h; obtain ⟨q, hq, h⟩ := h
  rw [bind_ok] at h; obtain ⟨r', hr, h⟩ := h
  rw [ite_ok] at h
  rcases h with ⟨_, h⟩ | ⟨hn, h⟩
  · cases h
  cases h
  obtain ⟨q1, q2, q3, q4⟩ := adiv hy hl hq
  obtain ⟨r1, r2⟩ := asub hp q1 (unwrap_ok.1 hr) (by simpa using hn)
  have e : y.toRat / l.toRat = p.toRat - a := by
    rw [← ha]; field_simp
  rw [e] at q3 q4
  refine ⟨r1, ?_, ?_⟩ <;> rw [r2] <;> linarith

/-- C118: the lower bound is returned whenever there is one and the numbers fit. -/
theorem C118_lower_returns {l p y : Decimal} (hl : l.Amount s) (hp : p.Amount s) (hy : y.Amount s) (hs : s ≤ 38)
    (h0 : 0 < l.toRat) (ha : y.toRat ≤ l.toRat * p.toRat) (hf : y.value * 10 ^ s < 2 ^ 128) :
    ∃ r, rpaFromLRpY l p y = .ok r := by
  obtain ⟨l, rfl⟩ := hl.eq
  obtain ⟨p, rfl⟩ := hp.eq
  obtain ⟨y, rfl⟩ := hy.eq
  rw [toRat_pos_mk] at h0
  have hD := pow10_pos s
  unfold rpaFromLRpY
  rw [if_neg (by rw [isZero_mk]; omega)]
  have e : (Decimal.mk y s false).div ⟨l, s, false⟩ = .ok ⟨y * 10 ^ s / l, s, false⟩ :=
    div_ok.2 ⟨hf, pow10_lt_iff.2 hs, h0.ne', rfl⟩
  rw [e, bind_eq]
  have hle : y * 10 ^ s / l ≤ p := by
    rw [toRat_mk, toRat_mk, toRat_mk] at ha
    have hq : (0 : ℚ) < 10 ^ s := by positivity
    rw [div_mul_div_comm, div_le_div_iff₀ hq (by positivity)] at ha
    have h1 : (y : ℚ) * 10 ^ s ≤ l * p := by
      have : (y * 10 ^ s : ℚ) * 10 ^ s ≤ (l * p) * 10 ^ s := by nlinarith
      exact le_of_mul_le_mul_right this hq
    have h2 : y * 10 ^ s ≤ l * p := by exact_mod_cast h1
    exact Nat.div_le_of_le_mul h2
  rw [sub_nn_le s hle, unwrap_eq, bind_eq, isNegative_nn]
  exact ⟨_, rfl⟩

/-- C118: the upper bound of a range with liquidity `l` that holds `x` at price `p`, that is, the positive `b` with
`l (1/p - 1/b) = x`: the result is never above it, and below by the stated rounding, which is small when `l - p x` is not. -/
theorem C118_upper {l p x r : Decimal} {b : ℚ} (hl : l.Amount s) (hp : p.Amount s) (hx : x.Amount s)
    (h0 : 0 < p.toRat) (hl0 : 0 < l.toRat) (hb0 : 0 < b)
    (hb : l.toRat * (1 / p.toRat - 1 / b) = x.toRat) (h : rpbFromLRpX l p x = .ok r) :
    r.Amount s ∧ r.toRat ≤ b ∧
    b < (r.toRat + ulp s) * (1 + ulp s / (l.toRat - p.toRat * x.toRat)) + ulp s / (l.toRat - p.toRat * x.toRat) := by
  have hu : (0 : ℚ) < ulp s := by unfold ulp; positivity
  have hD : l.toRat - p.toRat * x.toRat = l.toRat * p.toRat / b := by
    rw [← hb]; field_simp; ring
  have hDpos : 0 < l.toRat - p.toRat * x.toRat := by rw [hD]; positivity
  have hbe : b = l.toRat * p.toRat / (l.toRat - p.toRat * x.toRat) := by
    rw [hD]; field_simp
  unfold rpbFromLRpX at h
  rw [bind_ok] at h; obtain ⟨m, hm, h⟩ := h
  rw [bind_ok] at h; obtain ⟨d, hd, h⟩ := h
  rw [ite_ok] at h
  rcases h with ⟨_, h⟩ | ⟨hz, h⟩
  · cases h
  rw [bind_ok] at h; obtain ⟨n, hn, h⟩ := h
  rw [bind_ok] at h; obtain ⟨r', hn', h⟩ := h
  rw [ite_ok] at h
  rcases h with ⟨_, h⟩ | ⟨hng, h⟩
  · cases h
  cases h
  obtain ⟨m1, m2, m3⟩ := amul hp hx hm
  have hdn : d.isNegative = false := by
    obtain ⟨_, _, hd1⟩ := C01_sub_exact (unwrap_ok.1 hd)
    have : 0 < d.toRat := by rw [hd1]; linarith
    by_contra hc
    rw [Bool.not_eq_false] at hc
    unfold isNegative at hc
    rw [Bool.and_eq_true] at hc
    rw [toRat_of_neg hc.1] at this
    have := mag_nonneg d
    linarith
  obtain ⟨d1, d2⟩ := asub hl m1 (unwrap_ok.1 hd) hdn
  obtain ⟨n1, n2, n3⟩ := amul hl hp hn
  obtain ⟨r1, r0, r2, r3⟩ := adiv n1 d1 hn'
  refine ⟨r1, ?_, ?_⟩
  · refine r2.trans ?_
    rw [hbe, div_le_div_iff₀ r0 hDpos]
    have : l.toRat - p.toRat * x.toRat ≤ d.toRat := by rw [d2]; linarith
    have hn0 := ann n1
    nlinarith
  · rw [hbe, div_lt_iff₀ hDpos]
    have e : ((r.toRat + ulp s) * (1 + ulp s / (l.toRat - p.toRat * x.toRat)) + ulp s / (l.toRat - p.toRat * x.toRat)) *
        (l.toRat - p.toRat * x.toRat) = (r.toRat + ulp s) * (l.toRat - p.toRat * x.toRat + ulp s) + ulp s := by
      field_simp
    rw [e]
    rw [div_lt_iff₀ r0] at r3
    have hd3 : d.toRat < l.toRat - p.toRat * x.toRat + ulp s := by rw [d2]; linarith
    have hr0 := ann r1
    nlinarith

/-- C118: what comes back when no upper bound fits, because `p x` exceeds `l` by a unit or more: the assertion of the
result's sign stops every call, but those whose quotient is cut off to zero. -/
theorem C118_upper_none {l p x r : Decimal} (hl : l.Amount s) (hp : p.Amount s) (hx : x.Amount s)
    (hn : l.toRat + ulp s ≤ p.toRat * x.toRat) (h : rpbFromLRpX l p x = .ok r) : r.toRat = 0 := by
  unfold rpbFromLRpX at h
  rw [bind_ok] at h; obtain ⟨m, hm, h⟩ := h
  rw [bind_ok] at h; obtain ⟨d, hd, h⟩ := h
  rw [ite_ok] at h
  rcases h with ⟨_, h⟩ | ⟨hz, h⟩
  · cases h
  rw [bind_ok] at h; obtain ⟨n, hmn, h⟩ := h
  rw [bind_ok] at h; obtain ⟨r', hr, h⟩ := h
  rw [ite_ok] at h
  rcases h with ⟨_, h⟩ | ⟨hng, h⟩
  · cases h
  cases h
  obtain ⟨m1, m2, m3⟩ := amul hp hx hm
  obtain ⟨n1, n2, n3⟩ := amul hl hp hmn
  obtain ⟨_, _, hd1⟩ := C01_sub_exact (unwrap_ok.1 hd)
  have hdn : d.negative = true := by
    by_contra hc
    rw [Bool.not_eq_true] at hc
    rw [toRat_of_nonneg hc] at hd1
    have := mag_nonneg d
    linarith
  obtain ⟨_, _, hrn, _⟩ := div_mag hr
  rw [n1.2, hdn] at hrn
  have hv : r.value = 0 := by
    unfold isNegative isZero at hng
    rw [hrn] at hng
    simpa using hng
  unfold toRat
  rw [hv]
  simp

/-- C118 as one would state it, that no bound is reported for amounts no range can hold, is false: without liquidity and
with X in the range the result is zero. -/
theorem C118_false : ¬ ∀ {s : Nat} {l p x r : Decimal}, l.Amount s → p.Amount s → x.Amount s →
    l.toRat < p.toRat * x.toRat → rpbFromLRpX l p x ≠ .ok r := by
  intro h
  exact h (s := 12) (l := ⟨0, 12, false⟩) (p := ⟨4000000000000, 12, false⟩) (x := ⟨5000000000000, 12, false⟩)
    (r := ⟨0, 12, true⟩) (amount_mk _ _) (amount_mk _ _) (amount_mk _ _)
    (by rw [toRat_mk, toRat_mk, toRat_mk]; norm_num) (by decide +kernel)

/-- C118: the lower bound from both amounts and the upper bound: `a = p - y/(p x) + y/(b x)`, with the error of two
products and two quotients. -/
theorem C118_lower_amounts {x y p b r : Decimal} (hx : x.Amount s) (hy : y.Amount s) (hp : p.Amount s) (hb : b.Amount s)
    (hpx : ulp s < p.toRat * x.toRat) (hbx : ulp s < b.toRat * x.toRat) (h : rpaFromXYRpRpb x y p b = .ok r) :
    r.Amount s ∧
    p.toRat - y.toRat / (p.toRat * x.toRat - ulp s) + y.toRat / (b.toRat * x.toRat) - ulp s < r.toRat ∧
    r.toRat < p.toRat - y.toRat / (p.toRat * x.toRat) + y.toRat / (b.toRat * x.toRat - ulp s) + ulp s := by
  unfold rpaFromXYRpRpb at h
  rw [bind_ok] at h; obtain ⟨bx, h1, h⟩ := h
  rw [ite_ok] at h
  rcases h with ⟨_, h⟩ | ⟨_, h⟩
  · cases h
  rw [bind_ok] at h; obtain ⟨f, h2, h⟩ := h
  rw [bind_ok] at h; obtain ⟨px, h3, h⟩ := h
  rw [bind_ok] at h; obtain ⟨g, h4, h⟩ := h
  rw [bind_ok] at h; obtain ⟨t, h5, h⟩ := h
  rw [bind_ok] at h; obtain ⟨r', h6, h⟩ := h
  rw [ite_ok] at h
  rcases h with ⟨_, h⟩ | ⟨hn, h⟩
  · cases h
  cases h
  obtain ⟨a1, a2, a3⟩ := amul hb hx h1
  obtain ⟨b1, b0, b2, b3⟩ := adiv hy a1 h2
  obtain ⟨c1, c2, c3⟩ := amul hp hx h3
  obtain ⟨d1, d0, d2, d3⟩ := adiv hy c1 h4
  obtain ⟨_, _, ht, _⟩ := C01_add_exact (unwrap_ok.1 h5)
  have ta : t.Amount s := by
    obtain ⟨f, rfl⟩ := b1.eq
    obtain ⟨p, rfl⟩ := hp.eq
    rw [add_nn (unwrap_ok.1 h5)]
    exact amount_mk _ _
  obtain ⟨r1, r2⟩ := asub ta d1 (unwrap_ok.1 h6) (by simpa using hn)
  have hy0 := ann hy
  have k1 : y.toRat / (b.toRat * x.toRat) ≤ y.toRat / bx.toRat := div_le_div_of_nonneg_left hy0 b0 a2
  have k2 : y.toRat / bx.toRat ≤ y.toRat / (b.toRat * x.toRat - ulp s) :=
    div_le_div_of_nonneg_left hy0 (by linarith) (by linarith)
  have k3 : y.toRat / (p.toRat * x.toRat) ≤ y.toRat / px.toRat := div_le_div_of_nonneg_left hy0 d0 c2
  have k4 : y.toRat / px.toRat ≤ y.toRat / (p.toRat * x.toRat - ulp s) :=
    div_le_div_of_nonneg_left hy0 (by linarith) (by linarith)
  refine ⟨r1, ?_, ?_⟩ <;> rw [r2, ht] <;> linarith

/-- C118: the upper bound from both amounts and the lower bound: `b = p y / (y - (p - a) p x)`; the result is never above
it, and below by the stated rounding. -/
theorem C118_upper_amounts {x y p a r : Decimal} (hx : x.Amount s) (hy : y.Amount s) (hp : p.Amount s) (ha : a.Amount s)
    (hE : 0 < y.toRat - (p.toRat - a.toRat) * p.toRat * x.toRat) (h : rpbFromXYRpRpa x y p a = .ok r) :
    r.Amount s ∧ a.toRat ≤ p.toRat ∧
    r.toRat ≤ p.toRat * y.toRat / (y.toRat - (p.toRat - a.toRat) * p.toRat * x.toRat) ∧
    p.toRat * y.toRat < (r.toRat + ulp s) *
      (y.toRat - (p.toRat - a.toRat) * p.toRat * x.toRat + ulp s * (1 + x.toRat)) + ulp s := by
  have hu : (0 : ℚ) < ulp s := by unfold ulp; positivity
  unfold rpbFromXYRpRpa at h
  rw [bind_ok] at h; obtain ⟨n, h1, h⟩ := h
  rw [bind_ok] at h; obtain ⟨d, h2, h⟩ := h
  rw [ite_ok] at h
  rcases h with ⟨_, h⟩ | ⟨hd, h⟩
  · cases h
  rw [bind_ok] at h; obtain ⟨e, h3, h⟩ := h
  rw [bind_ok] at h; obtain ⟨f, h4, h⟩ := h
  rw [bind_ok] at h; obtain ⟨g, h5, h⟩ := h
  rw [ite_ok] at h
  rcases h with ⟨_, h⟩ | ⟨hg, h⟩
  · cases h
  rw [Bool.or_eq_true, not_or] at hg
  obtain ⟨a1, a2, a3⟩ := amul hp hy h1
  obtain ⟨b1, b2⟩ := asub hp ha (unwrap_ok.1 h2) (by simpa using hd)
  obtain ⟨c1, c2, c3⟩ := amul b1 hp h3
  obtain ⟨d1, d2, d3⟩ := amul c1 hx h4
  obtain ⟨e1, e2⟩ := asub hy d1 (unwrap_ok.1 h5) (by simpa using hg.1)
  obtain ⟨f1, f0, f2, f3⟩ := adiv a1 e1 h
  have hx0 := ann hx
  have hd0 := ann b1
  have hr0 := ann f1
  have hn0 := ann a1
  rw [b2] at c2 c3 hd0
  have k1 : f.toRat ≤ (p.toRat - a.toRat) * p.toRat * x.toRat := d2.trans (mul_le_mul_of_nonneg_right c2 hx0)
  have k2 : (p.toRat - a.toRat) * p.toRat * x.toRat ≤ f.toRat + ulp s * (1 + x.toRat) := by
    have := mul_le_mul_of_nonneg_right c3.le hx0
    nlinarith
  refine ⟨f1, by linarith, f2.trans ?_, ?_⟩
  · rw [div_le_div_iff₀ f0 hE]
    have : y.toRat - (p.toRat - a.toRat) * p.toRat * x.toRat ≤ g.toRat := by rw [e2]; linarith
    nlinarith
  · rw [div_lt_iff₀ f0] at f3
    have : g.toRat ≤ y.toRat - (p.toRat - a.toRat) * p.toRat * x.toRat + ulp s * (1 + x.toRat) := by rw [e2]; linarith
    nlinarith

/-- C118: below the lower bound of its range the price gives no upper bound; the call stops with a panic. -/
theorem C118_price_below {x y p a r : Decimal} (hp : p.Amount s) (ha : a.Amount s) (hlt : p.toRat < a.toRat) :
    rpbFromXYRpRpa x y p a ≠ .ok r := by
  intro h
  unfold rpbFromXYRpRpa at h
  rw [bind_ok] at h; obtain ⟨n, h1, h⟩ := h
  rw [bind_ok] at h; obtain ⟨d, h2, h⟩ := h
  rw [ite_ok] at h
  rcases h with ⟨_, h⟩ | ⟨hd, h⟩
  · cases h
  obtain ⟨b1, b2⟩ := asub hp ha (unwrap_ok.1 h2) (by simpa using hd)
  have := ann b1
  linarith

-- liquidity 100 at price 4: with Y = 100 the range starts at 3, with X = 5 it ends at 5
example : rpaFromLRpY ⟨100000000000000, 12, false⟩ ⟨4000000000000, 12, false⟩ ⟨100000000000000, 12, false⟩
      = .ok ⟨3000000000000, 12, false⟩ ∧
    rpbFromLRpX ⟨100000000000000, 12, false⟩ ⟨4000000000000, 12, false⟩ ⟨5000000000000, 12, false⟩
      = .ok ⟨5000000000000, 12, false⟩ ∧
    rpaFromXYRpRpb ⟨5000000000000, 12, false⟩ ⟨100000000000000, 12, false⟩ ⟨4000000000000, 12, false⟩
      ⟨5000000000000, 12, false⟩ = .ok ⟨3000000000000, 12, false⟩ ∧
    rpbFromXYRpRpa ⟨5000000000000, 12, false⟩ ⟨100000000000000, 12, false⟩ ⟨4000000000000, 12, false⟩
      ⟨3000000000000, 12, false⟩ = .ok ⟨5000000000000, 12, false⟩ := by decide +kernel
-- more X than the liquidity can hold
example : rpbFromLRpX ⟨10000000000000, 12, false⟩ ⟨4000000000000, 12, false⟩ ⟨5000000000000, 12, false⟩
    = .error .panic := by decide +kernel

end Hmm
