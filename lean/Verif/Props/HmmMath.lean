import Verif.Props.PowDec
import Verif.Props.DecimalCompare
import Verif.Proofs.PoolBasic
import Verif.Model.PoolMath

/-
Properties of the oracle-adjusted amounts: C79, C80.
-/

namespace Hmm

open Decimal PoolMath

/-! ### Rounding of signed products and quotients -/

theorem mul_trunc {a b c : Decimal} (h : a.mul b = .ok c) : c.scale = a.scale ∧
    |c.toRat - a.toRat * b.toRat| ≤ ulp a.scale ∧
    (0 ≤ a.toRat * b.toRat → 0 ≤ c.toRat) ∧ (a.toRat * b.toRat ≤ 0 → c.toRat ≤ 0) := by
  refine ⟨(mul_mag h).1, ?_, fun h0 => (mul_down h h0).1, fun h0 => (mul_up h h0).1⟩
  have := ulp_pos a.scale
  rcases le_total 0 (a.toRat * b.toRat) with h0 | h0
  · obtain ⟨_, h1, h2⟩ := mul_down h h0
    rw [abs_le]; constructor <;> linarith
  · obtain ⟨_, h1, h2⟩ := mul_up h h0
    rw [abs_le]; constructor <;> linarith

theorem div_trunc {a b c : Decimal} (h : a.div b = .ok c) : c.scale = a.scale ∧ b.toRat ≠ 0 ∧
    |c.toRat - a.toRat / b.toRat| ≤ ulp a.scale ∧
    (0 ≤ a.toRat / b.toRat → 0 ≤ c.toRat) ∧ (a.toRat / b.toRat ≤ 0 → c.toRat ≤ 0) := by
  obtain ⟨h0, h1, h2, h3, h4, h5⟩ := C03_div h
  have hu := ulp_pos a.scale
  have hc := abs_toRat c
  -- the sign of the quotient
  have hsign : (0 ≤ a.toRat / b.toRat ∧ 0 ≤ c.toRat) ∨ (a.toRat / b.toRat ≤ 0 ∧ c.toRat ≤ 0) := by
    have ma := mag_nonneg a
    have mb := mag_nonneg b
    have mc := mag_nonneg c
    cases ha : a.negative <;> cases hb : b.negative <;> rw [ha, hb] at h2
    · left
      rw [toRat_of_nonneg ha, toRat_of_nonneg hb, toRat_of_nonneg h2]; exact ⟨div_nonneg ma mb, mc⟩
    · right
      rw [toRat_of_nonneg ha, toRat_of_neg hb, toRat_of_neg h2]
      exact ⟨div_nonpos_of_nonneg_of_nonpos ma (by linarith), by linarith⟩
    · right
      rw [toRat_of_neg ha, toRat_of_nonneg hb, toRat_of_neg h2]
      exact ⟨div_nonpos_of_nonpos_of_nonneg (by linarith) mb, by linarith⟩
    · left
      rw [toRat_of_neg ha, toRat_of_neg hb, toRat_of_nonneg h2]
      exact ⟨div_nonneg_of_nonpos (by linarith) (by linarith), mc⟩
  refine ⟨h1, h0, ?_, fun hq => ?_, fun hq => ?_⟩
  · rw [← hc] at h4 h5
    rcases hsign with ⟨s1, s2⟩ | ⟨s1, s2⟩
    · rw [abs_of_nonneg s1, abs_of_nonneg s2] at *
      rw [abs_le]; constructor <;> linarith
    · rw [abs_of_nonpos s1, abs_of_nonpos s2] at *
      rw [abs_le]; constructor <;> linarith
  · rcases hsign with ⟨s1, s2⟩ | ⟨s1, s2⟩
    · exact s2
    · have : a.toRat / b.toRat = 0 := le_antisymm s1 hq
      rw [this, abs_zero, ← hc] at h4
      rw [abs_eq_zero.1 (le_antisymm h4 (abs_nonneg _))]
  · rcases hsign with ⟨s1, s2⟩ | ⟨s1, s2⟩
    · have : a.toRat / b.toRat = 0 := le_antisymm hq s1
      rw [this, abs_zero, ← hc] at h4
      rw [abs_eq_zero.1 (le_antisymm h4 (abs_nonneg _))]
    · exact s2

/-! ### Powers are monotone -/

theorem powLoop_mono : ∀ (k n : Nat) (b r c b' r' c' : Decimal), powLoop k n b r = .ok c →
    powLoop k n b' r' = .ok c' → b.scale = b'.scale → b.value ≤ b'.value → r.value ≤ r'.value →
    c.value ≤ c'.value := by
  intro k
  induction k with
  | zero =>
    intro n b r c b' r' c' h h' _ _ hr
    by_cases hn : n = 0
    · subst hn
      rw [powLoop_zero] at h h'
      cases h; cases h'; exact hr
    · unfold powLoop at h
      rw [if_neg hn] at h
      cases h
  | succ k ih =>
    intro n b r c b' r' c' h h' hs hb hr
    by_cases hn : n = 0
    · subst hn
      rw [powLoop_zero] at h h'
      cases h; cases h'; exact hr
    · obtain ⟨r1, b1, g1, g2, g3⟩ := powLoop_succ hn h
      obtain ⟨r2, b2, f1, f2, f3⟩ := powLoop_succ hn h'
      obtain ⟨_, _, rfl⟩ := mul_ok.1 g2
      obtain ⟨_, _, rfl⟩ := mul_ok.1 f2
      refine ih _ _ _ _ _ _ _ g3 f3 hs ?_ ?_
      · simp only
        rw [hs]
        exact Nat.div_le_div_right (Nat.mul_le_mul hb hb)
      · rcases g1 with ⟨o1, m1⟩ | ⟨o1, rfl⟩ <;> rcases f1 with ⟨o2, m2⟩ | ⟨o2, rfl⟩
        · obtain ⟨_, _, rfl⟩ := mul_ok.1 m1
          obtain ⟨_, _, rfl⟩ := mul_ok.1 m2
          simp only
          rw [hs]
          exact Nat.div_le_div_right (Nat.mul_le_mul hr hb)
        · exact absurd o2 o1
        · exact absurd o1 o2
        · exact hr

theorem root_mono {n m r r' : Nat} (hlt : n < m) (h : SqrtGood n (Nat.sqrt n) r)
    (h' : SqrtGood m (Nat.sqrt m) r') : r ≤ r' := by
  have hm := Nat.sqrt_le_sqrt hlt.le
  rcases h with rfl | ⟨rfl, e⟩
  · rcases h' with rfl | ⟨rfl, _⟩ <;> omega
  · have : (Nat.sqrt n + 1) * (Nat.sqrt n + 1) ≤ m := by omega
    have := Nat.le_sqrt.2 this
    rcases h' with rfl | ⟨rfl, _⟩ <;> omega

theorem sqrt_range {e r : Decimal} (he : e.scale = 12) (hr : e.sqrt = .ok r) :
    e.value * 10 ^ 12 < u128Size := by
  by_contra hc
  rw [sqrt_cases (by omega)] at hr
  rw [if_neg, if_pos (by rw [he]; omega)] at hr
  · cases hr
  · rw [he]
    rintro ⟨_, h0 | h0⟩
    · rw [h0] at hc; exact hc (by decide)
    · rw [h0] at hc; exact hc (by decide)

theorem sqrt_mono {d d' c c' : Decimal} (hs : d.scale = 12) (hs' : d'.scale = 12)
    (hn : d.negative = false) (hn' : d'.negative = false)
    (hle : d.value ≤ d'.value) (h : d.sqrt = .ok c) (h' : d'.sqrt = .ok c') : c.value ≤ c'.value := by
  rcases Nat.eq_or_lt_of_le hle with he | hlt
  · have : d = d' := by
      obtain ⟨a, b, c⟩ := d; obtain ⟨a', b', c'⟩ := d'
      simp only at *; rw [he, hs, hs', hn, hn']
    rw [this, h'] at h
    cases h; exact le_rfl
  · obtain ⟨r, h1, h2⟩ := sqrt_in_range (d := d) (by omega) (by rw [hs]; exact sqrt_range hs h)
    obtain ⟨r', h1', h2'⟩ := sqrt_in_range (d := d') (by omega) (by rw [hs']; exact sqrt_range hs' h')
    rw [h1] at h; cases h
    rw [h1'] at h'; cases h'
    rw [hs] at h2
    rw [hs'] at h2'
    exact root_mono (Nat.mul_lt_mul_of_pos_right hlt (by positivity)) h2 h2'

theorem mul_value_mono {a b c a' b' c' : Decimal} (h : a.mul b = .ok c) (h' : a'.mul b' = .ok c')
    (hs : b.scale = b'.scale) (ha : a.value ≤ a'.value) (hb : b.value ≤ b'.value) :
    c.value ≤ c'.value := by
  obtain ⟨_, _, rfl⟩ := mul_ok.1 h
  obtain ⟨_, _, rfl⟩ := mul_ok.1 h'
  simp only
  rw [hs]
  exact Nat.div_le_div_right (Nat.mul_le_mul ha hb)

theorem pow_one_value {d c : Decimal} {n : Nat} (hn : d.negative = false) (hs : d.scale ≤ 38)
    (h1 : (Decimal.mk (10 ^ 12) 12 false).abs = .ok n) (h : d.powInt n = .ok c) : c = d := by
  have : n = 1 := by
    rw [show (Decimal.mk (10 ^ 12) 12 false).abs = .ok 1 by decide +kernel] at h1
    cases h1; rfl
  subst this
  exact (C14_returns_partial d 0 0 hn hs (by norm_num) (by norm_num)).2.2 c h

/-- Powers with one non-negative exponent grow with the base. -/
theorem powDec_mono {d d' e c c' : Decimal} (hs : d.scale = 12) (hs' : d'.scale = 12)
    (hn : d.negative = false) (hn' : d'.negative = false) (hen : e.negative = false)
    (hle : d.value ≤ d'.value) (h : d.powDec e = .ok c) (h' : d'.powDec e = .ok c') :
    c.value ≤ c'.value := by
  unfold powDec at h h'
  obtain ⟨_, h⟩ := powDecWith_ok h
  obtain ⟨_, h'⟩ := powDecWith_ok h'
  rw [hs] at h
  rw [hs'] at h'
  rcases h with ⟨h0, rfl⟩ | ⟨h0, hes, h⟩
  · rcases h' with ⟨_, rfl⟩ | ⟨h1, _⟩
    · exact le_rfl
    · exact absurd h0 h1
  rcases h' with ⟨h1, _⟩ | ⟨_, _, h'⟩
  · exact absurd h1 h0
  have int_ne : ∀ v : Nat, v % 10 ^ 12 ≠ 0 → v < 2 ^ 128 → (Decimal.mk v 12 false).isInteger ≠ .ok true := by
    intro v hv hlt hi
    obtain ⟨b, g1, g2⟩ := C17_isInteger ⟨v, 12, false⟩ ⟨hlt, by norm_num⟩ (by norm_num)
    rw [hi] at g1; cases g1
    obtain ⟨z, hz⟩ := g2.1 rfl
    rw [toRat_of_nonneg rfl] at hz
    unfold mag at hz
    rw [div_eq_iff (by positivity)] at hz
    have : (v : ℤ) = z * 10 ^ 12 := by exact_mod_cast hz
    apply hv
    omega
  have q1 := int_ne (10 ^ 12 / 4) (by norm_num) (by norm_num)
  have q2 := int_ne (10 ^ 12 / 2) (by norm_num) (by norm_num)
  have q3 := int_ne (5 * 10 ^ 12 / 4) (by norm_num) (by norm_num)
  have q4 := int_ne (3 * 10 ^ 12 / 2) (by norm_num) (by norm_num)
  rcases h with ⟨rfl, r, k1, k2⟩ | ⟨rfl, k⟩ | ⟨rfl, rfl⟩ | ⟨rfl, r, q, k1, k2, k3⟩ | ⟨rfl, r, k1, k2⟩ |
    ⟨hi, _, n, k1, k2⟩ | ⟨_, hneg, _⟩ | ⟨_, hneg, _⟩
  · rcases h' with ⟨_, r', k1', k2'⟩ | ⟨e, _⟩ | ⟨e, _⟩ | ⟨e, _⟩ | ⟨e, _⟩ | ⟨e, _⟩ | ⟨_, e, _⟩ | ⟨_, e, _⟩
    · obtain ⟨a1, a2, _⟩ := sqrt_near hn (by omega) k1
      obtain ⟨b1, b2, _⟩ := sqrt_near hn' (by omega) k1'
      exact sqrt_mono (a1.trans hs) (b1.trans hs') a2 b2 (sqrt_mono hs hs' hn hn' hle k1 k1') k2 k2'
    all_goals first | exact absurd e q1 | (exfalso; simp at e)
  · rcases h' with ⟨e, _⟩ | ⟨_, k'⟩ | ⟨e, _⟩ | ⟨e, _⟩ | ⟨e, _⟩ | ⟨e, _⟩ | ⟨_, e, _⟩ | ⟨_, e, _⟩
    rotate_left
    · exact sqrt_mono hs hs' hn hn' hle k k'
    all_goals first | exact absurd e q2 | (exfalso; simp at e)
  · rcases h' with ⟨e, _⟩ | ⟨e, _⟩ | ⟨_, rfl⟩ | ⟨e, _⟩ | ⟨e, _⟩ | ⟨_, _, n, k1', k2'⟩ | ⟨_, e, _⟩ | ⟨_, e, _⟩
    rotate_left 2
    · exact hle
    rotate_left 2
    · rw [pow_one_value hn' (by omega) k1' k2']; exact hle
    all_goals (exfalso; simp at e)
  · rcases h' with ⟨e, _⟩ | ⟨e, _⟩ | ⟨e, _⟩ | ⟨_, r', q', k1', k2', k3'⟩ | ⟨e, _⟩ | ⟨e, _⟩ | ⟨_, e, _⟩ | ⟨_, e, _⟩
    rotate_left 3
    · obtain ⟨a1, a2, _⟩ := sqrt_near hn (by omega) k1
      obtain ⟨b1, b2, _⟩ := sqrt_near hn' (by omega) k1'
      obtain ⟨c1, _⟩ := sqrt_near a2 (by omega) k2
      obtain ⟨d1, _⟩ := sqrt_near b2 (by omega) k2'
      exact mul_value_mono k3 k3' (by omega) hle
        (sqrt_mono (a1.trans hs) (b1.trans hs') a2 b2 (sqrt_mono hs hs' hn hn' hle k1 k1') k2 k2')
    all_goals first | exact absurd e q3 | (exfalso; simp at e)
  · rcases h' with ⟨e, _⟩ | ⟨e, _⟩ | ⟨e, _⟩ | ⟨e, _⟩ | ⟨_, r', k1', k2'⟩ | ⟨e, _⟩ | ⟨_, e, _⟩ | ⟨_, e, _⟩
    rotate_left 4
    · obtain ⟨a1, a2, _⟩ := sqrt_near hn (by omega) k1
      obtain ⟨b1, b2, _⟩ := sqrt_near hn' (by omega) k1'
      exact mul_value_mono k2 k2' (by omega) hle (sqrt_mono hs hs' hn hn' hle k1 k1')
    all_goals first | exact absurd e q4 | (exfalso; simp at e)
  · rcases h' with ⟨rfl, _⟩ | ⟨rfl, _⟩ | ⟨rfl, rfl⟩ | ⟨rfl, _⟩ | ⟨rfl, _⟩ | ⟨_, _, n', k1', k2'⟩ | ⟨_, e, _⟩ | ⟨_, e, _⟩
    · exact absurd hi q1
    · exact absurd hi q2
    · rw [pow_one_value hn (by omega) k1 k2]; exact hle
    · exact absurd hi q3
    · exact absurd hi q4
    · rw [k1] at k1'; cases k1'
      obtain ⟨_, l1⟩ := powInt_ok k2
      obtain ⟨_, l2⟩ := powInt_ok k2'
      exact powLoop_mono _ _ _ _ _ _ _ _ l1 l2 (by omega) hle (by simp [hs, hs'])
    · rw [hen] at e; cases e
    · rw [hen] at e; cases e
  · rw [hen] at hneg; cases hneg
  · rw [hen] at hneg; cases hneg

/-! ### C79 Oracle-adjusted amounts follow the price integral -/

theorem nonneg_toRat {d : Decimal} (h : d.negative = false) : 0 ≤ d.toRat := by
  rw [toRat_of_nonneg h]; exact mag_nonneg d

theorem value_le {a b : Decimal} (ha : a.negative = false) (hb : b.negative = false)
    (hs : a.scale = b.scale) : a.value ≤ b.value ↔ a.toRat ≤ b.toRat := by
  rw [toRat_of_nonneg ha, toRat_of_nonneg hb]
  unfold mag
  rw [hs, div_le_div_iff_of_pos_right (pow10Q_pos _)]
  exact_mod_cast Iff.rfl

/-- The exponent `c - 1` and its negation. -/
theorem exponent {c cmo : Decimal} (hw : c.WF) (h1 : 1 < c.toRat) (h : c.sub PoolMath.one = .ok cmo) :
    c.scale = 12 ∧ cmo.scale = 12 ∧ cmo.toRat = c.toRat - 1 ∧ cmo.negative = false ∧ cmo.WF ∧
    cmo.neg.toRat = 1 - c.toRat := by
  obtain ⟨g1, g2, g3⟩ := C01_sub_exact h
  have ho : PoolMath.one.toRat = 1 := by
    rw [toRat_of_nonneg rfl]; unfold mag PoolMath.one; norm_num
  rw [ho] at g3
  have hs : c.scale = 12 := g1
  have hneg : cmo.negative = false := by
    cases hb : cmo.negative with
    | false => rfl
    | true =>
      have := mag_nonneg cmo
      rw [toRat_of_neg hb] at g3
      linarith
  have hcn : c.negative = false := by
    cases hb : c.negative with
    | false => rfl
    | true =>
      have := mag_nonneg c
      rw [toRat_of_neg hb] at h1
      linarith
  refine ⟨hs, g2.trans hs, g3, hneg, ⟨?_, by rw [g2, hs]; norm_num⟩, ?_⟩
  · refine lt_of_le_of_lt ?_ hw.1
    rw [value_le hneg hcn g2, g3]; linarith
  · rw [(C19_neg cmo).1, g3]; ring

/-- The decisions before the formulas, for an exponent above one and different prices. -/
theorem hmm_gates {c old new : Decimal} (hw : c.WF) (hs : c.scale = 12) (h1 : 1 < c.toRat)
    (hne : old.toRat ≠ new.toRat) : c.toComputeScale = .ok c ∧ c.lt PoolMath.one = .ok false ∧
    c.eq PoolMath.one = .ok false ∧ (∀ b, old.eq new = .ok b → b = false ∧ old.scale = new.scale) := by
  have hcn : c.negative = false := by
    cases hb : c.negative with
    | false => rfl
    | true =>
      have := mag_nonneg c
      rw [toRat_of_neg hb] at h1
      linarith
  have hv : PoolMath.one.value < c.value := by
    have : (PoolMath.one.value : ℚ) < c.value := by
      rw [toRat_of_nonneg hcn] at h1
      unfold mag at h1
      rw [hs, lt_div_iff₀ (by positivity)] at h1
      unfold PoolMath.one
      norm_num at h1 ⊢
      exact_mod_cast h1
    exact_mod_cast this
  refine ⟨?_, ?_, ?_, ?_⟩
  · unfold toComputeScale
    rw [toScale_ok]
    right
    have h12 : computeScale = 12 := rfl
    obtain ⟨v, s, n⟩ := c
    simp only at hs hcn ⊢
    subst hs
    rw [h12]
    exact ⟨le_rfl, by decide, by simpa using hw.1, by simp⟩
  · unfold Decimal.lt
    have : c.scale = PoolMath.one.scale := hs
    simp only [this, beq_self_eq_true, Bool.not_true, Bool.false_eq_true, if_false, hcn, Bool.false_and]
    have : PoolMath.one.negative = false := rfl
    simp only [this, Bool.not_false, Bool.and_false, Bool.false_eq_true, if_false]
    rw [decide_eq_false (by omega)]
  · unfold Decimal.eq
    have : c.scale = PoolMath.one.scale := hs
    simp only [this, beq_self_eq_true, Bool.not_true, Bool.false_eq_true, if_false]
    rw [beq_eq_false_iff_ne.2 (show c.value ≠ PoolMath.one.value by omega)]
    rfl
  · intro b hb
    unfold Decimal.eq at hb
    rw [ite_ok] at hb
    rcases hb with ⟨_, hb⟩ | ⟨hs, hb⟩
    · cases hb
    · have hs' : old.scale = new.scale := by simpa using hs
      cases hb
      refine ⟨?_, hs'⟩
      rw [Bool.eq_false_iff]
      intro ht
      simp only [Bool.and_eq_true, beq_iff_eq] at ht
      apply hne
      obtain ⟨a, b, c⟩ := old
      obtain ⟨a', b', c'⟩ := new
      simp only at ht hs'
      rw [ht.1, ht.2, hs']

theorem ite_bool {α : Type} {x y : R α} {b : Bool} (h : b = false) : (if b = true then x else y) = y := by
  subst h; simp

/-- The last division, by `1 - c`. -/
theorem round_div {m t r c ε u : ℚ} (hc : 0 < c - 1) (h1 : |m - t| ≤ ε) (h2 : |r - m / (1 - c)| ≤ u) :
    |r - t / (1 - c)| ≤ ε / (c - 1) + u := by
  have e : r - t / (1 - c) = (r - m / (1 - c)) + (m - t) / (1 - c) := by ring
  rw [e]
  refine (abs_add_le _ _).trans ?_
  rw [abs_div, abs_of_neg (by linarith : 1 - c < 0), neg_sub]
  have := div_le_div_of_nonneg_right h1 hc.le
  linarith

/-- A larger divisor gives a smaller rounded reciprocal. -/
theorem div_mono_value {a b b' c c' : Decimal} (h : a.div b = .ok c) (h' : a.div b' = .ok c')
    (hb : 0 ≤ b.toRat) (hb' : 0 ≤ b'.toRat) (hle : b'.toRat ≤ b.toRat) (ha : 0 ≤ a.toRat := by
      rw [toRat_of_nonneg rfl]; exact mag_nonneg _) : c.toRat ≤ c'.toRat := by
  obtain ⟨z, _, n, m⟩ := div_mag h
  obtain ⟨z', _, n', m'⟩ := div_mag h'
  have a1 := abs_toRat b
  have a2 := abs_toRat b'
  rw [abs_of_nonneg hb] at a1
  rw [abs_of_nonneg hb'] at a2
  have hc := (div_down h ha hb).2.1
  have hc' := (div_down h' ha hb').2.1
  have hp' := (div_down h' ha hb').1
  rw [← abs_of_nonneg hc, ← abs_of_nonneg hc', abs_toRat, abs_toRat, m, m']
  unfold floorAt
  apply div_le_div_of_nonneg_right _ (pow10Q_pos _).le
  have : a.mag / b.mag * 10 ^ a.scale ≤ a.mag / b'.mag * 10 ^ a.scale := by
    apply mul_le_mul_of_nonneg_right _ (pow10Q_pos _).le
    rw [← a1, ← a2]
    exact div_le_div_of_nonneg_left (mag_nonneg a) hp' hle
  exact_mod_cast Nat.floor_le_floor this

/-- The three powers of the formulas. -/
theorem hmm_powers {o new old c cmo oc nw od : Decimal} (ho : o.negative = false)
    (hnew : new.negative = false) (hold : old.negative = false) (hw : c.WF) (hcs : c.scale = 12)
    (c2 : cmo.scale = 12) (c3 : cmo.toRat = c.toRat - 1) (c4 : cmo.negative = false) (c5 : cmo.WF)
    (h1 : 1 < c.toRat)
    (f2 : o.powDec c = .ok oc) (f3 : new.powDec cmo = .ok nw) (f4 : old.powDec cmo = .ok od) :
    (0 ≤ oc.toRat ∧ PowNear (ulp 12) o.toRat c.toRat oc.toRat) ∧
    (0 ≤ nw.toRat ∧ PowNear (ulp 12) new.toRat (c.toRat - 1) nw.toRat) ∧
    (0 ≤ od.toRat ∧ PowNear (ulp 12) old.toRat (c.toRat - 1) od.toRat) ∧
    (old.toRat ≤ new.toRat → od.toRat ≤ nw.toRat) ∧ (new.toRat ≤ old.toRat → nw.toRat ≤ od.toRat) := by
  have key : ∀ {b e p : Decimal}, b.negative = false → e.WF → e.scale = 12 → 0 < e.toRat →
      b.powDec e = .ok p → b.scale = 12 ∧ p.scale = 12 ∧ p.negative = false ∧ 0 ≤ p.toRat ∧
        PowNear (ulp 12) b.toRat e.toRat p.toRat := by
    intro b e p hb he hes hpos hp
    have hbs : b.scale = 12 := by
      unfold powDec at hp
      obtain ⟨_, hp⟩ := powDecWith_ok hp
      rcases hp with ⟨h0, _⟩ | ⟨_, hh, _⟩
      · rw [isZero_toRat.1 (isZero_iff.2 h0)] at hpos; exact absurd hpos (lt_irrefl _)
      · omega
    obtain ⟨a1, a2, a3, _⟩ := C78_power_partial hb (by omega) he hp
    rw [hbs] at a1 a3
    exact ⟨hbs, a1, a2, nonneg_toRat a2, a3 hpos.le⟩
  obtain ⟨_, _, _, x4, x5⟩ := key ho hw hcs (by linarith) f2
  obtain ⟨y1, y2, y3, y4, y5⟩ := key hnew c5 c2 (by rw [c3]; linarith) f3
  obtain ⟨z1, z2, z3, z4, z5⟩ := key hold c5 c2 (by rw [c3]; linarith) f4
  rw [c3] at y5 z5
  refine ⟨⟨x4, x5⟩, ⟨y4, y5⟩, ⟨z4, z5⟩, fun hle => ?_, fun hle => ?_⟩
  · rw [← value_le z3 y3 (by omega)]
    exact powDec_mono z1 y1 hold hnew c4 ((value_le hold hnew (by omega)).2 hle) f4 f3
  · rw [← value_le y3 z3 (by omega)]
    exact powDec_mono y1 z1 hnew hold c4 ((value_le hnew hold (by omega)).2 hle) f3 f4

/-- C79 (partial): with an exponent `c > 1` the change of X for a price move is `l / o^c * (new^(c-1) - old^(c-1)) / (1-c)`
up to the rounding of its steps, with the three powers as in C78; it is never positive when the price
rises and never negative when it falls.  Missing: `c = 1`, where the logarithms are only known up to the
floating-point step. -/
theorem C79_dx_partial {fl : FloatEnv} {l old new c o r : Decimal} (hl : l.scale = 12)
    (hl0 : l.negative = false) (hold : old.negative = false) (hnew : new.negative = false)
    (ho : o.negative = false) (hcs : c.scale = 12) (hw : c.WF) (h1 : 1 < c.toRat)
    (hne : old.toRat ≠ new.toRat) (h : dxFromLDrpHmm fl l old new c o = .ok r) :
    ∃ oc nw od : ℚ, 0 < oc ∧ PowNear (ulp 12) o.toRat c.toRat oc ∧
      PowNear (ulp 12) new.toRat (c.toRat - 1) nw ∧ PowNear (ulp 12) old.toRat (c.toRat - 1) od ∧
      |r.toRat - l.toRat / oc * (nw - od) / (1 - c.toRat)|
        ≤ ulp 12 * (|nw - od| + 1) / (c.toRat - 1) + ulp 12 ∧
      (old.toRat ≤ new.toRat → r.toRat ≤ 0) ∧ (new.toRat ≤ old.toRat → 0 ≤ r.toRat) := by
  obtain ⟨k1, k2, k3, k4⟩ := hmm_gates hw hcs h1 hne
  unfold dxFromLDrpHmm at h
  rw [bind_ok] at h
  obtain ⟨_, e1, h⟩ := h
  rw [k1] at e1; cases e1
  rw [k2] at h
  simp only [bind_ok] at h
  obtain ⟨_, e1, h⟩ := h
  cases e1
  rw [ite_bool rfl, bind_ok] at h
  obtain ⟨b, e1, h⟩ := h
  have e1' : old.eq new = .ok b := unwrap_ok.1 e1
  obtain ⟨hb, hsc⟩ := k4 _ e1'
  rw [ite_bool hb, bind_ok] at h
  obtain ⟨_, e2, h⟩ := h
  rw [k1] at e2; cases e2
  rw [k3] at h
  rw [bind_ok] at h
  obtain ⟨_, e2, h⟩ := h
  cases e2
  rw [ite_bool rfl] at h
  simp only [bind_ok, unwrap_ok] at h
  obtain ⟨cmo, f1, oc, f2, nw, f3, od, f4, df, f5, q, f6, m, f7, f8⟩ := h
  obtain ⟨_, c2, c3, c4, c5, c6⟩ := exponent hw h1 f1
  obtain ⟨p1, p2, p3, p4, p5⟩ := hmm_powers ho hnew hold hw hcs c2 c3 c4 c5 h1 f2 f3 f4
  obtain ⟨_, _, g3⟩ := C01_sub_exact f5
  obtain ⟨q1, q2, q3, q4, _⟩ := div_trunc f6
  have hoc : 0 < oc.toRat := lt_of_le_of_ne p1.1 (Ne.symm q2)
  have hl' := nonneg_toRat hl0
  have hq0 : 0 ≤ q.toRat := q4 (div_nonneg hl' hoc.le)
  obtain ⟨m1, m2, m3, m4⟩ := mul_trunc f7
  obtain ⟨r1, r2, r3, r4, r5⟩ := div_trunc f8
  rw [m1, q1, hl] at r3
  rw [q1, hl] at m2
  rw [hl] at q3
  rw [c6] at r2 r3 r4 r5
  rw [g3] at m2 m3 m4
  have hc1 : 0 < c.toRat - 1 := by linarith
  have hu := ulp_pos 12
  refine ⟨oc.toRat, nw.toRat, od.toRat, hoc, p1.2, p2.2, p3.2, ?_, fun hle => ?_, fun hle => ?_⟩
  · -- the three roundings
    have t1 : |m.toRat - l.toRat / oc.toRat * (nw.toRat - od.toRat)|
        ≤ ulp 12 * (|nw.toRat - od.toRat| + 1) := by
      have : m.toRat - l.toRat / oc.toRat * (nw.toRat - od.toRat)
          = (m.toRat - q.toRat * (nw.toRat - od.toRat))
            + (q.toRat - l.toRat / oc.toRat) * (nw.toRat - od.toRat) := by ring
      rw [this]
      refine (abs_add_le _ _).trans ?_
      rw [abs_mul]
      have := mul_le_mul_of_nonneg_right q3 (abs_nonneg (nw.toRat - od.toRat))
      linarith
    exact round_div hc1 t1 r3
  · have : 0 ≤ nw.toRat - od.toRat := by linarith [p4 hle]
    exact r5 (div_nonpos_of_nonneg_of_nonpos (m3 (mul_nonneg hq0 this)) (by linarith))
  · have : nw.toRat - od.toRat ≤ 0 := by linarith [p5 hle]
    exact r4 (div_nonneg_of_nonpos (m4 (mul_nonpos_of_nonneg_of_nonpos hq0 this)) (by linarith))

/-- C79 (partial): with an exponent `c > 1` the change of Y for a price move is
`l * o^c * (1 / new^(c-1) - 1 / old^(c-1)) / (1-c)` up to the rounding of its steps, with the three
powers as in C78; it is never negative when the price rises and never positive when it falls.  Missing:
`c = 1` (`C79_false`, `C79_log_sign`). -/
theorem C79_dy_partial {fl : FloatEnv} {l old new c o r : Decimal} (hl : l.scale = 12)
    (hl0 : l.negative = false) (hold : old.negative = false) (hnew : new.negative = false)
    (ho : o.negative = false) (hcs : c.scale = 12) (hw : c.WF) (h1 : 1 < c.toRat)
    (hne : old.toRat ≠ new.toRat) (h : dyFromLDrpHmm fl l old new c o = .ok r) :
    ∃ oc nw od : ℚ, 0 ≤ oc ∧ 0 < nw ∧ 0 < od ∧ PowNear (ulp 12) o.toRat c.toRat oc ∧
      PowNear (ulp 12) new.toRat (c.toRat - 1) nw ∧ PowNear (ulp 12) old.toRat (c.toRat - 1) od ∧
      |r.toRat - l.toRat * oc * (1 / nw - 1 / od) / (1 - c.toRat)|
        ≤ ulp 12 * (|1 / nw - 1 / od| + ulp 12 + l.toRat * oc + 1) / (c.toRat - 1) + ulp 12 ∧
      (old.toRat ≤ new.toRat → 0 ≤ r.toRat) ∧ (new.toRat ≤ old.toRat → r.toRat ≤ 0) := by
  obtain ⟨k1, k2, k3, k4⟩ := hmm_gates hw hcs h1 hne
  unfold dyFromLDrpHmm at h
  rw [bind_ok] at h
  obtain ⟨_, e1, h⟩ := h
  rw [k1] at e1; cases e1
  rw [k2] at h
  simp only [bind_ok] at h
  obtain ⟨_, e1, h⟩ := h
  cases e1
  rw [ite_bool rfl, bind_ok] at h
  obtain ⟨b, e1, h⟩ := h
  have e1' : old.eq new = .ok b := unwrap_ok.1 e1
  obtain ⟨hb, hsc⟩ := k4 _ e1'
  rw [ite_bool hb, ite_ok] at h
  rcases h with ⟨_, h⟩ | ⟨_, h⟩
  · cases h
  rw [bind_ok] at h
  obtain ⟨_, e2, h⟩ := h
  rw [k1] at e2; cases e2
  rw [k3] at h
  rw [bind_ok] at h
  obtain ⟨_, e2, h⟩ := h
  cases e2
  rw [ite_bool rfl] at h
  simp only [bind_ok, unwrap_ok] at h
  obtain ⟨cmo, f1, oc, f2, nw, f3, od, f4, inw, f9, iod, f10, df, f5, q, f6, m, f7, f8⟩ := h
  obtain ⟨_, c2, c3, c4, c5, c6⟩ := exponent hw h1 f1
  obtain ⟨p1, p2, p3, p4, p5⟩ := hmm_powers ho hnew hold hw hcs c2 c3 c4 c5 h1 f2 f3 f4
  obtain ⟨_, _, g3⟩ := C01_sub_exact f5
  have h1r : PoolMath.one.toRat = 1 := by
    rw [toRat_of_nonneg rfl]; unfold mag PoolMath.one; norm_num
  have h1s : PoolMath.one.scale = 12 := rfl
  have hone : (0 : ℚ) ≤ PoolMath.one.toRat := by rw [h1r]; norm_num
  obtain ⟨n1, _, n3, n4⟩ := div_down f9 hone p2.1
  obtain ⟨d1, _, d3, d4⟩ := div_down f10 hone p3.1
  rw [h1r] at n3 n4 d3 d4
  rw [h1s] at n4 d4
  obtain ⟨q1, q3, q4, _⟩ := mul_trunc f6
  have hl' := nonneg_toRat hl0
  have hlo : 0 ≤ l.toRat * oc.toRat := mul_nonneg hl' p1.1
  have hq0 : 0 ≤ q.toRat := q4 hlo
  obtain ⟨m1, m2, m3, m4⟩ := mul_trunc f7
  obtain ⟨r1, r2, r3, r4, r5⟩ := div_trunc f8
  rw [m1, q1, hl] at r3
  rw [q1, hl] at m2
  rw [hl] at q3
  rw [c6] at r2 r3 r4 r5
  rw [g3] at m2 m3 m4
  have hc1 : 0 < c.toRat - 1 := by linarith
  have hu := ulp_pos 12
  refine ⟨oc.toRat, nw.toRat, od.toRat, p1.1, n1, d1, p1.2, p2.2, p3.2, ?_, fun hle => ?_, fun hle => ?_⟩
  · have hd : |(inw.toRat - iod.toRat) - (1 / nw.toRat - 1 / od.toRat)| ≤ ulp 12 := by
      rw [abs_le]; constructor <;> linarith
    have hd2 : |inw.toRat - iod.toRat| ≤ |1 / nw.toRat - 1 / od.toRat| + ulp 12 := by
      have := abs_add_le (1 / nw.toRat - 1 / od.toRat) ((inw.toRat - iod.toRat) - (1 / nw.toRat - 1 / od.toRat))
      rw [show 1 / nw.toRat - 1 / od.toRat + (inw.toRat - iod.toRat - (1 / nw.toRat - 1 / od.toRat))
        = inw.toRat - iod.toRat by ring] at this
      linarith
    have t1 : |m.toRat - l.toRat * oc.toRat * (1 / nw.toRat - 1 / od.toRat)|
        ≤ ulp 12 * (|1 / nw.toRat - 1 / od.toRat| + ulp 12 + l.toRat * oc.toRat + 1) := by
      have : m.toRat - l.toRat * oc.toRat * (1 / nw.toRat - 1 / od.toRat)
          = (m.toRat - q.toRat * (inw.toRat - iod.toRat))
            + ((q.toRat - l.toRat * oc.toRat) * (inw.toRat - iod.toRat)
            + l.toRat * oc.toRat * ((inw.toRat - iod.toRat) - (1 / nw.toRat - 1 / od.toRat))) := by ring
      rw [this]
      refine (abs_add_le _ _).trans ?_
      have s1 := abs_add_le ((q.toRat - l.toRat * oc.toRat) * (inw.toRat - iod.toRat))
        (l.toRat * oc.toRat * ((inw.toRat - iod.toRat) - (1 / nw.toRat - 1 / od.toRat)))
      rw [abs_mul, abs_mul (l.toRat * oc.toRat), abs_of_nonneg hlo] at s1
      have s2 := mul_le_mul_of_nonneg_right q3 (abs_nonneg (inw.toRat - iod.toRat))
      have s3 := mul_le_mul_of_nonneg_left hd2 hu.le
      have s4 := mul_le_mul_of_nonneg_left hd hlo
      linarith
    exact round_div hc1 t1 r3
  · have hv := one_div_le_one_div_of_le d1 (p4 hle)
    have : inw.toRat - iod.toRat ≤ 0 := by linarith [div_mono_value f9 f10 p2.1 p3.1 (p4 hle)]
    exact r4 (div_nonneg_of_nonpos (m4 (mul_nonpos_of_nonneg_of_nonpos hq0 this)) (by linarith))
  · have : 0 ≤ inw.toRat - iod.toRat := by linarith [div_mono_value f10 f9 p3.1 p2.1 (p5 hle)]
    exact r5 (div_nonpos_of_nonneg_of_nonpos (m3 (mul_nonneg hq0 this)) (by linarith))

/-- A float step that is right for 1 and for 2. -/
def fl12 : FloatEnv := fun v _ => if v = 10 ^ 12 then (0, false) else (10 ^ 12, false)

/-- C79 is false of the code for `c = 1`: raising the root price from 1 to 2 with liquidity 100 and
oracle 1 should add about 69.3 Y and is computed as -69.3; the X side is right (-69.3). -/
theorem C79_false :
    dyFromLDrpHmm fl12 ⟨100000000000000, 12, false⟩ ⟨1000000000000, 12, false⟩ ⟨2000000000000, 12, false⟩
      ⟨1000000000000, 12, false⟩ ⟨1000000000000, 12, false⟩ = .ok ⟨69314718055900, 12, true⟩ ∧
    dxFromLDrpHmm fl12 ⟨100000000000000, 12, false⟩ ⟨1000000000000, 12, false⟩ ⟨2000000000000, 12, false⟩
      ⟨1000000000000, 12, false⟩ ⟨1000000000000, 12, false⟩ = .ok ⟨69314718055900, 12, true⟩ := by
  decide +kernel

theorem one_gates {c old new : Decimal} (hc : c = PoolMath.one) (hne : old.toRat ≠ new.toRat) :
    c.toComputeScale = .ok c ∧ c.lt PoolMath.one = .ok false ∧ c.eq PoolMath.one = .ok true ∧
    (∀ b, old.eq new = .ok b → b = false) := by
  subst hc
  refine ⟨by decide, by decide, by decide, ?_⟩
  intro b hb
  unfold Decimal.eq at hb
  rw [ite_ok] at hb
  rcases hb with ⟨_, hb⟩ | ⟨hs, hb⟩
  · cases hb
  · have hs' : old.scale = new.scale := by simpa using hs
    cases hb
    rw [Bool.eq_false_iff]
    intro ht
    simp only [Bool.and_eq_true, beq_iff_eq] at ht
    apply hne
    obtain ⟨a, b, c⟩ := old
    obtain ⟨a', b', c'⟩ := new
    simp only at ht hs'
    rw [ht.1, ht.2, hs']

/-- C79: the exact extent of the defect at `c = 1`, whatever the floating-point step returns: both amounts are
the liquidity divided (X) or multiplied (Y) by the oracle price, times `ln old - ln new`; so with
logarithms that grow with the price, X has the right sign and Y always the wrong one. -/
theorem C79_log_sign {fl : FloatEnv} {l old new o r a b : Decimal} (hl0 : l.negative = false)
    (ho : o.negative = false) (hne : old.toRat ≠ new.toRat) (ha : old.ln fl = .ok a)
    (hb : new.ln fl = .ok b) :
    (dxFromLDrpHmm fl l old new PoolMath.one o = .ok r →
      (a.toRat ≤ b.toRat → r.toRat ≤ 0) ∧ (b.toRat ≤ a.toRat → 0 ≤ r.toRat)) ∧
    (dyFromLDrpHmm fl l old new PoolMath.one o = .ok r →
      (a.toRat ≤ b.toRat → r.toRat ≤ 0) ∧ (b.toRat ≤ a.toRat → 0 ≤ r.toRat)) := by
  obtain ⟨k1, k2, k3, k4⟩ := one_gates (c := PoolMath.one) rfl hne
  have hl' := nonneg_toRat hl0
  have ho' := nonneg_toRat ho
  constructor
  · intro h
    unfold dxFromLDrpHmm at h
    rw [k1] at h
    simp only [bind_ok] at h
    obtain ⟨_, e, h⟩ := h; cases e
    rw [k2] at h
    obtain ⟨_, e, h⟩ := h; cases e
    rw [ite_bool rfl] at h
    simp only [bind_ok] at h
    obtain ⟨x, e, h⟩ := h
    rw [ite_bool (k4 _ (unwrap_ok.1 e))] at h
    simp only [bind_ok] at h
    obtain ⟨_, e, h⟩ := h; cases e
    rw [k3] at h
    obtain ⟨_, e, h⟩ := h; cases e
    rw [if_pos rfl, ha, hb] at h
    simp only [bind_ok, unwrap_ok] at h
    obtain ⟨_, e, _, e', df, g, h⟩ := h
    cases e; cases e'
    rw [ite_ok] at h
    rcases h with ⟨_, h⟩ | ⟨_, h⟩
    · cases h
    rw [bind_ok] at h
    obtain ⟨q, g2, g3⟩ := h
    obtain ⟨_, _, gd⟩ := C01_sub_exact g
    obtain ⟨_, _, _, q4, _⟩ := div_trunc g2
    have hq := q4 (div_nonneg hl' ho')
    obtain ⟨_, _, m3, m4⟩ := mul_trunc g3
    rw [gd] at m3 m4
    exact ⟨fun h => m4 (mul_nonpos_of_nonneg_of_nonpos hq (by linarith)),
      fun h => m3 (mul_nonneg hq (by linarith))⟩
  · intro h
    unfold dyFromLDrpHmm at h
    rw [k1] at h
    simp only [bind_ok] at h
    obtain ⟨_, e, h⟩ := h; cases e
    rw [k2] at h
    obtain ⟨_, e, h⟩ := h; cases e
    rw [ite_bool rfl] at h
    simp only [bind_ok] at h
    obtain ⟨x, e, h⟩ := h
    rw [ite_bool (k4 _ (unwrap_ok.1 e)), ite_ok] at h
    rcases h with ⟨_, h⟩ | ⟨_, h⟩
    · cases h
    simp only [bind_ok] at h
    obtain ⟨_, e, h⟩ := h; cases e
    rw [k3] at h
    obtain ⟨_, e, h⟩ := h; cases e
    rw [if_pos rfl, ha, hb] at h
    simp only [bind_ok, unwrap_ok] at h
    obtain ⟨_, e, _, e', df, g, q, g2, g3⟩ := h
    cases e; cases e'
    obtain ⟨_, _, gd⟩ := C01_sub_exact g
    obtain ⟨_, _, q4, _⟩ := mul_trunc g2
    have hq := q4 (mul_nonneg hl' ho')
    obtain ⟨_, _, m3, m4⟩ := mul_trunc g3
    rw [gd] at m3 m4
    exact ⟨fun h => m4 (mul_nonpos_of_nonneg_of_nonpos hq (by linarith)),
      fun h => m3 (mul_nonneg hq (by linarith))⟩

/-- C79: an exponent below one never gives an amount; equal prices give zero for every other exponent. -/
theorem C79_refused {fl : FloatEnv} {l old new c o : Decimal} (hcs : c.scale = 12) (hw : c.WF) :
    (c.toRat < 1 → (∀ r, dxFromLDrpHmm fl l old new c o ≠ .ok r) ∧
      ∀ r, dyFromLDrpHmm fl l old new c o ≠ .ok r) ∧
    (1 ≤ c.toRat → old = new → ∃ z, z.toRat = 0 ∧ dxFromLDrpHmm fl l old new c o = .ok z ∧
      dyFromLDrpHmm fl l old new c o = .ok z) := by
  have k1 : c.toComputeScale = .ok c := by
    unfold toComputeScale
    rw [toScale_ok]
    right
    have h12 : computeScale = 12 := rfl
    obtain ⟨v, s, n⟩ := c
    simp only at hcs ⊢
    subst hcs
    rw [h12]
    exact ⟨le_rfl, by decide, by simpa using hw.1, by simp⟩
  have ho : PoolMath.one.toRat = 1 := by
    rw [toRat_of_nonneg rfl]; unfold mag PoolMath.one; norm_num
  obtain ⟨b, hb⟩ : ∃ b, c.lt PoolMath.one = .ok b := ((C09_scales c PoolMath.one).2 hcs).2.1
  have hlt := lt_le hb
  rw [ho] at hlt
  have hone : ∀ b, c.lt PoolMath.one = .ok b → (b = true ↔ c.toRat < 1) := by
    intro b' hb'
    by_cases hz : c.isNegZero
    · obtain ⟨v, s, n⟩ := c
      have hz' : n = true ∧ v = 0 := by simpa [isNegZero] using hz
      obtain ⟨rfl, rfl⟩ := hz'
      simp only at hcs
      subst hcs
      rw [show (Decimal.mk 0 12 true).lt PoolMath.one = .ok true by decide] at hb'
      cases hb'
      rw [toRat_zero rfl]; norm_num
    · have := (C08_compare_partial (b := PoolMath.one) hcs hz (fun h => by cases h.1)).2.1
      rw [this] at hb'
      cases hb'
      rw [ho]; simp
  constructor
  · intro h
    have hbt := (hone b hb).2 h
    subst hbt
    constructor
    · intro r hr
      unfold dxFromLDrpHmm at hr
      simp only [k1, bind_ok] at hr
      obtain ⟨_, e, _, e', hr⟩ := hr
      cases e
      rw [hb] at e'
      cases e'
      rw [if_pos rfl] at hr
      cases hr
    · intro r hr
      unfold dyFromLDrpHmm at hr
      simp only [k1, bind_ok] at hr
      obtain ⟨_, e, _, e', hr⟩ := hr
      cases e
      rw [hb] at e'
      cases e'
      rw [if_pos rfl] at hr
      cases hr
  · rintro h rfl
    have hbf : b = false := by
      cases b with
      | false => rfl
      | true => exact absurd ((hone true hb).1 rfl) (not_lt.2 h)
    subst hbf
    have he : old.eq old = .ok true := (C09_eq_iff old old).2 rfl
    refine ⟨PoolMath.zero, toRat_zero rfl, ?_, ?_⟩
    · unfold dxFromLDrpHmm
      rw [k1]
      simp only [bind, Except.bind, hb, he, unwrap]
      rfl
    · unfold dyFromLDrpHmm
      rw [k1]
      simp only [bind, Except.bind, hb, he, unwrap]
      rfl

-- c = 2: X changes by 100/9 (1 - 2), Y by 100 * 9 (1 - 1/2); c = 1.25 and the unsupported 1.75
example :
    dxFromLDrpHmm fl12 ⟨100000000000000, 12, false⟩ ⟨1000000000000, 12, false⟩ ⟨2000000000000, 12, false⟩
      ⟨2000000000000, 12, false⟩ ⟨3000000000000, 12, false⟩ = .ok ⟨11111111111111, 12, true⟩ ∧
    dyFromLDrpHmm fl12 ⟨100000000000000, 12, false⟩ ⟨1000000000000, 12, false⟩ ⟨2000000000000, 12, false⟩
      ⟨2000000000000, 12, false⟩ ⟨3000000000000, 12, false⟩ = .ok ⟨450000000000000, 12, false⟩ ∧
    dxFromLDrpHmm fl12 ⟨100000000000000, 12, false⟩ ⟨1000000000000, 12, false⟩ ⟨2000000000000, 12, false⟩
      ⟨1250000000000, 12, false⟩ ⟨3000000000000, 12, false⟩ = .ok ⟨19168842394364, 12, true⟩ ∧
    dxFromLDrpHmm fl12 ⟨100000000000000, 12, false⟩ ⟨1000000000000, 12, false⟩ ⟨2000000000000, 12, false⟩
      ⟨1750000000000, 12, false⟩ ⟨3000000000000, 12, false⟩ = .error .panic := by
  decide +kernel

end Hmm
