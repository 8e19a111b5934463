import Verif.Spec.FloatInside
import Verif.Proofs.FloatBooks
import Verif.Proofs.FloatNear

/-
Fee growth of the floating-point pool: it never shrinks, what ticks and positions record of it lies between zero
and (about) all of it, and the growth the code finds inside a range is the exact one up to rounding.
-/

namespace Hmm.Flt.Pool

open F64

attribute [local irreducible] unit limit

/-- Subtraction of a larger double from a smaller gives a negative double. -/
theorem sub_nonneg {a b : F64} {p q r : ℚ} (ha : a.Is p) (hb : b.Is q) (hr : (sub a b).Is r) (h : 0 ≤ r) : q ≤ p := by
  have he := sub_error ha hb hr
  by_contra hc
  have : p - q < 0 := by linarith [not_le.1 hc]
  rw [abs_of_neg this, abs_le] at he
  linarith [he.2]

/-- The difference of two doubles between zero and one of them. -/
theorem sub_between {a b : F64} {p q : ℚ} (ha : a.Is p) (hr : a.Rep) (hb : b.Is q) (h0 : 0 ≤ q) (h1 : q ≤ p) :
    ∃ r, (sub a b).Is r ∧ 0 ≤ r ∧ r ≤ p ∧ |r - (p - q)| ≤ p / 2 ^ 53 := by
  have hR := sub_rounded ha hb
  obtain ⟨r, hr'⟩ := hR.finite ha hr (by
    rw [abs_of_nonneg (by linarith : (0 : ℚ) ≤ p - q), abs_of_nonneg (by linarith : (0 : ℚ) ≤ p)]; linarith)
  have hz : Rounded (0 : ℚ) (sub F64.zero F64.zero) := by simpa using sub_rounded zero_is zero_is
  have hp : Rounded p (sub a F64.zero) := by simpa using sub_rounded ha zero_is
  refine ⟨r, hr', hz.mono hR (hz.exact zero_is zero_rep) hr' (by linarith),
    hR.mono hp hr' (hp.exact ha hr) (by linarith), ?_⟩
  refine (sub_error ha hb hr').trans ?_
  rw [abs_of_nonneg (by linarith : (0 : ℚ) ≤ p - q)]
  exact div_le_div_of_nonneg_right (by linarith) (by positivity)

/-- The four growths are doubles. -/
def Reps (p : Pool) : Prop := ∀ k, (p.gs.fees.at k).Rep

/-- What ticks and positions record is part of the growth. -/
structure Grown (p : Pool) : Prop where
  growth : ∀ k, 0 ≤ p.growth k
  tick : ∀ t ts k, mapGet t p.ticks = some ts → ∃ l, (ts.fees.at k).Is l ∧ 0 ≤ l ∧ l ≤ p.growth k
  position : ∀ key v k, mapGet key p.positions = some v → ∃ o, (v.fees.at k).Is o ∧ 0 ≤ o ∧ o ≤ 2 * p.growth k

theorem Moderate.is {p : Pool} (h : Moderate p) (k : Kind) : (p.gs.fees.at k).Is (p.growth k) := (h k).1.is

/-- Growth on both sides of a tick. -/
theorem sides {p : Pool} (hm : Moderate p) (hr : Reps p) (hg : Grown p) (k : Kind) (t : Nat) :
    ∃ β α, (p.feeBelowAbove (·.at k) t).1.Is β ∧ (p.feeBelowAbove (·.at k) t).2.Is α ∧
      0 ≤ β ∧ β ≤ p.growth k ∧ 0 ≤ α ∧ α ≤ p.growth k ∧ |β + α - p.growth k| ≤ p.growth k / 2 ^ 53 ∧
      ((mapGet t p.ticks).isSome → |β - p.growthBelow k t| ≤ p.growth k / 2 ^ 53 ∧
        |α - (p.growth k - p.growthBelow k t)| ≤ p.growth k / 2 ^ 53) := by
  have h0 := hg.growth k
  have hε : 0 ≤ p.growth k / 2 ^ 53 := by positivity
  unfold feeBelowAbove
  cases he : mapGet t p.ticks with
  | none =>
    refine ⟨p.growth k, 0, hm.is k, zero_is, h0, le_rfl, le_rfl, h0, ?_, fun h => by cases h⟩
    rw [add_zero, sub_self, abs_zero]; exact hε
  | some ts =>
    obtain ⟨l, hl, hl0, hl1⟩ := hg.tick t ts k he
    obtain ⟨r, hr', hr0, hr1, hr2⟩ := sub_between (hm.is k) (hr k) hl hl0 hl1
    have hrec : p.recorded k t = l := by unfold recorded; rw [he]; exact hl.val
    simp only
    by_cases ht : p.gs.tick ≥ t
    · rw [if_pos ht]
      have hb : p.growthBelow k t = l := by unfold growthBelow; rw [if_pos ht, hrec]
      refine ⟨l, r, hl, hr', hl0, hl1, hr0, hr1, ?_, fun _ => ⟨?_, ?_⟩⟩
      · rw [show l + r - p.growth k = r - (p.growth k - l) by ring]; exact hr2
      · rw [hb, sub_self, abs_zero]; exact hε
      · rw [hb]; exact hr2
    · rw [if_neg ht]
      have hb : p.growthBelow k t = p.growth k - l := by unfold growthBelow; rw [if_neg ht, hrec]
      refine ⟨r, l, hr', hl, hr0, hr1, hl0, hl1, ?_, fun _ => ⟨?_, ?_⟩⟩
      · rw [show r + l - p.growth k = r - (p.growth k - l) by ring]; exact hr2
      · rw [hb]; exact hr2
      · rw [hb, sub_sub_cancel, sub_self, abs_zero]; exact hε

/-- Sums of moderate size do not overflow. -/
theorem add_finite_of {a b : F64} {x y M : ℚ} (hM : M ≤ 2 ^ 1000) (ha : a.Is x) (hb : b.Is y) (h : |x + y| ≤ M) :
    ∃ r, (add a b).Is r :=
  (add_rounded ha hb).finite pow1000.1 pow1000.2 (by rw [abs_of_pos (show (0 : ℚ) < 2 ^ 1000 by positivity)]; exact h.trans hM)

theorem sub_finite_of {a b : F64} {x y M : ℚ} (hM : M ≤ 2 ^ 1000) (ha : a.Is x) (hb : b.Is y) (h : |x - y| ≤ M) :
    ∃ r, (sub a b).Is r :=
  (sub_rounded ha hb).finite pow1000.1 pow1000.2 (by rw [abs_of_pos (show (0 : ℚ) < 2 ^ 1000 by positivity)]; exact h.trans hM)

theorem pow900 {g : ℚ} (h : g ≤ 2 ^ 900) : 8 * g ≤ 2 ^ 1000 := by
  refine le_trans (mul_le_mul_of_nonneg_left h (by norm_num)) ?_
  rw [show (1000 : ℕ) = 900 + 100 by norm_num, pow_add, mul_comm]
  exact mul_le_mul_of_nonneg_left (by norm_num) (by positivity)

/-- Growth inside a range as the code finds it. -/
theorem rng_near {p : Pool} (hm : Moderate p) (hr : Reps p) (hg : Grown p) {k : Kind} {lower upper : Nat} {v : F64}
    (h : p.feeRng (·.at k) lower upper = .ok v) : ∃ n, v.Is n ∧ |n| ≤ 2 * p.growth k ∧
      ((mapGet lower p.ticks).isSome → (mapGet upper p.ticks).isSome →
        |n - p.growthInside k lower upper| ≤ p.growth k / 2 ^ 50) := by
  have h0 := hg.growth k
  have hp := pow900 (hm k).2
  obtain ⟨βl, αl, b1, a1, b10, b11, a10, a11, e1, i1⟩ := sides hm hr hg k lower
  obtain ⟨βu, αu, b2, a2, b20, b21, a20, a21, e2, i2⟩ := sides hm hr hg k upper
  unfold feeRng at h
  simp only at h
  rw [bind_ok] at h
  obtain ⟨_, _, h⟩ := h
  rw [pure_ok] at h
  generalize p.growth k = g at *
  obtain ⟨s, hs⟩ := add_finite_of hp b1 a1 (by rw [abs_of_nonneg (by linarith)]; linarith)
  have es := add_error b1 a1 hs
  rw [abs_of_nonneg (by linarith : (0 : ℚ) ≤ βl + αl)] at es
  rw [abs_le] at es e1 e2
  have hs1 : s ≤ g + 4 * (g / 2 ^ 53) := by linarith [es.2, e1.2]
  have hs2 : g - 4 * (g / 2 ^ 53) ≤ s := by linarith [es.1, e1.1]
  obtain ⟨c, hc⟩ := sub_finite_of hp hs b1 (by rw [abs_le]; constructor <;> linarith)
  have ec := sub_error hs b1 hc
  have hab : |s - βl| / 2 ^ 53 ≤ 3 / 2 * (g / 2 ^ 53) := by
    have : |s - βl| ≤ 3 / 2 * g := by rw [abs_le]; constructor <;> linarith
    linarith [div_le_div_of_nonneg_right this (by positivity : (0 : ℚ) ≤ 2 ^ 53)]
  rw [abs_le] at ec
  obtain ⟨n, hn⟩ := sub_finite_of hp hc a2 (by rw [abs_le]; constructor <;> linarith [ec.1, ec.2])
  have en := sub_error hc a2 hn
  have hab' : |c - αu| / 2 ^ 53 ≤ 3 / 2 * (g / 2 ^ 53) := by
    have : |c - αu| ≤ 3 / 2 * g := by rw [abs_le]; constructor <;> linarith [ec.1, ec.2]
    linarith [div_le_div_of_nonneg_right this (by positivity : (0 : ℚ) ≤ 2 ^ 53)]
  rw [abs_le] at en
  rw [← h]
  refine ⟨n, hn, ?_, ?_⟩
  · rw [abs_le]; constructor <;> linarith [ec.1, ec.2, en.1, en.2]
  · intro hl hu
    obtain ⟨j1, _⟩ := i1 hl
    obtain ⟨_, j2⟩ := i2 hu
    unfold growthInside
    rw [abs_le] at j1 j2 ⊢
    constructor <;> linarith [ec.1, ec.2, en.1, en.2, j1.1, j1.2, j2.1, j2.2]

theorem setPosition_rng {p : Pool} {lower upper : Nat} {nf : Fees}
    (h1 : p.feeRng (·.fx) lower upper = .ok nf.fx) (h2 : p.feeRng (·.fy) lower upper = .ok nf.fy)
    (h3 : p.feeRng (·.hx) lower upper = .ok nf.hx) (h4 : p.feeRng (·.hy) lower upper = .ok nf.hy) (k : Kind) :
    p.feeRng (·.at k) lower upper = .ok (nf.at k) := by
  cases k
  · exact h1
  · exact h2
  · exact h3
  · exact h4

theorem setPosition_assert {nf old : Fees} (h : (le F64.zero (sub nf.fx old.fx) && le F64.zero (sub nf.fy old.fy) &&
    le F64.zero (sub nf.hx old.hx) && le F64.zero (sub nf.hy old.hy)) = true) (k : Kind) :
    le F64.zero (sub (nf.at k) (old.at k)) = true := by
  simp only [Bool.and_eq_true] at h
  cases k
  · exact h.1.1.1
  · exact h.1.1.2
  · exact h.1.2
  · exact h.2

/-- What a change of an existing position pays. -/
theorem paid_near {p p' : Pool} (hm : Moderate p) (hr : Reps p) (hg : Grown p) {user lower upper : Nat} {d : F64} {f : Fees}
    (h : p.setPosition user lower upper d = .ok (p', f)) {v : PositionState}
    (hv : mapGet ⟨user, lower, upper⟩ p.positions = some v) {L : ℚ} (hL : v.liq.Is L) (hL0 : 0 ≤ L) (hL1 : L ≤ 2 ^ 64)
    (hl : (mapGet lower p.ticks).isSome) (hu : (mapGet upper p.ticks).isSome) (k : Kind) :
    ∃ pay, (f.at k).Is pay ∧ 0 ≤ pay ∧
      |pay - L * (p.growthInside k lower upper - (v.fees.at k).val)| ≤ L * p.growth k / 2 ^ 49 + 1 / 2 ^ 1000 := by
  obtain ⟨nf, old, base, pos, q1, q2, h1, h2, h3, h4, h5, h6, _, _, _, rfl⟩ := setPosition_ok h
  obtain ⟨n, hn, hn1, hn2⟩ := rng_near hm hr hg (setPosition_rng h1 h2 h3 h4 k)
  have hnn := hn2 hl hu
  have hk : old = v.fees ∧ base = v.liq := by
    rcases setPositionMap_ok h5 with ⟨h0, _⟩ | ⟨poz, hp, rfl, rfl, _⟩
    · rw [hv] at h0; cases h0
    · rw [hv, Option.some.injEq] at hp; rw [hp]; exact ⟨rfl, rfl⟩
  obtain ⟨rfl, rfl⟩ := hk
  obtain ⟨o, ho, ho0, ho1⟩ := hg.position _ _ k hv
  rw [ho.val]
  have h0 := hg.growth k
  have h900 := (hm k).2
  have hp := pow900 h900
  generalize p.growth k = g at *
  generalize p.growthInside k lower upper = I at *
  rw [abs_le] at hn1 hnn
  obtain ⟨e, he⟩ := sub_finite_of hp hn ho (by rw [abs_le]; constructor <;> linarith [hn1.1, hn1.2])
  have he0 : 0 ≤ e := (le_is zero_is he).1 (setPosition_assert h6 k)
  have hle := sub_nonneg hn ho he he0
  have ee := sub_error hn ho he
  rw [abs_of_nonneg (by linarith : (0 : ℚ) ≤ n - o), abs_le] at ee
  have hd4 : n - o ≤ 2 * g := by linarith [hn1.2]
  have he3 : e ≤ 3 * g := by
    have : (n - o) / 2 ^ 53 ≤ g := by rw [div_le_iff₀ (by positivity)]; linarith
    linarith [ee.2]
  have hee : |e - (n - o)| ≤ 2 * g / 2 ^ 53 := by
    have := div_le_div_of_nonneg_right hd4 (by positivity : (0 : ℚ) ≤ 2 ^ 53)
    rw [abs_le]; constructor <;> linarith [ee.1, ee.2]
  have hLe0 : 0 ≤ L * e := mul_nonneg hL0 he0
  have hLe : L * e ≤ 2 ^ 1000 := by
    have h3 : e ≤ 3 * 2 ^ 900 := he3.trans (mul_le_mul_of_nonneg_left h900 (by norm_num))
    calc L * e ≤ 2 ^ 64 * (3 * 2 ^ 900) := mul_le_mul hL1 h3 he0 (by positivity)
      _ ≤ 2 ^ 1000 := by
        rw [show (1000 : ℕ) = 900 + 100 by norm_num, pow_add, ← mul_assoc, mul_comm]
        exact mul_le_mul_of_nonneg_left (by norm_num) (by positivity)
  have hR := mul_rounded hL he
  obtain ⟨pay, hpay⟩ := hR.finite pow1000.1 pow1000.2 (by
    rw [abs_of_nonneg hLe0, abs_of_pos (show (0 : ℚ) < 2 ^ 1000 by positivity)]; exact hLe)
  have ep := hR.error hpay
  have hz : Rounded (0 : ℚ) (sub F64.zero F64.zero) := by simpa using sub_rounded zero_is zero_is
  have hpos : 0 ≤ pay := hz.mono hR (hz.exact zero_is zero_rep) hpay hLe0
  have hfk : (⟨mul v.liq (sub nf.fx v.fees.fx), mul v.liq (sub nf.fy v.fees.fy), mul v.liq (sub nf.hx v.fees.hx),
      mul v.liq (sub nf.hy v.fees.hy)⟩ : Fees).at k = mul v.liq (sub (nf.at k) (v.fees.at k)) := by cases k <;> rfl
  rw [hfk]
  refine ⟨pay, hpay, hpos, ?_⟩
  have hun : 1 / (2 * (unit : ℚ)) ≤ 1 / 2 ^ 1000 := by
    rw [unit_mul_pow]
    refine one_div_le_one_div_of_le (by positivity) ?_
    rw [← pow_succ']
    exact pow_le_pow_right₀ (by norm_num) (by norm_num)
  rw [abs_of_nonneg hLe0] at ep
  have hLg : L * e / 2 ^ 53 ≤ 3 * (L * g / 2 ^ 53) := by
    have := div_le_div_of_nonneg_right (mul_le_mul_of_nonneg_left he3 hL0) (by positivity : (0 : ℚ) ≤ 2 ^ 53)
    linarith
  have hmid : |L * e - L * (I - o)| ≤ 10 * (L * g / 2 ^ 53) := by
    rw [← mul_sub, abs_mul, abs_of_nonneg hL0]
    have h10 : |e - (I - o)| ≤ 10 * (g / 2 ^ 53) := by
      rw [abs_le] at hee ⊢; constructor <;> linarith [hee.1, hee.2, hnn.1, hnn.2]
    have := mul_le_mul_of_nonneg_left h10 hL0
    linarith
  have hLg0 : 0 ≤ L * g / 2 ^ 53 := div_nonneg (mul_nonneg hL0 h0) (by positivity)
  generalize (1 : ℚ) / 2 ^ 1000 = w at *
  generalize 1 / (2 * (unit : ℚ)) = w' at *
  rw [abs_le] at ep hmid ⊢
  constructor <;> linarith [ep.1, ep.2, hmid.1, hmid.2]

/-! ### Growth along a history -/

/-- Fees per unit of liquidity are added up and never negative. -/
theorem add_grows {a r liq : F64} (ha : a.Rep) (hr : lt r F64.zero = false) (hl : lt F64.zero liq = true)
    (h : (add a (div r liq)).Finite) : a.Finite ∧ a.val ≤ (add a (div r liq)).val := by
  obtain ⟨h1, h2⟩ := add_finite h
  refine ⟨h1, ?_⟩
  obtain ⟨x, hx⟩ := h1
  obtain ⟨y, hy⟩ := h2
  obtain ⟨z, hz⟩ := h
  rw [hx.val, hz.val]
  have hz0 : Rounded (0 : ℚ) (sub F64.zero F64.zero) := by simpa using sub_rounded zero_is zero_is
  have hy0 : 0 ≤ y := by
    cases r with
    | nan => exact absurd ⟨y, hy⟩ not_finite_nan
    | inf s =>
      cases liq with
      | nan => exact absurd ⟨y, hy⟩ not_finite_nan
      | inf t => exact absurd ⟨y, hy⟩ not_finite_nan
      | fin t n => exact absurd ⟨y, hy⟩ not_finite_inf
    | fin s n =>
      cases liq with
      | nan => exact absurd ⟨y, hy⟩ not_finite_nan
      | inf t =>
        have : (div (fin s n) (inf t)).Is 0 := ⟨_, 0, rfl, by simp [signed]⟩
        rw [hy.unique this]
      | fin t k =>
        have hr' : 0 ≤ (signed s n : ℚ) / unit := by
          by_contra hc
          rw [(lt_zero_is (is_fin s n)).2 (not_le.1 hc)] at hr; cases hr
        have hl' := (zero_lt_is (is_fin t k)).1 hl
        exact hz0.mono (div_rounded (is_fin s n) (is_fin t k) hl'.ne') (hz0.exact zero_is zero_rep) hy
          (div_nonneg hr' hl'.le)
  have hxr : Rounded x (sub a F64.zero) := by simpa using sub_rounded hx zero_is
  exact hxr.mono (add_rounded hx hy) (hxr.exact hx ha) hz (by linarith)

/-- Growth from one state to a later one. -/
def Grows (p p' : Pool) : Prop := Reps p → Reps p' ∧ (Moderate p' → Moderate p ∧ (Grown p → Grown p'))

theorem Grows.refl (p : Pool) : Grows p p := fun h => ⟨h, fun h => ⟨h, id⟩⟩

theorem Grows.trans {p q r : Pool} (h1 : Grows p q) (h2 : Grows q r) : Grows p r := by
  intro h
  obtain ⟨h3, h4⟩ := h1 h
  obtain ⟨h5, h6⟩ := h2 h3
  exact ⟨h5, fun h => ⟨(h4 (h6 h).1).1, fun hg => (h6 h).2 ((h4 (h6 h).1).2 hg)⟩⟩

theorem Grows.frame {p p' : Pool} (h1 : p'.gs.fees = p.gs.fees) (h2 : p'.ticks = p.ticks)
    (h3 : p'.positions = p.positions) : Grows p p' := by
  have hgr : ∀ k, p'.growth k = p.growth k := fun k => by unfold growth; rw [h1]
  intro h
  refine ⟨fun k => by rw [h1]; exact h k, fun hm => ⟨fun k => ?_, fun hg => ⟨fun k => ?_, ?_, ?_⟩⟩⟩
  · have := hm k; rw [h1, hgr] at this; exact this
  · rw [hgr]; exact hg.growth k
  · intro t ts k; rw [h2, hgr]; exact hg.tick t ts k
  · intro t ts k; rw [h3, hgr]; exact hg.position t ts k

theorem Grows.cross {p p' : Pool} {t : Nat} {d : Bool} (h : p.crossTick t d = .ok p') : Grows p p' := by
  obtain ⟨ts, new, ht, _, _, _, _, rfl⟩ := crossTick_ok h
  intro hr
  refine ⟨hr, fun hm => ⟨hm, fun hg => ⟨hg.growth, ?_, hg.position⟩⟩⟩
  intro t' ts' k hg'
  simp only at hg'
  by_cases he : t' = t
  · subst he
    rw [mapGet_set_same, Option.some.injEq] at hg'
    obtain ⟨l, hl, hl0, hl1⟩ := hg.tick _ _ k ht
    obtain ⟨r, hr', hr0, hr1, _⟩ := sub_between (Moderate.is (p := p) hm k) (hr k) hl hl0 hl1
    refine ⟨r, ?_, hr0, hr1⟩
    rw [← hg']
    cases k <;> exact hr'
  · rw [mapGet_set_other he] at hg'
    exact hg.tick _ _ k hg'

/-- More growth. -/
theorem Grows.more {p p' : Pool} (h2 : p'.ticks = p.ticks) (h3 : p'.positions = p.positions)
    (h : ∀ k, p'.gs.fees.at k = p.gs.fees.at k ∨ ∃ r liq, lt r F64.zero = false ∧ lt F64.zero liq = true ∧
      p'.gs.fees.at k = add (p.gs.fees.at k) (div r liq)) : Grows p p' := by
  intro hr
  have hk : ∀ k, (p'.gs.fees.at k).Finite → (p.gs.fees.at k).Finite ∧ p.growth k ≤ p'.growth k := by
    intro k hf
    rcases h k with e | ⟨r, liq, h1, h2, e⟩
    · unfold growth; rw [e] at hf ⊢; exact ⟨hf, le_rfl⟩
    · unfold growth; rw [e] at hf ⊢; exact add_grows (hr k) h1 h2 hf
  refine ⟨fun k => ?_, fun hm => ⟨fun k => ⟨(hk k (hm k).1).1, (hk k (hm k).1).2.trans (hm k).2⟩, fun hg => ⟨fun k => ?_, ?_, ?_⟩⟩⟩
  · rcases h k with e | ⟨r, liq, _, _, e⟩
    · rw [e]; exact hr k
    · rw [e]; exact add_rep _ _
  · exact (hg.growth k).trans (hk k (hm k).1).2
  · intro t ts k; rw [h2]; intro ht
    obtain ⟨l, hl, hl0, hl1⟩ := hg.tick t ts k ht
    exact ⟨l, hl, hl0, hl1.trans (hk k (hm k).1).2⟩
  · intro t ts k; rw [h3]; intro ht
    obtain ⟨l, hl, hl0, hl1⟩ := hg.position t ts k ht
    exact ⟨l, hl, hl0, by linarith [(hk k (hm k).1).2]⟩

theorem Grows.left {m : LibM} {tks : List Nat} {p p' : Pool} {g : Option Nat} {rp : F64}
    (h : tryInRangeLeft m tks p = .ok (p', g, rp)) : Grows p p' := by
  induction tks generalizing p with
  | nil => simp only [tryInRangeLeft, ok_inj, Prod.mk.injEq] at h; rw [← h.1]; exact .refl _
  | cons tk tks ih =>
    rw [tryInRangeLeft] at h
    rw [ite_ok] at h
    rcases h with ⟨_, h⟩ | ⟨_, h⟩
    · exact ih h
    · simp only at h
      rw [bind_ok] at h
      obtain ⟨q, h1, h⟩ := h
      have hq : Grows p q := (Grows.frame (p := p) (p' := (p.setTick tk).setRp (tickToRp m tk)) rfl rfl rfl).trans
        (Grows.cross h1)
      rw [ite_eq_ok] at h
      rcases h with ⟨_, h⟩ | ⟨_, h⟩
      · exact absurd h (by simp [rpanic])
      · rw [ite_eq_ok] at h
        rcases h with ⟨_, h⟩ | ⟨_, h⟩
        · rw [pure_ok, Prod.mk.injEq] at h; rw [← h.1]; exact hq
        · exact hq.trans (ih h)

theorem Grows.right {m : LibM} {tks : List Nat} {p p' : Pool} {g : Option Nat} {rp : F64}
    (h : tryInRangeRight m tks p = .ok (p', g, rp)) : Grows p p' := by
  induction tks generalizing p with
  | nil => simp only [tryInRangeRight, ok_inj, Prod.mk.injEq] at h; rw [← h.1]; exact .refl _
  | cons tk tks ih =>
    rw [tryInRangeRight] at h
    rw [ite_ok] at h
    rcases h with ⟨_, h⟩ | ⟨_, h⟩
    · exact ih h
    · simp only at h
      rw [bind_ok] at h
      obtain ⟨q, h1, h⟩ := h
      have hq : Grows p q := (Grows.frame (p := p) (p' := (p.setTick tk).setRp (tickToRp m tk)) rfl rfl rfl).trans
        (Grows.cross h1)
      rw [bind_ok] at h
      obtain ⟨goal, _, h⟩ := h
      rw [ite_eq_ok] at h
      rcases h with ⟨_, h⟩ | ⟨_, h⟩
      · exact absurd h (by simp [rpanic])
      · rw [ite_eq_ok] at h
        rcases h with ⟨_, h⟩ | ⟨_, h⟩
        · rw [pure_ok, Prod.mk.injEq] at h; rw [← h.1]; exact hq
        · exact hq.trans (ih h)

theorem Grows.search {m : LibM} {p p' : Pool} {d : Bool} {g : Option Nat} {rp : F64}
    (h : p.tryGetInRange m d = .ok (p', g, rp)) : Grows p p' := by
  unfold tryGetInRange at h
  rw [ite_eq_ok] at h
  rcases h with ⟨_, h⟩ | ⟨_, h⟩
  · exact absurd h (by simp [rpanic])
  · rw [bind_ok] at h
    obtain ⟨⟨q, goal, rp'⟩, h1, h⟩ := h
    simp only at h
    have hq : Grows p q := by
      cases d
      · exact Grows.left h1
      · exact Grows.right h1
    rw [ite_eq_ok] at h
    rcases h with ⟨_, h⟩ | ⟨_, h⟩
    · exact absurd h (by simp [rpanic])
    · rw [pure_ok, Prod.mk.injEq] at h; rw [← h.1]; exact hq

theorem result_nonneg {recv send endRp adj fee : F64} {t : Nat} {c : Bool} {r : SwapWithinResult}
    (h : SwapWithinResult.new recv send t endRp c adj fee = .ok r) :
    lt r.sendHmmAdj F64.zero = false ∧ lt r.recvFee F64.zero = false := by
  unfold SwapWithinResult.new at h
  repeat' rw [ite_eq_ok] at h
  simp only [rpanic, reduceCtorEq, and_false, false_or, ok_inj, Bool.or_eq_false_iff] at h
  obtain ⟨_, _, ⟨h1, h2⟩, _, h⟩ := h
  rw [← h]; exact ⟨h1, h2⟩

theorem withinX_nonneg {m : LibM} {p : Pool} {rp liq dx o : F64} {goal : Nat} {r : SwapWithinResult}
    (h : p.swapWithinX m rp goal liq dx o = .ok r) :
    lt r.sendHmmAdj F64.zero = false ∧ lt r.recvFee F64.zero = false := by
  unfold swapWithinX at h
  rw [ite_eq_ok] at h
  rcases h with ⟨_, h⟩ | ⟨_, h⟩
  · exact absurd h (by simp [rpanic])
  rw [bind_ok] at h
  obtain ⟨⟨_, _, _, _, _⟩, _, h⟩ := h
  simp only at h
  rw [bind_ok] at h
  obtain ⟨_, _, h⟩ := h
  simp only [ite_eq_ok, rpanic, reduceCtorEq, and_false, false_or] at h
  obtain ⟨_, _, _, h⟩ := h
  exact result_nonneg h

theorem withinY_nonneg {m : LibM} {p : Pool} {rp liq dx o : F64} {goal : Nat} {r : SwapWithinResult}
    (h : p.swapWithinY m rp goal liq dx o = .ok r) :
    lt r.sendHmmAdj F64.zero = false ∧ lt r.recvFee F64.zero = false := by
  unfold swapWithinY at h
  rw [ite_eq_ok] at h
  rcases h with ⟨_, h⟩ | ⟨_, h⟩
  · exact absurd h (by simp [rpanic])
  rw [bind_ok] at h
  obtain ⟨⟨_, _, _, _, _⟩, _, h⟩ := h
  simp only at h
  rw [bind_ok] at h
  obtain ⟨_, _, h⟩ := h
  simp only [ite_eq_ok, rpanic, reduceCtorEq, and_false, false_or] at h
  obtain ⟨_, _, _, h⟩ := h
  exact result_nonneg h

theorem Grows.stepX {m : LibM} {dx o : F64} {p p' : Pool} {a a' : SwapAcc} {gtk : Nat}
    (h : stepX m dx o p a gtk = .ok (p', a')) : Grows p p' := by
  obtain ⟨r, h1, _, _, _, h⟩ := stepX_ok h
  obtain ⟨hs, hf⟩ := withinX_nonneg h1
  have hm : Grows p (p.midX r) := by
    refine .more rfl rfl fun k => ?_
    unfold midX
    simp only
    split
    · rename_i hl
      cases k
      · exact .inr ⟨r.recvFee, p.gs.liq, hf, hl, rfl⟩
      · exact .inl rfl
      · exact .inl rfl
      · exact .inr ⟨r.sendHmmAdj, p.gs.liq, hs, hl, rfl⟩
    · exact .inl rfl
  rcases h with ⟨_, rfl⟩ | ⟨_, _, ⟨_, rfl⟩ | ⟨_, h⟩⟩
  · exact hm
  · exact hm
  · exact hm.trans (Grows.cross h)

theorem Grows.stepY {m : LibM} {dx o : F64} {p p' : Pool} {a a' : SwapAcc} {gtk : Nat}
    (h : stepY m dx o p a gtk = .ok (p', a')) : Grows p p' := by
  obtain ⟨r, h1, _, _, _, h⟩ := stepY_ok h
  obtain ⟨hs, hf⟩ := withinY_nonneg h1
  have hm : Grows p (p.midY r) := by
    refine .more rfl rfl fun k => ?_
    unfold midY
    simp only
    split
    · rename_i hl
      cases k
      · exact .inl rfl
      · exact .inr ⟨r.recvFee, p.gs.liq, hf, hl, rfl⟩
      · exact .inr ⟨r.sendHmmAdj, p.gs.liq, hs, hl, rfl⟩
      · exact .inl rfl
    · exact .inl rfl
  rcases h with ⟨_, rfl⟩ | ⟨_, _, ⟨_, rfl⟩ | ⟨_, h⟩⟩
  · exact hm
  · exact hm
  · exact hm.trans (Grows.cross h)

theorem Grows.loopX {m : LibM} {dx o : F64} {fuel : Nat} {p p' : Pool} {a : SwapAcc}
    {out : SwapOutput} (h : loopX m dx o fuel p a = .ok (p', out)) : Grows p p' := by
  induction fuel generalizing p a with
  | zero => exact absurd h (by simp [Pool.loopX])
  | succ fuel ih =>
    rcases loopX_succ h with ⟨_, h⟩ | ⟨_, q, goal, rp, hq, h⟩
    · rw [finishX_pool h]; exact .refl _
    · have hq' : Grows p q := by
        rcases hq with ⟨_, rfl, _⟩ | ⟨_, hq⟩
        · exact .refl _
        · exact Grows.search hq
      rcases h with ⟨_, h⟩ | ⟨gtk, q', a', _, h1, h⟩
      · rw [finishX_pool h]; exact hq'
      · exact hq'.trans ((Grows.stepX h1).trans (ih h))

theorem Grows.loopY {m : LibM} {dx o : F64} {fuel : Nat} {p p' : Pool} {a : SwapAcc}
    {out : SwapOutput} (h : loopY m dx o fuel p a = .ok (p', out)) : Grows p p' := by
  induction fuel generalizing p a with
  | zero => exact absurd h (by simp [Pool.loopY])
  | succ fuel ih =>
    rcases loopY_succ h with ⟨_, h⟩ | ⟨_, q, goal, rp, hq, h⟩
    · rw [finishY_pool h]; exact .refl _
    · have hq' : Grows p q := by
        rcases hq with ⟨_, rfl, _⟩ | ⟨_, hq⟩
        · exact .refl _
        · exact Grows.search hq
      rcases h with ⟨_, h⟩ | ⟨gtk, q', a', _, h1, h⟩
      · rw [finishY_pool h]; exact hq'
      · exact hq'.trans ((Grows.stepY h1).trans (ih h))

theorem Grows.swapX {m : LibM} {dx o : F64} {fuel : Nat} {p p' : Pool}
    {out : SwapOutput} (h : p.executeSwapFromX m fuel dx o = .ok (p', out)) : Grows p p' := by
  unfold executeSwapFromX at h
  rw [ite_eq_ok] at h
  rcases h with ⟨_, h⟩ | ⟨_, h⟩
  · exact absurd h (by simp [rpanic])
  · exact Grows.loopX h

theorem Grows.swapY {m : LibM} {dx o : F64} {fuel : Nat} {p p' : Pool}
    {out : SwapOutput} (h : p.executeSwapFromY m fuel dx o = .ok (p', out)) : Grows p p' := by
  unfold executeSwapFromY at h
  rw [ite_eq_ok] at h
  rcases h with ⟨_, h⟩ | ⟨_, h⟩
  · exact absurd h (by simp [rpanic])
  · exact Grows.loopY h

theorem zero_at (k : Kind) : Fees.zero.at k = F64.zero := by cases k <;> rfl

/-- A tick record made or changed by `update_tick`. -/
theorem Grown.update {p p' : Pool} {t : Nat} {d : F64} {up : Bool} (h : p.updateTick t d up = .ok p')
    (hm : Moderate p) (hg : Grown p) : Grown p' := by
  obtain ⟨_, ticks, rfl, ho, he, _⟩ := updateTick_ok h
  have h0 := hg.growth
  refine ⟨hg.growth, ?_, hg.position⟩
  intro t' ts k ht
  simp only at ht
  by_cases e : t' = t
  · subst e
    rw [he] at ht
    split at ht
    · cases ht
    · rw [Option.some.injEq] at ht
      rw [← ht]
      simp only
      unfold tickOr
      cases hg' : mapGet t' p.ticks with
      | some ts0 => exact hg.tick _ _ k hg'
      | none =>
        simp only
        split
        · exact ⟨p.growth k, hm.is k, h0 k, le_rfl⟩
        · rw [zero_at]; exact ⟨0, zero_is, le_rfl, h0 k⟩
  · rw [ho t' e] at ht
    exact hg.tick _ _ k ht

theorem Grows.setPosition {p p' : Pool} {user lower upper : Nat} {d : F64} {f : Fees}
    (h : p.setPosition user lower upper d = .ok (p', f)) : Grows p p' := by
  obtain ⟨nf, old, base, pos, q1, q2, h1, h2, h3, h4, h5, h6, h7, h8, h9, rfl⟩ := setPosition_ok h
  have e1 : q1.gs = p.gs := by obtain ⟨_, _, rfl, _⟩ := updateTick_ok h7; rfl
  have e2 : q2.gs = p.gs := by obtain ⟨_, _, e, _⟩ := updateTick_ok h8; rw [e]; exact e1
  have e3 : p'.gs.fees = p.gs.fees := by
    rcases h9 with ⟨_, _, _, rfl⟩ | ⟨_, rfl⟩
    · rfl
    · rw [e2]
  have e4 : p'.ticks = q2.ticks ∧ p'.positions = q2.positions := by
    rcases h9 with ⟨_, _, _, rfl⟩ | ⟨_, rfl⟩ <;> exact ⟨rfl, rfl⟩
  intro hr
  refine ⟨fun k => by rw [e3]; exact hr k, fun hm => ?_⟩
  have hmp : Moderate p := fun k => by
    have := hm k; unfold growth at this ⊢; rw [e3] at this; exact this
  refine ⟨hmp, fun hg => ?_⟩
  have hpos : Grown { p with positions := pos } := by
    refine ⟨hg.growth, hg.tick, ?_⟩
    intro key v k hv
    simp only at hv
    rcases setPositionMap_ok h5 with ⟨_, _, rfl, _⟩ | ⟨poz, hpz, rfl, _, _, ⟨_, rfl⟩ | ⟨_, _, rfl⟩⟩
    · by_cases e : key = ⟨user, lower, upper⟩
      · subst e
        rw [mapGet_set_same, Option.some.injEq] at hv
        rw [← hv]; simp only
        rw [zero_at]
        exact ⟨0, zero_is, le_rfl, by have := hg.growth k; unfold growth at this ⊢; linarith⟩
      · rw [mapGet_set_other e] at hv; exact hg.position _ _ k hv
    · by_cases e : key = ⟨user, lower, upper⟩
      · subst e; rw [mapGet_erase_same] at hv; cases hv
      · rw [mapGet_erase_other e] at hv; exact hg.position _ _ k hv
    · by_cases e : key = ⟨user, lower, upper⟩
      · subst e
        rw [mapGet_set_same, Option.some.injEq] at hv
        rw [← hv]; simp only
        obtain ⟨n, hn, hn1, _⟩ := rng_near hmp hr hg (setPosition_rng h1 h2 h3 h4 k)
        obtain ⟨o, ho, ho0, ho1⟩ := hg.position _ _ k hpz
        have h0 := hg.growth k
        rw [abs_le] at hn1
        obtain ⟨e, he⟩ := sub_finite_of (pow900 (hmp k).2) hn ho (by rw [abs_le]; constructor <;> linarith [hn1.1, hn1.2])
        have := sub_nonneg hn ho he ((le_is zero_is he).1 (setPosition_assert h6 k))
        exact ⟨n, hn, by linarith, hn1.2⟩
      · rw [mapGet_set_other e] at hv; exact hg.position _ _ k hv
  have hq1 := hpos.update h7 hmp
  have hq2 := hq1.update h8 (fun k => by have := hmp k; unfold growth at this ⊢; rw [e1]; exact this)
  have := (Grows.frame (p := q2) (p' := p') (by rw [e3, e2]) e4.1 e4.2) (fun k => by rw [e2]; exact hr k)
  exact (this.2 hm).2 hq2

/-- Along a history with moderate fees, ticks and positions record parts of the growth. -/
theorem _root_.Hmm.Flt.Reach.grown {m : LibM} {p : Pool} (h : Reach m p) : Reps p ∧ (Moderate p → Grown p) := by
  have step : ∀ {q q' : Pool}, Grows q q' → (Reps q ∧ (Moderate q → Grown q)) → Reps q' ∧ (Moderate q' → Grown q') := by
    intro q q' hs hq
    obtain ⟨h1, h2⟩ := hs hq.1
    exact ⟨h1, fun hm => (h2 hm).2 (hq.2 (h2 hm).1)⟩
  induction h with
  | @new rp c fee spacing p h =>
    have hp : p.gs.fees = Fees.zero ∧ p.ticks = [] ∧ p.positions = [] := by
      unfold Pool.new GlobalState.new at h
      simp only at h
      rw [bind_ok] at h
      obtain ⟨_, h1, h⟩ := h
      rw [pure_ok] at h
      rw [ite_eq_ok] at h1
      rcases h1 with ⟨_, h1⟩ | ⟨_, h1⟩
      · exact absurd h1 (by simp [rpanic])
      · rw [ok_inj] at h1; subst h1; subst h; exact ⟨rfl, rfl, rfl⟩
    obtain ⟨e1, e2, e3⟩ := hp
    refine ⟨fun k => by rw [e1, zero_at]; exact zero_rep, fun _ => ⟨fun k => ?_, ?_, ?_⟩⟩
    · unfold growth; rw [e1, zero_at, zero_is.val]
    · intro t ts k ht; rw [e2] at ht; cases ht
    · intro t ts k ht; rw [e3] at ht; cases ht
  | deposit _ h ih =>
    obtain ⟨_, _, _, _, _, q, f, _, _, _, _, _, _, _, _, _, h1, rfl, _⟩ := deposit_ok h
    exact step ((Grows.setPosition h1).trans (.frame rfl rfl rfl)) ih
  | withdraw _ h ih =>
    obtain ⟨_, _, _, _, q, f, _, _, _, _, _, h1, rfl, _⟩ := withdraw_ok h
    exact step ((Grows.setPosition h1).trans (.frame rfl rfl rfl)) ih
  | swapX _ h ih => exact step (Grows.swapX h) ih
  | swapY _ h ih => exact step (Grows.swapY h) ih

end Hmm.Flt.Pool
