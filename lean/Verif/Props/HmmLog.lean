import Verif.Props.Ln
import Verif.Props.HmmMath

/-
C79 at `c = 1`: the amounts with an accurate math library.
-/

namespace Hmm.PoolMath

open Decimal

/-- The difference of two logarithms at twelve places. -/
theorem ln_diff {m : LibM} (hm : m.Accurate) {old new a b df : Decimal} {j k : ℤ} (hon : old.negative = false)
    (hos : old.scale = 12) (hov : old.value < u128Size) (hj1 : -6 ≤ j) (hj2 : j < 48) (hj : Between j old)
    (hnn : new.negative = false) (hns : new.scale = 12) (hnv : new.value < u128Size) (hk1 : -6 ≤ k) (hk2 : k < 48)
    (hk : Between k new) (ha : old.ln (floatLog m) = .ok a) (hb : new.ln (floatLog m) = .ok b) (hd : a.sub b = .ok df) :
    |(df.toRat : ℝ) - (Real.log old.toRat - Real.log new.toRat)| ≤ 602 / 10 ^ 12 := by
  obtain ⟨a', ea, _, ha'⟩ := C98_ln_partial hm hon (by omega) hov hj1 hj2 hj
  obtain ⟨b', eb, _, hb'⟩ := C98_ln_partial hm hnn (by omega) hnv hk1 hk2 hk
  rw [ea] at ha
  cases ha
  rw [eb] at hb
  cases hb
  obtain ⟨_, _, gd⟩ := C01_sub_exact hd
  rw [hos] at ha'
  rw [hns] at hb'
  rw [gd]
  push_cast
  obtain ⟨a1, a2⟩ := _root_.abs_le.1 ha'
  obtain ⟨b1, b2⟩ := _root_.abs_le.1 hb'
  rw [_root_.abs_le]
  norm_num at a1 a2 b1 b2 ⊢
  constructor <;> linarith

/-- C79 for `c = 1`, the part that holds and what the code computes instead: with an accurate math library and root prices clear
of the powers of two the amount of X is `l / o * (ln old - ln new)` up to the logarithms' error; the amount of Y is
`l * o * (ln old - ln new)` up to the same, which is the negative of the right one (`C79_false`). -/
theorem C79_log_near {m : LibM} (hm : m.Accurate) {l old new o r : Decimal} {j k : ℤ} (hl : l.scale = 12) (hl0 : l.negative = false)
    (ho : o.negative = false) (hon : old.negative = false) (hos : old.scale = 12) (hov : old.value < u128Size)
    (hj1 : -6 ≤ j) (hj2 : j < 48) (hj : Between j old) (hnn : new.negative = false) (hns : new.scale = 12)
    (hnv : new.value < u128Size) (hk1 : -6 ≤ k) (hk2 : k < 48) (hk : Between k new) (hne : old.toRat ≠ new.toRat) :
    (dxFromLDrpHmm (floatLog m) l old new PoolMath.one o = .ok r →
      |(r.toRat : ℝ) - l.toRat / o.toRat * (Real.log old.toRat - Real.log new.toRat)|
        ≤ (l.toRat / o.toRat * 602 + |Real.log old.toRat - Real.log new.toRat| + 2) / 10 ^ 12) ∧
    (dyFromLDrpHmm (floatLog m) l old new PoolMath.one o = .ok r →
      |(r.toRat : ℝ) - l.toRat * o.toRat * (Real.log old.toRat - Real.log new.toRat)|
        ≤ (l.toRat * o.toRat * 602 + |Real.log old.toRat - Real.log new.toRat| + 2) / 10 ^ 12) := by
  obtain ⟨k1, k2, k3, k4⟩ := one_gates (c := PoolMath.one) rfl hne
  have hl' := nonneg_toRat hl0
  have ho' := nonneg_toRat ho
  have core : ∀ {p q : ℚ} {df r : Decimal}, 0 ≤ p → |q - p| ≤ ulp 12 → |r.toRat - q * df.toRat| ≤ ulp 12 →
      |(df.toRat : ℝ) - (Real.log old.toRat - Real.log new.toRat)| ≤ 602 / 10 ^ 12 →
      |(r.toRat : ℝ) - p * (Real.log old.toRat - Real.log new.toRat)| ≤
        (p * 602 + |Real.log old.toRat - Real.log new.toRat| + 2) / 10 ^ 12 := by
    intro p q df r hp hq hr hd
    generalize Real.log old.toRat - Real.log new.toRat = D at hd ⊢
    have hp' : (0 : ℝ) ≤ p := by exact_mod_cast hp
    have u : ((ulp 12 : ℚ) : ℝ) = 1 / 10 ^ 12 := by unfold ulp; push_cast; rfl
    have hq' : |(q : ℝ) - p| ≤ 1 / 10 ^ 12 := by
      have := (Rat.cast_le (K := ℝ)).mpr hq
      rw [u] at this; push_cast at this; exact this
    have hr' : |(r.toRat : ℝ) - q * df.toRat| ≤ 1 / 10 ^ 12 := by
      have := (Rat.cast_le (K := ℝ)).mpr hr
      rw [u] at this; push_cast at this; exact this
    have e : (r.toRat : ℝ) - p * D = (r.toRat - q * df.toRat) + ((q - p) * df.toRat + p * (df.toRat - D)) := by ring
    have hdf : |(df.toRat : ℝ)| ≤ |D| + 1 := by
      have := abs_add_le D ((df.toRat : ℝ) - D)
      rw [add_sub_cancel] at this
      refine this.trans (by linarith [hd.trans (show (602 : ℝ) / 10 ^ 12 ≤ 1 by norm_num)])
    rw [e]
    refine (abs_add_le _ _).trans ?_
    have s1 := abs_add_le (((q : ℝ) - p) * df.toRat) (p * ((df.toRat : ℝ) - D))
    rw [abs_mul, abs_mul, abs_of_nonneg hp'] at s1
    have s2 := mul_le_mul hq' hdf (abs_nonneg _) (by positivity)
    have s3 := mul_le_mul_of_nonneg_left hd hp'
    calc |(r.toRat : ℝ) - q * df.toRat| + |((q : ℝ) - p) * df.toRat + p * ((df.toRat : ℝ) - D)|
        ≤ 1 / 10 ^ 12 + (1 / 10 ^ 12 * (|D| + 1) + p * (602 / 10 ^ 12)) := by linarith
      _ = _ := by ring
  constructor
  · intro h
    unfold dxFromLDrpHmm at h
    rw [k1] at h
    simp only [bind_ok] at h
    obtain ⟨_, e, h⟩ := h; cases e
    rw [k2] at h
    obtain ⟨_, e, h⟩ := h; cases e
    rw [ite_bool rfl] at h
    simp only [bind_ok] at h
    obtain ⟨x, e, h⟩ := h
    rw [ite_bool (k4 _ (unwrap_ok.1 e))] at h
    simp only [bind_ok] at h
    obtain ⟨_, e, h⟩ := h; cases e
    rw [k3] at h
    obtain ⟨_, e, h⟩ := h; cases e
    rw [if_pos rfl] at h
    simp only [bind_ok, unwrap_ok] at h
    obtain ⟨a, ea, b, eb, df, g, h⟩ := h
    rw [ite_ok] at h
    rcases h with ⟨_, h⟩ | ⟨_, h⟩
    · cases h
    rw [bind_ok] at h
    obtain ⟨q, g2, g3⟩ := h
    have hdf := ln_diff hm hon hos hov hj1 hj2 hj hnn hns hnv hk1 hk2 hk ea eb g
    obtain ⟨q2, _, q3, _⟩ := div_trunc g2
    obtain ⟨m2, m3, _⟩ := mul_trunc g3
    rw [hl] at q2 q3
    rw [q2] at m3
    have := core (div_nonneg hl' ho') q3 m3 hdf
    push_cast at this
    exact this
  · intro h
    unfold dyFromLDrpHmm at h
    rw [k1] at h
    simp only [bind_ok] at h
    obtain ⟨_, e, h⟩ := h; cases e
    rw [k2] at h
    obtain ⟨_, e, h⟩ := h; cases e
    rw [ite_bool rfl] at h
    simp only [bind_ok] at h
    obtain ⟨x, e, h⟩ := h
    rw [ite_bool (k4 _ (unwrap_ok.1 e)), ite_ok] at h
    rcases h with ⟨_, h⟩ | ⟨_, h⟩
    · cases h
    simp only [bind_ok] at h
    obtain ⟨_, e, h⟩ := h; cases e
    rw [k3] at h
    obtain ⟨_, e, h⟩ := h; cases e
    rw [if_pos rfl] at h
    simp only [bind_ok, unwrap_ok] at h
    obtain ⟨a, ea, b, eb, df, g, q, g2, g3⟩ := h
    have hdf := ln_diff hm hon hos hov hj1 hj2 hj hnn hns hnv hk1 hk2 hk ea eb g
    obtain ⟨q2, q3, _⟩ := mul_trunc g2
    obtain ⟨m2, m3, _⟩ := mul_trunc g3
    rw [hl] at q2 q3
    rw [q2] at m3
    have := core (mul_nonneg hl' ho') q3 m3 hdf
    push_cast at this
    exact this

/-- A logarithm at twelve places stays below 35. -/
theorem ln_small {m : LibM} (hm : m.Accurate) {d : Decimal} {k : ℤ} (hn : d.negative = false) (hs : d.scale = 12)
    (hv : d.value < u128Size) (h1 : -6 ≤ k) (h2 : k < 48) (hd : Between k d) :
    ∃ a, d.ln (floatLog m) = .ok a ∧ a.scale = 12 ∧ a.value ≤ 35 * 10 ^ 12 := by
  obtain ⟨a, ea, as, ha⟩ := C98_ln_partial hm hn (by omega) hv h1 h2 hd
  rw [hs] at as ha
  refine ⟨a, ea, as, ?_⟩
  have lo : (2 : ℝ) ^ (-6 : ℤ) ≤ d.toRat := by
    refine le_trans (zpow_le_zpow_right₀ (by norm_num) h1) (le_trans ?_ hd.1)
    exact le_mul_of_one_le_right (by positivity) (by norm_num)
  have hi : (d.toRat : ℝ) ≤ 2 ^ (48 : ℤ) := by
    refine le_trans hd.2 (le_trans (mul_le_of_le_one_right (by positivity) (by norm_num)) ?_)
    exact zpow_le_zpow_right₀ (by norm_num) (by omega)
  have p0 : (0 : ℝ) < d.toRat := lt_of_lt_of_le (by positivity) lo
  have l1 := Real.log_le_log (by positivity) lo
  have l2 := Real.log_le_log p0 hi
  rw [Real.log_zpow] at l1 l2
  obtain ⟨t0', t1⟩ := log2_bounds
  push_cast at l1 l2
  have hb : |(a.toRat : ℝ)| ≤ 35 := by
    obtain ⟨a1, a2⟩ := _root_.abs_le.1 ha
    norm_num at a1 a2
    rw [_root_.abs_le]
    constructor <;> linarith
  have hb' : |a.toRat| ≤ 35 := by exact_mod_cast hb
  rw [abs_toRat, Decimal.mag, as, div_le_iff₀ (by positivity)] at hb'
  exact_mod_cast hb'

theorem mul_defined' {a b : Decimal} {n : ℕ} (hn : 10 ^ b.scale = n) (h : a.value * b.value < u128Size) (h' : n < u128Size) :
    ∃ q, a.mul b = .ok q ∧ q.value = a.value * b.value / n := by
  subst hn
  exact ⟨_, mul_ok.2 ⟨h, h', rfl⟩, rfl⟩

theorem mul_defined {a b : Decimal} (h : a.value * b.value < u128Size) (h' : 10 ^ b.scale < u128Size) :
    ∃ q, a.mul b = .ok q := ⟨_, mul_ok.2 ⟨h, h', rfl⟩⟩

theorem div_defined {a b : Decimal} {n : ℕ} (hn : 10 ^ b.scale = n) (h : a.value * n < u128Size) (h' : n < u128Size)
    (h0 : b.value ≠ 0) : ∃ q, a.div b = .ok q ∧ q.value = a.value * n / b.value := by
  subst hn
  exact ⟨_, div_ok.2 ⟨h, h', h0, rfl⟩, rfl⟩

/-- C79 for `c = 1`: which arguments give an amount at all. -/
theorem C79_log_defined {m : LibM} (hm : m.Accurate) {l old new o : Decimal} {j k : ℤ} (hos' : o.scale = 12) (ho : o.value ≠ 0)
    (hon : old.negative = false) (hos : old.scale = 12) (hov : old.value < u128Size)
    (hj1 : -6 ≤ j) (hj2 : j < 48) (hj : Between j old) (hnn : new.negative = false) (hns : new.scale = 12)
    (hnv : new.value < u128Size) (hk1 : -6 ≤ k) (hk2 : k < 48) (hk : Between k new) (hne : old.toRat ≠ new.toRat) :
    (l.value * 10 ^ 12 < u128Size → l.value * 10 ^ 12 / o.value ≤ 10 ^ 24 →
      ∃ r, dxFromLDrpHmm (floatLog m) l old new PoolMath.one o = .ok r) ∧
    (l.value * o.value < u128Size → l.value * o.value / 10 ^ 12 ≤ 10 ^ 24 →
      ∃ r, dyFromLDrpHmm (floatLog m) l old new PoolMath.one o = .ok r) := by
  obtain ⟨k1, k2, k3, k4⟩ := one_gates (c := PoolMath.one) rfl hne
  obtain ⟨a, ea, as, av⟩ := ln_small hm hon hos hov hj1 hj2 hj
  obtain ⟨b, eb, bs, bv⟩ := ln_small hm hnn hns hnv hk1 hk2 hk
  obtain ⟨e, he⟩ : ∃ e, old.eq new = .ok e := by
    unfold Decimal.eq; rw [if_neg (by simp [hos, hns])]; exact ⟨_, rfl⟩
  have he' := k4 e he
  subst he'
  obtain ⟨df, hd⟩ : ∃ df, a.sub b = .ok df := by
    cases h : a.sub b with
    | ok x => exact ⟨x, rfl⟩
    | error x =>
      exfalso
      rcases (C01_sub_fails a b x).1 h with ⟨h, _⟩ | ⟨_, _, h, _⟩
      · exact h (by rw [as, bs])
      · norm_num at h av bv; omega
  have dv : df.value ≤ 70 * 10 ^ 12 ∧ df.scale = 12 := by
    obtain ⟨_, _, h3, h4, _⟩ := sub_ok.1 hd
    refine ⟨?_, h3.trans as⟩
    have n1 : ∀ x : Decimal, x.sval.natAbs = x.value := by
      intro x; unfold sval; split <;> simp
    have := n1 df; have := n1 a; have := n1 b
    omega
  have u : (10 : ℕ) ^ 12 < u128Size := by decide
  have big : ∀ q, q ≤ 10 ^ 24 → q * df.value < u128Size := by
    intro q hq
    exact lt_of_le_of_lt (Nat.mul_le_mul hq dv.1) (by decide)
  have z : ∀ {x : Decimal} {i : ℤ}, Between i x → x.isZero = false := by
    intro x i hx
    rw [Bool.eq_false_iff]
    intro h
    have h0 : x.value = 0 := by simpa [isZero] using h
    have p : (0 : ℝ) < x.toRat := lt_of_lt_of_le (by positivity) hx.1
    rw [toRat_zero h0] at p
    norm_num at p
  have fin : ∀ q : Decimal, q.value ≤ 10 ^ 24 → ∃ r, q.mul df = .ok r := fun q hq =>
    mul_defined (big _ hq) (by rw [dv.2]; exact u)
  constructor
  · intro h1 h2
    obtain ⟨q, g1, g2⟩ := div_defined (a := l) (b := o) (n := 10 ^ 12) (by rw [hos']) h1 u ho
    obtain ⟨r, g3⟩ := fin q (by rw [g2]; exact h2)
    refine ⟨r, ?_⟩
    unfold dxFromLDrpHmm
    have zo : o.isZero = false := by simp [isZero, ho]
    simp only [k1, k2, k3, he, ea, eb, hd, g1, g3, zo, bind_eq, unwrap_eq, if_true, Bool.false_eq_true, if_false]
  · intro h1 h2
    obtain ⟨q, g1, g2⟩ := mul_defined' (a := l) (b := o) (n := 10 ^ 12) (by rw [hos']) h1 u
    obtain ⟨r, g3⟩ := fin q (by rw [g2]; exact h2)
    refine ⟨r, ?_⟩
    unfold dyFromLDrpHmm
    simp only [k1, k2, k3, he, ea, eb, hd, g1, g3, z hj, z hk, bind_eq, unwrap_eq, if_true, Bool.false_eq_true, if_false,
      Bool.or_false]

/-- C79 for `c = 1`, a case: liquidity 100, oracle 1, the root price rises from 1.5 to 3; both amounts are near `-100 * ln 2`. -/
theorem C79_log_case : ∃ x y, dxFromLDrpHmm (floatLog someLib) ⟨100000000000000, 12, false⟩ ⟨1500000000000, 12, false⟩
      ⟨3000000000000, 12, false⟩ PoolMath.one ⟨1000000000000, 12, false⟩ = .ok x ∧
    dyFromLDrpHmm (floatLog someLib) ⟨100000000000000, 12, false⟩ ⟨1500000000000, 12, false⟩
      ⟨3000000000000, 12, false⟩ PoolMath.one ⟨1000000000000, 12, false⟩ = .ok y ∧
    |(x.toRat : ℝ) + 100 * Real.log 2| ≤ 1 / 10 ^ 7 ∧ |(y.toRat : ℝ) + 100 * Real.log 2| ≤ 1 / 10 ^ 7 := by
  have b0 : Between 0 ⟨1500000000000, 12, false⟩ := between_intro (by norm_num) (by norm_num)
  have b1 : Between 1 ⟨3000000000000, 12, false⟩ := between_intro (by norm_num) (by norm_num)
  have hne : (Decimal.mk 1500000000000 12 false).toRat ≠ (Decimal.mk 3000000000000 12 false).toRat := by
    rw [toRat_mk, toRat_mk]; norm_num
  obtain ⟨d1, d2⟩ := C79_log_defined (l := ⟨100000000000000, 12, false⟩) (o := ⟨1000000000000, 12, false⟩) someLib_accurate rfl
    (by decide) rfl rfl (by decide) (by norm_num) (by norm_num) b0 rfl rfl (by decide) (by norm_num) (by norm_num) b1 hne
  obtain ⟨x, hx⟩ := d1 (by decide) (by decide)
  obtain ⟨y, hy⟩ := d2 (by decide) (by decide)
  have n1 := (C79_log_near (l := ⟨100000000000000, 12, false⟩) (o := ⟨1000000000000, 12, false⟩) (r := x) someLib_accurate rfl rfl rfl rfl rfl (by decide) (by norm_num) (by norm_num) b0 rfl rfl (by decide)
    (by norm_num) (by norm_num) b1 hne).1 hx
  have n2 := (C79_log_near (l := ⟨100000000000000, 12, false⟩) (o := ⟨1000000000000, 12, false⟩) (r := y) someLib_accurate rfl rfl rfl rfl rfl (by decide) (by norm_num) (by norm_num) b0 rfl rfl (by decide)
    (by norm_num) (by norm_num) b1 hne).2 hy
  have el : Real.log ((Decimal.mk 1500000000000 12 false).toRat : ℝ) - Real.log ((Decimal.mk 3000000000000 12 false).toRat : ℝ)
      = - Real.log 2 := by
    rw [toRat_mk, toRat_mk]
    push_cast
    rw [show (3000000000000 : ℝ) / 10 ^ 12 = 2 * (1500000000000 / 10 ^ 12) by norm_num, Real.log_mul (by norm_num) (by norm_num)]
    ring
  have q1 : ((Decimal.mk 100000000000000 12 false).toRat : ℝ) = 100 := by rw [toRat_mk]; push_cast; norm_num
  have q2 : ((Decimal.mk 1000000000000 12 false).toRat : ℝ) = 1 := by rw [toRat_mk]; push_cast; norm_num
  obtain ⟨t0', t1⟩ := log2_bounds
  have t0 : 0 < Real.log 2 := Real.log_pos (by norm_num)
  rw [el, q1, q2, abs_neg, abs_of_pos t0] at n1 n2
  have hb : ((100 : ℝ) / 1 * 602 + Real.log 2 + 2) / 10 ^ 12 ≤ 1 / 10 ^ 7 := by
    rw [div_le_div_iff₀ (by positivity) (by positivity)]; linarith
  have hb' : ((100 : ℝ) * 1 * 602 + Real.log 2 + 2) / 10 ^ 12 ≤ 1 / 10 ^ 7 := by
    rw [div_le_div_iff₀ (by positivity) (by positivity)]; linarith
  refine ⟨x, y, hx, hy, ?_, ?_⟩
  · refine le_trans (le_of_eq ?_) (n1.trans hb); congr 1; ring
  · refine le_trans (le_of_eq ?_) (n2.trans hb'); congr 1; ring

end Hmm.PoolMath
