import Verif.Props.Ln
import Verif.Proofs.Ticks

/-
C100: the tick of a root price by logarithms.
-/

namespace Hmm.PoolMath

open Decimal

/-- The logarithm of the root price of tick one, half that of 1.0001. -/
noncomputable def rootLog : ℝ := Real.log (10001 / 10000) / 2

theorem rootLog_near : (49997499 : ℝ) / 10 ^ 12 ≤ rootLog ∧ rootLog ≤ 49997501 / 10 ^ 12 := by
  obtain ⟨v, hv, h1, h2⟩ := logTable_near (row := 0) (col := 3) (by norm_num) (by norm_num)
  have e : v = 99995000 := by
    have : logTable 0 3 = .ok 99995000 := by decide
    rw [this] at hv; cases hv; rfl
  subst e
  have ea : (1 : ℝ) + ((tableArg 0 3 : ℚ) : ℝ) = 10001 / 10000 := by unfold tableArg; push_cast; norm_num
  rw [ea] at h1 h2
  unfold rootLog
  norm_num at h1 h2 ⊢
  constructor <;> linarith

/-- Logarithms of decimals between one and two. -/
theorem ln_unit {m : LibM} (hm : m.Accurate) {v s : ℕ} {r : Decimal} (hs : s ≤ 36) (hv : v < u128Size) (hd : Between 0 ⟨v, s, false⟩)
    (e1 : (Decimal.mk v s false).bitLength (fun _ _ => (0, false)) = .ok ⟨0, 0, false⟩)
    (e2 : (Decimal.mk v s false).bitLength (fun _ _ => (0, true)) = .ok ⟨0, 0, true⟩)
    (h1 : (Decimal.mk v s false).ln (fun _ _ => (0, false)) = .ok r)
    (h2 : (Decimal.mk v s false).ln (fun _ _ => (0, true)) = .ok r) : (Decimal.mk v s false).ln (floatLog m) = .ok r := by
  obtain ⟨bl, hb, hbs, hbk⟩ := C98_bit_length (d := ⟨v, s, false⟩) (k := 0) hm rfl hs hv (by norm_num) (by norm_num) hd
  obtain ⟨bv, bs, bn⟩ := bl
  simp only at hbs
  subst hbs
  have hv : bv = 0 := by
    cases bn
    · rw [toRat_mk, pow_zero, div_one] at hbk
      exact_mod_cast hbk
    · rw [toRat_mk_neg, pow_zero, div_one, neg_eq_iff_eq_neg] at hbk
      have : (bv : ℚ) = 0 := by rw [hbk]; norm_num
      exact_mod_cast this
  subst hv
  cases bn
  · rw [ln_congr (hb.trans e1.symm), h1]
  · rw [ln_congr (hb.trans e2.symm), h2]

/-- The logarithm the code divides by. -/
theorem root_ln {m : LibM} (hm : m.Accurate) : (root).ln (floatLog m) = .ok ⟨49997456, 12, false⟩ :=
  ln_unit hm (by norm_num) (by decide) (between_intro (by norm_num) (by norm_num)) (by decide +kernel) (by decide +kernel)
    (by decide +kernel) (by decide +kernel)

/-- Rounding up at twelve places and cutting to a whole number is cutting. -/
theorem up_cut {A B : ℕ} (h0 : 0 < B) (hB : B ≤ 10 ^ 12) :
    (A * 10 ^ 12 + (B - 1)) / B / 10 ^ 12 = A / B ∧ A * 10 ^ 12 / B / 10 ^ 12 = A / B := by
  constructor
  · rw [Nat.div_div_eq_div_mul]
    have hd := Nat.div_add_mod A B
    have hm := Nat.mod_lt A h0
    apply Nat.div_eq_of_lt_le
    · calc A / B * (B * 10 ^ 12) = B * (A / B) * 10 ^ 12 := by ring
        _ ≤ A * 10 ^ 12 := Nat.mul_le_mul_right _ (by omega)
        _ ≤ _ := Nat.le_add_right _ _
    · have : A + 1 ≤ B * (A / B) + B := by omega
      calc A * 10 ^ 12 + (B - 1) < A * 10 ^ 12 + 10 ^ 12 := by omega
        _ = (A + 1) * 10 ^ 12 := by ring
        _ ≤ (B * (A / B) + B) * 10 ^ 12 := Nat.mul_le_mul_right _ this
        _ = (A / B + 1) * (B * 10 ^ 12) := by ring
  · rw [Nat.div_div_eq_div_mul, Nat.mul_div_mul_right _ _ (by norm_num)]

/-- C100, the part that holds: for root prices from 1/64 up to `2^48`, clear of the powers of two, and an accurate math library,
`rp_to_tick` gives, in both directions, the distance in ticks of the root price from one, cut to a whole number, with a further error of at
most one part in a million.  Missing: ticks below zero (the sign of the logarithm is dropped, `C100_below_one`), rounding up from
left to right (`C100_false`). -/
theorem C100_partial {m : LibM} (hm : m.Accurate) {rp : Decimal} {k : ℤ} (hn : rp.negative = false) (hs : rp.scale = 12)
    (hv : rp.value < u128Size) (h1 : -6 ≤ k) (h2 : k < 48) (hd : Between k rp) :
    ∃ t : ℕ, (∀ ltr, rpToTick (floatLog m) rp ltr = .ok t) ∧
      |(t : ℝ) - |Real.log rp.toRat| / rootLog| ≤ 1 + 1 / 10 ^ 5 + |Real.log rp.toRat| / rootLog / 10 ^ 6 := by
  obtain ⟨r, er, rs, re⟩ := C98_ln_partial hm hn (by omega) hv h1 h2 hd
  rw [hs] at rs re
  obtain ⟨A, s, n⟩ := r
  simp only at rs
  subst rs
  obtain ⟨L, hL⟩ : ∃ L : ℝ, L = |Real.log rp.toRat| := ⟨_, rfl⟩
  have hA : |(A : ℝ) / 10 ^ 12 - L| ≤ 301 / 10 ^ 12 := by
    have e : |((Decimal.mk A 12 n).toRat : ℝ)| = (A : ℝ) / 10 ^ 12 := by
      have : |(Decimal.mk A 12 n).toRat| = (A : ℚ) / 10 ^ 12 := by rw [abs_toRat]; rfl
      have h : ((|(Decimal.mk A 12 n).toRat| : ℚ) : ℝ) = ((A : ℚ) / 10 ^ 12 : ℚ) := by rw [this]
      push_cast at h
      exact h
    rw [← e, hL]
    refine (abs_abs_sub_abs_le _ _).trans (re.trans ?_)
    norm_num
  have hL40 : L ≤ 40 := by
    have lg := log2_bounds
    have p : (0 : ℝ) < rp.toRat := lt_of_lt_of_le (by positivity) hd.1
    rw [hL, _root_.abs_le]
    have a : Real.log rp.toRat ≤ Real.log (2 ^ (k + 1)) := Real.log_le_log p (by
      refine hd.2.trans ?_
      have : (2 : ℝ) ^ (k + 1) * (1 - 1 / 2 ^ 40) ≤ 2 ^ (k + 1) * 1 := mul_le_mul_of_nonneg_left (by norm_num) (by positivity)
      linarith)
    have b : Real.log (2 ^ k) ≤ Real.log rp.toRat := Real.log_le_log (by positivity) (by
      refine le_trans ?_ hd.1
      have : (2 : ℝ) ^ k * 1 ≤ 2 ^ k * (1 + 1 / 2 ^ 40) := mul_le_mul_of_nonneg_left (by norm_num) (by positivity)
      linarith)
    rw [Real.log_zpow] at a b
    have k1 : (-6 : ℝ) ≤ k := by exact_mod_cast h1
    have k2 : ((k + 1 : ℤ) : ℝ) ≤ 48 := by exact_mod_cast (by omega : k + 1 ≤ 48)
    constructor
    · nlinarith
    · nlinarith
  have L0 : 0 ≤ L := by rw [hL]; exact abs_nonneg _
  obtain ⟨a1, a2⟩ := _root_.abs_le.1 hA
  have hAb : A < 10 ^ 14 := by
    have : (A : ℝ) / 10 ^ 12 < 41 := by norm_num at a2 ⊢; linarith
    rw [div_lt_iff₀ (by positivity)] at this
    have : (A : ℝ) < 10 ^ 14 := by norm_num at this ⊢; linarith
    exact_mod_cast this
  have big : A * 10 ^ 12 + (49997456 - 1) < 10 ^ 38 := by omega
  have p12 : 10 ^ 12 < u128Size := by decide
  have hbase := root_ln hm
  refine ⟨A / 49997456, fun ltr => ?_, ?_⟩
  · unfold rpToTick
    rw [tickBaseRoot_eq, bind_eq, er, unwrap_eq, bind_eq, hbase, unwrap_eq, bind_eq]
    obtain ⟨u1, u2⟩ := up_cut (A := A) (B := 49997456) (by norm_num) (by norm_num)
    cases ltr
    · have e := div_ok.2 ⟨(lt_of_le_of_lt (Nat.le_add_right _ _) (lt_trans big u128_big) :
        (Decimal.mk A 12 n).value * 10 ^ (Decimal.mk 49997456 12 false).scale < u128Size), p12, by norm_num, rfl⟩
      have e2 := toScale_zero (w := A * 10 ^ 12 / 49997456) (s := 12) (!(n == false)) (by norm_num)
        (lt_of_le_of_lt ((Nat.div_le_self _ _).trans (Nat.le_add_right _ _)) (lt_trans big u128_big))
      rw [if_neg (by simp), e, bind_eq, e2, bind_eq, u2]
      rfl
    · have e := divUp_ok.2 ⟨((lt_trans big u128_big) :
        (Decimal.mk A 12 n).value * 10 ^ (Decimal.mk 49997456 12 false).scale + ((Decimal.mk 49997456 12 false).value - 1) <
          u128Size), p12, by norm_num, rfl⟩
      have e2 := toScale_zero (w := (A * 10 ^ 12 + (49997456 - 1)) / 49997456) (s := 12) (!(n == false)) (by norm_num)
        (lt_of_le_of_lt (Nat.div_le_self _ _) (lt_trans big u128_big))
      rw [if_pos rfl, e, bind_eq, e2, bind_eq, u1]
      rfl
  · obtain ⟨g1, g2⟩ := rootLog_near
    have g0 : 0 < rootLog := lt_of_lt_of_le (by norm_num) g1
    rw [← hL]
    have q0 : 0 ≤ L / rootLog := div_nonneg L0 g0.le
    obtain ⟨x, hx⟩ : ∃ x : ℝ, x = L / rootLog := ⟨_, rfl⟩
    have hxL : L = x * rootLog := by rw [hx]; field_simp
    rw [← hx] at q0 ⊢
    have t1 : ((A / 49997456 : ℕ) : ℝ) ≤ (A : ℝ) / 49997456 := by
      have := Nat.cast_div_le (α := ℝ) (m := A) (n := 49997456); push_cast at this; exact this
    have t2 : (A : ℝ) / 49997456 < ((A / 49997456 : ℕ) : ℝ) + 1 := by
      rw [div_lt_iff₀ (by norm_num)]
      exact_mod_cast lt_next A (by norm_num : 0 < 49997456)
    have c1 : x * (49997499 / 10 ^ 12) ≤ L := by rw [hxL]; exact mul_le_mul_of_nonneg_left g1 q0
    have c2 : L ≤ x * (49997501 / 10 ^ 12) := by rw [hxL]; exact mul_le_mul_of_nonneg_left g2 q0
    rw [_root_.abs_le]
    norm_num at a1 a2 c1 c2 t1 t2 ⊢
    constructor <;> linarith

/-- C100 is false of the code, the direction: 1.00006 lies between ticks 1 and 2, and is taken to tick 1 from left to right as
well, with every accurate library. -/
theorem C100_false {m : LibM} (hm : m.Accurate) : rpToTick (floatLog m) ⟨1000060000000, 12, false⟩ true = .ok 1 ∧
    rootLog < Real.log (Decimal.mk 1000060000000 12 false).toRat := by
  have ha := ln_unit (v := 1000060000000) (s := 12) (r := ⟨59998200, 12, false⟩) hm (by norm_num) (by decide)
    (between_intro (by norm_num) (by norm_num)) (by decide +kernel) (by decide +kernel) (by decide +kernel) (by decide +kernel)
  constructor
  · unfold rpToTick
    rw [tickBaseRoot_eq, bind_eq, ha, unwrap_eq, bind_eq, root_ln hm, unwrap_eq, bind_eq]
    decide +kernel
  · rw [toRat_mk]
    have := Real.one_sub_inv_le_log_of_pos (show (0 : ℝ) < 1000060000000 / 10 ^ 12 by norm_num)
    refine lt_of_le_of_lt rootLog_near.2 (lt_of_lt_of_le ?_ (by push_cast; exact this))
    norm_num

/-- C100 is false of the code, prices below one: 0.6 is taken to a tick above 7000, whose root price is above one, with every
accurate library. -/
theorem C100_below_one {m : LibM} (hm : m.Accurate) : ∃ t, (∀ ltr, rpToTick (floatLog m) ⟨600000000000, 12, false⟩ ltr = .ok t) ∧
    7000 ≤ t ∧ Real.log (Decimal.mk 600000000000 12 false).toRat < 0 := by
  obtain ⟨t, h, he⟩ := C100_partial (rp := ⟨600000000000, 12, false⟩) (k := -1) hm rfl rfl (by decide) (by norm_num) (by norm_num)
    (between_intro (by norm_num) (by norm_num))
  have e : (((Decimal.mk 600000000000 12 false).toRat : ℚ) : ℝ) = 6 / 10 := by rw [toRat_mk]; push_cast; norm_num
  rw [e] at he ⊢
  have h1 := Real.log_le_sub_one_of_pos (show (0 : ℝ) < 6 / 10 by norm_num)
  have hneg : Real.log (6 / 10 : ℝ) < 0 := by linarith
  refine ⟨t, h, ?_, hneg⟩
  rw [abs_of_neg hneg] at he
  obtain ⟨g1, g2⟩ := rootLog_near
  have g0 : 0 < rootLog := lt_of_lt_of_le (by norm_num) g1
  have hx : 8000 ≤ -Real.log (6 / 10 : ℝ) / rootLog := by
    rw [le_div_iff₀ g0]
    norm_num at g2 h1 ⊢
    linarith
  obtain ⟨he1, _⟩ := _root_.abs_le.1 he
  generalize -Real.log (6 / 10 : ℝ) / rootLog = y at hx he1
  have : (7000 : ℝ) ≤ t := by norm_num at he1; linarith
  exact_mod_cast this

/-- C100, a case: the root price of tick 1000, with an accurate library. -/
theorem C100_case : someLib.Accurate ∧ Between 0 ⟨1051268467444, 12, false⟩ ∧ tickToRp 1000 = .ok ⟨1051268467444, 12, false⟩ ∧
    rpToTick (floatLog someLib) ⟨1051268467444, 12, false⟩ false = .ok 1000 := by
  have hb : Between 0 ⟨1051268467444, 12, false⟩ := between_intro (by norm_num) (by norm_num)
  refine ⟨someLib_accurate, hb, by decide +kernel, ?_⟩
  unfold rpToTick
  rw [tickBaseRoot_eq, bind_eq, ln_unit (r := ⟨49997499177, 12, false⟩) someLib_accurate (by norm_num) (by decide) hb (by decide +kernel)
    (by decide +kernel) (by decide +kernel) (by decide +kernel), unwrap_eq, bind_eq, root_ln someLib_accurate, unwrap_eq, bind_eq]
  decide +kernel

end Hmm.PoolMath
