import Verif.Proofs.SwapLoop
import Verif.Props.Swap

/-
What a whole swap charges: the fee as a share of the amount taken, and the HMM adjustment.
-/

namespace Hmm

namespace Decimal

theorem sign_case {a b c : Decimal} (h : c.negative = (a.negative ^^ b.negative)) {m : ℚ} (hm : c.mag = m) :
    c.toRat = m ∧ 0 ≤ a.toRat * b.toRat ∨ c.toRat = -m ∧ a.toRat * b.toRat ≤ 0 := by
  have ha := mag_nonneg a
  have hb := mag_nonneg b
  have := mul_nonneg ha hb
  subst hm
  unfold toRat
  unfold mag at *
  rw [h]
  cases a.negative <;> cases b.negative <;> simp_all

/-- A product is off by less than one unit. -/
theorem mul_err {a b c : Decimal} (h : a.mul b = .ok c) : |c.toRat - a.toRat * b.toRat| < ulp a.scale := by
  obtain ⟨_, h2, h3⟩ := mul_mag h
  have e : |a.toRat * b.toRat| = a.mag * b.mag := by rw [abs_mul, abs_toRat, abs_toRat]
  have h4 := floorAt_le (s := a.scale) (mul_nonneg (mag_nonneg a) (mag_nonneg b))
  have h5 := lt_floorAt_add (s := a.scale) (q := a.mag * b.mag)
  rw [← h3, ← e] at h4 h5
  rcases sign_case h2 rfl with ⟨k1, k2⟩ | ⟨k1, k2⟩
  · rw [abs_of_nonneg k2] at h4 h5
    rw [abs_lt, k1]; constructor <;> linarith [ulp_pos (s := a.scale)]
  · rw [abs_of_nonpos k2] at h4 h5
    rw [abs_lt, k1]; constructor <;> linarith [ulp_pos (s := a.scale)]

/-- A quotient is off by less than one unit. -/
theorem div_err {a b c : Decimal} (h : a.div b = .ok c) : |c.toRat - a.toRat / b.toRat| < ulp a.scale := by
  obtain ⟨_, _, h2, h3⟩ := div_mag h
  have e : |a.toRat / b.toRat| = a.mag / b.mag := by rw [abs_div, abs_toRat, abs_toRat]
  have h4 := floorAt_le (s := a.scale) (div_nonneg (mag_nonneg a) (mag_nonneg b))
  have h5 := lt_floorAt_add (s := a.scale) (q := a.mag / b.mag)
  rw [← h3, ← e] at h4 h5
  have key : c.toRat = c.mag ∧ 0 ≤ a.toRat / b.toRat ∨ c.toRat = -c.mag ∧ a.toRat / b.toRat ≤ 0 := by
    rcases sign_case h2 rfl with ⟨k1, k2⟩ | ⟨k1, k2⟩
    · left; exact ⟨k1, by rw [div_eq_mul_inv]; rcases mul_nonneg_iff.1 k2 with ⟨u, v⟩ | ⟨u, v⟩
                          · exact mul_nonneg u (inv_nonneg.2 v)
                          · exact mul_nonneg_of_nonpos_of_nonpos u (inv_nonpos.2 v)⟩
    · right; exact ⟨k1, by rw [div_eq_mul_inv]; rcases mul_nonpos_iff.1 k2 with ⟨u, v⟩ | ⟨u, v⟩
                           · exact mul_nonpos_of_nonneg_of_nonpos u (inv_nonpos.2 v)
                           · exact mul_nonpos_of_nonpos_of_nonneg u (inv_nonneg.2 v)⟩
  rcases key with ⟨k1, k2⟩ | ⟨k1, k2⟩
  · rw [abs_of_nonneg k2] at h4 h5
    rw [abs_lt, k1]; constructor <;> linarith [ulp_pos (s := a.scale)]
  · rw [abs_of_nonpos k2] at h4 h5
    rw [abs_lt, k1]; constructor <;> linarith [ulp_pos (s := a.scale)]

end Decimal

namespace Pool

open Decimal PoolMath

theorem one_scale : PoolMath.one.scale = 12 := by decide

theorem one_toRat : PoolMath.one.toRat = 1 := by
  have : PoolMath.one = ⟨10 ^ 12, 12, false⟩ := by decide
  rw [this, toRat_mk]; norm_num

/-- The fee of a step that stops inside the range. -/
theorem share_filled {dx rate ff m f : Decimal} (hd : dx.scale = 12) (h1 : PoolMath.one.sub rate = .ok ff)
    (h2 : dx.mul ff = .ok m) (h3 : dx.sub m = .ok f) :
    |f.toRat - rate.toRat * (m.toRat + f.toRat)| ≤ 2 * ulp 12 := by
  have e1 := sub_toRat h1
  rw [one_toRat] at e1
  have e3 := sub_toRat h3
  have e2 := mul_err h2
  rw [hd, e1] at e2
  have : f.toRat - rate.toRat * (m.toRat + f.toRat) = -(m.toRat - dx.toRat * (1 - rate.toRat)) := by
    rw [e3]; ring
  rw [this, abs_neg]
  linarith [ulp_pos (s := 12)]

/-- The fee of a step that reaches its goal. -/
theorem share_crossed {dx rate ff m d q f : Decimal} (hd : dx.scale = 12) (h0 : 0 ≤ dx.toRat)
    (hr : 0 ≤ rate.toRat) (h1 : PoolMath.one.sub rate = .ok ff) (h2 : dx.mul ff = .ok m) (hd0 : 0 ≤ d.toRat)
    (hlt : d.lt m = .ok true) (h3 : d.div ff = .ok q) (h4 : q.mul rate = .ok f) :
    |f.toRat - rate.toRat * (d.toRat + f.toRat)| ≤ 2 * ulp 12 := by
  have e1 := sub_toRat h1
  rw [one_toRat] at e1
  have hdm : d.scale = 12 := by
    obtain ⟨hs, _⟩ := lt_le hlt
    rw [hs, (mul_mag h2).1, hd]
  rcases hd0.eq_or_lt with hz | hd0
  · have hq : q.mag = 0 := by
      rw [(div_mag h3).2.2.2, ← abs_toRat d, ← hz]; simp [floorAt]
    have hf : f.mag = 0 := by
      rw [(mul_mag h4).2.2, hq]; simp [floorAt]
    have hf0 : f.toRat = 0 := by rw [← abs_eq_zero, abs_toRat, hf]
    rw [hf0, ← hz]
    have := ulp_pos 12
    simp only [add_zero, mul_zero, sub_zero, abs_zero]; linarith
  have hm0 : 0 < m.toRat := lt_of_lt_of_le hd0 ((lt_le hlt).2.1 rfl)
  have hff : 0 < ff.toRat := by
    by_contra hc
    rcases sign_case (mul_mag h2).2.1 rfl with ⟨k1, k2⟩ | ⟨k1, k2⟩
    · have hle : dx.toRat * ff.toRat ≤ 0 := mul_nonpos_of_nonneg_of_nonpos h0 (not_lt.1 hc)
      have hz : dx.toRat * ff.toRat = 0 := le_antisymm hle k2
      have hmag : dx.mag * ff.mag = 0 := by rw [← abs_toRat, ← abs_toRat, ← abs_mul, hz, abs_zero]
      have := (mul_mag h2).2.2
      rw [hmag] at this
      rw [k1, this] at hm0
      have := floorAt_le (s := dx.scale) (le_refl (0 : ℚ))
      linarith
    · have := mag_nonneg m
      linarith
  have e3 := div_err h3
  have e4 := mul_err h4
  rw [hdm] at e3
  rw [(div_mag h3).2.1, hdm] at e4
  have hff1 : ff.toRat ≤ 1 := by linarith
  have hr1 : rate.toRat ≤ 1 := by linarith
  have key : f.toRat - rate.toRat * (d.toRat + f.toRat) =
      ff.toRat * (f.toRat - q.toRat * rate.toRat) + ff.toRat * rate.toRat * (q.toRat - d.toRat / ff.toRat) := by
    have : ff.toRat * (d.toRat / ff.toRat) = d.toRat := by field_simp
    have e : rate.toRat = 1 - ff.toRat := by linarith
    calc _ = ff.toRat * f.toRat - rate.toRat * d.toRat := by rw [e]; ring
      _ = _ := by rw [← this]; field_simp; ring
  rw [key]
  have hu := ulp_pos (s := 12)
  have a1 : |ff.toRat * (f.toRat - q.toRat * rate.toRat)| ≤ ulp 12 := by
    rw [abs_mul, abs_of_pos hff]
    calc _ ≤ 1 * ulp 12 := mul_le_mul hff1 e4.le (abs_nonneg _) zero_le_one
      _ = _ := one_mul _
  have a2 : |ff.toRat * rate.toRat * (q.toRat - d.toRat / ff.toRat)| ≤ ulp 12 := by
    rw [abs_mul, abs_of_nonneg (mul_nonneg hff.le hr)]
    calc _ ≤ 1 * ulp 12 := mul_le_mul (mul_le_one₀ hff1 hr hr1) e3.le (abs_nonneg _) zero_le_one
      _ = _ := one_mul _
  have := abs_add_le (ff.toRat * (f.toRat - q.toRat * rate.toRat))
    (ff.toRat * rate.toRat * (q.toRat - d.toRat / ff.toRat))
  linarith

/-- Without a fee rate the steps charge nothing. -/
theorem free_filled {dx rate ff m f : Decimal} (hr : rate.toRat = 0)
    (h1 : PoolMath.one.sub rate = .ok ff) (h2 : dx.mul ff = .ok m) (h3 : dx.sub m = .ok f) : f.toRat = 0 := by
  have e1 := sub_toRat h1
  rw [one_toRat, hr, sub_zero] at e1
  have e3 := sub_toRat h3
  have hm := (mul_mag h2).2.2
  have hff : ff.mag = 1 := by rw [← abs_toRat, e1]; norm_num
  have hex : m.mag = dx.mag := by
    rw [hm, hff, mul_one]
    unfold mag floorAt
    rw [div_mul_cancel₀ _ (by positivity), Nat.floor_natCast]
  rcases sign_case (mul_mag h2).2.1 rfl with ⟨k1, k2⟩ | ⟨k1, k2⟩
  · rw [e1, mul_one] at k2
    rw [e3, k1, hex, ← abs_toRat, abs_of_nonneg k2]; ring
  · rw [e1, mul_one] at k2
    rw [e3, k1, hex, ← abs_toRat, abs_of_nonpos k2]; ring

theorem free_crossed {q rate f : Decimal} (hr : rate.toRat = 0) (h4 : q.mul rate = .ok f) : f.toRat = 0 := by
  have hmag : q.mag * rate.mag = 0 := by rw [← abs_toRat rate, hr]; simp
  have hm := (mul_mag h4).2.2
  rw [hmag] at hm
  have h0 : floorAt q.scale 0 = 0 := by simp [floorAt]
  rw [h0] at hm
  rw [← abs_eq_zero, abs_toRat, hm]

theorem rem_scale {dx a rem : Decimal} (ha : a.scale = 12) (h : dx.sub a = .ok rem) : rem.scale = 12 := by
  obtain ⟨h1, _, h2, _⟩ := sub_ok.1 h
  rw [h2, h1, ha]

theorem add_scale {a b c : Decimal} (h : a.add b = .ok c) : c.scale = a.scale := (add_ok.1 h).2.2.1

/-- The fee of one step of a sale of X is the rate's share of what the step takes, up to two units. -/
theorem share_stepX {fl : FloatEnv} {dx o : Decimal} {p p' : Pool} {a a' : SwapAcc} {g : Nat}
    (hr : 0 ≤ p.feeRate.toRat) (ha : a.recv.scale = 12) (h : stepX fl dx o p a g = .ok (p', a')) :
    a'.recv.scale = 12 ∧ p'.feeRate = p.feeRate ∧
    |a'.fee.toRat - a.fee.toRat - p.feeRate.toRat * (a'.recv.toRat - a.recv.toRat)| ≤ 2 * ulp 12 ∧
    (p.feeRate.toRat = 0 → a'.fee.toRat = a.fee.toRat) := by
  obtain ⟨rem, r, ysum, newY, c1, chk, rs, newX, xFee, yAdj, fees, p1, h1, h2, h3, h4, _, _, _, _, h9, h10,
    h11, h12, h13, h14, h15, h16, h17, _, h19, hp1, h21⟩ := stepX_ok h
  have hrem := rem_scale ha h1
  have hfr : p'.feeRate = p.feeRate := by
    rcases h21 with ⟨_, _, _, hc⟩ | ⟨_, _, _, rfl⟩ | ⟨_, rfl⟩
    · obtain ⟨b1, b2, b3, b4, b5, b6, b7, b8, b9, b10, b11, _⟩ := crossTick_frame hc
      rw [b10, hp1]
    · rw [hp1]
    · rw [hp1]
  refine ⟨by rw [add_scale h10, add_scale h9, ha], hfr, ?_⟩
  rw [add_toRat h10, add_toRat h9, add_toRat h13]
  obtain ⟨_, _, k0, k1, _⟩ := swapWithinX_ok h2
  obtain ⟨rg, ff, m, d, _, _, f1, f2, _, f4, ⟨f5, _, e, _, _, q, f6, f7⟩ | ⟨_, _, e, f6, _⟩⟩ := fillX_ok k1
  · have := share_crossed hrem k0 hr f1 f2 f4 f5 f6 f7
    rw [e]
    refine ⟨?_, fun hz => by rw [free_crossed hz f7, add_zero]⟩
    convert this using 2; ring
  · have := share_filled hrem f1 f2 f6
    rw [e]
    refine ⟨?_, fun hz => by rw [free_filled hz f1 f2 f6, add_zero]⟩
    convert this using 2; ring

theorem share_stepY {fl : FloatEnv} {dx o : Decimal} {p p' : Pool} {a a' : SwapAcc} {g : Nat}
    (hr : 0 ≤ p.feeRate.toRat) (ha : a.recv.scale = 12) (h : stepY fl dx o p a g = .ok (p', a')) :
    a'.recv.scale = 12 ∧ p'.feeRate = p.feeRate ∧
    |a'.fee.toRat - a.fee.toRat - p.feeRate.toRat * (a'.recv.toRat - a.recv.toRat)| ≤ 2 * ulp 12 ∧
    (p.feeRate.toRat = 0 → a'.fee.toRat = a.fee.toRat) := by
  obtain ⟨rem, r, ysum, newY, c1, chk, rs, newX, xFee, yAdj, fees, p1, h1, h2, h3, h4, _, _, _, _, h9, h10,
    h11, h12, h13, h14, h15, h16, h17, _, h19, hp1, h21⟩ := stepY_ok h
  have hrem := rem_scale ha h1
  have hfr : p'.feeRate = p.feeRate := by
    rcases h21 with ⟨_, _, _, hc⟩ | ⟨_, _, _, rfl⟩ | ⟨_, rfl⟩
    · obtain ⟨b1, b2, b3, b4, b5, b6, b7, b8, b9, b10, b11, _⟩ := crossTick_frame hc
      rw [b10, hp1]
    · rw [hp1]
    · rw [hp1]
  refine ⟨by rw [add_scale h10, add_scale h9, ha], hfr, ?_⟩
  rw [add_toRat h10, add_toRat h9, add_toRat h13]
  obtain ⟨_, _, k0, k1, _⟩ := swapWithinY_ok h2
  obtain ⟨rg, ff, m, d, _, _, f1, f2, _, f4, ⟨f5, _, e, _, _, q, f6, f7⟩ | ⟨_, _, e, f6, _⟩⟩ := fillY_ok k1
  · have := share_crossed hrem k0 hr f1 f2 f4 f5 f6 f7
    rw [e]
    refine ⟨?_, fun hz => by rw [free_crossed hz f7, add_zero]⟩
    convert this using 2; ring
  · have := share_filled hrem f1 f2 f6
    rw [e]
    refine ⟨?_, fun hz => by rw [free_filled hz f1 f2 f6, add_zero]⟩
    convert this using 2; ring

theorem share_runX {fl : FloatEnv} {dx o : Decimal} {p : Pool} {a : SwapAcc} {k : Nat} {res : R (Pool × SwapOutput)}
    (h : RunX fl dx o p a k res) : ∀ {p' r}, res = .ok (p', r) → 0 ≤ p.feeRate.toRat → a.recv.scale = 12 →
    |r.recvFee.toRat - a.fee.toRat - p.feeRate.toRat * (r.recv.toRat - a.recv.toRat)| ≤ 2 * k * ulp 12 ∧
    (p.feeRate.toRat = 0 → r.recvFee.toRat = a.fee.toRat) := by
  have fin : ∀ {p a p' r}, finishX p a = .ok (p', r) →
      r.recvFee.toRat - a.fee.toRat = 0 ∧ r.recv.toRat - a.recv.toRat = 0 := by
    intro p a p' r h
    obtain ⟨_, e1, _, _, e4, _⟩ := finishX_ok h
    rw [e1, e4, sub_self, sub_self]; exact ⟨rfl, rfl⟩
  induction h with
  | failTest _ => intro p' r h; cases h
  | done _ =>
    intro p' r h _ _
    obtain ⟨e1, e2⟩ := fin h
    rw [e1, e2]; exact ⟨by simp, fun _ => by linarith⟩
  | failGoal _ _ => intro p' r h; cases h
  | exhausted _ hg =>
    intro p' r h _ _
    obtain ⟨s1, e, _⟩ := goalX_ok hg
    obtain ⟨e1, e2⟩ := fin h
    rw [e] at e1 e2
    simp only at e1 e2
    rw [e1, e2]; exact ⟨by simp, fun _ => by linarith⟩
  | failStep _ _ _ => intro p' r h; cases h
  | @step p a p1 g a1 p2 a2 k res _ hg hs _ ih =>
    intro p' r h hr ha
    obtain ⟨s1, e, _⟩ := goalX_ok hg
    have ef := s1.feeRate
    have hr1 : 0 ≤ p1.feeRate.toRat := by rw [ef]; exact hr
    have e1 : a1.recv = a.recv := by rw [e]
    have e2 : a1.fee = a.fee := by rw [e]
    obtain ⟨k1, k2, k3, k4⟩ := share_stepX hr1 (by rw [e1]; exact ha) hs
    obtain ⟨m1, m2⟩ := ih h (by rw [k2]; exact hr1) k1
    rw [e1, e2, ef] at k3
    rw [e2, ef] at k4
    rw [k2, ef] at m1 m2
    refine ⟨?_, fun hz => (m2 hz).trans (k4 hz)⟩
    have := abs_add_le (r.recvFee.toRat - a2.fee.toRat - p.feeRate.toRat * (r.recv.toRat - a2.recv.toRat))
      (a2.fee.toRat - a.fee.toRat - p.feeRate.toRat * (a2.recv.toRat - a.recv.toRat))
    have e : r.recvFee.toRat - a.fee.toRat - p.feeRate.toRat * (r.recv.toRat - a.recv.toRat) =
      (r.recvFee.toRat - a2.fee.toRat - p.feeRate.toRat * (r.recv.toRat - a2.recv.toRat)) +
      (a2.fee.toRat - a.fee.toRat - p.feeRate.toRat * (a2.recv.toRat - a.recv.toRat)) := by ring
    rw [e]
    push_cast
    linarith

theorem share_runY {fl : FloatEnv} {dx o : Decimal} {p : Pool} {a : SwapAcc} {k : Nat} {res : R (Pool × SwapOutput)}
    (h : RunY fl dx o p a k res) : ∀ {p' r}, res = .ok (p', r) → 0 ≤ p.feeRate.toRat → a.recv.scale = 12 →
    |r.recvFee.toRat - a.fee.toRat - p.feeRate.toRat * (r.recv.toRat - a.recv.toRat)| ≤ 2 * k * ulp 12 ∧
    (p.feeRate.toRat = 0 → r.recvFee.toRat = a.fee.toRat) := by
  have fin : ∀ {p a p' r}, finishY p a = .ok (p', r) →
      r.recvFee.toRat - a.fee.toRat = 0 ∧ r.recv.toRat - a.recv.toRat = 0 := by
    intro p a p' r h
    obtain ⟨_, e1, _, _, e4, _⟩ := finishY_ok h
    rw [e1, e4, sub_self, sub_self]; exact ⟨rfl, rfl⟩
  induction h with
  | failTest _ => intro p' r h; cases h
  | done _ =>
    intro p' r h _ _
    obtain ⟨e1, e2⟩ := fin h
    rw [e1, e2]; exact ⟨by simp, fun _ => by linarith⟩
  | failGoal _ _ => intro p' r h; cases h
  | exhausted _ hg =>
    intro p' r h _ _
    obtain ⟨s1, e, _⟩ := goalY_ok hg
    obtain ⟨e1, e2⟩ := fin h
    rw [e] at e1 e2
    simp only at e1 e2
    rw [e1, e2]; exact ⟨by simp, fun _ => by linarith⟩
  | failStep _ _ _ => intro p' r h; cases h
  | @step p a p1 g a1 p2 a2 k res _ hg hs _ ih =>
    intro p' r h hr ha
    obtain ⟨s1, e, _⟩ := goalY_ok hg
    have ef := s1.feeRate
    have hr1 : 0 ≤ p1.feeRate.toRat := by rw [ef]; exact hr
    have e1 : a1.recv = a.recv := by rw [e]
    have e2 : a1.fee = a.fee := by rw [e]
    obtain ⟨k1, k2, k3, k4⟩ := share_stepY hr1 (by rw [e1]; exact ha) hs
    obtain ⟨m1, m2⟩ := ih h (by rw [k2]; exact hr1) k1
    rw [e1, e2, ef] at k3
    rw [e2, ef] at k4
    rw [k2, ef] at m1 m2
    refine ⟨?_, fun hz => (m2 hz).trans (k4 hz)⟩
    have := abs_add_le (r.recvFee.toRat - a2.fee.toRat - p.feeRate.toRat * (r.recv.toRat - a2.recv.toRat))
      (a2.fee.toRat - a.fee.toRat - p.feeRate.toRat * (a2.recv.toRat - a.recv.toRat))
    have e : r.recvFee.toRat - a.fee.toRat - p.feeRate.toRat * (r.recv.toRat - a.recv.toRat) =
      (r.recvFee.toRat - a2.fee.toRat - p.feeRate.toRat * (r.recv.toRat - a2.recv.toRat)) +
      (a2.fee.toRat - a.fee.toRat - p.feeRate.toRat * (a2.recv.toRat - a.recv.toRat)) := by ring
    rw [e]
    push_cast
    linarith

/-! ### The HMM adjustment -/

theorem adj_stepX {fl : FloatEnv} {dx o : Decimal} {p p' : Pool} {a a' : SwapAcc} {g : Nat}
    (h : stepX fl dx o p a g = .ok (p', a')) : p'.c = p.c ∧ a.adj.toRat ≤ a'.adj.toRat ∧
      (p.c.toRat = 0 ∨ o.toRat = 0 → a'.adj.toRat = a.adj.toRat) := by
  obtain ⟨rem, r, ysum, newY, c1, chk, rs, newX, xFee, yAdj, fees, p1, h1, h2, h3, h4, _, _, _, _, h9, h10,
    h11, h12, h13, h14, h15, h16, h17, _, h19, hp1, h21⟩ := stepX_ok h
  have hc : p'.c = p.c := by
    rcases h21 with ⟨_, _, _, hc⟩ | ⟨_, _, _, rfl⟩ | ⟨_, rfl⟩
    · obtain ⟨b1, b2, b3, b4, b5, b6, b7, b8, b9, b10, b11, _⟩ := crossTick_frame hc
      rw [b9, hp1]
    · rw [hp1]
    · rw [hp1]
  obtain ⟨cp, _, _, _, _, k1, k2, _, _, _, _, _, k3, _⟩ := swapWithinX_ok h2
  refine ⟨hc, by rw [add_toRat h12]; linarith, fun hz => ?_⟩
  have : p.c.isZero || o.isZero := by
    rcases hz with hz | hz
    · rw [isZero_toRat.2 hz]; rfl
    · rw [isZero_toRat.2 hz]; simp
  unfold doneDyX at k1
  rw [if_pos this, pure_ok] at k1
  rw [add_toRat h12, sub_toRat k2, k1]; ring

theorem adj_stepY {fl : FloatEnv} {dx o : Decimal} {p p' : Pool} {a a' : SwapAcc} {g : Nat}
    (h : stepY fl dx o p a g = .ok (p', a')) : p'.c = p.c ∧ a.adj.toRat ≤ a'.adj.toRat ∧
      (p.c.toRat = 0 ∨ o.toRat = 0 → a'.adj.toRat = a.adj.toRat) := by
  obtain ⟨rem, r, ysum, newY, c1, chk, rs, newX, xFee, yAdj, fees, p1, h1, h2, h3, h4, _, _, _, _, h9, h10,
    h11, h12, h13, h14, h15, h16, h17, _, h19, hp1, h21⟩ := stepY_ok h
  have hc : p'.c = p.c := by
    rcases h21 with ⟨_, _, _, hc⟩ | ⟨_, _, _, rfl⟩ | ⟨_, rfl⟩
    · obtain ⟨b1, b2, b3, b4, b5, b6, b7, b8, b9, b10, b11, _⟩ := crossTick_frame hc
      rw [b9, hp1]
    · rw [hp1]
    · rw [hp1]
  obtain ⟨cp, _, _, _, _, k1, k2, _, _, _, _, _, k3, _⟩ := swapWithinY_ok h2
  refine ⟨hc, by rw [add_toRat h12]; linarith, fun hz => ?_⟩
  have : p.c.isZero || o.isZero := by
    rcases hz with hz | hz
    · rw [isZero_toRat.2 hz]; rfl
    · rw [isZero_toRat.2 hz]; simp
  unfold doneDxY at k1
  rw [if_pos this, pure_ok] at k1
  rw [add_toRat h12, sub_toRat k2, k1]; ring

/-- The adjustment is never negative, and zero without an HMM parameter or an oracle price. -/
theorem adj_sellX {fl : FloatEnv} {dx o : Decimal} {p p' : Pool} {r : SwapOutput}
    (h : p.executeSwapFromX fl dx o = .ok (p', r)) : 0 ≤ r.sendHmmAdj.toRat ∧
      (p.c.toRat = 0 ∨ o.toRat = 0 → r.sendHmmAdj.toRat = 0) := by
  unfold executeSwapFromX at h
  rw [ite_ok] at h
  rcases h with ⟨_, h⟩ | ⟨_, h⟩
  · simp [rpanic] at h
  have h0 : p.acc0.adj.toRat = 0 := zero_toRat
  obtain ⟨a', ⟨_, k1, k2⟩, hf, _⟩ := loopX_inv (P := fun q a => q.c = p.c ∧ 0 ≤ a.adj.toRat ∧
      (p.c.toRat = 0 ∨ o.toRat = 0 → a.adj.toRat = 0))
    (fun hP hg => by
      obtain ⟨s1, e, _⟩ := goalX_ok hg
      rw [s1.c, e]; exact hP)
    (fun _ hP hs => by
      obtain ⟨e1, e2, e3⟩ := adj_stepX hs
      refine ⟨e1.trans hP.1, le_trans hP.2.1 e2, fun hz => ?_⟩
      rw [e3 (by rw [hP.1]; exact hz), hP.2.2 hz]) ⟨rfl, h0.ge, fun _ => h0⟩ h
  obtain ⟨_, _, _, e3, _⟩ := finishX_ok hf
  rw [e3]
  exact ⟨k1, k2⟩

theorem adj_sellY {fl : FloatEnv} {dx o : Decimal} {p p' : Pool} {r : SwapOutput}
    (h : p.executeSwapFromY fl dx o = .ok (p', r)) : 0 ≤ r.sendHmmAdj.toRat ∧
      (p.c.toRat = 0 ∨ o.toRat = 0 → r.sendHmmAdj.toRat = 0) := by
  unfold executeSwapFromY at h
  rw [ite_ok] at h
  rcases h with ⟨_, h⟩ | ⟨_, h⟩
  · simp [rpanic] at h
  have h0 : p.acc0.adj.toRat = 0 := zero_toRat
  obtain ⟨a', ⟨_, k1, k2⟩, hf, _⟩ := loopY_inv (P := fun q a => q.c = p.c ∧ 0 ≤ a.adj.toRat ∧
      (p.c.toRat = 0 ∨ o.toRat = 0 → a.adj.toRat = 0))
    (fun hP hg => by
      obtain ⟨s1, e, _⟩ := goalY_ok hg
      rw [s1.c, e]; exact hP)
    (fun _ hP hs => by
      obtain ⟨e1, e2, e3⟩ := adj_stepY hs
      refine ⟨e1.trans hP.1, le_trans hP.2.1 e2, fun hz => ?_⟩
      rw [e3 (by rw [hP.1]; exact hz), hP.2.2 hz]) ⟨rfl, h0.ge, fun _ => h0⟩ h
  obtain ⟨_, _, _, e3, _⟩ := finishY_ok hf
  rw [e3]
  exact ⟨k1, k2⟩

end Pool

end Hmm
