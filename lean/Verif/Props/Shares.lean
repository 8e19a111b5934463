import Verif.Props.Solvency
import Verif.Proofs.PriceFloor

/-
C73, C74: what a withdrawal pays and what a deposit takes, against the exact formulas.
-/

namespace Hmm.Pool

open Decimal PoolMath
open Hmm.Sample hiding get

/-! ### C73: a withdrawal pays the whole share -/

/-- C73: a withdrawal pays from each reserve the exact share of the liquidity withdrawn, less at most one
part in 10^12 and a few units of the twelfth place; it never pays more; and it pays the fees on top. -/
theorem C73_pays {p p' : Pool} (hp : Reachable p) {user : Nat} {liq rpa rpb : Decimal} {r : Receipt}
    (h : p.withdraw user liq rpa rpb = .ok (p', r)) :
    ∃ lower upper, p.rpToPossibleTick rpa false 0 = .ok lower ∧ p.rpToPossibleTick rpb false lower = .ok upper ∧
      p'.x.toRat = p.x.toRat - r.x.toRat ∧ p'.y.toRat = p.y.toRat - r.y.toRat ∧
      r.totalX.toRat = r.x.toRat + r.fees.fx.toRat + r.fees.hx.toRat ∧
      r.totalY.toRat = r.y.toRat + r.fees.fy.toRat + r.fees.hy.toRat ∧
      shareX liq.toRat p.gs.rp.toRat lower upper * (1 - 1 / 10 ^ 12) - 3 / 10 ^ 12 < r.x.toRat ∧
      r.x.toRat ≤ shareX liq.toRat p.gs.rp.toRat lower upper ∧
      shareY liq.toRat p.gs.rp.toRat lower upper * (1 - 1 / 10 ^ 12) - 2 / 10 ^ 12 < r.y.toRat ∧
      r.y.toRat ≤ shareY liq.toRat p.gs.rp.toRat lower upper := by
  have ht := Tidy.reachable hp
  have hx := ht.x.1
  have hy := ht.y.1
  obtain ⟨lower, upper, a, b, p1, p2, x0, y0, adj, px, py, hl, g1, g2, g3, g4, g5, h1, hrx, hry, hadj, hmx, hmy, t1, t2,
    _, _, h2, h3, h4, rfl⟩ := withdraw_ok h
  have hf := setPosition_frame h1
  have hpx : p1.x = p.x := by rw [hf]
  have hpy : p1.y = p.y := by rw [hf]
  have hab := price_mono g3.le g4 g5
  have hrp1 : p1.gs.rp = p.gs.rp := by rw [hf]
  rw [hrp1] at hrx hry
  refine ⟨lower, upper, g1, g2, ?_, ?_, t1, t2, ?_⟩
  · simp only; rw [sub_toRat h2, hpx]
  · simp only; rw [sub_toRat h3, hpy]
  have hadj' : adj.toRat = 1 - ulp 12 := by
    have : PoolMath.one.sub adjWithdrawal = .ok ⟨999999999999, 12, false⟩ := by decide +kernel
    rw [this] at hadj; cases hadj
    rw [toRat_mk]; unfold ulp; norm_num
  have hu : 0 < 1 - ulp 12 := by unfold ulp; norm_num
  have hy0 : y0.scale = 12 := by rw [← (mul_mag hmy).1, ← (sub_ok.1 h3).1, hpy]; exact hy
  have hx0 : x0.scale = 12 := by rw [← (mul_mag hmx).1, ← (sub_ok.1 h2).1, hpx]; exact hx
  obtain ⟨y0', y1, y2⟩ := y_amount hry hy0 hl hab
  obtain ⟨x0', x1, x2⟩ := x_amount hrx hx0 hl (tickToRp_pos g5).1.1 (tickPrice_ge g4) hab
  obtain ⟨_, mx, mx'⟩ := mul_down hmx (mul_nonneg x0' (by rw [hadj']; exact hu.le))
  obtain ⟨_, my, my'⟩ := mul_down hmy (mul_nonneg y0' (by rw [hadj']; exact hu.le))
  rw [hadj'] at mx my mx' my'
  rw [hx0] at mx'
  rw [hy0] at my'
  unfold shareX shareY
  rw [tickPrice_eq g4, tickPrice_eq g5]
  generalize (1 / clampTo p.gs.rp.toRat a.toRat b.toRat - 1 / b.toRat) * liq.toRat = X at *
  generalize (clampTo p.gs.rp.toRat a.toRat b.toRat - a.toRat) * liq.toRat = Y at *
  unfold ulp at *
  norm_num at *
  refine ⟨?_, ?_, ?_, ?_⟩ <;> linarith

/-- A withdrawal inside its range pays both tokens. -/
example : Reachable pool ∧ ∃ p' r, pool.withdraw 2 (D 1000) (mid 15) (mid 25) = .ok (p', r) ∧
    1 / 5 < r.x.toRat ∧ 1 / 5 < r.y.toRat :=
  ⟨pool_clear.reachable, (Sample.get (pool.withdraw 2 (D 1000) (mid 15) (mid 25))).1,
    (Sample.get (pool.withdraw 2 (D 1000) (mid 15) (mid 25))).2, by decide +kernel, by decide +kernel, by decide +kernel⟩

/-! ### C74: a deposit uses up one of the offers -/

theorem liqX_used {x a b l : Decimal} (h : liqXOnly x a b = .ok l) (hx : 0 ≤ x.toRat) (hs : x.scale = 12)
    (h1 : 1 ≤ a.toRat) :
    a.toRat < b.toRat ∧ 0 ≤ l.toRat ∧ l.scale = 12 ∧
      x.toRat - 3 * ulp 12 < (1 / a.toRat - 1 / b.toRat) * l.toRat := by
  unfold liqXOnly at h
  rw [bind_ok] at h; obtain ⟨d, g1, h⟩ := h
  rw [unwrap_ok] at g1
  rw [ite_ok] at h; rcases h with ⟨_, h⟩ | ⟨g2, h⟩; · simp [rpanic] at h
  steps at h
  obtain ⟨m1, g3, m2, g4, g5⟩ := h
  have ed := sub_toRat g1
  simp only [Bool.or_eq_true, not_or, Bool.not_eq_true] at g2
  have hd : 0 < d.toRat := by
    refine lt_of_le_of_ne (not_isNegative.1 g2.1) fun e => ?_
    have := isZero_toRat.2 e.symm
    rw [g2.2] at this; cases this
  have hb : a.toRat < b.toRat := by linarith
  have hu := ulp_pos (s := 12)
  obtain ⟨n1, _, e1⟩ := mul_down g3 (mul_nonneg hx (by linarith))
  rw [hs] at e1
  obtain ⟨n2, _, e2⟩ := mul_down g4 (mul_nonneg n1 (by linarith))
  rw [(mul_mag g3).1, hs] at e2
  obtain ⟨_, n3, _, e3⟩ := div_down g5 n2 hd.le
  rw [(mul_mag g4).1, (mul_mag g3).1, hs] at e3
  refine ⟨hb, n3, by rw [(div_mag g5).2.1, (mul_mag g4).1, (mul_mag g3).1, hs], ?_⟩
  have ha0 : 0 < a.toRat := by linarith
  have hb0 : 0 < b.toRat := by linarith
  rw [div_lt_iff₀ hd] at e3
  have ex : (1 / a.toRat - 1 / b.toRat) * l.toRat = l.toRat * d.toRat / (a.toRat * b.toRat) := by
    rw [ed]; field_simp
  rw [ex, lt_div_iff₀ (mul_pos ha0 hb0)]
  have k1 : x.toRat * a.toRat * b.toRat < m1.toRat * b.toRat + ulp 12 * b.toRat := by nlinarith
  have k2 : b.toRat ≤ a.toRat * b.toRat := by nlinarith
  have k3 : 1 ≤ a.toRat * b.toRat := by nlinarith
  have k4 : d.toRat ≤ a.toRat * b.toRat := by linarith
  nlinarith

theorem liqY_used {y a b l : Decimal} (h : liqYOnly y a b = .ok l) (hy : 0 ≤ y.toRat) (hs : y.scale = 12) :
    a.toRat < b.toRat ∧ 0 ≤ l.toRat ∧ l.scale = 12 ∧
      y.toRat - (b.toRat - a.toRat) * ulp 12 < (b.toRat - a.toRat) * l.toRat := by
  unfold liqYOnly at h
  rw [bind_ok] at h; obtain ⟨d, g1, h⟩ := h
  rw [unwrap_ok] at g1
  rw [ite_ok] at h; rcases h with ⟨_, h⟩ | ⟨g2, h⟩; · simp [rpanic] at h
  have ed := sub_toRat g1
  simp only [Bool.or_eq_true, not_or, Bool.not_eq_true] at g2
  have hd : 0 < d.toRat := by
    refine lt_of_le_of_ne (not_isNegative.1 g2.1) fun e => ?_
    have := isZero_toRat.2 e.symm
    rw [g2.2] at this; cases this
  obtain ⟨_, n3, _, e3⟩ := div_down h hy hd.le
  rw [hs] at e3
  refine ⟨by linarith, n3, by rw [(div_mag h).2.1, hs], ?_⟩
  rw [div_lt_iff₀ hd] at e3
  rw [← ed]
  linarith

/-- C74: a deposit never takes more than offered, and it takes all of at least one offer: all of the X but for
less than five units of the twelfth place, or all of the Y but for less than one such unit plus one for each
unit of width of the part of the range (in root prices) that Y is needed for. -/
theorem C74_uses {p p' : Pool} (hp : Reachable p) {user : Nat} {x y rpa rpb : Decimal} {r : Receipt}
    (h : p.deposit user x y rpa rpb = .ok (p', r)) :
    ∃ lower upper, p.rpToPossibleTick rpa false 0 = .ok lower ∧ p.rpToPossibleTick rpb false lower = .ok upper ∧
      p'.x.toRat = p.x.toRat + r.x.toRat ∧ p'.y.toRat = p.y.toRat + r.y.toRat ∧
      r.totalX.toRat = r.x.toRat - r.fees.fx.toRat - r.fees.hx.toRat ∧
      r.totalY.toRat = r.y.toRat - r.fees.fy.toRat - r.fees.hy.toRat ∧
      r.x.toRat ≤ x.toRat ∧ r.y.toRat ≤ y.toRat ∧
      ((p.gs.rp.toRat ≤ tickPrice upper ∧ x.toRat - 5 / 10 ^ 12 < r.x.toRat) ∨
       (tickPrice lower ≤ p.gs.rp.toRat ∧
        y.toRat - (clampTo p.gs.rp.toRat (tickPrice lower) (tickPrice upper) - tickPrice lower + 1) / 10 ^ 12 < r.y.toRat)) := by
  have ht := Tidy.reachable hp
  obtain ⟨lower, upper, a, b, liq, p1, p2, px, py, hx0, hy0, _, _, g1, g2, g3, g4, g5, hliq, hl, hrx, hgx, hry, hgy, hpos,
    t1, t2, h2, h3, h4, rfl⟩ := deposit_ok h
  have hf := setPosition_frame hpos
  have hpx : p1.x = p.x := by rw [hf]
  have hpy : p1.y = p.y := by rw [hf]
  have hab := price_mono g3.le g4 g5
  have hrxs : r.x.scale = 12 := by rw [← (add_ok.1 h2).1, hpx]; exact ht.x.1
  have hrys : r.y.scale = 12 := by rw [← (add_ok.1 h3).1, hpy]; exact ht.y.1
  obtain ⟨y0', y1, y2⟩ := y_amount hry hrys hl hab
  obtain ⟨x0', x1, x2⟩ := x_amount hrx hrxs hl (tickToRp_pos g5).1.1 (tickPrice_ge g4) hab
  have lx := gt_le hgx
  have ly := gt_le hgy
  refine ⟨lower, upper, g1, g2, by simp only; rw [add_toRat h2, hpx], by simp only; rw [add_toRat h3, hpy], t1, t2,
    lx.2.2 rfl, ly.2.2 rfl, ?_⟩
  have hrp := rp_ge_one hp
  have hxs : x.scale = 12 := by rw [← lx.1]; exact hrxs
  have hys : y.scale = 12 := by rw [← ly.1]; exact hrys
  have ha1 := tickPrice_ge g4
  rw [tickPrice_eq g4, tickPrice_eq g5]
  have eu : ulp 12 = 1 / 10 ^ 12 := by unfold ulp; norm_num
  have viaX {v : Decimal} (h1 : 1 ≤ v.toRat) (e : clampTo p.gs.rp.toRat a.toRat b.toRat = v.toRat)
      (hk : liqXOnly x v b = .ok liq) : x.toRat - 5 / 10 ^ 12 < r.x.toRat := by
    obtain ⟨_, _, _, h⟩ := liqX_used hk hx0 hxs h1
    rw [e] at x2
    rw [eu] at h x2
    linarith
  have viaY {v : Decimal} (e : clampTo p.gs.rp.toRat a.toRat b.toRat = v.toRat)
      (hk : liqYOnly y a v = .ok liq) :
      y.toRat - (clampTo p.gs.rp.toRat a.toRat b.toRat - a.toRat + 1) / 10 ^ 12 < r.y.toRat := by
    obtain ⟨_, _, _, h⟩ := liqY_used hk hy0 hys
    rw [e] at y2 ⊢
    rw [eu] at h y2
    linarith
  unfold liqFromXYRpRng at hliq
  rw [bind_ok] at hliq; obtain ⟨c1, k1, hliq⟩ := hliq
  have k1' := (lte_le (unwrap_ok.1 k1)).2
  rw [ite_ok] at hliq
  rcases hliq with ⟨rfl, hliq⟩ | ⟨hc1, hliq⟩
  · have := k1'.1 rfl
    exact .inl ⟨this.trans hab, viaX ha1 (clampTo_lo this hab) hliq⟩
  rw [Bool.not_eq_true] at hc1; subst hc1
  have hra := k1'.2 rfl
  rw [bind_ok] at hliq; obtain ⟨c2, k2, hliq⟩ := hliq
  have k2' := (lt_le (unwrap_ok.1 k2)).2
  rw [ite_ok] at hliq
  rcases hliq with ⟨rfl, hliq⟩ | ⟨hc2, hliq⟩
  · have hrb := k2'.1 rfl
    steps at hliq
    obtain ⟨lx, m1, ly, m2, m3⟩ := hliq
    rcases min_cases m3 with ⟨rfl, _⟩ | ⟨rfl, _⟩
    · exact .inl ⟨hrb, viaX hrp (clampTo_in hra hrb) m1⟩
    · exact .inr ⟨hra, viaY (clampTo_in hra hrb) m2⟩
  · rw [Bool.not_eq_true] at hc2; subst hc2
    have hrb := k2'.2 rfl
    exact .inr ⟨hra, viaY (clampTo_hi hrb hab) hliq⟩

/-- One deposit is limited by the X offered, one by the Y. -/
example : Reachable pool ∧ (∃ p' r, pool.deposit 3 (D 1) (D 10) (mid 12) (mid 28) = .ok (p', r) ∧
      9 / 10 < r.x.toRat ∧ r.y.toRat < 2) ∧
    ∃ p' r, pool.deposit 3 (D 10) (D 1) (mid 12) (mid 28) = .ok (p', r) ∧ 9 / 10 < r.y.toRat ∧ r.x.toRat < 2 :=
  ⟨pool_clear.reachable,
    ⟨(Sample.get (pool.deposit 3 (D 1) (D 10) (mid 12) (mid 28))).1,
      (Sample.get (pool.deposit 3 (D 1) (D 10) (mid 12) (mid 28))).2, by decide +kernel, by decide +kernel, by decide +kernel⟩,
    (Sample.get (pool.deposit 3 (D 10) (D 1) (mid 12) (mid 28))).1,
    (Sample.get (pool.deposit 3 (D 10) (D 1) (mid 12) (mid 28))).2, by decide +kernel, by decide +kernel, by decide +kernel⟩

end Hmm.Pool
