import Verif.Spec.Solvency
import Verif.Proofs.Active
import Verif.Proofs.Tidy
import Verif.Proofs.Charge

/-
The reserves against the exact claims of the positions.
-/

namespace Hmm.Decimal

/-- A product of at least zero is rounded down, by less than one unit. -/
theorem mul_down {a b c : Decimal} (h : a.mul b = .ok c) (h0 : 0 ≤ a.toRat * b.toRat) :
    0 ≤ c.toRat ∧ c.toRat ≤ a.toRat * b.toRat ∧ a.toRat * b.toRat < c.toRat + ulp a.scale := by
  obtain ⟨_, h2, h3⟩ := mul_mag h
  have e : |a.toRat * b.toRat| = a.mag * b.mag := by rw [abs_mul, abs_toRat, abs_toRat]
  rw [abs_of_nonneg h0] at e
  have h4 := floorAt_le (s := a.scale) (mul_nonneg (mag_nonneg a) (mag_nonneg b))
  have h5 := lt_floorAt_add (s := a.scale) (q := a.mag * b.mag)
  have h6 := mag_nonneg c
  rw [← h3, ← e] at h4 h5
  rcases sign_case h2 rfl with ⟨k1, k2⟩ | ⟨k1, k2⟩
  · rw [k1]; exact ⟨h6, h4, h5⟩
  · have : a.toRat * b.toRat = 0 := le_antisymm k2 h0
    rw [this] at h4 h5
    have : c.mag = 0 := le_antisymm h4 h6
    rw [k1, this, ‹a.toRat * b.toRat = 0›]
    simp [ulp_pos]

/-- A product of at most zero is rounded towards zero. -/
theorem mul_up {a b c : Decimal} (h : a.mul b = .ok c) (h0 : a.toRat * b.toRat ≤ 0) :
    c.toRat ≤ 0 ∧ a.toRat * b.toRat ≤ c.toRat ∧ c.toRat - ulp a.scale < a.toRat * b.toRat := by
  obtain ⟨_, h2, h3⟩ := mul_mag h
  have e : |a.toRat * b.toRat| = a.mag * b.mag := by rw [abs_mul, abs_toRat, abs_toRat]
  rw [abs_of_nonpos h0] at e
  have h4 := floorAt_le (s := a.scale) (mul_nonneg (mag_nonneg a) (mag_nonneg b))
  have h5 := lt_floorAt_add (s := a.scale) (q := a.mag * b.mag)
  have h6 := mag_nonneg c
  rw [← h3, ← e] at h4 h5
  rcases sign_case h2 rfl with ⟨k1, k2⟩ | ⟨k1, k2⟩
  · have hz : a.toRat * b.toRat = 0 := le_antisymm h0 k2
    rw [hz] at h4 h5
    have : c.mag = 0 := le_antisymm (by linarith) h6
    rw [k1, this, hz]
    simp [ulp_pos]
  · rw [k1]; exact ⟨by linarith, by linarith, by linarith⟩

theorem div_down {a b c : Decimal} (h : a.div b = .ok c) (ha : 0 ≤ a.toRat) (hb : 0 ≤ b.toRat) :
    0 < b.toRat ∧ 0 ≤ c.toRat ∧ c.toRat ≤ a.toRat / b.toRat ∧ a.toRat / b.toRat < c.toRat + ulp a.scale := by
  obtain ⟨h1, _, h2, h3⟩ := div_mag h
  have e : |a.toRat / b.toRat| = a.mag / b.mag := by rw [abs_div, abs_toRat, abs_toRat]
  have hb' : 0 < b.toRat := lt_of_le_of_ne hb fun e => h1 (isZero_iff.1 (isZero_toRat.2 e.symm))
  rw [abs_of_nonneg (div_nonneg ha hb)] at e
  have h4 := floorAt_le (s := a.scale) (div_nonneg (mag_nonneg a) (mag_nonneg b))
  have h5 := lt_floorAt_add (s := a.scale) (q := a.mag / b.mag)
  have h6 := mag_nonneg c
  rw [← h3, ← e] at h4 h5
  refine ⟨hb', ?_⟩
  rcases sign_case h2 rfl with ⟨k1, k2⟩ | ⟨k1, k2⟩
  · rw [k1]; exact ⟨h6, h4, h5⟩
  · have hz : a.toRat = 0 := by
      by_contra hn
      have : 0 < a.toRat := lt_of_le_of_ne ha (Ne.symm hn)
      exact absurd (mul_pos this hb') (not_lt.2 k2)
    rw [hz, zero_div] at h4 h5
    have : c.mag = 0 := le_antisymm h4 h6
    rw [k1, this, hz]
    simp [ulp_pos]

theorem div_up {a b c : Decimal} (h : a.div b = .ok c) (ha : a.toRat ≤ 0) (hb : 0 ≤ b.toRat) :
    0 < b.toRat ∧ c.toRat ≤ 0 ∧ a.toRat / b.toRat ≤ c.toRat ∧ c.toRat - ulp a.scale < a.toRat / b.toRat := by
  obtain ⟨h1, _, h2, h3⟩ := div_mag h
  have e : |a.toRat / b.toRat| = a.mag / b.mag := by rw [abs_div, abs_toRat, abs_toRat]
  have hb' : 0 < b.toRat := lt_of_le_of_ne hb fun e => h1 (isZero_iff.1 (isZero_toRat.2 e.symm))
  rw [abs_of_nonpos (div_nonpos_of_nonpos_of_nonneg ha hb)] at e
  have h4 := floorAt_le (s := a.scale) (div_nonneg (mag_nonneg a) (mag_nonneg b))
  have h5 := lt_floorAt_add (s := a.scale) (q := a.mag / b.mag)
  have h6 := mag_nonneg c
  rw [← h3, ← e] at h4 h5
  refine ⟨hb', ?_⟩
  rcases sign_case h2 rfl with ⟨k1, k2⟩ | ⟨k1, k2⟩
  · have hz : a.toRat = 0 := by
      by_contra hn
      have : a.toRat < 0 := lt_of_le_of_ne ha hn
      exact absurd (mul_neg_of_neg_of_pos this hb') (not_lt.2 k2)
    rw [hz, zero_div] at h4 h5
    have : c.mag = 0 := le_antisymm (by linarith) h6
    rw [k1, this, hz]
    simp [ulp_pos]
  · rw [k1]; exact ⟨by linarith, by linarith, by linarith⟩

/-- A product of two numbers from one upwards is at least one after rounding. -/
theorem mul_ge_one {a b c : Decimal} (h : a.mul b = .ok c) (ha : 1 ≤ a.toRat) (hb : 1 ≤ b.toRat) :
    1 ≤ c.toRat ∧ c.toRat ≤ a.toRat * b.toRat ∧ a.toRat * b.toRat < c.toRat + ulp a.scale := by
  have h1 : 1 ≤ a.toRat * b.toRat := one_le_mul_of_one_le_of_one_le ha hb
  obtain ⟨k1, k2, k3⟩ := mul_down h (by linarith)
  refine ⟨?_, k2, k3⟩
  obtain ⟨h2, h3, h4⟩ := mul_mag h
  have e : c.toRat = c.mag := by rw [← abs_toRat, abs_of_nonneg k1]
  have e2 : a.mag * b.mag = a.toRat * b.toRat := by
    rw [← abs_toRat, ← abs_toRat, ← abs_mul, abs_of_nonneg (by linarith)]
  rw [e, h4, e2]
  have : floorAt a.scale 1 = 1 := by
    unfold floorAt
    rw [one_mul, show ((10 : ℚ) ^ a.scale) = ((10 ^ a.scale : ℕ) : ℚ) by push_cast; rfl, Nat.floor_natCast]
    exact div_self (by positivity)
  rw [← this]
  exact floorAt_mono h1

end Hmm.Decimal

namespace Hmm.Pool

open Decimal PoolMath

theorem tickPrice_eq {t : Nat} {q : Decimal} (h : tickToRp t = .ok q) : tickPrice t = q.toRat := by
  unfold tickPrice; rw [h]

theorem tickPrice_ge {t : Nat} {q : Decimal} (h : tickToRp t = .ok q) : 1 ≤ q.toRat := by
  have h0 : tickToRp 0 = .ok PoolMath.one := by decide +kernel
  have := price_mono (Nat.zero_le t) h0 h
  have e : PoolMath.one.toRat = 1 := one_toRat
  linarith

/-- Ticks start at price one, so prices do. -/
theorem Sound.one_le {p : Pool} (h : Sound p) : 1 ≤ p.gs.rp.toRat := by
  have h0 : tickToRp 0 = .ok PoolMath.one := by decide +kernel
  have := (h.cell 0 _ (dvd_zero _) h0).1 (Nat.zero_le _)
  have e : PoolMath.one.toRat = 1 := one_toRat
  linarith

theorem Sound.liq_nonneg {p : Pool} (h : Sound p) : 0 ≤ p.gs.liq.toRat := by
  rw [h.active]
  exact sumPos_nonneg' (fun k => by split <;> simp) fun k s hm => (h.booked.pos k s (get_of_mem h.booked.unique hm)).1

theorem Sound.liq_le {p : Pool} (h : Sound p) : p.gs.liq.toRat ≤ p.totalLiq := by
  rw [h.active]
  unfold inRange totalLiq sumPos
  refine List.sum_le_sum fun e he => ?_
  obtain ⟨k, s⟩ := e
  have := (h.booked.pos k s (get_of_mem h.booked.unique he)).1
  simp only
  split <;> linarith

theorem clampTo_in {v a b : ℚ} (h1 : a ≤ v) (h2 : v ≤ b) : clampTo v a b = v := by
  unfold clampTo; rw [min_eq_left h2, max_eq_right h1]

theorem clampTo_lo {v a b : ℚ} (h1 : v ≤ a) (h2 : a ≤ b) : clampTo v a b = a := by
  unfold clampTo; rw [min_eq_left (h1.trans h2), max_eq_left h1]

theorem clampTo_hi {v a b : ℚ} (h1 : b ≤ v) (h2 : a ≤ b) : clampTo v a b = b := by
  unfold clampTo; rw [min_eq_right h1, max_eq_right h2]

theorem sumPos_smul (w : PositionKey → ℚ) (c : ℚ) (ps : List (PositionKey × PositionState)) :
    sumPos (fun k => w k * c) ps = sumPos w ps * c := by
  unfold sumPos
  induction ps with
  | nil => simp
  | cons e ps ih =>
    simp only [List.map_cons, List.sum_cons]
    rw [ih]; ring

/-- Moving the price without passing an initialised tick changes what the positions hold by what the
active liquidity holds. -/
theorem Sound.move {p : Pool} (hs : Sound p) {v : ℚ}
    (hv : ∀ t ∈ p.ticks.map (·.1), ∀ q, tickToRp t = .ok q →
      (t ≤ p.gs.tick → q.toRat ≤ v) ∧ (p.gs.tick < t → v ≤ q.toRat)) (f : ℚ → ℚ) (c : PositionKey → ℚ) :
    sumPos (fun k => f (clampTo v (tickPrice k.lower) (tickPrice k.upper)) - c k) p.positions =
    sumPos (fun k => f (clampTo p.gs.rp.toRat (tickPrice k.lower) (tickPrice k.upper)) - c k) p.positions +
      p.gs.liq.toRat * (f v - f p.gs.rp.toRat) := by
  rw [hs.active]
  unfold inRange
  have h1 := sumPos_smul (fun k => if k.lower ≤ p.gs.tick ∧ p.gs.tick < k.upper then 1 else 0)
    (f v - f p.gs.rp.toRat) p.positions
  rw [← h1]
  have h2 := sumPos_combine (ps := p.positions)
    (w := fun k => f (clampTo v (tickPrice k.lower) (tickPrice k.upper)) - c k)
    (w1 := fun k => f (clampTo p.gs.rp.toRat (tickPrice k.lower) (tickPrice k.upper)) - c k)
    (w2 := fun k => (if k.lower ≤ p.gs.tick ∧ p.gs.tick < k.upper then 1 else 0) * (f v - f p.gs.rp.toRat))
    (w3 := fun _ => 0) ?_
  · rw [h2]
    have : sumPos (fun _ => (0 : ℚ)) p.positions = 0 := sumPos_zero fun k s _ => by rw [zero_mul]
    rw [this, sub_zero]
  · intro k s hm
    by_cases h0 : s.liq.toRat = 0
    · rw [h0]; ring
    · obtain ⟨i1, i2⟩ := hs.booked.initialised hm h0
      obtain ⟨_, hlu, _⟩ := hs.booked.pos k s (get_of_mem hs.booked.unique hm)
      obtain ⟨ql, hql⟩ := hs.price i1
      obtain ⟨qu, hqu⟩ := hs.price i2
      have hle := price_mono hlu.le hql hqu
      obtain ⟨a1, a2⟩ := hv _ i1 ql hql
      obtain ⟨a3, a4⟩ := hv _ i2 qu hqu
      obtain ⟨b1, b2⟩ := hs.cell _ ql (hs.booked.grid i1) hql
      obtain ⟨b3, b4⟩ := hs.cell _ qu (hs.booked.grid i2) hqu
      rw [tickPrice_eq hql, tickPrice_eq hqu]
      by_cases c1 : k.lower ≤ p.gs.tick
      · by_cases c2 : p.gs.tick < k.upper
        · rw [if_pos ⟨c1, c2⟩, clampTo_in (a1 c1) (a4 c2), clampTo_in (b1 c1) (b4 c2)]; ring
        · rw [if_neg (by tauto), clampTo_hi (a3 (not_lt.1 c2)) hle, clampTo_hi (b3 (not_lt.1 c2)) hle]; ring
      · rw [if_neg (by tauto), clampTo_lo (a2 (not_le.1 c1)) hle, clampTo_lo (b2 (not_le.1 c1)) hle]; ring

/-- Reserve of Y beyond what the positions hold. -/
def spareY (p : Pool) : ℚ := p.y.toRat - p.owedY

/-- Reserve of X beyond what the positions hold. -/
def spareX (p : Pool) : ℚ := p.x.toRat - p.owedX

/-- How the spare reserves change when the price moves without passing an initialised tick. -/
theorem Sound.spare_move {p p' : Pool} (hs : Sound p)
    (hv : ∀ t ∈ p.ticks.map (·.1), ∀ q, tickToRp t = .ok q →
      (t ≤ p.gs.tick → q.toRat ≤ p'.gs.rp.toRat) ∧ (p.gs.tick < t → p'.gs.rp.toRat ≤ q.toRat))
    (hp : p'.positions = p.positions) :
    p'.spareY - p.spareY = p'.y.toRat - p.y.toRat - p.gs.liq.toRat * (p'.gs.rp.toRat - p.gs.rp.toRat) ∧
    p'.spareX - p.spareX = p'.x.toRat - p.x.toRat - p.gs.liq.toRat * (1 / p'.gs.rp.toRat - 1 / p.gs.rp.toRat) := by
  have h1 := hs.move hv id (fun k => tickPrice k.lower)
  have h2 := hs.move hv (fun v => 1 / v) (fun k => 1 / tickPrice k.upper)
  unfold spareY spareX owedY owedX
  rw [hp]
  simp only [id] at h1
  constructor
  · rw [h1]; ring
  · rw [h2]; ring

theorem Sound.left_same {p : Pool} (hs : Sound p) {g : Nat} {q : Decimal} {v : ℚ}
    (hmax : ∀ k ∈ p.ticks.map (·.1), k ≤ p.gs.tick → k ≤ g) (hq : tickToRp g = .ok q) (h1 : q.toRat ≤ v)
    (h2 : v ≤ p.gs.rp.toRat) : ∀ t ∈ p.ticks.map (·.1), ∀ q, tickToRp t = .ok q →
      (t ≤ p.gs.tick → q.toRat ≤ v) ∧ (p.gs.tick < t → v ≤ q.toRat) := by
  intro t ht qt hqt
  exact ⟨fun h => (price_mono (hmax t ht h) hqt hq).trans h1,
    fun h => h2.trans ((hs.cell t qt (hs.booked.grid ht) hqt).2 h)⟩

theorem Sound.right_same {p : Pool} (hs : Sound p) {g : Nat} {q : Decimal} {v : ℚ}
    (hmin : ∀ k ∈ p.ticks.map (·.1), k < g → k ≤ p.gs.tick) (hq : tickToRp g = .ok q) (h1 : v ≤ q.toRat)
    (h2 : p.gs.rp.toRat ≤ v) : ∀ t ∈ p.ticks.map (·.1), ∀ q, tickToRp t = .ok q →
      (t ≤ p.gs.tick → q.toRat ≤ v) ∧ (p.gs.tick < t → v ≤ q.toRat) := by
  intro t ht qt hqt
  refine ⟨fun h => ((hs.cell t qt (hs.booked.grid ht) hqt).1 h).trans h2, fun h => h1.trans ?_⟩
  exact price_mono (not_lt.1 fun hk => by have := hmin t ht hk; omega) hq hqt

/-! ### Amounts -/

/-- The X moved between two prices, against the exact amount. -/
theorem dx_bounds {l a b c : Decimal} (h : dxFromLDrp l a b = .ok c) (hs : l.scale = 12) (ha : a.scale = 12)
    (hl : 0 ≤ l.toRat) (h1 : 1 ≤ a.toRat) (h2 : 1 ≤ b.toRat) :
    |c.toRat - l.toRat * (1 / b.toRat - 1 / a.toRat)| ≤ (l.toRat + 2) * ulp 12 := by
  unfold dxFromLDrp at h
  rw [ite_ok] at h
  rcases h with ⟨_, h⟩ | ⟨_, h⟩
  · simp [rpanic] at h
  steps at h
  obtain ⟨d, hd, m, hm, n, hn, hc⟩ := h
  have ed := sub_toRat hd
  obtain ⟨m1, m2, m3⟩ := mul_ge_one hm h1 h2
  have hns : n.scale = 12 := by rw [(mul_mag hn).1, hs]
  have hu := ulp_pos (s := 12)
  rw [ha] at m3
  have e : l.toRat * (1 / b.toRat - 1 / a.toRat) = l.toRat * d.toRat / (a.toRat * b.toRat) := by
    rw [ed]; field_simp
  rw [e]
  have hM : 0 < a.toRat * b.toRat := by nlinarith
  have hMd : |d.toRat| ≤ a.toRat * b.toRat := by
    rw [ed, abs_le]; constructor <;> nlinarith
  have hm0 : 0 < m.toRat := by linarith
  have key : ∀ N : ℚ, 0 ≤ N → N ≤ l.toRat * (a.toRat * b.toRat) → N / m.toRat - N / (a.toRat * b.toRat) ≤ l.toRat * ulp 12 := by
    intro N hN hN'
    have e1 : N / m.toRat - N / (a.toRat * b.toRat) = N / (a.toRat * b.toRat) * ((a.toRat * b.toRat - m.toRat) / m.toRat) := by
      field_simp
    rw [e1]
    have h3 : N / (a.toRat * b.toRat) ≤ l.toRat := by rw [div_le_iff₀ hM]; exact hN'
    have h4 : (a.toRat * b.toRat - m.toRat) / m.toRat ≤ ulp 12 := by
      rw [div_le_iff₀ hm0]; nlinarith
    exact mul_le_mul h3 h4 (div_nonneg (by linarith) hm0.le) hl
  have mono : ∀ N : ℚ, 0 ≤ N → N / (a.toRat * b.toRat) ≤ N / m.toRat := fun N hN =>
    div_le_div_of_nonneg_left hN hm0 m2
  have hdm : ∀ {N K : ℚ}, N - K ≤ ulp 12 → N / m.toRat - K / m.toRat ≤ ulp 12 := by
    intro N K h
    rw [← sub_div, div_le_iff₀ hm0]
    nlinarith
  rcases le_total 0 d.toRat with hd0 | hd0
  · have hld : 0 ≤ l.toRat * d.toRat := mul_nonneg hl hd0
    obtain ⟨n0, n1, n2⟩ := mul_down hn hld
    rw [hs] at n2
    obtain ⟨_, c0, c1, c2⟩ := div_down hc n0 hm0.le
    rw [hns] at c2
    rw [abs_of_nonneg hd0] at hMd
    have k1 := key n.toRat n0 (n1.trans (mul_le_mul_of_nonneg_left hMd hl))
    have k1' := key (l.toRat * d.toRat) hld (mul_le_mul_of_nonneg_left hMd hl)
    have k2 := mono _ hld
    have k3 : n.toRat / (a.toRat * b.toRat) ≤ l.toRat * d.toRat / (a.toRat * b.toRat) := by gcongr
    have k4 := hdm (N := l.toRat * d.toRat) (K := n.toRat) (by linarith)
    rw [abs_le]
    constructor <;> nlinarith
  · have hld : l.toRat * d.toRat ≤ 0 := mul_nonpos_of_nonneg_of_nonpos hl hd0
    obtain ⟨n0, n1, n2⟩ := mul_up hn hld
    rw [hs] at n2
    obtain ⟨_, c0, c1, c2⟩ := div_up hc n0 hm0.le
    rw [hns] at c2
    rw [abs_of_nonpos hd0] at hMd
    have k0 : -n.toRat ≤ l.toRat * (a.toRat * b.toRat) := by
      have := mul_le_mul_of_nonneg_left hMd hl
      linarith [mul_neg l.toRat d.toRat]
    have k1 := key (-n.toRat) (by linarith) k0
    have k2 := mono (-(l.toRat * d.toRat)) (by linarith)
    have k3 : l.toRat * d.toRat / (a.toRat * b.toRat) ≤ n.toRat / (a.toRat * b.toRat) := by gcongr
    have k4 := hdm (N := n.toRat) (K := l.toRat * d.toRat) (by linarith)
    rw [neg_div, neg_div] at k1 k2
    rw [abs_le]
    constructor <;> nlinarith

/-- The Y moved between two prices, against the exact amount. -/
theorem dy_bounds {l a b c : Decimal} (h : dyFromLDrp l a b = .ok c) (hs : c.scale = 12) (hl : 0 ≤ l.toRat) :
    (b.toRat ≤ a.toRat → 0 ≤ c.toRat - l.toRat * (b.toRat - a.toRat) ∧
      c.toRat - l.toRat * (b.toRat - a.toRat) ≤ ulp 12) ∧
    (a.toRat ≤ b.toRat → -ulp 12 ≤ c.toRat - l.toRat * (b.toRat - a.toRat) ∧
      c.toRat - l.toRat * (b.toRat - a.toRat) ≤ 0) := by
  unfold dyFromLDrp at h
  steps at h
  obtain ⟨d, hd, hc⟩ := h
  have ed := sub_toRat hd
  rw [(mul_mag hc).1] at hs
  rw [← ed, mul_comm l.toRat]
  constructor <;> intro hab
  · obtain ⟨_, h2, h3⟩ := mul_up hc (mul_nonpos_of_nonpos_of_nonneg (by rw [ed]; linarith) hl)
    rw [hs] at h3
    constructor <;> linarith
  · obtain ⟨_, h2, h3⟩ := mul_down hc (mul_nonneg (by rw [ed]; linarith) hl)
    rw [hs] at h3
    constructor <;> linarith

/-- The price after taking X, against the exact amount behind it. -/
theorem rpX_bounds {l rp dx v : Decimal} (h : rpNewFromLDx l rp dx = .ok v) (hs : dx.scale = 12) (hl : 0 ≤ l.toRat)
    (hd : 0 ≤ dx.toRat) (h1 : 1 ≤ rp.toRat) (h2 : 1 ≤ v.toRat) :
    |dx.toRat - l.toRat * (1 / v.toRat - 1 / rp.toRat)| ≤ (l.toRat + 2) * ulp 12 := by
  unfold rpNewFromLDx at h
  steps at h
  obtain ⟨n, hn, m, hm, dn, hdn, h⟩ := h
  rw [ite_ok] at h
  rcases h with ⟨_, h⟩ | ⟨_, h⟩
  · simp [rpanic] at h
  steps at h
  obtain ⟨r, hr, h⟩ := h
  rw [ite_ok] at h
  rcases h with ⟨_, h⟩ | ⟨_, h⟩
  · simp [rpanic] at h
  cases h
  have hu := ulp_pos (s := 12)
  have hls : l.scale = 12 := by rw [← (add_ok.1 hdn).1, (mul_mag hm).1, hs]
  obtain ⟨n0, n1, n2⟩ := mul_down hn (mul_nonneg hl (by linarith))
  obtain ⟨m0, m1, m2⟩ := mul_down hm (mul_nonneg hd (by linarith))
  have ed := add_toRat hdn
  obtain ⟨d0, _, r1, r2⟩ := div_down hr n0 (by rw [ed]; linarith)
  rw [(mul_mag hn).1, hls] at r2
  rw [hls] at n2
  rw [hs] at m2
  have hrp : 0 < rp.toRat := by linarith
  have hv : 0 < v.toRat := by linarith
  -- the exact denominator
  have hD : dx.toRat = (dx.toRat * rp.toRat + l.toRat) / rp.toRat - l.toRat / rp.toRat := by field_simp; ring
  have e : dx.toRat - l.toRat * (1 / v.toRat - 1 / rp.toRat) =
      (dx.toRat * rp.toRat + l.toRat) / rp.toRat - l.toRat / v.toRat := by
    field_simp; ring
  rw [e]
  have e2 : (dx.toRat * rp.toRat + l.toRat) / rp.toRat - l.toRat / v.toRat =
      ((dx.toRat * rp.toRat + l.toRat) * v.toRat - l.toRat * rp.toRat) / (rp.toRat * v.toRat) := by field_simp
  rw [e2, abs_le]
  have hpv : 0 < rp.toRat * v.toRat := mul_pos hrp hv
  have hdr : 0 ≤ dx.toRat * rp.toRat := mul_nonneg hd hrp.le
  rw [div_lt_iff₀ d0] at r2
  rw [le_div_iff₀ d0] at r1
  have hdn' : dn.toRat ≤ l.toRat * rp.toRat := by nlinarith
  constructor
  · rw [le_div_iff₀ hpv]
    have a1 : dn.toRat * v.toRat ≤ (dx.toRat * rp.toRat + l.toRat) * v.toRat := by
      apply mul_le_mul_of_nonneg_right _ hv.le; rw [ed]; linarith
    have a2 : 1 + dn.toRat ≤ (l.toRat + 2) * (rp.toRat * v.toRat) := by
      have : l.toRat * rp.toRat ≤ l.toRat * (rp.toRat * v.toRat) := by
        apply mul_le_mul_of_nonneg_left _ hl; nlinarith
      nlinarith
    nlinarith
  · rw [div_le_iff₀ hpv]
    have a1 : (dx.toRat * rp.toRat + l.toRat) * v.toRat ≤ dn.toRat * v.toRat + ulp 12 * v.toRat := by
      rw [← add_mul]; apply mul_le_mul_of_nonneg_right _ hv.le; rw [ed]; linarith
    have a2 : ulp 12 * v.toRat ≤ (l.toRat + 2) * ulp 12 * (rp.toRat * v.toRat) := by
      have : v.toRat ≤ (l.toRat + 2) * (rp.toRat * v.toRat) := by
        have : v.toRat ≤ rp.toRat * v.toRat := by nlinarith
        nlinarith
      nlinarith
    linarith

/-- The price after taking Y, against the exact amount behind it. -/
theorem rpY_bounds {l rp dy v : Decimal} (h : rpNewFromLDy l rp dy = .ok v) (hs : dy.scale = 12) (hl : 0 ≤ l.toRat)
    (hd : 0 ≤ dy.toRat) : 0 ≤ dy.toRat - l.toRat * (v.toRat - rp.toRat) ∧
      dy.toRat - l.toRat * (v.toRat - rp.toRat) ≤ l.toRat * ulp 12 := by
  unfold rpNewFromLDy at h
  rw [ite_ok] at h
  rcases h with ⟨_, h⟩ | ⟨_, h⟩
  · simp [rpanic] at h
  steps at h
  obtain ⟨q, hq, r, hr, h⟩ := h
  rw [ite_ok] at h
  rcases h with ⟨_, h⟩ | ⟨_, h⟩
  · simp [rpanic] at h
  cases h
  obtain ⟨l0, _, q1, q2⟩ := div_down hq hd hl
  rw [hs] at q2
  rw [le_div_iff₀ l0] at q1
  rw [div_lt_iff₀ l0] at q2
  rw [add_toRat hr]
  constructor <;> nlinarith

/-! ### Steps of a swap -/

/-- What a step may change: the spare reserves by dust, and nothing about the positions. -/
structure Dust (c : ℚ) (p p' : Pool) : Prop where
  positions : p'.positions = p.positions
  xs : p.x.scale = 12 → p'.x.scale = 12
  ys : p.y.scale = 12 → p'.y.scale = 12
  y_lo : -ulp 12 ≤ p'.spareY - p.spareY
  y_hi : p'.spareY - p.spareY ≤ (c + 2) * ulp 12
  x_lo : -((c + 2) * ulp 12) ≤ p'.spareX - p.spareX
  x_hi : p'.spareX - p.spareX ≤ (c + 2) * ulp 12

theorem spare_congr {p p' : Pool} (h1 : p'.positions = p.positions) (h2 : p'.gs.rp = p.gs.rp) (h3 : p'.x = p.x)
    (h4 : p'.y = p.y) : p'.spareX = p.spareX ∧ p'.spareY = p.spareY := by
  unfold spareX spareY owedX owedY
  rw [h1, h2, h3, h4]; exact ⟨rfl, rfl⟩

theorem dust_stepX {fl : FloatEnv} {dx o : Decimal} {p0 p p' : Pool} {a a' : SwapAcc} {g : Nat}
    (h : AimedX p0 p (some g) a) (hstep : stepX fl dx o p a g = .ok (p', a')) (hx : p.x.scale = 12)
    (hy : p.y.scale = 12) : Dust p.gs.liq.toRat p p' := by
  obtain ⟨hs, _, hrp, hl⟩ := h
  obtain ⟨_, hle, hmax⟩ := hl g rfl
  obtain ⟨rem, r, ysum, newY, c1, chk, rs, newX, xFee, yAdj, fees, p1, h1, h2, h3, h4, _, _, _, _, h9, h10,
    _, _, _, ht, hr, h14, _, _, hfs, hp1, h18⟩ := stepX_ok hstep
  obtain ⟨cp, _, _, k1, k2, _, k3, _, k4, _, k5, _, hadj, hfee, _⟩ := swapWithinX_ok h2
  obtain ⟨q, ff, m, dl, hq, hstart, _, _, hdl, _, hcase⟩ := fillX_ok k1
  have hu := ulp_pos (s := 12)
  have hL := hs.liq_nonneg
  have h1p := hs.one_le
  have hq1 := tickPrice_ge hq
  rw [hrp] at hcase k2 hstart hdl
  have hqle := (gt_le hstart).2.2 rfl
  have hrecs : r.recv.scale = 12 := by rw [← (add_ok.1 h14).1]; exact hx
  have hcps : cp.scale = 12 := by rw [← (add_ok.1 k4).1]; exact hy
  have hends : q.toRat ≤ r.endRp.toRat ∧ r.endRp.toRat ≤ p.gs.rp.toRat := by
    rcases hcase with ⟨_, _, _, _, e, _⟩ | ⟨_, _, _, _, _, _, _, e1, e2⟩
    · rw [e]; exact ⟨le_refl _, hqle⟩
    · exact ⟨(lt_le e2).2.2 rfl, (gt_le e1).2.2 rfl⟩
  have hX : newX.toRat = p.x.toRat + r.recv.toRat := add_toRat h14
  have hY : newY.toRat = p.y.toRat + cp.toRat := by
    rw [sub_toRat h4, add_toRat h3, sub_toRat k3]; ring
  have hbX : |r.recv.toRat - p.gs.liq.toRat * (1 / r.endRp.toRat - 1 / p.gs.rp.toRat)| ≤
      (p.gs.liq.toRat + 2) * ulp 12 := by
    have hrps : p.gs.rp.scale = 12 := by
      unfold dyFromLDrp at k2
      steps at k2
      obtain ⟨d, hd, hc⟩ := k2
      rw [(mul_mag hc).1] at hcps
      rw [← hcps, (sub_ok.1 hd).2.2.1, (sub_ok.1 hd).1]
    rcases hcase with ⟨_, _, e1, _, e2, _⟩ | ⟨_, _, e1, e2, e3, _⟩
    · rw [e1, e2]
      refine dx_bounds hdl ?_ hrps hL h1p hq1
      rw [e1] at hrecs
      unfold dxFromLDrp at hdl
      rw [ite_ok] at hdl
      rcases hdl with ⟨_, hdl⟩ | ⟨_, hdl⟩
      · simp [rpanic] at hdl
      steps at hdl
      obtain ⟨d, hd, m, hm, n, hn, hc⟩ := hdl
      rw [← hrecs, (div_mag hc).2.1, (mul_mag hn).1]
    · rw [← e1] at e3
      exact rpX_bounds e3 hrecs hL k5 h1p (by linarith)
  have hbY := (dy_bounds k2 hcps hL).1 hends.2
  obtain ⟨f1, f2, f3, f4⟩ : p'.positions = p1.positions ∧ p'.gs.rp = p1.gs.rp ∧ p'.x = p1.x ∧ p'.y = p1.y := by
    rcases h18 with ⟨_, _, _, hc⟩ | ⟨_, _, _, rfl⟩ | ⟨_, rfl⟩
    · obtain ⟨b1, b2, _, _, _, _, b7, _, _, _, _, b12, _⟩ := crossTick_frame hc
      exact ⟨b7, b12, b1, b2⟩
    · exact ⟨rfl, rfl, rfl, rfl⟩
    · exact ⟨rfl, rfl, rfl, rfl⟩
  obtain ⟨g1, g2⟩ := spare_congr f1 f2 f3 f4
  obtain ⟨s1, s2⟩ := hs.spare_move (p' := p1) (by
    rw [hp1]; exact hs.left_same hmax hq hends.1 hends.2) (by rw [hp1])
  rw [← g1, ← g2] at *
  have e1 : p1.x.toRat = newX.toRat := by rw [hp1]
  have e2 : p1.y.toRat = newY.toRat := by rw [hp1]
  have e3 : p1.gs.rp.toRat = r.endRp.toRat := by rw [hp1]
  rw [e2, e3, hY] at s1
  rw [e1, e3, hX] at s2
  obtain ⟨b1, b2⟩ := abs_le.1 hbX
  have hL2 : ulp 12 ≤ (p.gs.liq.toRat + 2) * ulp 12 := by nlinarith
  refine ⟨by rw [f1, hp1], fun _ => ?_, fun _ => ?_, by linarith, by linarith, by linarith, by linarith⟩
  · rw [f3, hp1]; exact (add_ok.1 h14).2.2.1.trans hx
  · rw [f4, hp1]
    show newY.scale = 12
    rw [(sub_ok.1 h4).2.2.1, (add_ok.1 h3).2.2.1, hy]

theorem dust_stepY {fl : FloatEnv} {dy o : Decimal} {p0 p p' : Pool} {a a' : SwapAcc} {g : Nat}
    (h : AimedY p0 p (some g) a) (hstep : stepY fl dy o p a g = .ok (p', a')) (hx : p.x.scale = 12)
    (hy : p.y.scale = 12) : Dust p.gs.liq.toRat p p' := by
  obtain ⟨hs, _, hrp, hl⟩ := h
  obtain ⟨_, hle, hmin⟩ := hl g rfl
  obtain ⟨rem, r, xsum, newX, c1, chk, rs, newY, yFee, xAdj, fees, p1, h1, h2, h3, h4, _, _, _, _, h9, h10,
    _, _, _, ht, hr, h14, _, _, hfs, hp1, h18⟩ := stepY_ok hstep
  obtain ⟨cp, _, _, k1, k2, _, k3, _, k4, _, k5, _, hadj, hfee, _⟩ := swapWithinY_ok h2
  obtain ⟨q, ff, m, dl, hq, hstart, _, _, hdl, _, hcase⟩ := fillY_ok k1
  have hu := ulp_pos (s := 12)
  have hL := hs.liq_nonneg
  have h1p := hs.one_le
  have hq1 := tickPrice_ge hq
  have hqs := (tickToRp_pos hq).1.1
  rw [hrp] at hcase k2 hstart hdl
  have hqle := (lt_le hstart).2.2 rfl
  have hrecs : r.recv.scale = 12 := by rw [← (add_ok.1 h14).1]; exact hy
  have hcps : cp.scale = 12 := by rw [← (add_ok.1 k4).1]; exact hx
  have hends : r.endRp.toRat ≤ q.toRat ∧ p.gs.rp.toRat ≤ r.endRp.toRat := by
    rcases hcase with ⟨_, _, _, _, e, _⟩ | ⟨_, _, _, _, _, _, _, e1, e2⟩
    · rw [e]; exact ⟨le_refl _, hqle⟩
    · exact ⟨(gt_le e2).2.2 rfl, (lt_le e1).2.2 rfl⟩
  have hrps : p.gs.rp.scale = 12 := by
    unfold dyFromLDrp at hdl
    steps at hdl
    obtain ⟨d, hd, hc⟩ := hdl
    rw [← (sub_ok.1 hd).1]; exact hqs
  have hX : newX.toRat = p.x.toRat + cp.toRat := by
    rw [sub_toRat h4, add_toRat h3, sub_toRat k3]; ring
  have hY : newY.toRat = p.y.toRat + r.recv.toRat := add_toRat h14
  have hbX : |cp.toRat - p.gs.liq.toRat * (1 / r.endRp.toRat - 1 / p.gs.rp.toRat)| ≤
      (p.gs.liq.toRat + 2) * ulp 12 := by
    refine dx_bounds k2 ?_ hrps hL h1p (by linarith)
    unfold dxFromLDrp at k2
    rw [ite_ok] at k2
    rcases k2 with ⟨_, k2⟩ | ⟨_, k2⟩
    · simp [rpanic] at k2
    steps at k2
    obtain ⟨d, hd, m, hm, n, hn, hc⟩ := k2
    rw [← hcps, (div_mag hc).2.1, (mul_mag hn).1]
  have hbY : -ulp 12 ≤ r.recv.toRat - p.gs.liq.toRat * (r.endRp.toRat - p.gs.rp.toRat) ∧
      r.recv.toRat - p.gs.liq.toRat * (r.endRp.toRat - p.gs.rp.toRat) ≤ (p.gs.liq.toRat + 2) * ulp 12 := by
    rcases hcase with ⟨_, _, e1, _, e2, _⟩ | ⟨_, _, e1, e2, e3, _⟩
    · rw [e2] at hends
      rw [e1] at hrecs
      have := (dy_bounds hdl hrecs hL).2 hends.2
      rw [e1, e2]
      exact ⟨this.1, this.2.trans (by positivity)⟩
    · rw [← e1] at e3
      have := rpY_bounds e3 hrecs hL k5
      constructor
      · linarith
      · refine this.2.trans ?_; nlinarith
  obtain ⟨f1, f2, f3, f4⟩ : p'.positions = p1.positions ∧ p'.gs.rp = p1.gs.rp ∧ p'.x = p1.x ∧ p'.y = p1.y := by
    rcases h18 with ⟨_, _, _, hc⟩ | ⟨_, _, _, rfl⟩ | ⟨_, rfl⟩
    · obtain ⟨b1, b2, _, _, _, _, b7, _, _, _, _, b12, _⟩ := crossTick_frame hc
      exact ⟨b7, b12, b1, b2⟩
    · exact ⟨rfl, rfl, rfl, rfl⟩
    · exact ⟨rfl, rfl, rfl, rfl⟩
  obtain ⟨g1, g2⟩ := spare_congr f1 f2 f3 f4
  obtain ⟨s1, s2⟩ := hs.spare_move (p' := p1) (by
    rw [hp1]; exact hs.right_same hmin hq hends.1 hends.2) (by rw [hp1])
  rw [← g1, ← g2] at *
  have e1 : p1.x.toRat = newX.toRat := by rw [hp1]
  have e2 : p1.y.toRat = newY.toRat := by rw [hp1]
  have e3 : p1.gs.rp.toRat = r.endRp.toRat := by rw [hp1]
  rw [e2, e3, hY] at s1
  rw [e1, e3, hX] at s2
  obtain ⟨b1, b2⟩ := abs_le.1 hbX
  have hL2 : ulp 12 ≤ (p.gs.liq.toRat + 2) * ulp 12 := by nlinarith
  refine ⟨by rw [f1, hp1], fun _ => ?_, fun _ => ?_, by linarith, by linarith, by linarith, by linarith⟩
  · rw [f3, hp1]
    show newX.scale = 12
    rw [(sub_ok.1 h4).2.2.1, (add_ok.1 h3).2.2.1, hx]
  · rw [f4, hp1]; exact (add_ok.1 h14).2.2.1.trans hy

/-! ### Walking -/

/-- Walking across ticks without liquidity changes no claim. -/
structure Idle (p p' : Pool) : Prop where
  positions : p'.positions = p.positions
  x : p'.x = p.x
  y : p'.y = p.y
  sx : p'.spareX = p.spareX
  sy : p'.spareY = p.spareY

theorem Idle.refl (p : Pool) : Idle p p := ⟨rfl, rfl, rfl, rfl, rfl⟩
theorem Idle.trans {p q r : Pool} (h : Idle p q) (k : Idle q r) : Idle p r :=
  ⟨k.1.trans h.1, k.2.trans h.2, k.3.trans h.3, k.4.trans h.4, k.5.trans h.5⟩

theorem idle_left {p p1 : Pool} (hs : Sound p) (h0 : p.gs.liq.toRat = 0) {tk : Nat} {q : Decimal}
    (hle : tk ≤ p.gs.tick) (hmem : tk ∈ p.ticks.map (·.1))
    (hmax : ∀ k ∈ p.ticks.map (·.1), k ≤ p.gs.tick → k ≤ tk) (hq : tickToRp tk = .ok q)
    (h1 : ((p.setTick tk).setRp q).crossTick tk false = .ok p1) : Idle p p1 := by
  obtain ⟨b1, b2, _, _, _, _, b7, _, _, _, _, b12, _⟩ := crossTick_frame h1
  have hqr := (hs.cell tk q (hs.booked.grid hmem) hq).1 hle
  have hrp : p1.gs.rp = q := b12
  obtain ⟨s1, s2⟩ := hs.spare_move (p' := p1) (by
    rw [hrp]; exact hs.left_same hmax hq (le_refl _) hqr) b7
  rw [h0, zero_mul, show p1.y = p.y from b2] at s1
  rw [h0, zero_mul, show p1.x = p.x from b1] at s2
  exact ⟨b7, b1, b2, by linarith, by linarith⟩

theorem idle_right {p p1 : Pool} (hs : Sound p) (h0 : p.gs.liq.toRat = 0) {tk : Nat} {q : Decimal}
    (hlt : p.gs.tick < tk) (hmem : tk ∈ p.ticks.map (·.1))
    (hmin : ∀ k ∈ p.ticks.map (·.1), k < tk → k ≤ p.gs.tick) (hq : tickToRp tk = .ok q)
    (h1 : ((p.setTick tk).setRp q).crossTick tk true = .ok p1) : Idle p p1 := by
  obtain ⟨b1, b2, _, _, _, _, b7, _, _, _, _, b12, _⟩ := crossTick_frame h1
  have hqr := (hs.cell tk q (hs.booked.grid hmem) hq).2 hlt
  have hrp : p1.gs.rp = q := b12
  obtain ⟨s1, s2⟩ := hs.spare_move (p' := p1) (by
    rw [hrp]; exact hs.right_same hmin hq (le_refl _) hqr) b7
  rw [h0, zero_mul, show p1.y = p.y from b2] at s1
  rw [h0, zero_mul, show p1.x = p.x from b1] at s2
  exact ⟨b7, b1, b2, by linarith, by linarith⟩

theorem idle_tryLeft : ∀ {tks : List Nat} {p p' : Pool} {goal : Option Nat} {rp : Decimal}, Sound p →
    p.gs.liq.toRat = 0 → tks.Pairwise (· > ·) → (∀ k ∈ p.ticks.map (·.1), k ≤ p.gs.tick → k ∈ tks) →
    tryInRangeLeft tks p = .ok (p', goal, rp) → Idle p p' := by
  intro tks
  induction tks with
  | nil => intro p p' goal rp hb _ _ _ h; cases h; exact .refl _
  | cons tk tks ih =>
    intro p p' goal rp hb hz hpw hall h
    have hpw' := List.pairwise_cons.1 hpw
    unfold tryInRangeLeft at h
    rw [ite_ok] at h
    rcases h with ⟨h0, h⟩ | ⟨h0, h⟩
    · refine ih hb hz hpw'.2 (fun k hk hkt => ?_) h
      rcases List.mem_cons.1 (hall k hk hkt) with rfl | hm
      · omega
      · exact hm
    · rw [bind_ok] at h; obtain ⟨q, hq, h⟩ := h
      simp only at h
      rw [bind_ok] at h; obtain ⟨p1, h1, h⟩ := h
      rw [bind_ok] at h; obtain ⟨g, hg, h⟩ := h
      have hmax : ∀ k ∈ p.ticks.map (·.1), k ≤ p.gs.tick → k ≤ tk := fun k hk hkt => by
        rcases List.mem_cons.1 (hall k hk hkt) with rfl | hm
        · exact le_refl _
        · exact (hpw'.1 k hm).le
      have hs1 : Sound p1 := hb.crossLeft (p1 := (p.setTick tk).setRp q) (not_lt.1 h0) hmax hq rfl rfl rfl rfl rfl h1
      have hmem : tk ∈ p.ticks.map (·.1) := by
        obtain ⟨ts, _, _, _, _, _, _, h2, _⟩ := crossTick_ok h1
        exact mapGet_isSome.1 (by rw [show p.ticks = ((p.setTick tk).setRp q).ticks from rfl, h2]; rfl)
      have hi : Idle p p1 := idle_left hb hz (not_lt.1 h0) hmem hmax hq h1
      have hkeys : p1.ticks.map (·.1) = p.ticks.map (·.1) := (crossTick_frame h1).2.2.2.2.2.2.2.2.2.2.1
      have htick := cross_left_tick h1
      rw [ite_ok] at h; rcases h with ⟨_, h⟩ | ⟨_, h⟩; · simp [rpanic] at h
      rw [ite_ok] at h; rcases h with ⟨_, h⟩ | ⟨hnp, h⟩
      · cases h
        exact hi
      · have hz1 : p1.gs.liq.toRat = 0 := by
          refine le_antisymm (not_lt.1 fun hc => hnp ?_) hs1.liq_nonneg
          exact isPositive_toRat.2 hc
        exact hi.trans (ih hs1 hz1 hpw'.2 (fun k hk hkt => by
          rw [hkeys] at hk
          rcases List.mem_cons.1 (hall k hk (by omega)) with rfl | hm
          · omega
          · exact hm) h)

theorem idle_tryRight : ∀ {tks : List Nat} {p p' : Pool} {goal : Option Nat} {rp : Decimal}, Sound p →
    p.gs.liq.toRat = 0 → tks.Pairwise (· < ·) → (∀ k ∈ p.ticks.map (·.1), p.gs.tick < k → k ∈ tks) →
    tryInRangeRight tks p = .ok (p', goal, rp) → Idle p p' := by
  intro tks
  induction tks with
  | nil => intro p p' goal rp hb _ _ _ h; cases h; exact .refl _
  | cons tk tks ih =>
    intro p p' goal rp hb hz hpw hall h
    have hpw' := List.pairwise_cons.1 hpw
    unfold tryInRangeRight at h
    rw [ite_ok] at h
    rcases h with ⟨h0, h⟩ | ⟨h0, h⟩
    · refine ih hb hz hpw'.2 (fun k hk hkt => ?_) h
      rcases List.mem_cons.1 (hall k hk hkt) with rfl | hm
      · omega
      · exact hm
    · rw [bind_ok] at h; obtain ⟨q, hq, h⟩ := h
      simp only at h
      rw [bind_ok] at h; obtain ⟨p1, h1, h⟩ := h
      rw [bind_ok] at h; obtain ⟨g, hg, h⟩ := h
      have hmin : ∀ k ∈ p.ticks.map (·.1), k < tk → k ≤ p.gs.tick := fun k hk hkt => by
        by_contra hc
        rcases List.mem_cons.1 (hall k hk (by omega)) with rfl | hm
        · omega
        · have := hpw'.1 k hm; omega
      have hs1 : Sound p1 := hb.crossRight (p1 := (p.setTick tk).setRp q) (not_le.1 h0) hmin hq rfl rfl rfl rfl rfl h1
      have hmem : tk ∈ p.ticks.map (·.1) := by
        obtain ⟨ts, _, _, _, _, _, _, h2, _⟩ := crossTick_ok h1
        exact mapGet_isSome.1 (by rw [show p.ticks = ((p.setTick tk).setRp q).ticks from rfl, h2]; rfl)
      have hi : Idle p p1 := idle_right hb hz (not_le.1 h0) hmem hmin hq h1
      have hkeys : p1.ticks.map (·.1) = p.ticks.map (·.1) := (crossTick_frame h1).2.2.2.2.2.2.2.2.2.2.1
      have htick := cross_right_tick h1
      rw [ite_ok] at h; rcases h with ⟨_, h⟩ | ⟨_, h⟩; · simp [rpanic] at h
      rw [ite_ok] at h; rcases h with ⟨_, h⟩ | ⟨hnp, h⟩
      · cases h
        exact hi
      · have hz1 : p1.gs.liq.toRat = 0 := by
          refine le_antisymm (not_lt.1 fun hc => hnp ?_) hs1.liq_nonneg
          exact isPositive_toRat.2 hc
        exact hi.trans (ih hs1 hz1 hpw'.2 (fun k hk hkt => by
          rw [hkeys] at hk
          rcases List.mem_cons.1 (hall k hk (by omega)) with rfl | hm
          · omega
          · exact hm) h)

theorem idle_goalX {dx : Decimal} {p0 p p' : Pool} {a a' : SwapAcc} {g : Option Nat} (h : PhaseX dx p0 p a)
    (hl : a.recv.lt dx = .ok true) (hg : goalX p a = .ok (p', g, a')) : Idle p p' := by
  rcases h with ⟨hs, _⟩ | ⟨hl', _⟩
  · obtain ⟨_, _, _, _, ⟨rfl, _⟩ | ⟨hnp, h2, h3⟩⟩ := goalX_ok hg
    · exact .refl _
    · have hz : p.gs.liq.toRat = 0 := le_antisymm (not_lt.1 fun hc => by
        rw [isPositive_toRat.2 hc] at hnp; cases hnp) hs.liq_nonneg
      exact idle_tryLeft hs hz (by
        unfold tickKeys; simp only [if_true]; exact List.pairwise_reverse.2 hs.booked.asc)
        (fun k hk _ => mem_tickKeys.2 hk) h3
  · rw [hl] at hl'; cases hl'

theorem idle_goalY {dy : Decimal} {p0 p p' : Pool} {a a' : SwapAcc} {g : Option Nat} (h : PhaseY dy p0 p a)
    (hl : a.recv.lt dy = .ok true) (hg : goalY p a = .ok (p', g, a')) : Idle p p' := by
  rcases h with ⟨hs, _⟩ | ⟨hl', _⟩
  · obtain ⟨_, _, _, _, ⟨rfl, _⟩ | ⟨hnp, h2, h3⟩⟩ := goalY_ok hg
    · exact .refl _
    · have hz : p.gs.liq.toRat = 0 := le_antisymm (not_lt.1 fun hc => by
        rw [isPositive_toRat.2 hc] at hnp; cases hnp) hs.liq_nonneg
      exact idle_tryRight hs hz hs.booked.asc (fun k hk _ => hk) h3
  · rw [hl] at hl'; cases hl'

/-! ### Whole swaps -/

/-- A change of the spare reserves by at most `k` roundings. -/
structure Dusty (c : ℚ) (k : Nat) (p p' : Pool) : Prop where
  positions : p'.positions = p.positions
  y_lo : -(k * ulp 12) ≤ p'.spareY - p.spareY
  y_hi : p'.spareY - p.spareY ≤ k * ((c + 2) * ulp 12)
  x_lo : -(k * ((c + 2) * ulp 12)) ≤ p'.spareX - p.spareX
  x_hi : p'.spareX - p.spareX ≤ k * ((c + 2) * ulp 12)

theorem Idle.dusty {c : ℚ} {p p' : Pool} (h : Idle p p') : Dusty c 0 p p' := by
  refine ⟨h.positions, ?_, ?_, ?_, ?_⟩ <;> simp [h.sx, h.sy]

theorem Dusty.cons {c L : ℚ} {k : Nat} {p p1 p2 p' : Pool} (h0 : Idle p p1) (h1 : Dust L p1 p2) (hL : L ≤ c)
    (h2 : Dusty c k p2 p') : Dusty c (k + 1) p p' := by
  have hu := ulp_pos (s := 12)
  have hm : (L + 2) * ulp 12 ≤ (c + 2) * ulp 12 := by nlinarith
  have a1 := h1.y_lo; have a2 := h1.y_hi; have a3 := h1.x_lo; have a4 := h1.x_hi
  rw [h0.sx] at a3 a4
  rw [h0.sy] at a1 a2
  refine ⟨(h2.positions.trans h1.positions).trans h0.positions, ?_, ?_, ?_, ?_⟩ <;> push_cast
  · linarith [h2.y_lo]
  · linarith [h2.y_hi]
  · linarith [h2.x_lo]
  · linarith [h2.x_hi]

theorem totalLiq_congr {p p' : Pool} (h : p'.positions = p.positions) : p'.totalLiq = p.totalLiq := by
  unfold totalLiq; rw [h]

theorem dusty_runX {fl : FloatEnv} {dx o : Decimal} (hd : dx.isPositive = true) {p0 p : Pool} {a : SwapAcc} {k : Nat}
    {res : R (Pool × SwapOutput)} (h : RunX fl dx o p a k res) : ∀ {p' r}, res = .ok (p', r) →
    PhaseX dx p0 p a → p.x.scale = 12 → p.y.scale = 12 → Dusty p.totalLiq k p p' := by
  have fin : ∀ {p a p' r}, finishX p a = .ok (p', r) → p' = p := by
    intro p a p' r h
    exact (finishX_ok h).1
  induction h with
  | failTest _ => intro p' r h; cases h
  | done _ =>
    intro p' r h _ _ _
    rw [fin h]; exact (Idle.refl _).dusty
  | failGoal _ _ => intro p' r h; cases h
  | exhausted hl hg =>
    intro p' r h hP _ _
    rw [fin h]; exact (idle_goalX hP (unwrap_ok.1 hl) hg).dusty
  | failStep _ _ _ => intro p' r h; cases h
  | @step p a p1 g a1 p2 a2 k res hl hg hs _ ih =>
    intro p' r h hP hx hy
    have hA := hP.goal (unwrap_ok.1 hl) hg
    have hI := idle_goalX hP (unwrap_ok.1 hl) hg
    have hD := dust_stepX hA hs (by rw [hI.x]; exact hx) (by rw [hI.y]; exact hy)
    have h2 := ih h (hA.step hd hs) (hD.xs (by rw [hI.x]; exact hx)) (hD.ys (by rw [hI.y]; exact hy))
    rw [totalLiq_congr (hD.positions.trans hI.positions)] at h2
    refine Dusty.cons hI hD ?_ h2
    rw [← totalLiq_congr hI.positions]
    exact hA.1.liq_le

theorem dusty_runY {fl : FloatEnv} {dy o : Decimal} (hd : dy.isPositive = true) {p0 p : Pool} {a : SwapAcc} {k : Nat}
    {res : R (Pool × SwapOutput)} (h : RunY fl dy o p a k res) : ∀ {p' r}, res = .ok (p', r) →
    PhaseY dy p0 p a → p.x.scale = 12 → p.y.scale = 12 → Dusty p.totalLiq k p p' := by
  have fin : ∀ {p a p' r}, finishY p a = .ok (p', r) → p' = p := by
    intro p a p' r h
    exact (finishY_ok h).1
  induction h with
  | failTest _ => intro p' r h; cases h
  | done _ =>
    intro p' r h _ _ _
    rw [fin h]; exact (Idle.refl _).dusty
  | failGoal _ _ => intro p' r h; cases h
  | exhausted hl hg =>
    intro p' r h hP _ _
    rw [fin h]; exact (idle_goalY hP (unwrap_ok.1 hl) hg).dusty
  | failStep _ _ _ => intro p' r h; cases h
  | @step p a p1 g a1 p2 a2 k res hl hg hs _ ih =>
    intro p' r h hP hx hy
    have hA := hP.goal (unwrap_ok.1 hl) hg
    have hI := idle_goalY hP (unwrap_ok.1 hl) hg
    have hD := dust_stepY hA hs (by rw [hI.x]; exact hx) (by rw [hI.y]; exact hy)
    have h2 := ih h (hA.step hd hs) (hD.xs (by rw [hI.x]; exact hx)) (hD.ys (by rw [hI.y]; exact hy))
    rw [totalLiq_congr (hD.positions.trans hI.positions)] at h2
    refine Dusty.cons hI hD ?_ h2
    rw [← totalLiq_congr hI.positions]
    exact hA.1.liq_le

theorem Dusty.weaken {c : ℚ} {k n : Nat} {p p' : Pool} (h : Dusty c k p p') (hc : 0 ≤ c) (hk : k ≤ n) :
    Dusty c n p p' := by
  have hu := ulp_pos (s := 12)
  have hk' : (k : ℚ) ≤ n := by exact_mod_cast hk
  have h1 : (k : ℚ) * ulp 12 ≤ n * ulp 12 := by nlinarith
  have h2 : (k : ℚ) * ((c + 2) * ulp 12) ≤ n * ((c + 2) * ulp 12) :=
    mul_le_mul_of_nonneg_right hk' (by positivity)
  exact ⟨h.positions, by linarith [h.y_lo], by linarith [h.y_hi], by linarith [h.x_lo], by linarith [h.x_hi]⟩

theorem Sound.total_nonneg {p : Pool} (h : Sound p) : 0 ≤ p.totalLiq := h.liq_nonneg.trans h.liq_le

/-! ### Deposits and withdrawals -/

theorem clamped {rp a b m c : Decimal} (hab : a.toRat ≤ b.toRat) (h1 : rp.min b = .ok m) (h2 : m.max a = .ok c) :
    c.toRat = clampTo rp.toRat a.toRat b.toRat := by
  rcases min_cases h1 with ⟨rfl, h⟩ | ⟨rfl, h⟩ <;> rcases max_cases h2 with ⟨rfl, h'⟩ | ⟨rfl, h'⟩
  · rw [clampTo_in h' h]
  · rw [clampTo_lo h' hab]
  · rw [clampTo_hi h hab]
  · rw [clampTo_hi h hab]; exact le_antisymm hab h'

theorem y_amount {l rp a b c : Decimal} (h : yFromLRpRng l rp a b = .ok c) (hs : c.scale = 12) (hl : 0 ≤ l.toRat)
    (hab : a.toRat ≤ b.toRat) :
    0 ≤ c.toRat ∧ c.toRat ≤ (clampTo rp.toRat a.toRat b.toRat - a.toRat) * l.toRat ∧
      (clampTo rp.toRat a.toRat b.toRat - a.toRat) * l.toRat < c.toRat + ulp 12 := by
  unfold yFromLRpRng at h
  rw [bind_ok] at h; obtain ⟨m, h1, h⟩ := h
  rw [bind_ok] at h; obtain ⟨q, h2, h⟩ := h
  rw [bind_ok] at h; obtain ⟨d, h3, h⟩ := h
  rw [ite_ok] at h; rcases h with ⟨_, h⟩ | ⟨h4, h⟩; · simp [rpanic] at h
  rw [Bool.not_eq_true] at h4
  rw [← clamped hab h1 h2, ← sub_toRat (unwrap_ok.1 h3), mul_comm]
  have := mul_down h (mul_nonneg hl (not_isNegative.1 h4))
  rw [(mul_mag h).1] at hs
  rwa [hs] at this

theorem x_amount {l rp a b c : Decimal} (h : xFromLRpRng l rp a b = .ok c) (hs : c.scale = 12) (hl : 0 ≤ l.toRat)
    (hb : b.scale = 12) (h1 : 1 ≤ a.toRat) (hab : a.toRat ≤ b.toRat) :
    0 ≤ c.toRat ∧ c.toRat * (1 - ulp 12) ≤ (1 / clampTo rp.toRat a.toRat b.toRat - 1 / b.toRat) * l.toRat ∧
      (1 / clampTo rp.toRat a.toRat b.toRat - 1 / b.toRat) * l.toRat < c.toRat + 2 * ulp 12 := by
  unfold xFromLRpRng at h
  rw [ite_ok] at h; rcases h with ⟨_, h⟩ | ⟨_, h⟩; · simp [rpanic] at h
  steps at h
  obtain ⟨m, g1, q, g2, d, g3, e, g4, f, g5, g6⟩ := h
  have hcl := clamp hab g1 g2
  have hq := clamped hab g1 g2
  rw [← hq]
  have ed := sub_toRat g3
  have hqs : q.scale = 12 := by rw [(sub_ok.1 g3).1.symm]; exact hb
  have hu := ulp_pos (s := 12)
  obtain ⟨e1, e2, e3⟩ := mul_ge_one g4 (by linarith) (by linarith)
  rw [hqs] at e3
  have hld : 0 ≤ l.toRat * d.toRat := mul_nonneg hl (by rw [ed]; linarith)
  obtain ⟨f0, f1, f2⟩ := mul_down g5 hld
  have hls : l.scale = 12 := by rw [← hs, (div_mag g6).2.1, (mul_mag g5).1]
  rw [hls] at f2
  obtain ⟨_, c0, c1, c2⟩ := div_down g6 f0 (by linarith)
  rw [(mul_mag g5).1, hls] at c2
  have hq0 : 0 < q.toRat := by linarith
  have hb0 : 0 < b.toRat := by linarith
  have he0 : 0 < e.toRat := by linarith
  have hM : 1 ≤ q.toRat * b.toRat := one_le_mul_of_one_le_of_one_le (by linarith) (by linarith)
  have ex : (1 / q.toRat - 1 / b.toRat) * l.toRat = l.toRat * d.toRat / (q.toRat * b.toRat) := by
    rw [ed]; field_simp
  rw [ex]
  refine ⟨c0, ?_, ?_⟩
  · rw [le_div_iff₀ (by linarith)]
    rw [le_div_iff₀ he0] at c1
    have : (1 - ulp 12) * (q.toRat * b.toRat) ≤ e.toRat := by nlinarith
    calc c.toRat * (1 - ulp 12) * (q.toRat * b.toRat) = c.toRat * ((1 - ulp 12) * (q.toRat * b.toRat)) := by ring
      _ ≤ c.toRat * e.toRat := mul_le_mul_of_nonneg_left this c0
      _ ≤ l.toRat * d.toRat := by linarith
  · rw [div_lt_iff₀ (by linarith)]
    rw [div_lt_iff₀ he0] at c2
    nlinarith

theorem sumPos_setPosition {p p' : Pool} {user lower upper : Nat} {d : Decimal} {f : Fees}
    (hu : UniqueKeys p.positions) (h : p.setPosition user lower upper d = .ok (p', f)) (w : PositionKey → ℚ) :
    sumPos w p'.positions = sumPos w p.positions + w ⟨user, lower, upper⟩ * d.toRat := by
  obtain ⟨nf, old, base, h0⟩ := setPosition_map h
  exact sumPos_set hu h0 w

theorem spare_deposit {p p' : Pool} (hs : Sound p) (hx : p.x.scale = 12) (hy : p.y.scale = 12) {user : Nat}
    {x y rpa rpb : Decimal} {r : Receipt} (h : p.deposit user x y rpa rpb = .ok (p', r)) :
    (-ulp 12 ≤ p'.spareY - p.spareY ∧ p'.spareY - p.spareY ≤ 0) ∧ -(2 * ulp 12) ≤ p'.spareX - p.spareX := by
  obtain ⟨lower, upper, a, b, liq, p1, p2, px, py, _, _, _, _, g1, g2, g3, g4, g5, _, hl, hrx, _, hry, _, h1, _, _,
    h2, h3, h4, rfl⟩ := deposit_ok h
  obtain ⟨e1, e2, e4, e3, e5⟩ := payFees_frame h4
  have hf := setPosition_frame h1
  have w := sumPos_setPosition hs.booked.unique h1
  have hpx : p1.x = p.x := by rw [hf]
  have hpy : p1.y = p.y := by rw [hf]
  have hab := price_mono g3.le g4 g5
  have hrp : p2.gs.rp = p.gs.rp := by rw [e4, hf]
  unfold spareX spareY owedX owedY
  simp only [e1, hrp]
  rw [w, w, add_toRat h2, add_toRat h3, hpx, hpy]
  simp only
  rw [tickPrice_eq g4, tickPrice_eq g5]
  obtain ⟨_, y1, y2⟩ := y_amount hry (by rw [← (add_ok.1 h3).1, hpy]; exact hy) hl hab
  obtain ⟨_, _, x2⟩ := x_amount hrx (by rw [← (add_ok.1 h2).1, hpx]; exact hx) hl
    (tickToRp_pos g5).1.1 (tickPrice_ge g4) hab
  refine ⟨⟨by linarith, by linarith⟩, by linarith⟩

theorem spare_withdraw {p p' : Pool} (hs : Sound p) (hx : p.x.scale = 12) (hy : p.y.scale = 12) {user : Nat}
    {liq rpa rpb : Decimal} {r : Receipt} (h : p.withdraw user liq rpa rpb = .ok (p', r)) :
    0 ≤ p'.spareY - p.spareY ∧ 0 ≤ p'.spareX - p.spareX := by
  obtain ⟨lower, upper, a, b, p1, p2, x0, y0, adj, px, py, hl, g1, g2, g3, g4, g5, h1, hrx, hry, hadj, hmx, hmy, _, _,
    _, _, h2, h3, h4, rfl⟩ := withdraw_ok h
  obtain ⟨e1, e2, e4, e3, e5⟩ := payFees_frame h4
  have hf := setPosition_frame h1
  have w := sumPos_setPosition hs.booked.unique h1
  have hpx : p1.x = p.x := by rw [hf]
  have hpy : p1.y = p.y := by rw [hf]
  have hab := price_mono g3.le g4 g5
  have hrp1 : p1.gs.rp = p.gs.rp := by rw [hf]
  have hrp : p2.gs.rp = p.gs.rp := by rw [e4, hf]
  unfold spareX spareY owedX owedY
  simp only [e1, hrp]
  rw [w, w, sub_toRat h2, sub_toRat h3, hpx, hpy, neg_toRat]
  simp only
  rw [tickPrice_eq g4, tickPrice_eq g5]
  rw [hrp1] at hrx hry
  have hadj' : adj.toRat = 1 - ulp 12 := by
    have : PoolMath.one.sub adjWithdrawal = .ok ⟨999999999999, 12, false⟩ := by decide +kernel
    rw [this] at hadj; cases hadj
    rw [toRat_mk]; unfold ulp; norm_num
  have hu : 0 < 1 - ulp 12 := by unfold ulp; norm_num
  obtain ⟨y0', y1, _⟩ := y_amount hry (by rw [← (mul_mag hmy).1, ← (sub_ok.1 h3).1, hpy]; exact hy) hl hab
  obtain ⟨x0', x1, _⟩ := x_amount hrx (by rw [← (mul_mag hmx).1, ← (sub_ok.1 h2).1, hpx]; exact hx) hl
    (tickToRp_pos g5).1.1 (tickPrice_ge g4) hab
  obtain ⟨_, mx, _⟩ := mul_down hmx (mul_nonneg x0' (by rw [hadj']; exact hu.le))
  obtain ⟨_, my, _⟩ := mul_down hmy (mul_nonneg y0' (by rw [hadj']; exact hu.le))
  rw [hadj'] at mx my
  have hle : y0.toRat * (1 - ulp 12) ≤ y0.toRat := by nlinarith [ulp_pos (s := 12)]
  constructor <;> linarith

end Hmm.Pool
