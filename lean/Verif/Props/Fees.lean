import Verif.Proofs.Claims
import Verif.Props.Active

/-
Fees claimed by positions: C42, C43, C63, C64.
-/

namespace Hmm.Pool

open Decimal PoolMath Sample

theorem xFrom_mono {l l' rp a b c c' : Decimal} (h : xFromLRpRng l rp a b = .ok c)
    (h' : xFromLRpRng l' rp a b = .ok c') (hs : l.scale = l'.scale) (h0 : 0 ≤ l.toRat) (hle : l.toRat ≤ l'.toRat)
    (ha : 0 ≤ a.toRat) (hab : a.toRat ≤ b.toRat) : c.toRat ≤ c'.toRat := by
  have n1 := xFrom_nonneg h h0 ha hab
  have n2 := xFrom_nonneg h' (h0.trans hle) ha hab
  rw [← abs_of_nonneg n1, ← abs_of_nonneg n2, abs_toRat, abs_toRat]
  have hm : l.mag ≤ l'.mag := by
    rw [← abs_toRat, ← abs_toRat, abs_of_nonneg h0, abs_of_nonneg (h0.trans hle)]; exact hle
  unfold xFromLRpRng at h h'
  rw [ite_ok] at h; rcases h with ⟨_, h⟩ | ⟨_, h⟩; · simp [rpanic] at h
  rw [ite_ok] at h'; rcases h' with ⟨_, h'⟩ | ⟨_, h'⟩; · simp [rpanic] at h'
  steps at h
  steps at h'
  obtain ⟨m, h1, q, h2, d, h3, e, h4, f, h5, h6⟩ := h
  obtain ⟨m', h1', q', h2', d', h3', e', h4', f', h5', h6'⟩ := h'
  rw [h1] at h1'; cases h1'
  rw [h2] at h2'; cases h2'
  rw [h3] at h3'; cases h3'
  rw [h4] at h4'; cases h4'
  obtain ⟨_, _, _, d1⟩ := div_mag h6
  obtain ⟨_, _, _, d2⟩ := div_mag h6'
  obtain ⟨s1, _, m1⟩ := mul_mag h5
  obtain ⟨s2, _, m2⟩ := mul_mag h5'
  rw [d1, d2, s1, s2, hs]
  refine floorAt_mono (div_le_div_of_nonneg_right ?_ (mag_nonneg _))
  rw [m1, m2, hs]
  exact floorAt_mono (mul_le_mul_of_nonneg_right hm (mag_nonneg _))

theorem yFrom_mono {l l' rp a b c c' : Decimal} (h : yFromLRpRng l rp a b = .ok c)
    (h' : yFromLRpRng l' rp a b = .ok c') (hs : l.scale = l'.scale) (h0 : 0 ≤ l.toRat) (hle : l.toRat ≤ l'.toRat) :
    c.toRat ≤ c'.toRat := by
  have n1 := yFrom_nonneg h h0
  have n2 := yFrom_nonneg h' (h0.trans hle)
  rw [← abs_of_nonneg n1, ← abs_of_nonneg n2, abs_toRat, abs_toRat]
  have hm : l.mag ≤ l'.mag := by
    rw [← abs_toRat, ← abs_toRat, abs_of_nonneg h0, abs_of_nonneg (h0.trans hle)]; exact hle
  unfold yFromLRpRng at h h'
  rw [bind_ok] at h; obtain ⟨m, h1, h⟩ := h
  rw [bind_ok] at h; obtain ⟨q, h2, h⟩ := h
  rw [bind_ok] at h; obtain ⟨d, h3, h⟩ := h
  rw [ite_ok] at h; rcases h with ⟨_, h⟩ | ⟨h4, h⟩; · simp [rpanic] at h
  rw [bind_ok] at h'; obtain ⟨m', h1', h'⟩ := h'
  rw [bind_ok] at h'; obtain ⟨q', h2', h'⟩ := h'
  rw [bind_ok] at h'; obtain ⟨d', h3', h'⟩ := h'
  rw [ite_ok] at h'; rcases h' with ⟨_, h'⟩ | ⟨h4', h'⟩; · simp [rpanic] at h'
  rw [h1] at h1'; cases h1'
  rw [h2] at h2'; cases h2'
  rw [h3] at h3'; cases h3'
  obtain ⟨_, _, m1⟩ := mul_mag h
  obtain ⟨_, _, m2⟩ := mul_mag h'
  rw [m1, m2, hs]
  exact floorAt_mono (mul_le_mul_of_nonneg_right hm (mag_nonneg _))

theorem snap_congr {p p' : Pool} (h : p'.spacing = p.spacing) (rp : Decimal) (b : Bool) (t : Nat) :
    p'.rpToPossibleTick rp b t = p.rpToPossibleTick rp b t := by
  unfold rpToPossibleTick; rw [h]

/-! ### C42 -/

/-- A sale of 1 X, and then a deposit by owner 3 into the range of owner 1. -/
def late : Pool × Receipt :=
  get ((get (pool.executeSwapFromX fl (D 1) PoolMath.zero)).1.deposit 3 (D 3) (D 2) (mid 10) (mid 30))

/-- Owner 3 takes all of it back. -/
def gone : Pool × Receipt := get (late.1.withdraw 3 ⟨4134901996341227, 12, false⟩ (mid 10) (mid 30))

/-- C42 as stated is false: a first deposit followed at once by its withdrawal can return more than was
deposited, out of the fees of other owners. -/
theorem C42_false : ¬ ∀ (p p' p'' : Pool) (user lower upper : Nat) (x y rpa rpb liq : Decimal) (r r' : Receipt),
    Reachable p → p.rpToPossibleTick rpa false 0 = .ok lower → p.rpToPossibleTick rpb false lower = .ok upper →
    mapGet ⟨user, lower, upper⟩ p.positions = none → p.deposit user x y rpa rpb = .ok (p', r) →
    p'.withdraw user liq rpa rpb = .ok (p'', r') → r'.totalX.toRat ≤ r.totalX.toRat ∧ r'.totalY.toRat ≤ r.totalY.toRat := by
  intro h
  have := (h (get (pool.executeSwapFromX fl (D 1) PoolMath.zero)).1 late.1 gone.1 3 10 30 (D 3) (D 2) (mid 10) (mid 30)
    ⟨4134901996341227, 12, false⟩ late.2 gone.2
    (.step (two_reachable pool_ok.1) (.sellX (fl := fl) (dx := D 1) (o := PoolMath.zero)
      (r := (get (pool.executeSwapFromX fl (D 1) PoolMath.zero)).2) (by decide +kernel)))
    (by decide +kernel) (by decide +kernel) (by decide +kernel) (by decide +kernel) (by decide +kernel)).1
  rw [show gone.2.totalX = ⟨2133734205243, 12, false⟩ by decide +kernel,
    show late.2.totalX = ⟨2133527298886, 12, false⟩ by decide +kernel, toRat_le_mk] at this
  revert this; decide

/-- C42, amounts moved in and out of the reserves: a withdrawal, of any part, right after a deposit into a
new position takes no more out of either reserve than the deposit put in. -/
theorem C42_principal {p p' p'' : Pool} {user lower upper : Nat} {x y rpa rpb liq : Decimal} {r r' : Receipt}
    (hl : p.rpToPossibleTick rpa false 0 = .ok lower) (hu : p.rpToPossibleTick rpb false lower = .ok upper)
    (hnew : mapGet ⟨user, lower, upper⟩ p.positions = none) (h : p.deposit user x y rpa rpb = .ok (p', r))
    (h' : p'.withdraw user liq rpa rpb = .ok (p'', r')) :
    r'.x.toRat ≤ r.x.toRat ∧ r'.y.toRat ≤ r.y.toRat ∧ 0 ≤ r'.x.toRat ∧ 0 ≤ r'.y.toRat := by
  obtain ⟨l1, u1, a, b, liq0, p1, p2, px, py, _, _, _, _, g1, g2, g3, g4, g5, _, g6, k1, _, k2, _, h1, _, _, _, _,
    hp, rfl⟩ := deposit_ok h
  rw [hl] at g1; cases g1
  rw [hu] at g2; cases g2
  obtain ⟨e1, _, e3, e4, _⟩ := payFees_frame hp
  have hf := setPosition_frame h1
  obtain ⟨l2, u2, a', b', p3, p4, x0, y0, adj, px', py', i0, i1, i2, i3, i4, i5, h2, j1, j2, j3, j4, j5, _⟩ :=
    withdraw_ok h'
  have hsp : ({ p2 with x := px, y := py } : Pool).spacing = p.spacing := by
    show p2.spacing = _
    rw [e4, hf]
  rw [snap_congr hsp, hl] at i1; cases i1
  rw [snap_congr hsp, hu] at i2; cases i2
  rw [g4] at i4; cases i4
  rw [g5] at i5; cases i5
  have hrp : p3.gs.rp = p.gs.rp := by
    rw [(setPosition_gs h2).2.2]
    show p2.gs.rp = _
    rw [e3, (setPosition_gs h1).2.2]
  rw [hrp] at j1 j2
  -- the position is the deposit
  obtain ⟨nf, old, base, m1⟩ := setPosition_map h1
  obtain ⟨nf', old', base', m2⟩ := setPosition_map h2
  have hget : mapGet ⟨user, lower, upper⟩ ({ p2 with x := px, y := py } : Pool).positions = some ⟨liq0, Fees.zero⟩ := by
    show mapGet _ p2.positions = _
    rw [e1]
    rcases setPositionMap_ok m1 with ⟨_, _, e, _⟩ | ⟨poz, n, e, _⟩
    · rw [e, mapGet_set_same]
    · rw [hnew] at e; cases e
  obtain ⟨n, hn, hn0⟩ : ∃ n, liq0.add liq.neg = .ok n ∧ 0 ≤ n.toRat := by
    rcases setPositionMap_ok m2 with ⟨e, _⟩ | ⟨poz, n, e, _, _, _, e', e'', _⟩
    · rw [hget] at e; cases e
    · rw [hget] at e; cases e; exact ⟨n, e', e''⟩
  have hsc : liq.scale = liq0.scale := by
    have := (add_ok.1 hn).1
    rw [this]; unfold Decimal.neg; (repeat' split) <;> rfl
  have hle : liq.toRat ≤ liq0.toRat := by
    have := add_toRat hn
    rw [neg_toRat] at this
    linarith
  have ha := (tickToRp_pos g4).2
  have hab := price_mono g3.le g4 g5
  have hadj : adj = ⟨999999999999, 12, false⟩ := by
    have : (PoolMath.one.sub adjWithdrawal) = .ok ⟨999999999999, 12, false⟩ := by decide +kernel
    rw [this] at j3; cases j3; rfl
  have hadj0 : 0 ≤ adj.toRat ∧ adj.toRat ≤ 1 := by rw [hadj]; norm_num [toRat]
  have nx := xFrom_nonneg j1 i0 ha.le hab
  have ny := yFrom_nonneg j2 i0
  refine ⟨?_, ?_, nonneg_mul j4 nx hadj0.1, nonneg_mul j5 ny hadj0.1⟩
  · calc r'.x.toRat ≤ x0.toRat * adj.toRat := mul_le j4 nx hadj0.1
      _ ≤ x0.toRat := by nlinarith
      _ ≤ r.x.toRat := xFrom_mono j1 k1 hsc i0 hle ha.le hab
  · calc r'.y.toRat ≤ y0.toRat * adj.toRat := mul_le j5 ny hadj0.1
      _ ≤ y0.toRat := by nlinarith
      _ ≤ r.y.toRat := yFrom_mono j2 k2 hsc i0 hle

theorem Unused.out {p : Pool} (hr : Reachable p) {t : Nat} (h : Unused p t) : t ∉ p.ticks.map (·.1) := by
  rcases C38_ticks hr t with ⟨h1, _⟩ | ⟨ts, _, h2, _, h3⟩
  · exact mapGet_none.1 h1
  · rw [h2, h.1, h.2] at h3; norm_num at h3

/-- C42 (partial): if no position began or ended at the lower bound of the new position before, a withdrawal
right after the deposit pays, fees included, at most what the deposit cost.  Missing: lower bounds in use,
for which the statement is false. -/
theorem C42_partial {p p' p'' : Pool} {user lower upper : Nat} {x y rpa rpb liq : Decimal} {r r' : Receipt}
    (hr : Reachable p)
    (hl : p.rpToPossibleTick rpa false 0 = .ok lower) (hu : p.rpToPossibleTick rpb false lower = .ok upper)
    (hnew : mapGet ⟨user, lower, upper⟩ p.positions = none) (hfresh : Unused p lower)
    (h : p.deposit user x y rpa rpb = .ok (p', r)) (h' : p'.withdraw user liq rpa rpb = .ok (p'', r')) :
    r'.totalX.toRat ≤ r.totalX.toRat ∧ r'.totalY.toRat ≤ r.totalY.toRat := by
  obtain ⟨k1, k2, _⟩ := C42_principal hl hu hnew h h'
  obtain ⟨l1, u1, d, p1, g1, g2, hlu, hset, e1, e2, e3⟩ := deposit_set h
  rw [hl] at g1; cases g1
  rw [hu] at g2; cases g2
  obtain ⟨l2, u2, d', p2, g1, g2, _, hset', _⟩ := withdraw_set h'
  have hsp := deposit_spacing h
  rw [snap_congr hsp, hl] at g1; cases g1
  rw [snap_congr hsp, hu] at g2; cases g2
  have hrec := Recorded.reachable hr
  have z' := nothing_yet hlu hset e1 e2 e3 (hrec.deposit h) (hfresh.out hr) hnew hset'
  have z : ∀ k, (r.fees.at k).toRat = 0 := fun k => by
    obtain ⟨c1, c2, _⟩ := setPosition_claim hset k
    unfold liqOf at c2
    rw [hnew] at c2
    simp only [Option.elim, zero_mul] at c2
    exact le_antisymm c2 c1
  obtain ⟨_, _, _, _, _, _, _, _, _, _, _, _, _, _, _, _, _, _, _, _, _, _, _, _, _, t1, t2, _⟩ := deposit_ok h
  obtain ⟨_, _, _, _, _, _, _, _, _, _, _, _, _, _, _, _, _, _, _, _, _, _, _, t3, t4, _⟩ := withdraw_ok h'
  have a1 := z .fx; have a2 := z .fy; have a3 := z .hx; have a4 := z .hy
  have b1 := z' .fx; have b2 := z' .fy; have b3 := z' .hx; have b4 := z' .hy
  simp only [Fees.at] at a1 a2 a3 a4 b1 b2 b3 b4
  rw [t1, t2, t3, t4, a1, a2, a3, a4, b1, b2, b3, b4]
  constructor <;> linarith

/-- The same sale, and then a deposit by owner 3 into a range whose bounds are not in use, and its withdrawal. -/
def late' : Pool × Receipt :=
  get ((get (pool.executeSwapFromX fl (D 1) PoolMath.zero)).1.deposit 3 (D 3) (D 2) (mid 12) (mid 28))

def gone' : Pool × Receipt := get (late'.1.withdraw 3 (D 2000) (mid 12) (mid 28))

theorem sold_reachable : Reachable (get (pool.executeSwapFromX fl (D 1) PoolMath.zero)).1 :=
  .step (two_reachable pool_ok.1) (.sellX (fl := fl) (dx := D 1) (o := PoolMath.zero)
    (r := (get (pool.executeSwapFromX fl (D 1) PoolMath.zero)).2) (by decide +kernel))

theorem unused_of {p : Pool} (hr : Reachable p) {t : Nat} (h : mapGet t p.ticks = none) : Unused p t := by
  rcases C38_ticks hr t with ⟨_, h2⟩ | ⟨ts, h1, _⟩
  · exact h2
  · rw [h] at h1; cases h1

-- such deposits and withdrawals exist, in a pool that has collected fees
example : ∃ p p' p'' : Pool, ∃ r r' : Receipt, Reachable p ∧ 0 < p.growth .fx ∧ Unused p 12 ∧
    p.deposit 3 (D 3) (D 2) (mid 12) (mid 28) = .ok (p', r) ∧ p'.withdraw 3 (D 2000) (mid 12) (mid 28) = .ok (p'', r') ∧
    0 < r'.totalX.toRat :=
  ⟨_, late'.1, gone'.1, late'.2, gone'.2, sold_reachable, isPositive_toRat.1 (by decide +kernel),
    unused_of sold_reachable (by decide +kernel), by decide +kernel, by decide +kernel,
    isPositive_toRat.1 (by decide +kernel)⟩

/-! ### C43 -/

/-- C43 as stated is false: owner 3 collects fees on a position opened after the last swap. -/
theorem C43_false : ¬ ∀ (p p' p'' : Pool) (user lower upper : Nat) (x y rpa rpb liq : Decimal) (r r' : Receipt),
    Reachable p → p.rpToPossibleTick rpa false 0 = .ok lower → p.rpToPossibleTick rpb false lower = .ok upper →
    mapGet ⟨user, lower, upper⟩ p.positions = none → p.deposit user x y rpa rpb = .ok (p', r) →
    p'.withdraw user liq rpa rpb = .ok (p'', r') → ∀ k, (r'.fees.at k).toRat = 0 := by
  intro h
  have := h (get (pool.executeSwapFromX fl (D 1) PoolMath.zero)).1 late.1 gone.1 3 10 30 (D 3) (D 2) (mid 10) (mid 30)
    ⟨4134901996341227, 12, false⟩ late.2 gone.2 sold_reachable
    (by decide +kernel) (by decide +kernel) (by decide +kernel) (by decide +kernel) (by decide +kernel) .fx
  have h2 : 0 < (gone.2.fees.at .fx).toRat := isPositive_toRat.1 (by decide +kernel)
  linarith

/-- C43 (partial), at once: if no position began or ended at the lower bound before, whatever the owner does
next with the new position collects nothing.  Missing: lower bounds in use, for which the statement is
false. -/
theorem C43_at_once_partial {p p' p'' : Pool} {user lower upper : Nat} {x y rpa rpb : Decimal} {r r' : Receipt}
    (hr : Reachable p)
    (hl : p.rpToPossibleTick rpa false 0 = .ok lower) (hu : p.rpToPossibleTick rpb false lower = .ok upper)
    (hnew : mapGet ⟨user, lower, upper⟩ p.positions = none) (hfresh : Unused p lower)
    (h : p.deposit user x y rpa rpb = .ok (p', r))
    (h' : (∃ liq, p'.withdraw user liq rpa rpb = .ok (p'', r')) ∨
      ∃ x' y', p'.deposit user x' y' rpa rpb = .ok (p'', r')) (k : Kind) : (r'.fees.at k).toRat = 0 := by
  obtain ⟨l1, u1, d, p1, g1, g2, hlu, hset, e1, e2, e3⟩ := deposit_set h
  rw [hl] at g1; cases g1
  rw [hu] at g2; cases g2
  have hset' : ∃ d' p2, p'.setPosition user lower upper d' = .ok (p2, r'.fees) := by
    rcases h' with ⟨liq, h'⟩ | ⟨x', y', h'⟩
    · obtain ⟨l2, u2, d', p2, g1, g2, _, hset', _⟩ := withdraw_set h'
      rw [snap_congr (deposit_spacing h), hl] at g1; cases g1
      rw [snap_congr (deposit_spacing h), hu] at g2; cases g2
      exact ⟨d', p2, hset'⟩
    · obtain ⟨l2, u2, d', p2, g1, g2, _, hset', _⟩ := deposit_set h'
      rw [snap_congr (deposit_spacing h), hl] at g1; cases g1
      rw [snap_congr (deposit_spacing h), hu] at g2; cases g2
      exact ⟨d', p2, hset'⟩
  obtain ⟨d', p2, hset'⟩ := hset'
  exact nothing_yet hlu hset e1 e2 e3 ((Recorded.reachable hr).deposit h) (hfresh.out hr) hnew hset' k

/-- An operation of the owner on the position in a range. -/
def Touches (p p' : Pool) (key : PositionKey) (r : Receipt) : Prop :=
  ∃ rpa rpb, p.rpToPossibleTick rpa false 0 = .ok key.lower ∧ p.rpToPossibleTick rpb false key.lower = .ok key.upper ∧
    ((∃ x y, p.deposit key.user x y rpa rpb = .ok (p', r)) ∨ ∃ liq, p.withdraw key.user liq rpa rpb = .ok (p', r))

theorem Touches.set {p p' : Pool} {key : PositionKey} {r : Receipt} (h : Touches p p' key r) :
    ∃ d p1, key.lower < key.upper ∧ p.setPosition key.user key.lower key.upper d = .ok (p1, r.fees) ∧
      p'.positions = p1.positions ∧ p'.ticks = p1.ticks ∧ p'.gs = p1.gs := by
  obtain ⟨rpa, rpb, hl, hu, ⟨x, y, h⟩ | ⟨liq, h⟩⟩ := h
  · obtain ⟨l1, u1, d, p1, g1, g2, hlu, hset, e⟩ := deposit_set h
    rw [hl] at g1; cases g1
    rw [hu] at g2; cases g2
    exact ⟨d, p1, hlu, hset, e⟩
  · obtain ⟨l1, u1, d, p1, g1, g2, hlu, hset, e⟩ := withdraw_set h
    rw [hl] at g1; cases g1
    rw [hu] at g2; cases g2
    exact ⟨d, p1, hlu, hset, e⟩

theorem Touches.clear {p p' : Pool} {key : PositionKey} {r : Receipt} (h : Touches p p' key r) : ClearStep p p' := by
  obtain ⟨rpa, rpb, _, _, ⟨x, y, h⟩ | ⟨liq, h⟩⟩ := h
  · exact .deposit h
  · exact .withdraw h

/-- C43 (partial), later: let the owner touch a position that was open before, or open one whose lower bound
was not in use.  For as long as it stays open, each later operation on it collects at most its liquidity
times the growth of fees since then.  Missing: the first collection of a position opened at a lower bound in
use, for which this is false; swaps that end within two millionths of a tick of the grid. -/
theorem C43_later_partial {p p1 q q' : Pool} {key : PositionKey} {r r' : Receipt} (hp : ClearReachable p)
    (h : Touches p p1 key r) (hop : mapGet key p.positions ≠ none ∨ Unused p key.lower) (hh : Held key p1 q)
    (h' : Touches q q' key r') (k : Kind) :
    (r'.fees.at k).toRat ≤ liqOf q.positions key * (q.growth k - p1.growth k) ∧ p1.growth k ≤ q.growth k := by
  obtain ⟨user, lower, upper⟩ := key
  obtain ⟨d, p2, hlu, hset, e1, e2, e3⟩ := h.set
  obtain ⟨d', p3, _, hset', _⟩ := h'.set
  have hs : Sound p1 := Sound.clearReachable (.step hp h.clear)
  have ho : 0 < liqOf p1.positions ⟨user, lower, upper⟩ := by
    clear h' hset'
    induction hh with
    | here h => exact h
    | step _ _ _ ih => exact ih
  have hst := settled (Recorded.reachable hp.reachable) hlu hset e1 e2 e3 hs ho
    (hop.imp_right fun h => h.out hp.reachable)
  have hsince := Since.held hs hh
  exact ⟨hsince.claim hst hset' k, hsince.growth k⟩

/-- Owner 3 opens [12, 28) in the two-position pool, 17 X are sold across tick 15, owner 3 withdraws part. -/
def opened : Pool × Receipt := get (pool.deposit 3 (D 3) (D 2) (mid 12) (mid 28))

def traded : Pool × SwapOutput := get (opened.1.executeSwapFromX fl (D 17) PoolMath.zero)

def taken : Pool × Receipt := get (traded.1.withdraw 3 (D 2000) (mid 12) (mid 28))

theorem opened_touches : Touches pool opened.1 ⟨3, 12, 28⟩ opened.2 :=
  ⟨mid 12, mid 28, by decide +kernel, by decide +kernel, .inl ⟨D 3, D 2, by decide +kernel⟩⟩

theorem liqOf_pos {ps : List (PositionKey × PositionState)} {key : PositionKey}
    (h : (mapGet key ps).any (fun s => s.liq.isPositive) = true) : 0 < liqOf ps key := by
  unfold liqOf
  cases hm : mapGet key ps with
  | none => rw [hm] at h; cases h
  | some s => rw [hm] at h; exact isPositive_toRat.1 h

theorem traded_clear : ClearStep opened.1 traded.1 := by
  have h1 : opened.1.executeSwapFromX fl (D 17) PoolMath.zero = .ok (traded.1, traded.2) := by decide +kernel
  refine .sellX h1 fun _ => ?_
  refine away_of (t := 14) (a := ⟨1000700210022, 12, false⟩) (b := ⟨1000750243782, 12, false⟩) (by decide +kernel)
      (by decide +kernel) ?_ ?_
  all_goals rw [show traded.1.gs.rp = ⟨1000721112572, 12, false⟩ by decide +kernel]; norm_num [toRat]

theorem traded_held : Held ⟨3, 12, 28⟩ opened.1 traded.1 :=
  .step (.here (liqOf_pos (by decide +kernel))) traded_clear (liqOf_pos (by decide +kernel))

-- the bound applies to this history, in which owner 3 does collect fees
example : (taken.2.fees.at .fx).toRat ≤
      liqOf traded.1.positions ⟨3, 12, 28⟩ * (traded.1.growth .fx - opened.1.growth .fx) ∧
    0 < (taken.2.fees.at .fx).toRat :=
  ⟨(C43_later_partial pool_clear opened_touches
      (.inr (unused_of (two_reachable pool_ok.1) (by decide +kernel))) traded_held
      ⟨mid 12, mid 28, by decide +kernel, by decide +kernel, .inr ⟨D 2000, (by decide +kernel :
        traded.1.withdraw 3 (D 2000) (mid 12) (mid 28) = .ok (taken.1, taken.2))⟩⟩ .fx).1,
    isPositive_toRat.1 (by decide +kernel)⟩

/-! ### C63, C64 -/

/-- C63: in every reachable state no growth is negative, and no tick has recorded more growth on its far side
than there has been in total. -/
theorem C63_records {p : Pool} (h : Reachable p) (k : Kind) :
    0 ≤ p.growth k ∧ ∀ t, 0 ≤ p.recorded k t ∧ p.recorded k t ≤ p.growth k ∧ 0 ≤ p.below k t ∧
      p.below k t ≤ p.growth k := by
  have hr := Recorded.reachable h
  exact ⟨hr.growth k, fun t => ⟨(hr.bounds k t).1, (hr.bounds k t).2, (hr.below k t).1, (hr.below k t).2⟩⟩

-- ticks 10 and 15 of the pool after the sale across 15; fees have been recorded at 15
example : Reachable traded.1 ∧ 0 < traded.1.growth .fx ∧ 0 < traded.1.recorded .fx 15 ∧
    traded.1.recorded .fx 15 < traded.1.growth .fx := by
  refine ⟨(ClearReachable.step (.step pool_clear opened_touches.clear) traded_clear).reachable,
    isPositive_toRat.1 (by decide +kernel), ?_, ?_⟩
  all_goals
    unfold recorded
    rw [show ((mapGet 15 traded.1.ticks).elim 0 fun ts => (ts.fees.at .fx).toRat) = (⟨751561, 12, false⟩ : Decimal).toRat
      by rw [show mapGet 15 traded.1.ticks = some ⟨⟨39967015861281937, 12, false⟩, ⟨39967015861281937, 12, false⟩,
        ⟨⟨751561, 12, false⟩, PoolMath.zero, PoolMath.zero, PoolMath.zero⟩⟩ by decide +kernel]; rfl]
  · norm_num [toRat]
  · unfold growth
    rw [show (traded.1.gs.fees.at .fx) = ⟨839088, 12, false⟩ by decide +kernel]
    norm_num [toRat]

/-- C64 (partial): while a position stays open, the growth inside its range never falls, and rises by no more
than the growth in total.  Missing: histories with swaps that end within two millionths of a tick of the
grid. -/
theorem C64_inside_partial {p q : Pool} {key : PositionKey} (hp : ClearReachable p) (h : Held key p q) (k : Kind) :
    p.inside k key.lower key.upper ≤ q.inside k key.lower key.upper ∧
    q.inside k key.lower key.upper - p.inside k key.lower key.upper ≤ q.growth k - p.growth k :=
  let s := Since.held (Sound.clearReachable hp) h
  ⟨s.lo k, s.hi k⟩

example : ClearReachable opened.1 ∧ Held ⟨3, 12, 28⟩ opened.1 traded.1 ∧ opened.1.growth .fx < traded.1.growth .fx :=
  ⟨.step pool_clear opened_touches.clear, traded_held, by
    unfold growth
    rw [show opened.1.gs.fees.at .fx = ⟨0, 12, false⟩ by decide +kernel,
      show traded.1.gs.fees.at .fx = ⟨839088, 12, false⟩ by decide +kernel]
    norm_num [toRat]⟩

end Hmm.Pool
