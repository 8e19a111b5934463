import Verif.Proofs.Leave

/-
C103: owners can get their money back.
-/

namespace Hmm.Pool

open Decimal PoolMath Sample

/-! ### C103: everyone can leave -/

/-- What a withdrawal leaves behind. -/
theorem withdraw_rest {p p' : Pool} (hp : ClearReachable p) {key : PositionKey} {liq rpa rpb : Decimal} {r : Receipt}
    (hn : Names p key rpa rpb) (h : p.withdraw key.user liq rpa rpb = .ok (p', r)) :
    p'.spacing = p.spacing ∧ liqOf p'.positions key = liqOf p.positions key - liq.toRat ∧
      (∀ j, j ≠ key → liqOf p'.positions j = liqOf p.positions j) ∧ (Small p → Small p') ∧ (Covered p → Covered p') := by
  have hs := Sound.clearReachable hp
  have ht := Tidy.reachable hp.reachable
  obtain ⟨sp1, sp2⟩ := spare_withdraw hs ht.x.1 ht.y.1 h
  obtain ⟨_, _, _, _, px, py, _, _, _, _, _, _⟩ := C73_pays hp.reachable h
  obtain ⟨lower, upper, a, b, p1, p2, x0, y0, adj, px', py', hl, g1, g2, g3, g4, g5, h1, k1, k2, k0, k3, k4, _, _,
    _, _, h2, h3, h4, rfl⟩ := withdraw_ok h
  rw [hn.1] at g1; cases g1
  rw [hn.2] at g2; cases g2
  obtain ⟨e1, e2, e3, e4, _⟩ := payFees_frame h4
  obtain ⟨u1, _, _, _, q5, q6, _⟩ := setPosition_sums hs.booked.unique h1
  have hfr := setPosition_frame h1
  have hx0 := ht.x.nonneg
  have hadj : 0 ≤ adj.toRat := by
    rw [show PoolMath.one.sub adjWithdrawal = .ok ⟨999999999999, 12, false⟩ by decide +kernel] at k0
    cases k0
    exact (amount_mk _ _).nonneg
  have hrx : 0 ≤ r.x.toRat := nonneg_mul k3 (xFrom_nonneg k1 hl (tickToRp_pos g4).2.le (price_mono g3.le g4 g5)) hadj
  have hry : 0 ≤ r.y.toRat := nonneg_mul k4 (yFrom_nonneg k2 hl) hadj
  have hother : ∀ j, j ≠ key → liqOf p2.positions j = liqOf p.positions j := fun j hj => by
    unfold liqOf; rw [e1, q5 j hj]
  have hkey : liqOf p2.positions key = liqOf p.positions key - liq.toRat := by
    rw [e1, show liqOf p1.positions key = _ from q6, neg_toRat]; ring
  refine ⟨by simp only; rw [e4, hfr], hkey, hother, fun hsm => ?_, fun hc => ?_⟩
  · refine ⟨?_, ?_, fun k => ?_, ?_, fun j hj => ?_⟩
    · have := hsm.x; simp only at px ⊢; linarith
    · have := hsm.y; simp only at py ⊢; linarith
    · have hpk := (payFees_pot h4 k).1
      rw [setPosition_pot h1] at hpk
      have h5 := (setPosition_claim h1 k).1
      have h6 := hsm.pots k
      have h7 : pot { p2 with x := px', y := py' } k = p2.pot k := by cases k <;> rfl
      rw [h7]
      linarith
    · have w := sumPos_setPosition hs.booked.unique h1 (fun _ => 1)
      have := hsm.total
      unfold totalLiq at this ⊢
      simp only [e1]
      rw [w, neg_toRat]
      linarith
    · simp only at hj ⊢
      by_cases hjk : j = key
      · subst hjk
        have h6 : 0 < liqOf p.positions j := by linarith
        obtain ⟨w1, w2⟩ := hsm.ranges j h6
        refine ⟨lt_of_le_of_lt (mul_le_mul_of_nonneg_right (by linarith) ?_) w1, w2⟩
        rw [tickPrice_eq g5]; exact (tickToRp_pos g5).2.le
      · rw [hother j hjk] at hj ⊢
        exact hsm.ranges j hj
  · unfold Covered at hc ⊢
    unfold spareY at sp1
    unfold spareX at sp2
    constructor <;> linarith

/-- C103 (partial), one withdrawal: while numbers are small and every first deposit into a range begins at a
tick not in use, an owner can withdraw any part of a position whose exact share the reserves hold.  Missing:
first deposits at a lower bound in use and swaps that end close to the grid, for which this is false. -/
theorem C103_part_partial {cap : ℚ} {n : Nat} {p : Pool} (h0 : 0 ≤ cap) (h : Fresh cap n p) (hsm : Small p)
    {key : PositionKey} {liq rpa rpb : Decimal} (hl : liq.scale = 12)
    (hpos : 0 < liq.toRat) (hle : liq.toRat ≤ liqOf p.positions key) (hn : Names p key rpa rpb)
    (hx : shareX liq.toRat p.gs.rp.toRat key.lower key.upper ≤ p.x.toRat)
    (hy : shareY liq.toRat p.gs.rp.toRat key.lower key.upper ≤ p.y.toRat) :
    ∃ p' r, p.withdraw key.user liq rpa rpb = .ok (p', r) :=
  withdraw_returns h0 h hsm (hpos.trans_le hle) hl hpos hle hn hx hy

theorem Fresh.capped {cap : ℚ} {n : Nat} {p : Pool} (h : Fresh cap n p) : ∃ m ≤ n, Capped cap m p := by
  induction h with
  | new h => exact ⟨_, le_rfl, .new h⟩
  | deposit _ _ _ _ h hc ih =>
    obtain ⟨m, hm, hp⟩ := ih
    exact ⟨m + 1, by omega, .deposit hp h hc⟩
  | withdraw _ h ih =>
    obtain ⟨m, hm, hp⟩ := ih
    exact ⟨m, by omega, .withdraw hp h⟩
  | sellX _ h hon ih =>
    obtain ⟨m, hm, hp⟩ := ih
    exact ⟨_, by omega, .sellX hp h hon⟩
  | sellY _ h hon ih =>
    obtain ⟨m, hm, hp⟩ := ih
    exact ⟨_, by omega, .sellY hp h hon⟩

theorem share_nonneg {p : Pool} (hs : Sound p) {v : ℚ} {key : PositionKey} (hk : mapGet key p.positions ≠ none) :
    0 ≤ clampTo v (tickPrice key.lower) (tickPrice key.upper) - tickPrice key.lower ∧
    0 ≤ 1 / clampTo v (tickPrice key.lower) (tickPrice key.upper) - 1 / tickPrice key.upper := by
  obtain ⟨s, hm⟩ := Option.ne_none_iff_exists'.1 hk
  have hu := hs.priced key s hm
  have hlu := (hs.booked.pos key s hm).2.1
  obtain ⟨a, ha⟩ := tickToRp_returns (t := key.lower) (by omega)
  obtain ⟨b, hb⟩ := tickToRp_returns hu
  rw [tickPrice_eq ha, tickPrice_eq hb]
  have hab := price_mono hlu.le ha hb
  have h1 := tickPrice_ge ha
  unfold clampTo
  refine ⟨by linarith [le_max_left a.toRat (min v b.toRat)], ?_⟩
  rw [sub_nonneg]
  refine one_div_le_one_div_of_le ?_ (max_le hab (min_le_right _ _))
  exact lt_of_lt_of_le (by linarith) (le_max_left a.toRat (min v b.toRat))

/-- The reserves hold the share of any one position, but for dust. -/
theorem share_le {p : Pool} (hs : Sound p) (key : PositionKey) :
    shareX (liqOf p.positions key) p.gs.rp.toRat key.lower key.upper ≤ p.owedX ∧
    shareY (liqOf p.positions key) p.gs.rp.toRat key.lower key.upper ≤ p.owedY := by
  have key' : ∀ (w : PositionKey → ℚ), (∀ k, mapGet k p.positions ≠ none → 0 ≤ w k) →
      w key * liqOf p.positions key ≤ sumPos w p.positions := by
    intro w hw
    have h1 := liqOf_le hs (w := fun k => if mapGet k p.positions = none then 0 else w k) (by
      intro k; split
      · exact le_rfl
      · rename_i hk; exact hw k hk) key
    have h2 : sumPos (fun k => if mapGet k p.positions = none then 0 else w k) p.positions = sumPos w p.positions := by
      refine sumPos_congr fun k s hm _ => ?_
      rw [if_neg (by rw [get_of_mem hs.booked.unique hm]; simp)]
    rw [h2] at h1
    split at h1
    · rename_i hk
      have : liqOf p.positions key = 0 := by unfold liqOf; rw [hk]; rfl
      rw [this] at h1 ⊢
      simpa using h1
    · exact h1
  unfold shareX shareY owedX owedY
  exact ⟨key' (fun k => 1 / clampTo p.gs.rp.toRat (tickPrice k.lower) (tickPrice k.upper) - 1 / tickPrice k.upper)
      fun k hk => (share_nonneg hs hk).2,
    key' (fun k => clampTo p.gs.rp.toRat (tickPrice k.lower) (tickPrice k.upper) - tickPrice k.lower)
      fun k hk => (share_nonneg hs hk).1⟩

/-- C103 (partial), all but dust: an owner can at any time withdraw any part of a position that leaves behind, of
each token the position holds, as much as has been lost to rounding so far. -/
theorem C103_most_partial {cap : ℚ} {n : Nat} {p : Pool} (h0 : 0 ≤ cap) (h : Fresh cap n p) (hsm : Small p)
    {key : PositionKey} {liq rpa rpb : Decimal} (hl : liq.scale = 12)
    (hpos : 0 < liq.toRat) (hle : liq.toRat ≤ liqOf p.positions key) (hn : Names p key rpa rpb)
    (hx : shareX liq.toRat p.gs.rp.toRat key.lower key.upper ≤
      max 0 (shareX (liqOf p.positions key) p.gs.rp.toRat key.lower key.upper - n * (cap + 2) / 10 ^ 12))
    (hy : shareY liq.toRat p.gs.rp.toRat key.lower key.upper ≤
      max 0 (shareY (liqOf p.positions key) p.gs.rp.toRat key.lower key.upper - n / 10 ^ 12)) :
    ∃ p' r, p.withdraw key.user liq rpa rpb = .ok (p', r) := by
  have hs := Sound.clearReachable h.clear
  have ht := Tidy.reachable h.clear.reachable
  obtain ⟨m, hm, hc⟩ := h.capped
  have c1 := C69_x_partial h0 hc
  have c2 := C69_y_partial h0 hc
  have hm' : (m : ℚ) ≤ n := by exact_mod_cast hm
  obtain ⟨s1, s2⟩ := share_le hs key
  have d1 : (m : ℚ) * (cap + 2) / 10 ^ 12 ≤ n * (cap + 2) / 10 ^ 12 := by gcongr
  have d2 : (m : ℚ) / 10 ^ 12 ≤ n / 10 ^ 12 := by gcongr
  refine C103_part_partial h0 h hsm hl hpos hle hn (hx.trans (max_le ht.x.nonneg ?_)) (hy.trans (max_le ht.y.nonneg ?_))
  · linarith
  · linarith

/-- C103 (partial), everyone: while numbers are small, every first deposit into a range begins at a tick not in
use, and the reserves hold what the positions hold, all owners can withdraw everything, in whatever order.
Missing: states in which rounding has left the reserves short, for which this is false. -/
theorem C103_all_partial {cap : ℚ} (h0 : 0 ≤ cap) {keys : List PositionKey} : ∀ {n : Nat} {p : Pool}, Fresh cap n p → Small p →
    Covered p → keys.Nodup → (∀ key ∈ keys, 0 < liqOf p.positions key) →
    ∃ p', Leaves p keys p' ∧ Covered p' ∧ (∀ key ∈ keys, liqOf p'.positions key = 0) ∧
      ∀ key ∉ keys, liqOf p'.positions key = liqOf p.positions key := by
  induction keys with
  | nil => exact fun _ _ hc _ _ => ⟨_, .nil, hc, by simp, fun _ _ => rfl⟩
  | cons key keys ih =>
    intro n p h hsm hc hnd hk
    have hs := Sound.clearReachable h.clear
    have hk0 := hk key (by simp)
    obtain ⟨s, hm⟩ : ∃ s, mapGet key p.positions = some s := by
      unfold liqOf at hk0
      cases hm : mapGet key p.positions with
      | none => rw [hm] at hk0; exact absurd hk0 (lt_irrefl _)
      | some s => exact ⟨s, rfl⟩
    have hL : liqOf p.positions key = s.liq.toRat := by unfold liqOf; rw [hm]; rfl
    obtain ⟨o1, _, rpa, rpb, hn⟩ := (Owned.reachable h.clear.reachable).pos key s hm
    obtain ⟨s1, s2⟩ := share_le hs key
    obtain ⟨p1, r, hw⟩ := C103_part_partial h0 h hsm o1 (hL ▸ hk0) hL.ge hn (by rw [← hL]; exact s1.trans hc.1)
      (by rw [← hL]; exact s2.trans hc.2)
    obtain ⟨_, r2, r3, r4, r5⟩ := withdraw_rest h.clear hn hw
    obtain ⟨hnk, hnd'⟩ := List.nodup_cons.1 hnd
    have hne : ∀ j ∈ keys, j ≠ key := fun j hj e => hnk (e ▸ hj)
    obtain ⟨p', w1, w2, w3, w4⟩ := ih (.withdraw h hw) (r4 hsm) (r5 hc) hnd' fun j hj => by
      rw [r3 j (hne j hj)]; exact hk j (by simp [hj])
    refine ⟨p', .cons hL.symm hn hw w1, w2, fun j hj => ?_, fun j hj => ?_⟩
    · rcases List.mem_cons.1 hj with rfl | hj
      · rw [w4 _ hnk, r2, hL]; ring
      · exact w3 j hj
    · simp only [List.mem_cons, not_or] at hj
      rw [w4 j hj.2, r3 j hj.1]

/-! Two positions, and a sale of one X or of one Y. -/

def soldX := get (pool.executeSwapFromX fl (D 1) PoolMath.zero)

def soldY := get (pool.executeSwapFromY fl (D 1) PoolMath.zero)

theorem pool_fresh : Fresh 100000 2 pool := by
  have h0 : Fresh 100000 0 empty := .new (by decide +kernel : Pool.new (mid 20) 1 PoolMath.zero ⟨3000000000, 12, false⟩ = _)
  have h1 : Fresh 100000 1 one₁.1 := .deposit (r := one₁.2) (lower := 10) (upper := 30) h0 (by decide +kernel)
    (by decide +kernel) (.inr (unused_of h0.clear.reachable (by decide +kernel)))
    (by decide +kernel : empty.deposit 1 (D 10) (D 10) (mid 10) (mid 30) = _) (by decide +kernel)
  exact .deposit (r := (get (one₁.1.deposit 2 (D 10) (D 10) (mid 15) (mid 25))).2)
    (lower := 15) (upper := 25) h1 (by decide +kernel) (by decide +kernel)
    (.inr (unused_of h1.clear.reachable (by decide +kernel)))
    (by decide +kernel : one₁.1.deposit 2 (D 10) (D 10) (mid 15) (mid 25) = _) (by decide +kernel)

theorem soldX_fresh : Fresh 100000 (2 + (pool.ticks.length + 1)) soldX.1 := by
  refine .sellX (r := soldX.2) pool_fresh (by decide +kernel : pool.executeSwapFromX fl (D 1) PoolMath.zero = _) fun _ => ?_
  refine away_of (t := 19) (a := ⟨1000950403835, 12, false⟩) (b := ⟨1001000450103, 12, false⟩) (by decide +kernel)
      (by decide +kernel) ?_ ?_
  all_goals rw [show soldX.1.gs.rp = ⟨1000983787402, 12, false⟩ by decide +kernel]; norm_num [toRat]

theorem soldY_fresh : Fresh 100000 (2 + (pool.ticks.length + 1)) soldY.1 := by
  refine .sellY (r := soldY.2) pool_fresh (by decide +kernel : pool.executeSwapFromY fl (D 1) PoolMath.zero = _) fun _ => ?_
  refine away_of (t := 20) (a := ⟨1001000450103, 12, false⟩) (b := ⟨1001050498874, 12, false⟩) (by decide +kernel)
      (by decide +kernel) ?_ ?_
  all_goals rw [show soldY.1.gs.rp = ⟨1001017079790, 12, false⟩ by decide +kernel]; norm_num [toRat]

def owners : List (PositionKey × PositionState) :=
  [(⟨1, 10, 30⟩, ⟨⟨19986005718851637, 12, false⟩, Fees.zero⟩), (⟨2, 15, 25⟩, ⟨⟨39967015861281937, 12, false⟩, Fees.zero⟩)]

theorem ticks_owned : tickPrice 10 = 1000500100001 / 10 ^ 12 ∧ tickPrice 15 = 1000750243782 / 10 ^ 12 ∧
    tickPrice 25 = 1001250718980 / 10 ^ 12 ∧ tickPrice 30 = 1001501050428 / 10 ^ 12 := by
  refine ⟨?_, ?_, ?_, ?_⟩
  · rw [tickPrice_eq (by decide +kernel : tickToRp 10 = .ok ⟨1000500100001, 12, false⟩)]; norm_num [toRat]
  · rw [tickPrice_eq (by decide +kernel : tickToRp 15 = .ok ⟨1000750243782, 12, false⟩)]; norm_num [toRat]
  · rw [tickPrice_eq (by decide +kernel : tickToRp 25 = .ok ⟨1001250718980, 12, false⟩)]; norm_num [toRat]
  · rw [tickPrice_eq (by decide +kernel : tickToRp 30 = .ok ⟨1001501050428, 12, false⟩)]; norm_num [toRat]

theorem small_of {p : Pool} (h : p.positions = owners) (hx : p.x.toRat < 1000) (hy : p.y.toRat < 1000)
    (hp : ∀ k, (p.pot k).toRat < 1000) : Small p := by
  obtain ⟨_, _, t3, t4⟩ := ticks_owned
  have ht : (1000000000 : ℚ) < top := by norm_num [top]
  refine ⟨by linarith, by linarith, fun k => by linarith [hp k], ?_, fun key hk => ?_⟩
  · refine lt_trans ?_ ht
    unfold totalLiq sumPos
    rw [h]
    norm_num [owners, toRat]
  · rw [h] at hk ⊢
    by_cases h1 : key = ⟨1, 10, 30⟩
    · subst h1
      rw [show liqOf owners ⟨1, 10, 30⟩ = toRat ⟨19986005718851637, 12, false⟩ from rfl]
      simp only [t4]
      constructor <;> refine lt_trans ?_ ht <;> norm_num [toRat]
    · by_cases h2 : key = ⟨2, 15, 25⟩
      · subst h2
        rw [show liqOf owners ⟨2, 15, 25⟩ = toRat ⟨39967015861281937, 12, false⟩ from rfl]
        simp only [t3]
        constructor <;> refine lt_trans ?_ ht <;> norm_num [toRat]
      · exfalso
        have : mapGet key owners = none := by
          simp [mapGet, owners, Ne.symm h1, Ne.symm h2]
        unfold liqOf at hk
        rw [this] at hk
        exact absurd hk (lt_irrefl _)

/-- What leaves the pool, and whether, depends on the prices given only through the range they name. -/
theorem withdraw_congr {p : Pool} {key : PositionKey} {liq a b a' b' : Decimal} (h : Names p key a b)
    (h' : Names p key a' b') : p.withdraw key.user liq a b = p.withdraw key.user liq a' b' := by
  unfold withdraw
  rw [h.1, h'.1]
  simp only [bind_eq, h.2, h'.2]

/-- There is only one way to withdraw the whole of a position. -/
theorem Leaves.first {p p' : Pool} {key : PositionKey} {keys : List PositionKey} {l a b : Decimal} {s : PositionState}
    (hp : Reachable p) (hm : mapGet key p.positions = some s) (hs : s.liq = l) (hv : 0 < l.value) (hn : Names p key a b)
    (h : Leaves p (key :: keys) p') : ∃ p1 r, p.withdraw key.user l a b = .ok (p1, r) ∧ Leaves p1 keys p' := by
  cases h with
  | @cons _ p1 _ _ _ liq rpa rpb r h1 h2 h3 h4 =>
    refine ⟨p1, r, ?_, h4⟩
    rw [withdraw_congr hn h2]
    obtain ⟨lower, upper, _, _, _, _, _, _, _, _, _, hl, _, _, _, _, _, hset, _⟩ := withdraw_ok h3
    have hsc : liq.scale = 12 := by
      rw [← neg_scale liq]; exact delta_scale (Tidy.reachable hp) hset
    have h5 : liq.toRat = l.toRat := by rw [h1]; unfold liqOf; rw [hm, ← hs]; rfl
    have h6 : l.scale = 12 := hs ▸ ((Owned.reachable hp).pos key s hm).1
    have h7 : 0 ≤ l.toRat := h5 ▸ hl
    suffices liq = l by rw [← this]; exact h3
    obtain ⟨v, sc, n⟩ := liq
    obtain ⟨w, sc', n'⟩ := l
    simp only at hsc h6 hv
    subst hsc h6
    have hw : (0 : ℚ) < w := by exact_mod_cast hv
    have hv0 : (0 : ℚ) ≤ v := by positivity
    cases n <;> cases n' <;> norm_num [toRat] at h5 h7 hl ⊢
    · exact_mod_cast h5
    all_goals linarith

def left1 := get (soldX.1.withdraw 1 ⟨19986005718851637, 12, false⟩ (mid 10) (mid 30))

def left2 := get (soldX.1.withdraw 2 ⟨39967015861281937, 12, false⟩ (mid 15) (mid 25))

theorem left1_eq : soldX.1.withdraw 1 ⟨19986005718851637, 12, false⟩ (mid 10) (mid 30) = .ok left1 := by decide +kernel

theorem left2_eq : soldX.1.withdraw 2 ⟨39967015861281937, 12, false⟩ (mid 15) (mid 25) = .ok left2 := by decide +kernel

/-- C103, what goes wrong: two owners have deposited, one X has been sold, and whoever withdraws everything
first, the other no longer can, since the reserve of X is short of their share. -/
theorem C103_false : Fresh 100000 (2 + (pool.ticks.length + 1)) soldX.1 ∧ Small soldX.1 ∧
    0 < liqOf soldX.1.positions ⟨1, 10, 30⟩ ∧ 0 < liqOf soldX.1.positions ⟨2, 15, 25⟩ ∧
    (¬ ∃ p', Leaves soldX.1 [⟨1, 10, 30⟩, ⟨2, 15, 25⟩] p') ∧ ¬ ∃ p', Leaves soldX.1 [⟨2, 15, 25⟩, ⟨1, 10, 30⟩] p' := by
  have hr := soldX_fresh.clear.reachable
  refine ⟨soldX_fresh, small_of (by decide +kernel) ?_ ?_ fun k => ?_, liqOf_pos (by decide +kernel),
    liqOf_pos (by decide +kernel), ?_, ?_⟩
  · rw [show soldX.1.x = ⟨20957041917529, 12, false⟩ by decide +kernel]; norm_num [toRat]
  · rw [show soldX.1.y = ⟨19001020727362, 12, false⟩ by decide +kernel]; norm_num [toRat]
  · cases k
    · rw [show soldX.1.pot .fx = ⟨3000000000, 12, false⟩ by decide +kernel]; norm_num [toRat]
    all_goals
      rw [show soldX.1.pot _ = PoolMath.zero by decide +kernel]; norm_num [toRat, PoolMath.zero]
  · rintro ⟨p', h⟩
    obtain ⟨p1, r, h1, h⟩ := h.first (a := mid 10) (b := mid 30) hr (by decide +kernel : mapGet _ _ = some ⟨⟨19986005718851637, 12, false⟩, Fees.zero⟩)
      rfl (by decide) ⟨by decide +kernel, by decide +kernel⟩
    have hr1 := Reachable.step hr (.withdraw h1)
    have e : p1 = _ := congrArg Prod.fst (Except.ok.inj (h1.symm.trans left1_eq))
    rw [e] at h hr1
    obtain ⟨p2, r, h2, h⟩ := h.first (a := mid 15) (b := mid 25) hr1 (by decide +kernel : mapGet _ _ = some ⟨⟨39967015861281937, 12, false⟩, Fees.zero⟩)
      rfl (by decide) ⟨by decide +kernel, by decide +kernel⟩
    have : left1.1.withdraw 2
      ⟨39967015861281937, 12, false⟩ (mid 15) (mid 25) = .error .panic := by decide +kernel
    rw [this] at h2
    cases h2
  · rintro ⟨p', h⟩
    obtain ⟨p1, r, h1, h⟩ := h.first (a := mid 15) (b := mid 25) hr (by decide +kernel : mapGet _ _ = some ⟨⟨39967015861281937, 12, false⟩, Fees.zero⟩)
      rfl (by decide) ⟨by decide +kernel, by decide +kernel⟩
    have hr1 := Reachable.step hr (.withdraw h1)
    have e : p1 = _ := congrArg Prod.fst (Except.ok.inj (h1.symm.trans left2_eq))
    rw [e] at h hr1
    obtain ⟨p2, r, h2, h⟩ := h.first (a := mid 10) (b := mid 30) hr1 (by decide +kernel : mapGet _ _ = some ⟨⟨19986005718851637, 12, false⟩, Fees.zero⟩)
      rfl (by decide) ⟨by decide +kernel, by decide +kernel⟩
    have : left2.1.withdraw 1
      ⟨19986005718851637, 12, false⟩ (mid 10) (mid 30) = .error .panic := by decide +kernel
    rw [this] at h2
    cases h2

/-- After a sale of one Y, the reserves hold what the positions hold. -/
theorem soldY_covered : Fresh 100000 (2 + (pool.ticks.length + 1)) soldY.1 ∧ Small soldY.1 ∧ Covered soldY.1 := by
  refine ⟨soldY_fresh, small_of (by decide +kernel) ?_ ?_ fun k => ?_, ?_, ?_⟩
  · rw [show soldY.1.x = ⟨18965050371576, 12, false⟩ by decide +kernel]; norm_num [toRat]
  · rw [show soldY.1.y = ⟨20996999999998, 12, false⟩ by decide +kernel]; norm_num [toRat]
  · cases k
    rotate_left
    · rw [show soldY.1.pot .fy = ⟨3000000000, 12, false⟩ by decide +kernel]; norm_num [toRat]
    all_goals
      rw [show soldY.1.pot _ = PoolMath.zero by decide +kernel]; norm_num [toRat, PoolMath.zero]
  · obtain ⟨t1, t2, t3, t4⟩ := ticks_owned
    unfold owedX sumPos
    rw [show soldY.1.x = ⟨18965050371576, 12, false⟩ by decide +kernel,
      show soldY.1.gs.rp = ⟨1001017079790, 12, false⟩ by decide +kernel, show soldY.1.positions = owners by decide +kernel]
    norm_num [owners, toRat, clampTo, t1, t2, t3, t4]
  · obtain ⟨t1, t2, t3, t4⟩ := ticks_owned
    unfold owedY sumPos
    rw [show soldY.1.y = ⟨20996999999998, 12, false⟩ by decide +kernel,
      show soldY.1.gs.rp = ⟨1001017079790, 12, false⟩ by decide +kernel, show soldY.1.positions = owners by decide +kernel]
    norm_num [owners, toRat, clampTo, t1, t2, t3, t4]

-- and where the two cannot both leave, each can still take out most of what they have: owner 1 can withdraw 19986
-- units of liquidity of 19986.0057
example : ∃ p' r, soldX.1.withdraw 1 (D 19986) (mid 10) (mid 30) = .ok (p', r) := by
  obtain ⟨hf, hsm, _⟩ := C103_false
  obtain ⟨t1, _, _, t4⟩ := ticks_owned
  have hL : liqOf soldX.1.positions ⟨1, 10, 30⟩ = 19986005718851637 / 10 ^ 12 := by
    rw [show soldX.1.positions = owners by decide +kernel,
      show liqOf owners ⟨1, 10, 30⟩ = toRat ⟨19986005718851637, 12, false⟩ from rfl]
    norm_num [toRat]
  have hl : (D 19986).toRat = 19986 := by norm_num [D, toRat]
  have hrp : soldX.1.gs.rp.toRat = 1000983787402 / 10 ^ 12 := by
    rw [show soldX.1.gs.rp = ⟨1000983787402, 12, false⟩ by decide +kernel]; norm_num [toRat]
  have hlen : pool.ticks.length = 4 := by decide +kernel
  refine C103_most_partial (key := ⟨1, 10, 30⟩) (by norm_num) hf hsm (by decide) (by rw [hl]; norm_num) ?_
    ⟨by decide +kernel, by decide +kernel⟩ ?_ ?_
  · rw [hl, hL]; norm_num
  · refine le_max_of_le_right ?_
    rw [hl, hL, hrp, hlen]
    norm_num [shareX, clampTo, t1, t4]
  · refine le_max_of_le_right ?_
    rw [hl, hL, hrp, hlen]
    norm_num [shareY, clampTo, t1, t4]

-- after the sale of Y the two leave, in either order
example {keys : List PositionKey} (h : keys = [⟨1, 10, 30⟩, ⟨2, 15, 25⟩] ∨ keys = [⟨2, 15, 25⟩, ⟨1, 10, 30⟩]) :
    ∃ p', Leaves soldY.1 keys p' := by
  obtain ⟨h1, h2, h3⟩ := soldY_covered
  have p1 : 0 < liqOf soldY.1.positions ⟨1, 10, 30⟩ := liqOf_pos (by decide +kernel)
  have p2 : 0 < liqOf soldY.1.positions ⟨2, 15, 25⟩ := liqOf_pos (by decide +kernel)
  obtain ⟨p', h, _⟩ := C103_all_partial (by norm_num) (keys := keys) h1 h2 h3
    (by rcases h with rfl | rfl <;> decide) (by rcases h with rfl | rfl <;> simp [p1, p2])
  exact ⟨p', h⟩

end Hmm.Pool
