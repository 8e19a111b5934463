import Verif.Proofs.OnChainTrip
import Verif.Proofs.OnChainFlow

/-
When the computations of a withdrawal succeed in a reachable state.
-/

namespace Hmm.OnChain

open Decimal PoolMath

/-- A range whose prices the pool can compute with. -/
def Priced (tick lower upper : Nat) : Prop :=
  ∃ p a b, tickToRp tick = .ok ⟨p, 12, false⟩ ∧ tickToRp lower = .ok ⟨a, 12, false⟩ ∧ tickToRp upper = .ok ⟨b, 12, false⟩ ∧
    a < b ∧ clampAt p a b * b < u128Size

/-- Stored numbers fit, and ranges with liquidity have prices. -/
structure Fits (s : Chain) : Prop where
  gs : s.gs.liq < u128Size
  tick : ∀ t ts, mapGet t s.ticks = some ts → ts.gross < u128Size ∧ ts.net < u128Size
  pos : ∀ k p, mapGet k s.positions = some p → p.liq < u128Size ∧ (p.liq ≠ 0 → Priced s.gs.tick k.lower k.upper)
  opened : ∀ k p, mapGet k s.positions = some p → p.liq ≠ 0 → s.bitmap.isSome ∧ (mapGet s.gs.tick s.ticks).isSome

theorem add_fits {a b c : Decimal} (h : a.add b = .ok c) (ha : a.value < u128Size) (hb : b.value < u128Size) :
    c.value < u128Size := by
  obtain ⟨k1, k2, k3, k4, _⟩ := add_ok.1 h
  unfold sval at k4
  obtain ⟨av, as, an⟩ := a
  obtain ⟨bv, bs, bn⟩ := b
  obtain ⟨cv, cs, cn⟩ := c
  simp only at *
  cases an <;> cases bn <;> cases cn <;> simp at k2 k4 <;> omega

theorem neg_value (d : Decimal) : d.neg.value = d.value := by
  unfold Decimal.neg
  split
  · rfl
  · split <;> rfl

theorem updateTick_fits {ts ts' : Tick} {t : Nat} {delta : Decimal} {up : Bool} (hg : GoodTick t ts)
    (hd : delta.value < u128Size) (h : updateTick ts t delta up = .ok ts') : ts'.gross < u128Size ∧ ts'.net < u128Size := by
  unfold updateTick at h
  rw [ite_ok] at h; rcases h with ⟨_, h⟩ | ⟨h1, h⟩; · simp [rerr] at h
  rw [bind_ok] at h; obtain ⟨a, h2, h⟩ := h
  rw [bind_ok] at h; obtain ⟨a', h3, h⟩ := h
  rw [bind_ok] at h; obtain ⟨g, h4, h⟩ := h
  rw [bind_ok] at h; obtain ⟨g', h5, h⟩ := h
  rw [ite_ok] at h; rcases h with ⟨_, h⟩ | ⟨h6, h⟩; · simp [rerr] at h
  rw [pure_ok] at h
  obtain ⟨f2, rfl⟩ := toScale_fits hg.net h2
  obtain ⟨f4, rfl⟩ := toScale_fits hg.gross h4
  rw [unwrap_ok] at h3 h5
  subst h
  refine ⟨add_fits h5 f4 hd, add_fits h3 f2 ?_⟩
  split
  · rw [neg_value]; exact hd
  · exact hd

theorem updatePosition_fits {p p' : Position} {l l' u u' : Tick} {delta : Decimal} {lower upper : Nat} {k : PosKey} {f : Fee}
    (hp : GoodPosition k p) (hd : delta.value < u128Size)
    (h : updatePosition p l u delta lower upper f = .ok (p', l', u')) : p'.liq < u128Size := by
  unfold updatePosition at h
  rw [bind_ok] at h; obtain ⟨n, h2, h⟩ := h
  rw [bind_ok] at h; obtain ⟨n', h3, h⟩ := h
  rw [ite_ok] at h; rcases h with ⟨_, h⟩ | ⟨h6, h⟩; · simp [rerr] at h
  rw [bind_ok] at h; obtain ⟨l1, h4, h⟩ := h
  rw [bind_ok] at h; obtain ⟨u1, h5, h⟩ := h
  rw [pure_ok, Prod.mk.injEq] at h
  obtain ⟨rfl, _⟩ := h
  obtain ⟨f2, rfl⟩ := toScale_fits hp.scale h2
  rw [unwrap_ok] at h3
  exact add_fits h3 f2 hd

theorem updateGlobal_fits {g g' : Global} {lower upper current : Nat} {delta : Decimal} (hg : g.liq < u128Size)
    (hd : delta.value < u128Size) (h : updateGlobal g lower upper current delta = .ok g') : g'.liq < u128Size := by
  unfold updateGlobal at h
  rw [ite_ok] at h
  rcases h with ⟨hc, h⟩ | ⟨hc, h⟩
  · rw [bind_ok] at h; obtain ⟨l, h1, h⟩ := h
    rw [ite_ok] at h; rcases h with ⟨_, h⟩ | ⟨h6, h⟩; · simp [rerr] at h
    rw [pure_ok] at h; subst h
    rw [unwrap_ok] at h1
    exact add_fits h1 hg hd
  · rw [pure_ok] at h; subst h; exact hg

theorem Fits.write {s : Chain} (hs : Fits s) {g : Global} {user lower upper current : Nat} {l : Loaded}
    (hg : g.liq < u128Size) (hgt : g.tick = s.gs.tick) (hcur : current = s.gs.tick)
    (hp : l.pos.liq < u128Size ∧ (l.pos.liq ≠ 0 → Priced s.gs.tick lower upper))
    (hl : l.lwr.gross < u128Size ∧ l.lwr.net < u128Size)
    (hu : l.upr.gross < u128Size ∧ l.upr.net < u128Size) (hc : l.cur.gross < u128Size ∧ l.cur.net < u128Size) :
    Fits (writeBack s g user lower upper current l) := by
  refine ⟨hg, fun j ts h => ?_, fun k p h => ?_, fun k p _ _ => ⟨rfl, ?_⟩⟩
  · rw [writeBack_tick] at h
    split at h
    · cases h; exact hc
    · split at h
      · cases h; exact hu
      · split at h
        · cases h; exact hl
        · exact hs.tick _ _ h
  · change mapGet k (mapSet _ _ _) = _ at h
    show _ ∧ (_ → Priced g.tick _ _)
    rw [hgt]
    rw [mapGet_set] at h
    split at h
    · next e => cases h; rw [e]; exact hp
    · exact hs.pos _ _ h
  · show (mapGet g.tick _).isSome
    rw [hgt, ← hcur, writeBack_tick, if_pos rfl]
    rfl

theorem Fits.of_eq {s t : Chain} (hs : Fits s) (h1 : t.gs = s.gs) (h2 : t.ticks = s.ticks)
    (h3 : t.positions = s.positions) (h4 : s.bitmap.isSome → t.bitmap.isSome) : Fits t :=
  ⟨h1 ▸ hs.gs, h2 ▸ hs.tick, by rw [h3, h1]; exact hs.pos,
    by rw [h3, h1, h2]; exact fun k p h h' => ⟨h4 (hs.opened k p h h').1, (hs.opened k p h h').2⟩⟩

theorem xFrom_product {l p a b : Nat} {c : Decimal} (hab : a < b)
    (h : xFromLRpRng ⟨l, 12, false⟩ ⟨p, 12, false⟩ ⟨a, 12, false⟩ ⟨b, 12, false⟩ = .ok c) : clampAt p a b * b < u128Size := by
  obtain ⟨hq, _, _⟩ := xFrom_order hab h
  unfold xFromLRpRng at h
  rw [ite_ok] at h; rcases h with ⟨_, h⟩ | ⟨_, h⟩; · simp [rpanic] at h
  rw [min_nn, bind_eq, max_nn, bind_eq, sub_nn_le 12 hq, unwrap_eq, bind_eq] at h
  rw [bind_ok] at h; obtain ⟨m, h1, h⟩ := h
  exact (mul_ok.1 h1).1

theorem Fits.step {s t : Chain} (hg : Good s) (hs : Fits s) (h : Step s t) : Fits t := by
  rcases h.cases with h | ⟨_, h⟩ | ⟨_, _, _, h⟩ | ⟨c, lo, up, cu, x, y, m, h⟩ | ⟨c, lo, up, cu, n, m, h⟩ | h
  · obtain ⟨_, rfl⟩ := initializeBitmap_ok.1 h
    exact hs.of_eq rfl rfl rfl fun _ => rfl
  · obtain ⟨_, rfl⟩ := initializeTick_ok.1 h
    refine ⟨hs.gs, fun j ts h => ?_, hs.pos, fun k p h h' => ⟨(hs.opened k p h h').1, ?_⟩⟩
    · simp only [mapGet_set] at h
      split at h
      · cases h; exact ⟨by norm_num [u128Size], by norm_num [u128Size]⟩
      · exact hs.tick _ _ h
    · simp only [mapGet_set]
      split
      · rfl
      · exact (hs.opened k p h h').2
  · obtain ⟨_, h1, _, _, rfl⟩ := createPosition_ok h
    refine ⟨hs.gs, hs.tick, fun k p h => ?_, fun k p h h' => ?_⟩
    · simp only [mapGet_set] at h
      split at h
      · cases h; exact ⟨by norm_num [u128Size], fun h => absurd rfl h⟩
      · exact hs.pos _ _ h
    · simp only [mapGet_set] at h
      split at h
      · cases h; exact absurd rfl h'
      · exact hs.opened _ _ h h'
  · obtain ⟨d, p, a, b, l, v⟩ := hg.deposit h
    have r := v.raw
    obtain ⟨a1, a2, a3, a4, a5, a6, a7, a8, a9, a10, a11, a12, a13⟩ := loadAccounts_ok.1 r.load
    have hupd := r.upd
    have hd : d.delta.value < u128Size := by
      have hu := hupd
      unfold updatePosition at hu
      rw [bind_ok] at hu; obtain ⟨q, k2, hu⟩ := hu
      rw [bind_ok] at hu; obtain ⟨q', k3, hu⟩ := hu
      rw [unwrap_ok] at k3
      obtain ⟨f2, rfl⟩ := toScale_fits (hg.pos _ _ a2).scale k2
      rw [v.delta] at k3 ⊢
      have : d.a.pos.liq + l < u128Size := (add_ok.1 k3).2.1 rfl
      simp only
      omega
    have hx := r.xIn
    rw [v.delta, v.rp, v.rpa, v.rpb] at hx
    have hrp := r.rp
    rw [v.cur, v.rp] at hrp
    have k := hs.write (g := d.g) (user := c.user) (current := cu) (l := ⟨d.b, d.pos, d.lwr, d.upr, d.a.cur⟩)
      (updateGlobal_fits hs.gs hd r.g) v.gTick v.cur
      ⟨updatePosition_fits (hg.pos _ _ a2) hd hupd, fun _ => ⟨p, a, b, hrp, v.rpa ▸ r.rpa, v.rpb ▸ r.rpb, v.prices,
        xFrom_product v.prices hx⟩⟩
      (updateTick_fits (hg.tick _ _ a4) hd v.lwr) (updateTick_fits (hg.tick _ _ a6) hd v.upr) (hs.tick _ _ a8)
    rw [r.result]
    exact k.of_eq rfl rfl rfl fun h => h
  · obtain ⟨d, p, a, b, v⟩ := hg.withdraw h
    have r := v.raw
    obtain ⟨a1, a2, a3, a4, a5, a6, a7, a8, a9, a10, a11, a12, a13⟩ := loadAccounts_ok.1 r.load
    have hd : d.amt.neg.value < u128Size := by
      rw [neg_value]
      rcases toScale_ok.1 r.amt with ⟨h1, _⟩ | ⟨_, _, h3, e⟩
      · exact absurd h1 (by simp [Decimal.fromInt])
      · rw [e]; exact h3
    have hx := v.xOut
    have hrp := r.rp
    rw [v.cur, v.rp] at hrp
    have k := hs.write (g := d.g) (user := c.user) (current := cu) (l := ⟨d.b, d.pos, d.lwr, d.upr, d.a.cur⟩)
      (updateGlobal_fits hs.gs hd r.g) v.gTick v.cur
      ⟨updatePosition_fits (hg.pos _ _ a2) hd r.upd, fun _ => ⟨p, a, b, hrp, v.rpa ▸ r.rpa, v.rpb ▸ r.rpb, v.prices,
        xFrom_product v.prices hx⟩⟩
      (updateTick_fits (hg.tick _ _ a4) hd v.lwr) (updateTick_fits (hg.tick _ _ a6) hd v.upr) (hs.tick _ _ a8)
    rw [r.result]
    exact k.of_eq rfl rfl rfl fun h => h
  · exact hs.of_eq h.gs h.ticks h.positions fun k => h.bitmap ▸ k

theorem Fits.reachable {supply0 : Nat} {s : Chain} (h : Reachable supply0 s) : Fits s := by
  induction h with
  | init tick h =>
    unfold initializePool at h
    simp only [bind_ok, pure_ok] at h
    obtain ⟨_, _, _, _, rfl⟩ := h
    exact ⟨by norm_num [u128Size], fun t ts h => (by cases h), fun k p h => (by cases h), fun k p h => (by cases h)⟩
  | step hr h ih => exact ih.step (Good.reachable hr) h

/-- A position's liquidity is part of every sum that counts it. -/
theorem sumPos_ge {s : Chain} {w : PosKey → ℚ} (hw : ∀ k, 0 ≤ w k) {k : PosKey} {p : Position}
    (h : mapGet k s.positions = some p) : w k * p.amount ≤ s.sumPos w := by
  unfold Chain.sumPos
  refine List.single_le_sum (fun q hq => ?_) _ (List.mem_map.2 ⟨(k, p), mapGet_mem h, rfl⟩)
  obtain ⟨e, _, rfl⟩ := List.mem_map.1 hq
  exact mul_nonneg (hw _) (amount_nonneg _)

/-- A tick account gives up liquidity that it counts. -/
theorem updateTick_take {ts : Tick} {t n : Nat} {up : Bool} (hg : GoodTick t ts) (hf : ts.gross < u128Size ∧ ts.net < u128Size)
    (h0 : 0 < n) (h1 : n ≤ ts.gross) (h2 : (ts.netNeg != 0) = !up → ts.net + n ≤ ts.gross) :
    ∃ ts', updateTick ts t (Decimal.mk n 12 false).neg up = .ok ts' := by
  have hb' : (if up then (Decimal.mk n 12 false).neg.neg else (Decimal.mk n 12 false).neg) = ⟨n, 12, !up⟩ := by
    cases up
    · simp [neg_amount]; omega
    · simp [neg_neg_amount]
  unfold updateTick
  rw [if_neg (by simp only [ne_eq, not_not]; exact hg.tick.symm)]
  simp only [hb']
  rw [hg.net, hg.gross, toScale_id _ hf.2, bind_eq]
  obtain ⟨c, hc⟩ := add_exists (a := ⟨ts.net, 12, ts.netNeg != 0⟩) (b := ⟨n, 12, !up⟩) rfl
    (fun e => lt_of_le_of_lt (h2 e) hf.1)
  rw [hc, unwrap_eq, bind_eq, toScale_id _ hf.1, bind_eq, add_neg_le h1 hf.1, unwrap_eq, bind_eq, if_neg (by simp)]
  exact ⟨_, rfl⟩

/-- In a reachable state a position away from the pool's tick can give up its liquidity. -/
theorem take_when {supply0 : Nat} {s : Chain} (hr : Reachable supply0 s) {user lower upper n : Nat} {pos : Position}
    (hpos : mapGet (⟨user, lower, upper⟩ : PosKey) s.positions = some pos) (h0 : 0 < n) (hn : (n : ℚ) ≤ pos.amount)
    (h1 : lower ≠ s.gs.tick) (h2 : upper ≠ s.gs.tick) :
    n * 10 ^ 12 < u128Size ∧ Priced s.gs.tick lower upper ∧ s.bitmap.isSome ∧ (mapGet s.gs.tick s.ticks).isSome ∧
    ∃ lwr upr, mapGet lower s.ticks = some lwr ∧ mapGet upper s.ticks = some upr ∧
      (∃ r, updatePosition pos lwr upr (Decimal.mk (n * 10 ^ 12) 12 false).neg lower upper Fee.zero = .ok r) ∧
      ∃ g, updateGlobal s.gs lower upper s.gs.tick (Decimal.mk (n * 10 ^ 12) 12 false).neg = .ok g := by
  have hs := Good.reachable hr
  have hf := Fits.reachable hr
  have hb := TickBooks.reachable hr
  have ha := active_reachable hr
  have gp := hs.pos _ _ hpos
  obtain ⟨f1, f2⟩ := hf.pos _ _ hpos
  have hD : (0 : ℚ) < 10 ^ 12 := by norm_num
  have hN : n * 10 ^ 12 ≤ pos.liq := by
    unfold Position.amount at hn
    rw [gp.scale, le_div_iff₀ hD] at hn
    exact_mod_cast hn
  have hN0 : 0 < n * 10 ^ 12 := by positivity
  obtain ⟨k1, k2⟩ := hb.none _ _ hpos
  obtain ⟨lwr, l1⟩ := Option.isSome_iff_exists.1 k1
  obtain ⟨upr, u1⟩ := Option.isSome_iff_exists.1 k2
  simp only at l1 u1
  have gl := hs.tick _ _ l1
  have gu := hs.tick _ _ u1
  have pa : (n : ℚ) ≤ pos.amount := hn
  have nn : ∀ (c : PosKey → Prop) [DecidablePred c] k, (0 : ℚ) ≤ if c k then 1 else 0 := by
    intro c _ k; split <;> norm_num
  -- the lower tick
  obtain ⟨bl1, bl2⟩ := hb.other _ _ h1 l1
  obtain ⟨bu1, bu2⟩ := hb.other _ _ h2 u1
  have sl : (n : ℚ) ≤ s.startingAt lower := by
    have := sumPos_ge (s := s) (w := fun k => if k.lower = lower then 1 else 0) (nn _) hpos
    simp only [if_true, one_mul] at this
    exact pa.trans this
  have el : 0 ≤ s.endingAt lower := sumPos_nonneg (nn _)
  have eu : (n : ℚ) ≤ s.endingAt upper := by
    have := sumPos_ge (s := s) (w := fun k => if k.upper = upper then 1 else 0) (nn _) hpos
    simp only [if_true, one_mul] at this
    exact pa.trans this
  have su : 0 ≤ s.startingAt upper := sumPos_nonneg (nn _)
  have tl : ∃ ts', updateTick lwr lower (Decimal.mk (n * 10 ^ 12) 12 false).neg false = .ok ts' := by
    unfold Tick.grossAmount at bl1
    unfold Tick.netAmount at bl2
    rw [gl.gross, div_eq_iff hD.ne'] at bl1
    rw [gl.net] at bl2
    refine updateTick_take gl (hf.tick _ _ l1) hN0 ?_ fun e => ?_
    · have : ((n * 10 ^ 12 : ℕ) : ℚ) ≤ lwr.gross := by push_cast; rw [bl1]; nlinarith
      exact_mod_cast this
    · have e' : lwr.netNeg ≠ 0 := by simpa using e
      rw [if_neg e', neg_one_mul, ← neg_div, div_eq_iff hD.ne'] at bl2
      have : ((lwr.net + n * 10 ^ 12 : ℕ) : ℚ) ≤ lwr.gross := by push_cast; rw [bl1]; nlinarith
      exact_mod_cast this
  have tu : ∃ ts', updateTick upr upper (Decimal.mk (n * 10 ^ 12) 12 false).neg true = .ok ts' := by
    unfold Tick.grossAmount at bu1
    unfold Tick.netAmount at bu2
    rw [gu.gross, div_eq_iff hD.ne'] at bu1
    rw [gu.net] at bu2
    refine updateTick_take gu (hf.tick _ _ u1) hN0 ?_ fun e => ?_
    · have : ((n * 10 ^ 12 : ℕ) : ℚ) ≤ upr.gross := by push_cast; rw [bu1]; nlinarith
      exact_mod_cast this
    · have e' : upr.netNeg = 0 := by simpa using e
      rw [if_pos e', one_mul, div_eq_iff hD.ne'] at bu2
      have : ((upr.net + n * 10 ^ 12 : ℕ) : ℚ) ≤ upr.gross := by push_cast; rw [bu1]; nlinarith
      exact_mod_cast this
  obtain ⟨lwr', tl⟩ := tl
  obtain ⟨upr', tu⟩ := tu
  refine ⟨lt_of_le_of_lt hN f1, f2 (by omega), (hf.opened _ _ hpos (by omega)).1, (hf.opened _ _ hpos (by omega)).2, lwr, upr, l1, u1, ?_, ?_⟩
  · unfold updatePosition
    rw [gp.scale, toScale_id _ f1, bind_eq, add_neg_le hN f1, unwrap_eq, bind_eq, if_neg (by simp), tl, unwrap_eq, bind_eq,
      tu, unwrap_eq, bind_eq]
    exact ⟨_, rfl⟩
  · unfold updateGlobal
    by_cases hc : s.gs.tick ≥ lower ∧ s.gs.tick < upper
    · rw [if_pos hc]
      have hge : n * 10 ^ 12 ≤ s.gs.liq := by
        have hin := sumPos_ge (s := s) (w := fun k => if k.lower ≤ s.gs.tick ∧ s.gs.tick < k.upper then 1 else 0) (nn _) hpos
        simp only [if_pos (show lower ≤ s.gs.tick ∧ s.gs.tick < upper from hc), one_mul] at hin
        have : (n : ℚ) ≤ s.gs.amount := by rw [ha]; exact pa.trans hin
        unfold Global.amount at this
        rw [hs.gs.scale, le_div_iff₀ hD] at this
        exact_mod_cast this
      rw [hs.gs.scale]
      unfold Decimal.new
      rw [add_neg_le hge hf.gs, unwrap_eq, bind_eq, if_neg (by simp)]
      exact ⟨_, rfl⟩
    · rw [if_neg hc]
      exact ⟨_, rfl⟩

/-- X of `n` whole units of liquidity. -/
theorem xFrom_whole {n p a b : Nat} (hab : a < b) (ha : 10 ^ 12 ≤ a) (hp : 0 < p) (hm : clampAt p a b * b < u128Size)
    (h : n * 10 ^ 12 * (b - clampAt p a b) < u128Size) :
    xFromLRpRng ⟨n * 10 ^ 12, 12, false⟩ ⟨p, 12, false⟩ ⟨a, 12, false⟩ ⟨b, 12, false⟩ =
      .ok ⟨n * (b - clampAt p a b) * 10 ^ 12 / (clampAt p a b * b / 10 ^ 12), 12, false⟩ := by
  unfold clampAt at *
  have hq : max (min p b) a ≤ b := by omega
  have hqa : 10 ^ 12 ≤ max (min p b) a := ha.trans (le_max_right _ _)
  unfold xFromLRpRng
  rw [if_neg (by simp only [Bool.or_eq_true, isZero_mk]; omega)]
  rw [min_nn, bind_eq, max_nn, bind_eq, sub_nn_le 12 hq, unwrap_eq, bind_eq]
  generalize max (min p b) a = q at *
  have hT : (10 : ℕ) ^ 12 < u128Size := by norm_num [u128Size]
  rw [mul_ok.2 ⟨hm, hT, rfl⟩, bind_eq, mul_ok.2 ⟨h, hT, rfl⟩, bind_eq]
  have e : n * 10 ^ 12 * (b - q) / 10 ^ 12 = n * (b - q) := by
    rw [show n * 10 ^ 12 * (b - q) = n * (b - q) * 10 ^ 12 by ring]
    exact Nat.mul_div_cancel _ (by norm_num)
  have hpos : q * b / 10 ^ 12 ≠ 0 := by
    have : 10 ^ 12 * 10 ^ 12 ≤ q * b := Nat.mul_le_mul hqa (by omega)
    exact (Nat.div_pos (le_trans (by norm_num) this) (by norm_num)).ne'
  refine div_ok.2 ⟨?_, hT, hpos, ?_⟩
  · simp only; rw [e]
    calc n * (b - q) * 10 ^ 12 = n * 10 ^ 12 * (b - q) := by ring
      _ < _ := h
  · simp only [e]; rfl

theorem yFrom_whole {n p a b : Nat} (h : n * 10 ^ 12 * (clampAt p a b - a) < u128Size) :
    yFromLRpRng ⟨n * 10 ^ 12, 12, false⟩ ⟨p, 12, false⟩ ⟨a, 12, false⟩ ⟨b, 12, false⟩ =
      .ok ⟨n * (clampAt p a b - a), 12, false⟩ := by
  unfold clampAt at *
  unfold yFromLRpRng
  rw [min_nn, bind_eq, max_nn, bind_eq, sub_nn_le 12 (le_max_right _ _), unwrap_eq, bind_eq,
    if_neg (by simp [isNegative_nn])]
  have hT : (10 : ℕ) ^ 12 < u128Size := by norm_num [u128Size]
  refine mul_ok.2 ⟨h, hT, ?_⟩
  have e : n * 10 ^ 12 * (max (min p b) a - a) / 10 ^ 12 = n * (max (min p b) a - a) := by
    rw [show n * 10 ^ 12 * (max (min p b) a - a) = n * (max (min p b) a - a) * 10 ^ 12 by ring]
    exact Nat.mul_div_cancel _ (by norm_num)
  simp only [e]
  rfl

/-- The products of a computation of X and Y that succeeded. -/
theorem amounts_fit {l p a b : Nat} {x y : Decimal} (hab : a < b)
    (hx : xFromLRpRng ⟨l, 12, false⟩ ⟨p, 12, false⟩ ⟨a, 12, false⟩ ⟨b, 12, false⟩ = .ok x)
    (hy : yFromLRpRng ⟨l, 12, false⟩ ⟨p, 12, false⟩ ⟨a, 12, false⟩ ⟨b, 12, false⟩ = .ok y) :
    l * (b - clampAt p a b) < u128Size ∧ l * (clampAt p a b - a) < u128Size := by
  obtain ⟨hq, _, _⟩ := xFrom_order hab hx
  unfold xFromLRpRng at hx
  rw [ite_ok] at hx; rcases hx with ⟨_, h⟩ | ⟨_, hx⟩; · simp [rpanic] at h
  rw [min_nn, bind_eq, max_nn, bind_eq, sub_nn_le 12 hq, unwrap_eq, bind_eq] at hx
  rw [bind_ok] at hx; obtain ⟨m, h1, hx⟩ := hx
  rw [bind_ok] at hx; obtain ⟨m', h2, hx⟩ := hx
  unfold yFromLRpRng at hy
  rw [min_nn, bind_eq, max_nn, bind_eq, sub_nn_le 12 (le_max_right _ _), unwrap_eq, bind_eq,
    if_neg (by simp [isNegative_nn])] at hy
  exact ⟨(mul_ok.1 h2).1, (mul_ok.1 hy).1⟩

end Hmm.OnChain
