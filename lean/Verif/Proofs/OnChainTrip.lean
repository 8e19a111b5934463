import Verif.Proofs.OnChainFlow

/-
A withdrawal straight after a deposit.
-/

namespace Hmm.OnChain

open Decimal PoolMath

theorem toScale_id {v : Nat} (n : Bool) (h : v < u128Size) :
    (Decimal.new v 12 n).toComputeScale = .ok ⟨v, 12, n⟩ := by
  refine toScale_ok.2 (.inr ⟨le_refl _, ?_, ?_, ?_⟩)
  · simp [Decimal.new, computeScale, u128Size]
  · simpa [Decimal.new, computeScale] using h
  · simp [Decimal.new, computeScale]

theorem toScale_fits {v s : Nat} {n : Bool} {d : Decimal} (hs : s = 12) (h : (Decimal.new v s n).toComputeScale = .ok d) :
    v < u128Size ∧ d = ⟨v, 12, n⟩ := by
  subst hs
  rcases toScale_ok.1 h with ⟨h1, _⟩ | ⟨_, _, h3, rfl⟩
  · exact absurd h1 (lt_irrefl _)
  · constructor
    · simpa [Decimal.new, computeScale] using h3
    · simp [Decimal.new, computeScale]

theorem add_exists {a b : Decimal} (hs : a.scale = b.scale) (hv : a.negative = b.negative → a.value + b.value < u128Size) :
    ∃ c, a.add b = .ok c := by
  rw [add_cases, if_pos hs]
  split
  · next h => exact ⟨_, by unfold checkedAdd u128; rw [if_pos (hv h)]; rfl⟩
  · split
    · exact ⟨_, rfl⟩
    · split <;> exact ⟨_, rfl⟩

theorem neg_amount (v : Nat) : (Decimal.mk v 12 false).neg = ⟨v, 12, decide (v ≠ 0)⟩ := by
  by_cases h : v = 0
  · subst h; rfl
  · have h1 : (Decimal.mk v 12 false).isNegative = false := rfl
    have h2 : (Decimal.mk v 12 false).isPositive = true := isPositive_iff.2 ⟨rfl, h⟩
    unfold Decimal.neg
    simp [h1, h2, h]

theorem add_neg_le {v n : Nat} (h : n ≤ v) (hv : v < u128Size) :
    (Decimal.mk v 12 false).add (Decimal.mk n 12 false).neg = .ok ⟨v - n, 12, false⟩ := by
  rw [neg_amount, add_ok]
  refine ⟨rfl, fun hn => ?_, rfl, ?_, fun _ => rfl⟩
  · simp only at hn ⊢
    have : n = 0 := by
      by_contra h0
      simp [h0] at hn
    omega
  · unfold sval
    simp only [Bool.false_eq_true, if_false, decide_eq_true_eq]
    split
    · omega
    · next h0 =>
      have : n = 0 := by simpa using h0
      omega

/-- Taking back part of what was just added cannot overflow. -/
theorem add_back {a b b' c : Decimal} (h : a.add b = .ok c) (ha : a.value < u128Size) (hb : b.value < u128Size)
    (hs : b'.scale = b.scale) (hv : b'.value ≤ b.value) (hn : b'.value ≠ 0 → b'.negative ≠ b.negative) :
    c.value < u128Size ∧ ∃ d, c.add b' = .ok d := by
  obtain ⟨k1, k2, k3, k4, _⟩ := add_ok.1 h
  unfold sval at k4
  obtain ⟨av, as, an⟩ := a
  obtain ⟨bv, bs, bn⟩ := b
  obtain ⟨dv, ds, dn⟩ := b'
  obtain ⟨cv, cs, cn⟩ := c
  simp only at *
  have hc : cv < u128Size := by
    cases an <;> cases bn <;> cases cn <;> simp at k2 k4 <;> omega
  refine ⟨hc, add_exists (by simp only; omega) ?_⟩
  simp only
  intro he
  subst he
  by_cases h0 : dv = 0
  · omega
  · have := hn h0
    cases an <;> cases bn <;> cases cn <;> simp at k2 k4 this <;> omega

/-- The tick account can give back what was just added. -/
theorem updateTick_back {ts ts' : Tick} {tick l n : Nat} {up : Bool} (hg : GoodTick tick ts) (hn : n ≤ l)
    (hl : l < u128Size) (h : updateTick ts tick ⟨l, 12, false⟩ up = .ok ts') :
    ∃ ts'', updateTick ts' tick (Decimal.mk n 12 false).neg up = .ok ts'' := by
  obtain ⟨_, hg', _⟩ := updateTick_ok hg h
  unfold updateTick at h
  rw [ite_ok] at h; rcases h with ⟨_, h⟩ | ⟨h1, h⟩; · simp [rerr] at h
  rw [bind_ok] at h; obtain ⟨a, h2, h⟩ := h
  rw [bind_ok] at h; obtain ⟨a', h3, h⟩ := h
  rw [bind_ok] at h; obtain ⟨g, h4, h⟩ := h
  rw [bind_ok] at h; obtain ⟨g', h5, h⟩ := h
  rw [ite_ok] at h; rcases h with ⟨_, h⟩ | ⟨h6, h⟩; · simp [rerr] at h
  rw [pure_ok] at h
  obtain ⟨f2, rfl⟩ := toScale_fits hg.net h2
  obtain ⟨f4, rfl⟩ := toScale_fits hg.gross h4
  rw [unwrap_ok] at h3 h5
  obtain ⟨_, b2, _⟩ := add_ok.1 h5
  have hgv : ts.gross + l < u128Size := b2 rfl
  have hb : (if up then (Decimal.mk l 12 false).neg else ⟨l, 12, false⟩) = ⟨l, 12, decide (l ≠ 0) && up⟩ := by
    cases up <;> simp [neg_amount]
  have hb' : (if up then (Decimal.mk n 12 false).neg.neg else (Decimal.mk n 12 false).neg) =
      ⟨n, 12, decide (n ≠ 0) && !up⟩ := by
    cases up
    · simp [neg_amount]
    · simp [neg_neg_amount]
  have e5 := add_nn h5
  rw [hb] at h3
  obtain ⟨hav, c, hc⟩ := add_back (b' := ⟨n, 12, decide (n ≠ 0) && !up⟩) h3 f2 hl rfl hn (by
    intro h0; simp only at h0 ⊢
    have : l ≠ 0 := by omega
    cases up <;> simp [h0, this])
  have hsc : a'.scale = 12 := (add_ok.1 h3).2.2.1
  subst e5 h
  have ea : a' = ⟨a'.value, 12, a'.negative⟩ := by rw [← hsc]
  unfold updateTick
  rw [if_neg (by simp only [ne_eq, not_not]; exact hg'.tick.symm)]
  simp only [hb', hsc]
  have hneg : (((if a'.negative = true then 1 else 0) : Nat) != 0) = a'.negative := by cases a'.negative <;> rfl
  rw [hneg, toScale_id _ hav, bind_eq, ← ea, hc, unwrap_eq, bind_eq, toScale_id _ hgv, bind_eq,
    add_neg_le (by omega) hgv, unwrap_eq, bind_eq, if_neg (by simp)]
  exact ⟨_, rfl⟩

theorem updatePosition_back {p p' : Position} {lo lo' up up' : Tick} {lower upper l n : Nat} {k : PosKey}
    (hp : GoodPosition k p) (hl : GoodTick lower lo) (hu : GoodTick upper up) (hn : n ≤ l)
    (h : updatePosition p lo up ⟨l, 12, false⟩ lower upper Fee.zero = .ok (p', lo', up')) :
    ∃ r, updatePosition p' lo' up' (Decimal.mk n 12 false).neg lower upper Fee.zero = .ok r := by
  unfold updatePosition at h
  rw [bind_ok] at h; obtain ⟨q, h2, h⟩ := h
  rw [bind_ok] at h; obtain ⟨q', h3, h⟩ := h
  rw [ite_ok] at h; rcases h with ⟨_, h⟩ | ⟨h6, h⟩; · simp [rerr] at h
  rw [bind_ok] at h; obtain ⟨l1, h4, h⟩ := h
  rw [bind_ok] at h; obtain ⟨u1, h5, h⟩ := h
  rw [pure_ok, Prod.mk.injEq, Prod.mk.injEq] at h
  obtain ⟨rfl, rfl, rfl⟩ := h
  rw [unwrap_ok] at h3 h4 h5
  obtain ⟨f2, rfl⟩ := toScale_fits hp.scale h2
  obtain ⟨_, b2, _⟩ := add_ok.1 h3
  have hv : p.liq + l < u128Size := b2 rfl
  have e3 := add_nn h3
  subst e3
  obtain ⟨lo2, k1⟩ := updateTick_back hl hn (by omega) h4
  obtain ⟨up2, k2⟩ := updateTick_back hu hn (by omega) h5
  unfold updatePosition
  simp only
  rw [toScale_id _ hv, bind_eq, add_neg_le (by omega) hv, unwrap_eq, bind_eq, if_neg (by simp), k1, unwrap_eq, bind_eq,
    k2, unwrap_eq, bind_eq]
  exact ⟨_, rfl⟩

theorem updateGlobal_back {g g' : Global} {lower upper current l n : Nat} (hg : GoodGlobal g) (hn : n ≤ l)
    (h : updateGlobal g lower upper current ⟨l, 12, false⟩ = .ok g') :
    ∃ r, updateGlobal g' lower upper current (Decimal.mk n 12 false).neg = .ok r := by
  unfold updateGlobal at h ⊢
  rw [ite_ok] at h
  rcases h with ⟨hc, h⟩ | ⟨hc, h⟩
  · rw [bind_ok] at h; obtain ⟨q, h1, h⟩ := h
    rw [ite_ok] at h; rcases h with ⟨_, h⟩ | ⟨h6, h⟩; · simp [rerr] at h
    rw [pure_ok] at h; subst h
    rw [unwrap_ok] at h1
    unfold Decimal.new at h1
    rw [hg.scale] at h1
    have hv : g.liq + l < u128Size := (add_ok.1 h1).2.1 rfl
    have e1 := add_nn h1
    subst e1
    rw [if_pos hc]
    unfold Decimal.new
    simp only
    rw [add_neg_le (by omega) hv, unwrap_eq, bind_eq, if_neg (by simp)]
    exact ⟨_, rfl⟩
  · rw [if_neg hc]
    exact ⟨_, rfl⟩

/-- Less liquidity has no larger X amount, and computing it does not fail. -/
theorem xFrom_smaller {l l' p a b v : Nat} (hab : a < b) (hl : l' ≤ l)
    (h : xFromLRpRng ⟨l, 12, false⟩ ⟨p, 12, false⟩ ⟨a, 12, false⟩ ⟨b, 12, false⟩ = .ok ⟨v, 12, false⟩) :
    ∃ v', xFromLRpRng ⟨l', 12, false⟩ ⟨p, 12, false⟩ ⟨a, 12, false⟩ ⟨b, 12, false⟩ = .ok ⟨v', 12, false⟩ ∧ v' ≤ v := by
  obtain ⟨hq, hpos, e⟩ := xFrom_order hab h
  have hz := (xFrom_nn h)
  simp only [mk.injEq, and_true] at e
  unfold xFromLRpRng at h ⊢
  rw [if_neg (by simp only [Bool.or_eq_true, isZero_mk]; omega)] at h ⊢
  rw [min_nn, bind_eq, max_nn, bind_eq, sub_nn_le 12 hq, unwrap_eq, bind_eq] at h ⊢
  generalize max (min p b) a = q at *
  rw [bind_ok] at h; obtain ⟨m, h1, h⟩ := h
  rw [h1, bind_eq]
  have := mul_nn h1; subst this
  rw [bind_ok] at h; obtain ⟨m, h2, h⟩ := h
  obtain ⟨c1, c2, rfl⟩ := mul_ok.1 h2
  obtain ⟨d1, d2, d3, d4⟩ := div_ok.1 h
  simp only at c1 d1 d3
  have hm : l' * (b - q) ≤ l * (b - q) := Nat.mul_le_mul_right _ hl
  have hm2 : l' * (b - q) / 10 ^ 12 * 10 ^ 12 ≤ l * (b - q) / 10 ^ 12 * 10 ^ 12 :=
    Nat.mul_le_mul_right _ (Nat.div_le_div_right hm)
  refine ⟨l' * (b - q) / 10 ^ 12 * 10 ^ 12 / (q * b / 10 ^ 12), ?_, ?_⟩
  · rw [mul_ok.2 ⟨lt_of_le_of_lt hm c1, c2, rfl⟩, bind_eq]
    exact div_ok.2 ⟨lt_of_le_of_lt hm2 d1, d2, d3, rfl⟩
  · rw [e]
    exact Nat.div_le_div_right hm2

theorem yFrom_smaller {l l' p a b v : Nat} (hl : l' ≤ l)
    (h : yFromLRpRng ⟨l, 12, false⟩ ⟨p, 12, false⟩ ⟨a, 12, false⟩ ⟨b, 12, false⟩ = .ok ⟨v, 12, false⟩) :
    ∃ v', yFromLRpRng ⟨l', 12, false⟩ ⟨p, 12, false⟩ ⟨a, 12, false⟩ ⟨b, 12, false⟩ = .ok ⟨v', 12, false⟩ ∧ v' ≤ v := by
  unfold yFromLRpRng at h ⊢
  rw [min_nn, bind_eq, max_nn, bind_eq, sub_nn_le 12 (le_max_right _ _), unwrap_eq, bind_eq,
    if_neg (by simp [isNegative_nn])] at h ⊢
  obtain ⟨c1, c2, c3⟩ := mul_ok.1 h
  simp only [mk.injEq] at c1 c3
  have hm : l' * (max (min p b) a - a) ≤ l * (max (min p b) a - a) := Nat.mul_le_mul_right _ hl
  refine ⟨_, mul_ok.2 ⟨lt_of_le_of_lt hm c1, c2, rfl⟩, ?_⟩
  rw [c3.1]
  exact Nat.div_le_div_right hm

theorem fromInt_fits {n : Nat} (h : n * 10 ^ 12 < u128Size) :
    (Decimal.fromInt n).toComputeScale = .ok ⟨n * 10 ^ 12, 12, false⟩ := by
  refine toScale_ok.2 (.inr ⟨?_, ?_, ?_, ?_⟩)
  · simp [Decimal.fromInt, computeScale]
  · simp [Decimal.fromInt, computeScale, u128Size]
  · simpa [Decimal.fromInt, computeScale] using h
  · simp [Decimal.fromInt, computeScale]

/-- The LP tokens just minted can be redeemed, when neither end of the range is the pool's tick. -/
theorem round_trip {s t : Chain} (hs : Good s) {c : Caller} {lower upper current xa ya : Nat} {m : Moved}
    (h : deposit s c lower upper current xa ya = .ok (t, m)) (h1 : lower ≠ current) (h2 : upper ≠ current)
    (hx : balanceOf s.userX c.tokenX < u64Size) (hy : balanceOf s.userY c.tokenY < u64Size)
    (hlp : ownerOf s.lp c.lp = some c.user) :
    ∃ t' m', withdraw t c lower upper current m.lp = .ok (t', m') ∧ m'.x ≤ m.x ∧ m'.y ≤ m.y := by
  obtain ⟨d, p, a, b, l, v⟩ := hs.deposit h
  have r := v.raw
  obtain ⟨a1, a2, a3, a4, a5, a6, a7, a8, a9, a10, a11, a12, a13⟩ := loadAccounts_ok.1 r.load
  have ht := v.good hs
  have hN : m.lp * 10 ^ 12 ≤ l := by rw [v.lp]; exact Nat.div_mul_le_self _ _
  -- the accounts
  have htick : ∀ j, mapGet j t.ticks = if j = current then some d.a.cur else if j = upper then some d.upr
      else if j = lower then some d.lwr else mapGet j s.ticks := by
    intro j
    rw [← writeBack_tick (s := s) (g := d.g) (user := c.user) (l := ⟨d.b, d.pos, d.lwr, d.upr, d.a.cur⟩), r.result]
  have hlwr : mapGet lower t.ticks = some d.lwr := by rw [htick, if_neg h1, if_neg (by omega), if_pos rfl]
  have hupr : mapGet upper t.ticks = some d.upr := by rw [htick, if_neg h2, if_pos rfl]
  have hcur : mapGet current t.ticks = some d.a.cur := by rw [htick, if_pos rfl]
  have hpos : mapGet (⟨c.user, lower, upper⟩ : PosKey) t.positions = some d.pos := by
    rw [r.result]; exact mapGet_set_same _ _ _
  have hbit : t.bitmap = some d.b := by rw [r.result]; rfl
  have hgs : t.gs = d.g := by rw [r.result]; rfl
  obtain ⟨ux, x1, x2, x3, x4⟩ := debit_ok.1 r.debitX
  obtain ⟨uy, y1, y2, y3, y4⟩ := debit_ok.1 r.debitY
  obtain ⟨ul, l1, l2, l3⟩ := credit_ok.1 r.credit
  have hux : mapGet c.tokenX t.userX = some { ux with amount := ux.amount - m.x } := by
    rw [x4]; exact mapGet_set_same _ _ _
  have huy : mapGet c.tokenY t.userY = some { uy with amount := uy.amount - m.y } := by
    rw [y4]; exact mapGet_set_same _ _ _
  have hul : mapGet c.lp t.lp = some { ul with amount := ul.amount + m.lp } := by
    rw [l3]; exact mapGet_set_same _ _ _
  have hload : loadAccounts t c lower upper current = .ok ⟨d.b, d.pos, d.lwr, d.upr, d.a.cur⟩ := by
    refine loadAccounts_ok.2 ⟨hbit, hpos, v.order, hlwr, ?_, hupr, ?_, hcur, a9, ?_, ?_, ?_, ?_⟩
    · rw [(ht.tick _ _ hlwr).tick, v.pos.lower]
    · rw [(ht.tick _ _ hupr).tick, v.pos.upper]
    · rw [hgs, v.gTick, a10]
    · unfold ownerOf; rw [hux]; simp [x2]
    · unfold ownerOf; rw [huy]; simp [y2]
    · rw [hul]; rfl
  -- the books
  have gl := hs.tick _ _ a4
  have gu := hs.tick _ _ a6
  have gp := hs.pos _ _ a2
  have hupd := r.upd
  rw [v.fee, v.delta] at hupd
  obtain ⟨⟨p2, lo2, up2⟩, e1⟩ := updatePosition_back gp gl gu hN hupd
  have hg := r.g
  rw [v.delta] at hg
  obtain ⟨g2, e2⟩ := updateGlobal_back hs.gs hN hg
  -- the amounts
  obtain ⟨xv, ex⟩ := v.xIn
  obtain ⟨yv, ey⟩ := v.yIn
  have hxi := r.xIn
  have hyi := r.yIn
  rw [v.delta, v.rp, v.rpa, v.rpb, ex] at hxi
  rw [v.delta, v.rp, v.rpa, v.rpb, ey] at hyi
  obtain ⟨xo, e3, hxo⟩ := xFrom_smaller v.prices hN hxi
  obtain ⟨yo, e4, hyo⟩ := yFrom_smaller hN hyi
  have hlN : l < u128Size := by
    unfold updatePosition at hupd
    rw [bind_ok] at hupd; obtain ⟨q, k2, hupd⟩ := hupd
    rw [bind_ok] at hupd; obtain ⟨q', k3, hupd⟩ := hupd
    rw [unwrap_ok] at k3
    obtain ⟨f2, rfl⟩ := toScale_fits gp.scale k2
    have : d.a.pos.liq + l < u128Size := (add_ok.1 k3).2.1 rfl
    omega
  have mx : xo / 10 ^ 12 ≤ m.x := by rw [v.x, ex]; exact Nat.div_le_div_right hxo
  have my : yo / 10 ^ 12 ≤ m.y := by rw [v.y, ey]; exact Nat.div_le_div_right hyo
  have fx := ((abs_ok (by rw [v.xDeb, ex])).1 r.dx).2
  have fy := ((abs_ok (by rw [v.yDeb, ey])).1 r.dy).2
  have hxb : ux.amount < u64Size := by
    unfold balanceOf at hx; rw [x1] at hx; exact hx
  have hyb : uy.amount < u64Size := by
    unfold balanceOf at hy; rw [y1] at hy; exact hy
  have hown : ul.owner = c.user := by
    unfold ownerOf at hlp; rw [l1] at hlp; simpa using hlp
  have hft : feeTerm Fee.zero.fx Fee.zero.hx Fee.zero.scale 12 = .ok ⟨0, 12, false⟩ := by decide
  have addz : ∀ {w : Nat}, w < u128Size → (Decimal.mk w 12 false).add ⟨0, 12, false⟩ = .ok ⟨w, 12, false⟩ :=
    fun hw => Pool.add_nn_eq (by simpa using hw)
  have bx : xo < u128Size := by
    rw [v.x, ex] at fx
    unfold u64Size at fx
    unfold u128Size
    simp only at fx
    omega
  have by' : yo < u128Size := by
    rw [v.y, ey] at fy
    unfold u64Size at fy
    unfold u128Size
    simp only at fy
    omega
  have v0 : Bitmap.Valid 0 := ⟨by norm_num, by norm_num⟩
  have v4 : Bitmap.Valid 40000 := ⟨by norm_num, by norm_num⟩
  have hvx : t.vaultX = s.vaultX + m.x := by rw [r.result]
  have hvy : t.vaultY = s.vaultY + m.y := by rw [r.result]
  have hsup : t.lpSupply = s.lpSupply + m.lp := by rw [r.result]
  have u1 := Bitmap.unset_valid d.b v0
  generalize hb1 : d.b.setByte _ _ = b1 at u1
  have u2 := Bitmap.unset_valid b1 v4
  generalize hb2 : b1.setByte _ _ = b2 at u2
  have hburn := debit_ok.2 ⟨_, hul, hown, (show m.lp ≤ ul.amount + m.lp by omega), rfl⟩
  have hcx := credit_ok.2 ⟨_, hux, (show ux.amount - m.x + xo / 10 ^ 12 < u64Size by omega), rfl⟩
  have hcy := credit_ok.2 ⟨_, huy, (show uy.amount - m.y + yo / 10 ^ 12 < u64Size by omega), rfl⟩
  generalize hl' : mapSet c.lp _ _ = lp' at hburn
  generalize hx' : mapSet c.tokenX _ t.userX = userX' at hcx
  generalize hy' : mapSet c.tokenY _ t.userY = userY' at hcy
  let t' : Chain := { writeBack t g2 c.user lower upper current ⟨b2, p2, lo2, up2, d.a.cur⟩ with
    lpSupply := t.lpSupply - m.lp, lp := lp', userX := userX', vaultX := t.vaultX - xo / 10 ^ 12, userY := userY',
    vaultY := t.vaultY - yo / 10 ^ 12 }
  refine ⟨t', ⟨xo / 10 ^ 12, yo / 10 ^ 12, m.lp⟩, withdraw_ok.2 ⟨⟨⟨d.b, d.pos, d.lwr, d.upr, d.a.cur⟩,
    ⟨m.lp * 10 ^ 12, 12, false⟩, d.rpa, d.rpb, d.rp, Fee.zero, p2, lo2, up2, b1, b2, g2, ⟨xo, 12, false⟩, ⟨yo, 12, false⟩,
    ⟨0, 12, false⟩, ⟨xo, 12, false⟩, ⟨0, 12, false⟩, ⟨yo, 12, false⟩⟩,
    ⟨hload, fromInt_fits (lt_of_le_of_lt hN hlN), r.rpa, r.rpb, r.rp, ?_, e1, u1, u2, by rw [hgs]; exact e2, ?_, ?_, hft,
      addz bx, hft, addz by', hburn, by omega, ?_, ?_, hcx, ?_, ?_, hcy, rfl, rfl⟩⟩, mx, my⟩
  · show computeLatestFee lower upper current t.gs.fee d.lwr.fee d.upr.fee d.pos.fee.scale = _
    rw [ht.gs.fee, (ht.tick _ _ hlwr).fee, (ht.tick _ _ hupr).fee, v.pos.fee]
    exact computeLatestFee_zero _ _ _
  · show xFromLRpRng (Decimal.mk _ _ _).neg.neg d.rp d.rpa d.rpb = _
    rw [neg_neg_amount, v.rp, v.rpa, v.rpb]
    exact e3
  · show yFromLRpRng (Decimal.mk _ _ _).neg.neg d.rp d.rpa d.rpb = _
    rw [neg_neg_amount, v.rp, v.rpa, v.rpb]
    exact e4
  · exact (abs_ok rfl).2 ⟨rfl, by simp only; omega⟩
  · show xo / 10 ^ 12 ≤ t.vaultX
    omega
  · exact (abs_ok rfl).2 ⟨rfl, by simp only; omega⟩
  · show yo / 10 ^ 12 ≤ t.vaultY
    omega

end Hmm.OnChain
