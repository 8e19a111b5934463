import Verif.Tests.ChainSample

/-
Properties C52-C62: the Anchor program.
-/

namespace Hmm.OnChain

open Decimal PoolMath Hmm.OnChain.Sample

/-! ### C52: the split of fee growth -/

/-- The two halves of the split at a tick add up, exactly and without failing, so both sides of the
assertion in `fee_earned_within_range` are the global growth. -/
theorem C52_split (tick current : Nat) {fg f0 : Decimal} (hg : fg.Amount 12) (h0 : f0.Amount 12)
    (hgv : fg.value < u128Size) :
    ∃ b a, feeBelowAbove tick current fg f0 = .ok (b, a) ∧ b.add a = .ok fg ∧
      (if tick ≤ current then b.toRat = f0.toRat else a.toRat = f0.toRat) := by
  obtain ⟨g, rfl⟩ := hg.eq
  obtain ⟨f, rfl⟩ := h0.eq
  simp only at hgv
  have e1 : (if f ≤ g then Decimal.mk (g - f) 12 false else ⟨f - g, 12, true⟩).add ⟨f, 12, false⟩ =
      .ok ⟨g, 12, false⟩ := by
    split
    · next h => rw [Pool.add_nn_eq (by omega)]; congr 2; omega
    · next h =>
      refine add_ok.2 ⟨rfl, by simp, rfl, ?_, by simp⟩
      unfold sval; simp only [Bool.false_eq_true, if_true, if_false]; omega
  have e2 : (Decimal.mk f 12 false).add (if f ≤ g then Decimal.mk (g - f) 12 false else ⟨f - g, 12, true⟩) =
      .ok ⟨g, 12, false⟩ := by
    split
    · next h => rw [Pool.add_nn_eq (by omega)]; congr 2; omega
    · next h =>
      refine add_ok.2 ⟨rfl, by simp, rfl, ?_, by simp⟩
      unfold sval; simp only [Bool.false_eq_true, if_true, if_false]; omega
  unfold feeBelowAbove
  rw [sub_nn, unwrap_eq, bind_eq]
  by_cases h : tick ≤ current
  · rw [if_pos h]
    exact ⟨_, _, rfl, e2, by rw [if_pos h]⟩
  · rw [if_neg h]
    exact ⟨_, _, rfl, e1, by rw [if_neg h]⟩

theorem sub_bounded {a b : Decimal} {m n : Nat} (hs : a.scale = 12) (hs' : b.scale = 12) (ha : a.value ≤ m)
    (hb : b.value ≤ n) (hmn : m + n < u128Size) :
    ∃ c, a.sub b = .ok c ∧ c.scale = 12 ∧ c.value ≤ m + n := by
  obtain ⟨c, hc⟩ := add_exists (a := a) (b := ⟨b.value, b.scale, !b.negative⟩) (by rw [hs, hs'])
    (fun _ => by show a.value + b.value < _; omega)
  obtain ⟨k1, k2, k3, k4, k5⟩ := add_ok.1 hc
  refine ⟨c, hc, k3.trans hs, ?_⟩
  unfold sval at k4
  simp only at k4
  split at k4 <;> split at k4 <;> split at k4 <;> omega

/-- Growth below, inside and above a range add up to the global growth, whenever the growth inside is
computed; and it is computed unless the values come near the limit of 128 bits. -/
theorem C52_within (lower upper current : Nat) {fg fl fu : Decimal} (hg : fg.Amount 12) (hl : fl.Amount 12)
    (hu : fu.Amount 12) :
    (∀ d, feeWithinRange lower upper current fg fl fu = .ok d →
      ∃ below x above y, feeBelowAbove lower current fg fl = .ok (below, x) ∧
        feeBelowAbove upper current fg fu = .ok (y, above) ∧
        below.toRat + d.toRat + above.toRat = fg.toRat) ∧
    (fg.value < 2 ^ 126 → fl.value < 2 ^ 126 → fu.value < 2 ^ 126 →
      ∃ d, feeWithinRange lower upper current fg fl fu = .ok d) := by
  constructor
  · intro d h
    unfold feeWithinRange at h
    rw [bind_ok] at h; obtain ⟨⟨b, x⟩, h1, h⟩ := h
    rw [bind_ok] at h; obtain ⟨⟨y, a⟩, h2, h⟩ := h
    rw [bind_ok] at h; obtain ⟨s1, h3, h⟩ := h
    rw [bind_ok] at h; obtain ⟨s2, h4, h⟩ := h
    rw [bind_ok] at h; obtain ⟨_, h5, h⟩ := h
    rw [bind_ok] at h; obtain ⟨q, h6, h⟩ := h
    rw [unwrap_ok] at h6 h
    refine ⟨b, x, a, y, h1, h2, ?_⟩
    rw [sub_toRat h, sub_toRat h6]
    ring
  · intro hgv hlv huv
    obtain ⟨b, x, h1, h2, -⟩ := C52_split lower current hg hl (by unfold u128Size; omega)
    obtain ⟨y, a, h3, h4, -⟩ := C52_split upper current hg hu (by unfold u128Size; omega)
    unfold feeWithinRange
    rw [h1, bind_eq]; simp only
    rw [h3, bind_eq]; simp only
    rw [h2, unwrap_eq, bind_eq, h4, unwrap_eq, bind_eq, decide_eq_true rfl, show rassert true = .ok () from rfl, bind_eq]
    have bound : ∀ {tick : Nat} {f0 p q : Decimal}, f0.Amount 12 → f0.value < 2 ^ 126 →
        feeBelowAbove tick current fg f0 = .ok (p, q) →
        p.scale = 12 ∧ p.value ≤ 2 ^ 126 ∧ q.scale = 12 ∧ q.value ≤ 2 ^ 126 := by
      intro tick f0 p q h0 h0v h
      obtain ⟨g, rfl⟩ := hg.eq
      obtain ⟨f, rfl⟩ := h0.eq
      unfold feeBelowAbove at h
      rw [sub_nn, unwrap_eq, bind_eq] at h
      simp only at hgv h0v
      split at h <;> split at h <;> (cases h; refine ⟨?_, ?_, ?_, ?_⟩ <;> simp only <;> omega)
    obtain ⟨b1, b2, -, -⟩ := bound hl hlv h1
    obtain ⟨-, -, b3, b4⟩ := bound hu huv h3
    obtain ⟨c, hc, cs, cv⟩ := sub_bounded hg.1 b1 hgv.le b2 (by unfold u128Size; omega)
    obtain ⟨d, hd, -, -⟩ := sub_bounded cs b3 cv b4 (by unfold u128Size; omega)
    rw [hc, unwrap_eq, bind_eq, hd]
    exact ⟨d, rfl⟩

example : feeWithinRange 10 20 15 ⟨100, 12, false⟩ ⟨30, 12, false⟩ ⟨20, 12, false⟩ = .ok ⟨50, 12, false⟩ := by decide
example : feeWithinRange 10 20 25 ⟨100, 12, false⟩ ⟨30, 12, false⟩ ⟨20, 12, false⟩ = .ok ⟨10, 12, true⟩ := by decide
/-- Close to the limit the subtraction overflows, which is a panic. -/
example : feeWithinRange 10 20 15 ⟨0, 12, false⟩ ⟨2 ^ 127, 12, false⟩ ⟨2 ^ 127, 12, false⟩ = .error .panic := by
  decide

/-! ### C53: constants -/

/-- Fees stay zero, and the pool stays at the tick and root price of its initialisation. -/
theorem C53_constant {supply0 : Nat} {s : Chain} (h : Reachable supply0 s) :
    (∃ tick s0 rp, initializePool tick supply0 = .ok s0 ∧ tickToRp tick = .ok rp ∧ s.gs.tick = tick ∧
      s.gs.rp = s0.gs.rp ∧ s.gs.rpScale = s0.gs.rpScale ∧ (s.gs.rp : ℚ) / 10 ^ s.gs.rpScale = rp.toRat) ∧
    s.gs.fee.isZero ∧ (∀ t ts, mapGet t s.ticks = some ts → ts.fee.isZero) ∧
    (∀ k p, mapGet k s.positions = some p → p.fee.isZero) := by
  have z : Fee.zero.isZero := ⟨rfl, rfl, rfl, rfl⟩
  have hg := Good.reachable h
  refine ⟨?_, by rw [hg.gs.fee]; exact z, fun t ts hm => by rw [(hg.tick t ts hm).fee]; exact z,
    fun k p hm => by rw [(hg.pos k p hm).fee]; exact z⟩
  have key : ∃ tick s0, initializePool tick supply0 = .ok s0 ∧ s.gs.tick = tick ∧ s.gs.rp = s0.gs.rp := by
    clear hg z
    induction h with
    | @init s0 tick h => exact ⟨tick, s0, h, (initPool_ok h).2.1, rfl⟩
    | @step s t hr h ih =>
      have hs := Good.reachable hr
      obtain ⟨tick, s0, h0, h1, h2⟩ := ih
      refine ⟨tick, s0, h0, ?_⟩
      rcases h.cases with h | ⟨_, h⟩ | ⟨_, _, _, h⟩ | ⟨_, _, _, _, _, _, _, h⟩ | ⟨_, _, _, _, _, _, h⟩ | h
      · obtain ⟨_, rfl⟩ := initializeBitmap_ok.1 h; exact ⟨h1, h2⟩
      · obtain ⟨_, rfl⟩ := initializeTick_ok.1 h; exact ⟨h1, h2⟩
      · obtain ⟨_, _, _, _, rfl⟩ := createPosition_ok h; exact ⟨h1, h2⟩
      · obtain ⟨d, p, a, b, l, v⟩ := hs.deposit h
        have e : t.gs = d.g := by rw [v.raw.result]; rfl
        rw [e, v.gTick, v.gRp]; exact ⟨h1, h2⟩
      · obtain ⟨d, p, a, b, v⟩ := hs.withdraw h
        have e : t.gs = d.g := by rw [v.raw.result]; rfl
        rw [e, v.gTick, v.gRp]; exact ⟨h1, h2⟩
      · rw [h.gs]; exact ⟨h1, h2⟩
  obtain ⟨tick, s0, h0, h1, h2⟩ := key
  obtain ⟨q, hq, hv⟩ := hg.gs.rp
  obtain ⟨v, rfl, _⟩ := tickToRp_mk hq
  refine ⟨tick, s0, _, h0, h1 ▸ hq, h1, h2, hg.gs.rpScale.trans (initPool_ok h0).2.2.2.2.2.2.2.2.symm, ?_⟩
  rw [hg.gs.rpScale, ← hv, toRat_mk]

example : ∃ s, Reachable 0 s ∧ 0 < s.vaultX ∧ s.gs.tick = 20 := by
  obtain ⟨s, _, h, e⟩ := holds_reachable (is := [.deposit (user 1) 10 30 20 100 100])
    (p := fun s _ => decide (0 < s.vaultX ∧ s.gs.tick = 20)) (by decide +kernel)
  exact ⟨s, h, of_decide_eq_true e⟩

/-! ### C54: active liquidity -/

/-- The pool's liquidity is that of the positions whose range contains the pool's tick. -/
theorem C54_active {supply0 : Nat} {s : Chain} (h : Reachable supply0 s) : s.gs.amount = s.inRange s.gs.tick :=
  active_reachable h

/-- A reachable state with one position in range and another out of range. -/
example : ∃ s, Reachable 0 s ∧ s.gs.liq = 199860057188516372 ∧ s.positions.map (·.2.liq) =
    [199860057188516372, 4005703857071924, 0] := by
  obtain ⟨s, _, h, e⟩ := holds_reachable (is := [.deposit (user 1) 10 30 20 100 100, .deposit (user 2) 25 30 20 1 0])
    (p := fun s _ => decide (s.gs.liq = 199860057188516372 ∧ s.positions.map (·.2.liq) =
      [199860057188516372, 4005703857071924, 0])) (by decide +kernel)
  exact ⟨s, h, of_decide_eq_true e⟩

/-! ### C55: tick accounts -/

/-- The full claim: the books of every tick account are the sums over the positions bounded by the tick. -/
def C55_statement : Prop := ∀ supply0 s, Reachable supply0 s → ∀ t ts, mapGet t s.ticks = some ts →
  ts.grossAmount = s.startingAt t + s.endingAt t ∧ ts.netAmount = s.startingAt t - s.endingAt t

/-- A deposit into a range that ends at the pool's tick. -/
def onEdge : List Instr := [.deposit (user 1) 10 20 20 0 100]

/-- The claim fails at the pool's tick: the account is loaded twice, as a bound and as the current tick, and
the unchanged second copy is written back over the first. -/
theorem C55_false : ¬ C55_statement := by
  intro hc
  obtain ⟨s, _, h, e⟩ := holds_reachable (is := onEdge)
    (p := fun s _ => decide ((mapGet 20 s.ticks).map (·.gross) = some 0 ∧
      s.positions = [(⟨1, 10, 30⟩, ⟨0, 12, 10, 30, Fee.zero⟩), (⟨2, 25, 30⟩, ⟨0, 12, 25, 30, Fee.zero⟩),
        (⟨1, 10, 20⟩, ⟨199860057188516372, 12, 10, 20, Fee.zero⟩)])) (by decide +kernel)
  obtain ⟨e1, e2⟩ := of_decide_eq_true e
  obtain ⟨ts, e3, e4⟩ := Option.map_eq_some_iff.1 e1
  have := (hc 0 s h 20 ts e3).1
  unfold Tick.grossAmount Chain.startingAt Chain.endingAt Chain.sumPos Position.amount at this
  rw [e2, e4] at this
  norm_num at this

/-- Missing for the full claim: the account of the pool's own tick.  All others agree with the positions,
and that one stays empty for ever. -/
theorem C55_partial {supply0 : Nat} {s : Chain} (h : Reachable supply0 s) {t : Nat} {ts : Tick}
    (ht : mapGet t s.ticks = some ts) :
    (t ≠ s.gs.tick → ts.grossAmount = s.startingAt t + s.endingAt t ∧
      ts.netAmount = s.startingAt t - s.endingAt t) ∧
    (t = s.gs.tick → ts.grossAmount = 0 ∧ ts.netAmount = 0) := by
  refine ⟨fun h1 => (TickBooks.reachable h).other t ts h1 ht, fun h1 => ?_⟩
  obtain ⟨h2, h3⟩ := (TickBooks.reachable h).here ts (h1 ▸ ht)
  unfold Tick.grossAmount Tick.netAmount
  rw [h2, h3]
  simp

example : ∃ s, Reachable 0 s ∧ (mapGet 10 s.ticks).map (·.gross) = some 399720114377032744 ∧
    (mapGet 30 s.ticks).map (fun t => (t.net, t.netNeg)) = some (199860057188516372, 1) := by
  obtain ⟨s, _, h, e⟩ := holds_reachable (is := .deposit (user 1) 10 30 20 100 100 :: onEdge)
    (p := fun s _ => decide ((mapGet 10 s.ticks).map (·.gross) = some 399720114377032744 ∧
      (mapGet 30 s.ticks).map (fun t => (t.net, t.netNeg)) = some (199860057188516372, 1))) (by decide +kernel)
  exact ⟨s, h, of_decide_eq_true e⟩

/-! ### C56: what was deposited can be withdrawn -/

/-- The full claim. -/
def C56_statement : Prop := ∀ supply0 s, Reachable supply0 s → ∀ c lower upper current x y t m,
  deposit s c lower upper current x y = .ok (t, m) → ownerOf s.lp c.lp = some c.user →
  balanceOf s.userX c.tokenX < u64Size → balanceOf s.userY c.tokenY < u64Size →
  ∃ r, withdraw t c lower upper current m.lp = .ok r

/-- Liquidity in a range bounded by the pool's tick can never be withdrawn, by anyone, in any later state. -/
theorem C56_stuck {supply0 : Nat} {s : Chain} (h : Reachable supply0 s) {c : Caller} {lower upper current n : Nat}
    (he : lower = s.gs.tick ∨ upper = s.gs.tick) (hn : 0 < n) (r : Chain × Moved) :
    withdraw s c lower upper current n ≠ .ok r := by
  intro hw
  have hs := Good.reachable h
  obtain ⟨d, p, a, b, v⟩ := hs.withdraw hw
  obtain ⟨a1, a2, a3, a4, a5, a6, a7, a8, a9, a10, a11, a12, a13⟩ := loadAccounts_ok.1 v.raw.load
  have hn' : (0 : ℚ) < n := by exact_mod_cast hn
  have key : ∀ {t : Nat} {ts ts' : Tick} {up : Bool}, t = s.gs.tick → mapGet t s.ticks = some ts →
      updateTick ts t d.amt.neg up = .ok ts' → False := by
    intro t ts ts' up ht hm hu
    have h0 := ((C55_partial h hm).2 ht).1
    have h1 := (updateTick_ok (hs.tick _ _ hm) hu).2.2.1
    have h2 : 0 ≤ ts'.grossAmount := by unfold Tick.grossAmount; positivity
    rw [h0, v.amtRat] at h1
    linarith
  rcases he with he | he
  · exact key he a4 v.lwr
  · exact key he a6 v.upr

/-- So the claim fails: the deposit of `onEdge` is stuck. -/
theorem C56_false : ¬ C56_statement := by
  intro hc
  obtain ⟨s, _, h, e⟩ := holds_reachable (is := [])
    (p := fun s _ => (match deposit s (user 1) 10 20 20 0 100 with
      | .ok (t, m) => decide (0 < m.lp ∧ t.gs.tick = 20)
      | .error _ => false) && decide (ownerOf s.lp 1 = some 1 ∧
      balanceOf s.userX 1 < u64Size ∧ balanceOf s.userY 1 < u64Size)) (by decide +kernel)
  rw [Bool.and_eq_true, decide_eq_true_eq] at e
  obtain ⟨e, e1, e2, e3⟩ := e
  split at e
  · next t m hd =>
    obtain ⟨e4, e5⟩ := of_decide_eq_true e
    obtain ⟨r, hr⟩ := hc 0 s h (user 1) 10 20 20 0 100 t m hd e1 e2 e3
    exact C56_stuck (h.step (.instr (.deposit (user 1) 10 20 20 0 100) (bind_ok.2 ⟨_, hd, rfl⟩))) (.inr e5.symm) e4 r hr
  · cases e

/-- Missing for the full claim: ranges bounded by the pool's tick, for which it is false.  The withdrawal pays
no more than the deposit took. -/
theorem C56_partial {supply0 : Nat} {s t : Chain} (h : Reachable supply0 s) {c : Caller}
    {lower upper current x y : Nat} {m : Moved} (hd : deposit s c lower upper current x y = .ok (t, m))
    (hlp : ownerOf s.lp c.lp = some c.user)
    (hx : balanceOf s.userX c.tokenX < u64Size) (hy : balanceOf s.userY c.tokenY < u64Size)
    (h1 : lower ≠ s.gs.tick) (h2 : upper ≠ s.gs.tick) :
    ∃ t' m', withdraw t c lower upper current m.lp = .ok (t', m') ∧ m'.x ≤ m.x ∧ m'.y ≤ m.y := by
  have hs := Good.reachable h
  obtain ⟨d, p, a, b, l, v⟩ := hs.deposit hd
  have := v.cur
  exact round_trip hs hd (by omega) (by omega) hx hy hlp

example : ∃ s, Reachable 0 s ∧ ∃ t m, deposit s (user 1) 10 30 20 100 100 = .ok (t, m) ∧ m.lp = 199860 ∧
    ownerOf s.lp 1 = some 1 ∧ balanceOf s.userX 1 = 1000 ∧ s.gs.tick = 20 := by
  obtain ⟨s, _, h, e⟩ := holds_reachable (is := [])
    (p := fun s _ => (match deposit s (user 1) 10 30 20 100 100 with
      | .ok (_, m) => decide (m.lp = 199860)
      | .error _ => false) && decide (ownerOf s.lp 1 = some 1 ∧ balanceOf s.userX 1 = 1000 ∧ s.gs.tick = 20))
      (by decide +kernel)
  rw [Bool.and_eq_true, decide_eq_true_eq] at e
  obtain ⟨e, e1⟩ := e
  split at e
  · next t m hd => exact ⟨s, h, t, m, hd, of_decide_eq_true e, e1⟩
  · cases e

/-! ### C57: LP tokens are backed -/

/-- The LP tokens the pool has minted are at most the liquidity of all positions. -/
theorem C57_backed {supply0 : Nat} {s : Chain} (h : Reachable supply0 s) :
    (s.lpSupply : ℚ) - supply0 ≤ s.totalLiquidity := by
  have := backed_reachable h
  linarith

example : ∃ s, Reachable 0 s ∧ s.lpSupply = 203865 := by
  obtain ⟨s, _, h, e⟩ := holds_reachable (is := [.deposit (user 1) 10 30 20 100 100, .deposit (user 2) 25 30 20 1 0])
    (p := fun s _ => decide (s.lpSupply = 203865)) (by decide +kernel)
  exact ⟨s, h, of_decide_eq_true e⟩

/-! ### C58: a deposit takes at most what is offered -/

theorem balance_set (acc j : Nat) (a : TokAcc) (m : List (Nat × TokAcc)) :
    mapGet j (mapSet acc a m) = if j = acc then some a else mapGet j m := mapGet_set _ _ _ _

/-- The depositor loses at most the offer, exactly what the vaults gain, and no other token account changes. -/
theorem C58_debit {supply0 : Nat} {s t : Chain} (h : Reachable supply0 s) {c : Caller}
    {lower upper current x y : Nat} {m : Moved} (hd : deposit s c lower upper current x y = .ok (t, m)) :
    m.x ≤ x ∧ m.y ≤ y ∧ t.vaultX = s.vaultX + m.x ∧ t.vaultY = s.vaultY + m.y ∧
    balanceOf t.userX c.tokenX + m.x = balanceOf s.userX c.tokenX ∧
    balanceOf t.userY c.tokenY + m.y = balanceOf s.userY c.tokenY ∧
    (∀ acc, acc ≠ c.tokenX → mapGet acc t.userX = mapGet acc s.userX) ∧
    (∀ acc, acc ≠ c.tokenY → mapGet acc t.userY = mapGet acc s.userY) := by
  obtain ⟨d, p, a, b, l, v⟩ := (Good.reachable h).deposit hd
  have r := v.raw
  obtain ⟨ux, x1, x2, x3, x4⟩ := debit_ok.1 r.debitX
  obtain ⟨uy, y1, y2, y3, y4⟩ := debit_ok.1 r.debitY
  obtain ⟨xv, ex⟩ := v.xIn
  obtain ⟨yv, ey⟩ := v.yIn
  have mx := r.xMax
  have my := r.yMax
  rw [v.xDeb, ex, fromInt_compute r.x, gt_nn] at mx
  rw [v.yDeb, ey, fromInt_compute r.y, gt_nn] at my
  simp only [Except.ok.injEq, decide_eq_false_iff_not, not_lt] at mx my
  refine ⟨?_, ?_, by rw [r.result], by rw [r.result], ?_, ?_, ?_, ?_⟩
  · rw [v.x, ex]; exact Nat.div_le_of_le_mul (by simp only; omega)
  · rw [v.y, ey]; exact Nat.div_le_of_le_mul (by simp only; omega)
  · unfold balanceOf; rw [x4, balance_set, if_pos rfl, x1]
    show ux.amount - m.x + m.x = ux.amount
    omega
  · unfold balanceOf; rw [y4, balance_set, if_pos rfl, y1]
    show uy.amount - m.y + m.y = uy.amount
    omega
  · intro acc ha; rw [x4, balance_set, if_neg ha]
  · intro acc ha; rw [y4, balance_set, if_neg ha]

/-- In the sample 99 of the 100 offered X and Y are taken. -/
example : ∃ s, Reachable 0 s ∧ ∃ t m, deposit s (user 1) 10 30 20 100 100 = .ok (t, m) ∧ m.x = 99 ∧ m.y = 99 := by
  obtain ⟨s, _, h, e⟩ := holds_reachable (is := [])
    (p := fun s _ => match deposit s (user 1) 10 30 20 100 100 with
      | .ok (_, m) => decide (m.x = 99 ∧ m.y = 99)
      | .error _ => false) (by decide +kernel)
  split at e
  · next t m hd => exact ⟨s, h, t, m, hd, of_decide_eq_true e⟩
  · cases e

/-! ### C59: nobody takes out more than they paid in -/

/-- The full claim: for one user, and for the vaults. -/
def C59_statement : Prop :=
  (∀ supply0 u s a, Tracked supply0 (· == u) s a → a.takenX ≤ a.paidX ∧ a.takenY ≤ a.paidY) ∧
  (∀ supply0 s, Reachable supply0 s → worthX (fun _ => true) s ≤ s.vaultX ∧ worthY (fun _ => true) s ≤ s.vaultY)

/-- User 2 deposits twice, each time for free because the fraction of a token due is rounded down, and takes
out one of the tokens paid in by user 1. -/
def theft : List Instr := [.deposit (user 1) 10 30 20 100 100, .deposit (user 2) 25 30 20 1 0,
  .deposit (user 2) 25 30 20 1 0, .withdraw (user 2) 25 30 20 8000]

theorem C59_false : ¬ C59_statement := by
  rintro ⟨hc, -⟩
  obtain ⟨s, a, h, e⟩ := holds_exists (who := (· == 2)) (is := theft)
    (p := fun _ a => decide (a = ⟨2, 0, 0, 1, 0⟩)) (by decide +kernel)
  have := (hc 0 2 s a h).1
  rw [of_decide_eq_true e] at this
  cases this

/-- Missing for the full claim: the rounding, which gives away less than one X and one Y per deposit (plus, for
X, `10^-12` for the price product).  Any group takes out at most what it paid in plus that, counting what its
positions are still worth, and the vaults cover all positions up to that. -/
theorem C59_partial {supply0 : Nat} {who : Nat → Bool} {s : Chain} {a : Account} (h : Tracked supply0 who s a) :
    a.takenX + worthX who s ≤ a.paidX + a.deposits * (1 + 1 / 10 ^ 12) ∧
    a.takenY + worthY who s ≤ a.paidY + a.deposits ∧
    ((∀ u, who u = true) → worthX who s ≤ s.vaultX + a.deposits * (1 + 1 / 10 ^ 12) ∧
      worthY who s ≤ s.vaultY + a.deposits) := by
  obtain ⟨h1, h2⟩ := h.bound
  refine ⟨h1, h2, fun hw => ?_⟩
  have e : who = fun _ => true := funext hw
  subst e
  obtain ⟨h3, h4⟩ := h.vaults
  have h3' : (a.paidX : ℚ) ≤ s.vaultX + a.takenX := by exact_mod_cast h3
  have h4' : (a.paidY : ℚ) ≤ s.vaultY + a.takenY := by exact_mod_cast h4
  constructor <;> linarith

/-- In whole tokens. -/
theorem C59_whole_partial {supply0 : Nat} {who : Nat → Bool} {s : Chain} {a : Account} (h : Tracked supply0 who s a)
    (hd : a.deposits < 10 ^ 12) : a.takenX ≤ a.paidX + a.deposits ∧ a.takenY ≤ a.paidY + a.deposits := by
  obtain ⟨h1, h2⟩ := h.bound
  have k1 := worthX_nonneg who s
  have k2 := worthY_nonneg who s
  have hd' : (a.deposits : ℚ) < 10 ^ 12 := by exact_mod_cast hd
  constructor
  · have : (a.takenX : ℚ) < a.paidX + a.deposits + 1 := by
      have : (a.deposits : ℚ) * (1 / 10 ^ 12) < 1 := by
        rw [mul_one_div, div_lt_one (by norm_num)]; exact hd'
      linarith
    have : a.takenX < a.paidX + a.deposits + 1 := by exact_mod_cast this
    omega
  · have : (a.takenY : ℚ) ≤ a.paidY + a.deposits := by linarith
    exact_mod_cast this

example : ∃ s a, Tracked 0 (· == 2) s a ∧ a = ⟨2, 0, 0, 1, 0⟩ := by
  obtain ⟨s, a, h, e⟩ := holds_exists (who := (· == 2)) (is := theft)
    (p := fun _ a => decide (a = ⟨2, 0, 0, 1, 0⟩)) (by decide +kernel)
  exact ⟨s, a, h, of_decide_eq_true e⟩

/-! ### C60: nobody else's accounts -/

/-- A deposit leaves other users' positions and X and Y accounts alone and takes no LP tokens from them. -/
theorem C60_deposit {s t : Chain} {c : Caller} {lower upper current x y : Nat} {m : Moved}
    (h : deposit s c lower upper current x y = .ok (t, m)) :
    (∀ k, k.user ≠ c.user → mapGet k t.positions = mapGet k s.positions) ∧
    (∀ acc, ownerOf s.userX acc ≠ some c.user → mapGet acc t.userX = mapGet acc s.userX) ∧
    (∀ acc, ownerOf s.userY acc ≠ some c.user → mapGet acc t.userY = mapGet acc s.userY) ∧
    (∀ acc, ownerOf s.lp acc ≠ some c.user → balanceOf s.lp acc ≤ balanceOf t.lp acc ∧
      ownerOf t.lp acc = ownerOf s.lp acc) := by
  obtain ⟨d, r⟩ := deposit_ok.1 h
  obtain ⟨a1, a2, a3, a4, a5, a6, a7, a8, a9, a10, a11, a12, a13⟩ := loadAccounts_ok.1 r.load
  obtain ⟨ux, x1, x2, x3, x4⟩ := debit_ok.1 r.debitX
  obtain ⟨uy, y1, y2, y3, y4⟩ := debit_ok.1 r.debitY
  obtain ⟨ul, l1, l2, l3⟩ := credit_ok.1 r.credit
  refine ⟨fun k hk => ?_, fun acc ha => ?_, fun acc ha => ?_, fun acc ha => ?_⟩
  · rw [r.result]
    show mapGet k (mapSet _ _ _) = _
    rw [mapGet_set, if_neg (by rintro rfl; exact hk rfl)]
  · rw [x4, balance_set, if_neg (by rintro rfl; exact ha a11)]
  · rw [y4, balance_set, if_neg (by rintro rfl; exact ha a12)]
  · unfold balanceOf ownerOf
    rw [l3, balance_set]
    split
    · next e => subst e; rw [l1]; exact ⟨Nat.le_add_right _ _, rfl⟩
    · exact ⟨le_rfl, rfl⟩

/-- A withdrawal leaves other users' positions and all their token accounts alone. -/
theorem C60_withdraw {s t : Chain} {c : Caller} {lower upper current n : Nat} {m : Moved}
    (h : withdraw s c lower upper current n = .ok (t, m)) :
    (∀ k, k.user ≠ c.user → mapGet k t.positions = mapGet k s.positions) ∧
    (∀ acc, ownerOf s.userX acc ≠ some c.user → mapGet acc t.userX = mapGet acc s.userX) ∧
    (∀ acc, ownerOf s.userY acc ≠ some c.user → mapGet acc t.userY = mapGet acc s.userY) ∧
    (∀ acc, ownerOf s.lp acc ≠ some c.user → mapGet acc t.lp = mapGet acc s.lp) := by
  obtain ⟨d, r⟩ := withdraw_ok.1 h
  obtain ⟨a1, a2, a3, a4, a5, a6, a7, a8, a9, a10, a11, a12, a13⟩ := loadAccounts_ok.1 r.load
  obtain ⟨ux, x1, x2, x3⟩ := credit_ok.1 r.creditX
  obtain ⟨uy, y1, y2, y3⟩ := credit_ok.1 r.creditY
  obtain ⟨ul, l1, l2, l3, l4⟩ := debit_ok.1 r.burn
  refine ⟨fun k hk => ?_, fun acc ha => ?_, fun acc ha => ?_, fun acc ha => ?_⟩
  · rw [r.result]
    show mapGet k (mapSet _ _ _) = _
    rw [mapGet_set, if_neg (by rintro rfl; exact hk rfl)]
  · rw [x3, balance_set, if_neg (by rintro rfl; exact ha a11)]
  · rw [y3, balance_set, if_neg (by rintro rfl; exact ha a12)]
  · rw [l4, balance_set, if_neg]
    rintro rfl
    refine ha ?_
    unfold ownerOf
    rw [l1, ← l2]
    rfl

example : ∃ s, Reachable 0 s ∧ ∃ r, withdraw s (user 2) 25 30 20 8000 = .ok r := by
  obtain ⟨s, _, h, e⟩ := holds_reachable (is := [.deposit (user 1) 10 30 20 100 100, .deposit (user 2) 25 30 20 1 0,
      .deposit (user 2) 25 30 20 1 0])
    (p := fun s _ => match withdraw s (user 2) 25 30 20 8000 with | .ok _ => true | .error _ => false)
    (by decide +kernel)
  split at e
  · next r hr => exact ⟨s, h, r, hr⟩
  · cases e

/-! ### C61: the bitmap -/

/-- The full claim. -/
def C61_statement : Prop := ∀ supply0 s, Reachable supply0 s → ∀ t ts, mapGet t s.ticks = some ts →
  (s.bitSet t ↔ 0 < ts.grossAmount)

/-- The handlers set the bits 0 and 40000 instead of those of the range. -/
theorem C61_false : ¬ C61_statement := by
  intro hc
  obtain ⟨s, _, h, e⟩ := holds_reachable (is := [.deposit (user 1) 10 30 20 100 100])
    (p := fun s _ => decide ((mapGet 10 s.ticks).map (·.gross) = some 199860057188516372) &&
      (s.bitmap.map (fun b => decide (b.tickIsActive 10 = .ok false)) == some true)) (by decide +kernel)
  rw [Bool.and_eq_true, decide_eq_true_eq, beq_iff_eq] at e
  obtain ⟨e1, e2⟩ := e
  obtain ⟨ts, e3, e4⟩ := Option.map_eq_some_iff.1 e1
  obtain ⟨b, e5, e6⟩ := Option.map_eq_some_iff.1 e2
  have e6 := of_decide_eq_true e6
  obtain ⟨b', k1, k2⟩ := (hc 0 s h 10 ts e3).2 (by unfold Tick.grossAmount; rw [e4]; positivity)
  rw [e5] at k1
  cases k1
  unfold Bitmap.Active at k2
  rw [show ((10 : Nat) : Int) = 10 from rfl, e6] at k2
  cases k2

theorem active_valid {b : Bitmap} {t : Int} (h : b.Active t) : Bitmap.Valid t := ((Bitmap.active_iff b t).1 h).1

theorem valid0 : Bitmap.Valid 0 := ⟨by norm_num, by norm_num⟩
theorem valid4 : Bitmap.Valid 40000 := ⟨by norm_num, by norm_num⟩

theorem deposit_bits {s t : Chain} {c : Caller} {lower upper current x y : Nat} {m : Moved}
    (h : deposit s c lower upper current x y = .ok (t, m)) {j : Int} (hj : t.bitSet j) :
    j = 0 ∨ j = 40000 ∨ s.bitSet j := by
  obtain ⟨d, r⟩ := deposit_ok.1 h
  obtain ⟨b, hb, hj⟩ := hj
  have hv := active_valid hj
  rw [r.result] at hb
  cases hb
  have hs : s.bitmap = some d.a.bitmap := (loadAccounts_ok.1 r.load).1
  have h1 : d.b.Active j → j = 40000 ∨ d.b1.Active j := by
    have := r.b
    split at this
    · exact (Bitmap.activate_active valid4 hv this).1
    · rw [ok_inj] at this; rw [this]; exact .inr
  have h2 : d.b1.Active j → j = 0 ∨ d.a.bitmap.Active j := by
    have := r.b1
    split at this
    · exact (Bitmap.activate_active valid0 hv this).1
    · rw [ok_inj] at this; rw [this]; exact .inr
  rcases h1 hj with h1 | h1
  · exact .inr (.inl h1)
  · rcases h2 h1 with h2 | h2
    · exact .inl h2
    · exact .inr (.inr ⟨_, hs, h2⟩)

theorem withdraw_bits {s t : Chain} {c : Caller} {lower upper current n : Nat} {m : Moved}
    (h : withdraw s c lower upper current n = .ok (t, m)) {j : Int} (hj : t.bitSet j) :
    j ≠ 0 ∧ j ≠ 40000 ∧ s.bitSet j := by
  obtain ⟨d, r⟩ := withdraw_ok.1 h
  obtain ⟨b, hb, hj⟩ := hj
  have hv := active_valid hj
  rw [r.result] at hb
  cases hb
  have hs : s.bitmap = some d.a.bitmap := (loadAccounts_ok.1 r.load).1
  obtain ⟨k1, k2⟩ := (Bitmap.unset_active valid4 hv r.b).1 hj
  obtain ⟨k3, k4⟩ := (Bitmap.unset_active valid0 hv r.b1).1 k2
  exact ⟨k3, k1, _, hs, k4⟩

/-- Missing for the full claim: everything but the ticks 0 and 40000.  No other bit is ever set, and a withdrawal
clears all bits. -/
theorem C61_partial {supply0 : Nat} {s : Chain} (h : Reachable supply0 s) :
    (∀ j, s.bitSet j → j = 0 ∨ j = 40000) ∧
    (∀ c lower upper current n t m, withdraw s c lower upper current n = .ok (t, m) → ∀ j, ¬ t.bitSet j) := by
  have key : ∀ j, s.bitSet j → j = 0 ∨ j = 40000 := by
    induction h with
    | init tick h =>
      rintro j ⟨b, hb, _⟩
      rw [(initPool_ok h).2.2.2.2.2.1] at hb
      cases hb
    | @step s t hr h ih =>
      intro j hj
      rcases h.cases with h | ⟨_, h⟩ | ⟨_, _, _, h⟩ | ⟨_, _, _, _, _, _, _, h⟩ | ⟨_, _, _, _, _, _, h⟩ | h
      · obtain ⟨_, rfl⟩ := initializeBitmap_ok.1 h
        obtain ⟨b, hb, hj⟩ := hj
        cases hb
        have := ((Bitmap.active_iff _ j).1 hj).2
        simp [Bitmap.empty] at this
      · obtain ⟨_, rfl⟩ := initializeTick_ok.1 h; exact ih j hj
      · obtain ⟨_, _, _, _, rfl⟩ := createPosition_ok h; exact ih j hj
      · rcases deposit_bits h hj with h | h | h
        · exact .inl h
        · exact .inr h
        · exact ih j h
      · exact ih j (withdraw_bits h hj).2.2
      · obtain ⟨b, hb, hj⟩ := hj
        exact ih j ⟨b, h.bitmap ▸ hb, hj⟩
  refine ⟨key, fun c lower upper current n t m hw j hj => ?_⟩
  obtain ⟨h1, h2, h3⟩ := withdraw_bits hw hj
  rcases key j h3 with h | h
  · exact h1 h
  · exact h2 h

/-- After the first deposit both bits are set. -/
example : ∃ s, Reachable 0 s ∧ s.bitSet 0 ∧ s.bitSet 40000 := by
  obtain ⟨s, _, h, e⟩ := holds_reachable (is := [.deposit (user 1) 10 30 20 100 100])
    (p := fun s _ => s.bitmap.map (fun b => decide (b.tickIsActive 0 = .ok true ∧ b.tickIsActive 40000 = .ok true)) ==
      some true) (by decide +kernel)
  rw [beq_iff_eq] at e
  obtain ⟨b, e5, e6⟩ := Option.map_eq_some_iff.1 e
  obtain ⟨k1, k2⟩ := of_decide_eq_true e6
  exact ⟨s, h, ⟨b, e5, k1⟩, ⟨b, e5, k2⟩⟩

/-! ### C62: labels -/

/-- Positions and ticks carry the numbers they were created for, and ranges are ordered. -/
theorem C62_labels {supply0 : Nat} {s : Chain} (h : Reachable supply0 s) :
    (∀ k p, mapGet k s.positions = some p → k.lower < k.upper ∧ p.lower = k.lower ∧ p.upper = k.upper) ∧
    (∀ t ts, mapGet t s.ticks = some ts → ts.tick = t) := by
  have hg := Good.reachable h
  exact ⟨fun k p hm => ⟨(hg.pos k p hm).order, (hg.pos k p hm).lower, (hg.pos k p hm).upper⟩,
    fun t ts hm => (hg.tick t ts hm).tick⟩

/-- So the account checks on ticks always pass and the tick-mismatch error is unreachable. -/
theorem C62_no_mismatch {supply0 : Nat} {s : Chain} (h : Reachable supply0 s) {k : PosKey} {p : Position} {l u : Tick}
    (hp : mapGet k s.positions = some p) (hl : mapGet k.lower s.ticks = some l) (hu : mapGet k.upper s.ticks = some u) :
    l.tick = p.lower ∧ u.tick = p.upper ∧
    (∀ d up, updateTick l k.lower d up ≠ .error (.code .tickMismatch)) ∧
    (∀ d up, updateTick u k.upper d up ≠ .error (.code .tickMismatch)) := by
  obtain ⟨h1, h2⟩ := C62_labels h
  have key : ∀ {t : Nat} {ts : Tick} {d : Decimal} {up : Bool}, ts.tick = t →
      updateTick ts t d up ≠ .error (.code .tickMismatch) := by
    intro t ts d up ht he
    unfold updateTick at he
    rw [if_neg (by rw [ht]; simp)] at he
    have pan : ∀ {d : Decimal} {e : Err}, d.toComputeScale = .error e → e = .panic :=
      fun h => (toScale_error.1 h).1
    have unw : ∀ {x : R Decimal} {e : Err}, unwrap x = .error e → e = .panic ∨ e = .diverge := by
      intro x e h
      unfold unwrap at h
      split at h <;> cases h <;> simp
    rcases bind_error.1 he with he | ⟨_, _, he⟩
    · cases pan he
    rcases bind_error.1 he with he | ⟨_, _, he⟩
    · rcases unw he with h | h <;> cases h
    rcases bind_error.1 he with he | ⟨_, _, he⟩
    · cases pan he
    rcases bind_error.1 he with he | ⟨_, _, he⟩
    · rcases unw he with h | h <;> cases h
    split at he <;> cases he
  exact ⟨(h2 _ _ hl).trans (h1 _ _ hp).2.1.symm, (h2 _ _ hu).trans (h1 _ _ hp).2.2.symm, fun _ _ => key (h2 _ _ hl),
    fun _ _ => key (h2 _ _ hu)⟩

example : ∃ s, Reachable 0 s ∧ (mapGet (⟨1, 10, 30⟩ : PosKey) s.positions).map (fun p => (p.lower, p.upper)) =
    some (10, 30) ∧ (mapGet 10 s.ticks).map (·.tick) = some 10 ∧ (mapGet 30 s.ticks).map (·.tick) = some 30 := by
  obtain ⟨s, _, h, e⟩ := holds_reachable (is := [.deposit (user 1) 10 30 20 100 100])
    (p := fun s _ => decide ((mapGet (⟨1, 10, 30⟩ : PosKey) s.positions).map (fun p => (p.lower, p.upper)) =
      some (10, 30) ∧ (mapGet 10 s.ticks).map (·.tick) = some 10 ∧ (mapGet 30 s.ticks).map (·.tick) = some 30))
    (by decide +kernel)
  exact ⟨s, h, of_decide_eq_true e⟩

end Hmm.OnChain
