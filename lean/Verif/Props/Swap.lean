import Verif.Proofs.SwapLoop
import Verif.Tests.Sample

/-
Properties of swaps on the in-memory pool: C34, C35, C37, C40 (swaps), C46, C47.
`fl` is the floating-point unit used inside the logarithm; every statement holds for all of them.
-/

namespace Hmm.Pool

open Decimal PoolMath Sample

/-! ### C34: conservation -/

/-- The books after a partial or complete sale of X, in terms of the totals so far. -/
structure BooksX (p₀ p : Pool) (a : SwapAcc) : Prop where
  x : p.x.toRat + p.xFee.toRat = p₀.x.toRat + p₀.xFee.toRat + a.recv.toRat
  xFee : p.xFee.toRat = p₀.xFee.toRat + a.fee.toRat
  y : p.y.toRat + p.yAdj.toRat = p₀.y.toRat + p₀.yAdj.toRat + a.send.toRat
  yAdj : p.yAdj.toRat = p₀.yAdj.toRat + a.adj.toRat
  xAdj : p.xAdj = p₀.xAdj
  yFee : p.yFee = p₀.yFee
  positions : p.positions = p₀.positions
  spacing : p.spacing = p₀.spacing
  c : p.c = p₀.c
  feeRate : p.feeRate = p₀.feeRate
  keys : p.ticks.map (·.1) = p₀.ticks.map (·.1)

theorem BooksX.goal {p₀ p : Pool} {a : SwapAcc} (h : BooksX p₀ p a) {p1 g a1}
    (hg : goalX p a = .ok (p1, g, a1)) : BooksX p₀ p1 a1 := by
  obtain ⟨b, ha, _⟩ := goalX_ok hg
  rw [ha]
  exact ⟨by rw [b.x, b.xFee]; exact h.x, by rw [b.xFee]; exact h.xFee, by rw [b.y, b.yAdj]; exact h.y,
    by rw [b.yAdj]; exact h.yAdj, b.xAdj.trans h.xAdj, b.yFee.trans h.yFee,
    b.positions.trans h.positions, b.spacing.trans h.spacing, b.c.trans h.c, b.feeRate.trans h.feeRate,
    b.keys.trans h.keys⟩

theorem BooksX.step {p₀ p : Pool} {a : SwapAcc} (h : BooksX p₀ p a) {fl : FloatEnv} {dx o : Decimal} {g p' a'}
    (hs : stepX fl dx o p a g = .ok (p', a')) : BooksX p₀ p' a' := by
  obtain ⟨rem, r, ysum, newY, c1, chk, rs, newX, xFee, yAdj, fees, p1, _, _, h3, h4, _, _, _, _, h9, h10,
    h11, h12, h13, _, _, h14, h15, h16, _, hp1, h18⟩ := stepX_ok hs
  have key : BooksX p₀ p1 a' := by
    subst hp1
    refine ⟨?_, ?_, ?_, ?_, h.xAdj, h.yFee, h.positions, h.spacing, h.c, h.feeRate, h.keys⟩
    · have := h.x
      simp only [add_toRat h14, add_toRat h15, add_toRat h10, add_toRat h9]
      linarith
    · have := h.xFee
      simp only [add_toRat h15, add_toRat h13]
      linarith
    · have := h.y
      simp only [sub_toRat h4, add_toRat h3, add_toRat h16, add_toRat h11]
      linarith
    · have := h.yAdj
      simp only [add_toRat h16, add_toRat h12]
      linarith
  rcases h18 with ⟨_, _, _, hc⟩ | ⟨_, _, _, rfl⟩ | ⟨_, rfl⟩
  · obtain ⟨b1, b2, b3, b4, b5, b6, b7, b8, b9, b10, b11, _⟩ := crossTick_frame hc
    exact ⟨by rw [b1, b5]; exact key.x, by rw [b5]; exact key.xFee, by rw [b2, b4]; exact key.y,
      by rw [b4]; exact key.yAdj, b3.trans key.xAdj, b6.trans key.yFee, b7.trans key.positions,
      b8.trans key.spacing, b9.trans key.c, b10.trans key.feeRate, b11.trans key.keys⟩
  · exact key
  · exact key

/-- The books after a partial or complete sale of Y, in terms of the totals so far. -/
structure BooksY (p₀ p : Pool) (a : SwapAcc) : Prop where
  y : p.y.toRat + p.yFee.toRat = p₀.y.toRat + p₀.yFee.toRat + a.recv.toRat
  yFee : p.yFee.toRat = p₀.yFee.toRat + a.fee.toRat
  x : p.x.toRat + p.xAdj.toRat = p₀.x.toRat + p₀.xAdj.toRat + a.send.toRat
  xAdj : p.xAdj.toRat = p₀.xAdj.toRat + a.adj.toRat
  yAdj : p.yAdj = p₀.yAdj
  xFee : p.xFee = p₀.xFee
  positions : p.positions = p₀.positions
  spacing : p.spacing = p₀.spacing
  c : p.c = p₀.c
  feeRate : p.feeRate = p₀.feeRate
  keys : p.ticks.map (·.1) = p₀.ticks.map (·.1)

theorem BooksY.goal {p₀ p : Pool} {a : SwapAcc} (h : BooksY p₀ p a) {p1 g a1}
    (hg : goalY p a = .ok (p1, g, a1)) : BooksY p₀ p1 a1 := by
  obtain ⟨b, ha, _⟩ := goalY_ok hg
  rw [ha]
  exact ⟨by rw [b.y, b.yFee]; exact h.y, by rw [b.yFee]; exact h.yFee, by rw [b.x, b.xAdj]; exact h.x,
    by rw [b.xAdj]; exact h.xAdj, b.yAdj.trans h.yAdj, b.xFee.trans h.xFee,
    b.positions.trans h.positions, b.spacing.trans h.spacing, b.c.trans h.c, b.feeRate.trans h.feeRate,
    b.keys.trans h.keys⟩

theorem BooksY.step {p₀ p : Pool} {a : SwapAcc} (h : BooksY p₀ p a) {fl : FloatEnv} {dy o : Decimal} {g p' a'}
    (hs : stepY fl dy o p a g = .ok (p', a')) : BooksY p₀ p' a' := by
  obtain ⟨rem, r, xsum, newX, c1, chk, rs, newY, yFee, xAdj, fees, p1, _, _, h3, h4, _, _, _, _, h9, h10,
    h11, h12, h13, _, _, h14, h15, h16, _, hp1, h18⟩ := stepY_ok hs
  have key : BooksY p₀ p1 a' := by
    subst hp1
    refine ⟨?_, ?_, ?_, ?_, h.yAdj, h.xFee, h.positions, h.spacing, h.c, h.feeRate, h.keys⟩
    · have := h.y
      simp only [add_toRat h14, add_toRat h15, add_toRat h10, add_toRat h9]
      linarith
    · have := h.yFee
      simp only [add_toRat h15, add_toRat h13]
      linarith
    · have := h.x
      simp only [sub_toRat h4, add_toRat h3, add_toRat h16, add_toRat h11]
      linarith
    · have := h.xAdj
      simp only [add_toRat h16, add_toRat h12]
      linarith
  rcases h18 with ⟨_, _, _, hc⟩ | ⟨_, _, _, rfl⟩ | ⟨_, rfl⟩
  · obtain ⟨b1, b2, b3, b4, b5, b6, b7, b8, b9, b10, b11, _⟩ := crossTick_frame hc
    exact ⟨by rw [b2, b6]; exact key.y, by rw [b6]; exact key.yFee, by rw [b1, b3]; exact key.x,
      by rw [b3]; exact key.xAdj, b4.trans key.yAdj, b5.trans key.xFee, b7.trans key.positions,
      b8.trans key.spacing, b9.trans key.c, b10.trans key.feeRate, b11.trans key.keys⟩
  · exact key
  · exact key

theorem booksX {fl : FloatEnv} {p p' : Pool} {dx o : Decimal} {r : SwapOutput}
    (h : p.executeSwapFromX fl dx o = .ok (p', r)) :
    BooksX p p' ⟨r.recv, r.send, r.sendHmmAdj, r.recvFee, 0, r.endPrice⟩ := by
  unfold executeSwapFromX at h
  rw [ite_ok] at h
  rcases h with ⟨_, h⟩ | ⟨_, h⟩
  · simp [rpanic] at h
  have h0 : BooksX p p p.acc0 := by
    refine ⟨?_, ?_, ?_, ?_, rfl, rfl, rfl, rfl, rfl, rfl, rfl⟩ <;> simp [acc0, zero_toRat]
  obtain ⟨a', k, hf, _⟩ := loopX_inv (P := fun q a => BooksX p q a) (fun hP hg => hP.goal hg)
    (fun _ hP hs => hP.step hs) h0 h
  obtain ⟨_, e1, e2, e3, e4, _⟩ := finishX_ok hf
  rw [e1, e2, e3, e4]
  exact ⟨k.x, k.xFee, k.y, k.yAdj, k.xAdj, k.yFee, k.positions, k.spacing, k.c, k.feeRate, k.keys⟩

theorem booksY {fl : FloatEnv} {p p' : Pool} {dy o : Decimal} {r : SwapOutput}
    (h : p.executeSwapFromY fl dy o = .ok (p', r)) :
    BooksY p p' ⟨r.recv, r.send, r.sendHmmAdj, r.recvFee, 0, r.endPrice⟩ := by
  unfold executeSwapFromY at h
  rw [ite_ok] at h
  rcases h with ⟨_, h⟩ | ⟨_, h⟩
  · simp [rpanic] at h
  have h0 : BooksY p p p.acc0 := by
    refine ⟨?_, ?_, ?_, ?_, rfl, rfl, rfl, rfl, rfl, rfl, rfl⟩ <;> simp [acc0, zero_toRat]
  obtain ⟨a', k, hf, _⟩ := loopY_inv (P := fun q a => BooksY p q a) (fun hP hg => hP.goal hg)
    (fun _ hP hs => hP.step hs) h0 h
  obtain ⟨_, e1, e2, e3, e4, _⟩ := finishY_ok hf
  rw [e1, e2, e3, e4]
  exact ⟨k.y, k.yFee, k.x, k.xAdj, k.yAdj, k.xFee, k.positions, k.spacing, k.c, k.feeRate, k.keys⟩

/-- C34 for a sale of X, in any pool state and across any number of ticks: what the pool reports is
what moved.  The X reserve and the X fee pot together grow by the amount received and the fee pot by
the fee; the Y reserve and the Y adjustment pot together change by the (negative) amount sent and the
adjustment pot by the adjustment; the other two pots stay. -/
theorem C34_from_x {fl : FloatEnv} {p p' : Pool} {dx o : Decimal} {r : SwapOutput}
    (h : p.executeSwapFromX fl dx o = .ok (p', r)) :
    p'.x.toRat + p'.xFee.toRat = p.x.toRat + p.xFee.toRat + r.recv.toRat ∧
    p'.xFee.toRat = p.xFee.toRat + r.recvFee.toRat ∧
    p'.y.toRat + p'.yAdj.toRat = p.y.toRat + p.yAdj.toRat + r.send.toRat ∧
    p'.yAdj.toRat = p.yAdj.toRat + r.sendHmmAdj.toRat ∧
    p'.xAdj = p.xAdj ∧ p'.yFee = p.yFee :=
  let k := booksX h
  ⟨k.x, k.xFee, k.y, k.yAdj, k.xAdj, k.yFee⟩

/-- C34 for a sale of Y. -/
theorem C34_from_y {fl : FloatEnv} {p p' : Pool} {dy o : Decimal} {r : SwapOutput}
    (h : p.executeSwapFromY fl dy o = .ok (p', r)) :
    p'.y.toRat + p'.yFee.toRat = p.y.toRat + p.yFee.toRat + r.recv.toRat ∧
    p'.yFee.toRat = p.yFee.toRat + r.recvFee.toRat ∧
    p'.x.toRat + p'.xAdj.toRat = p.x.toRat + p.xAdj.toRat + r.send.toRat ∧
    p'.xAdj.toRat = p.xAdj.toRat + r.sendHmmAdj.toRat ∧
    p'.yAdj = p.yAdj ∧ p'.xFee = p.xFee :=
  let k := booksY h
  ⟨k.y, k.yFee, k.x, k.xAdj, k.yAdj, k.xFee⟩

/-- Both directions happen, with a crossing and a non-zero fee. -/
example : (∃ p' r, pool.executeSwapFromX fl (D 17) zero = .ok (p', r) ∧ r.recvFee.value ≠ 0) ∧
    (∃ p' r, pool.executeSwapFromY fl (D 17) zero = .ok (p', r) ∧ r.recvFee.value ≠ 0) :=
  ⟨⟨(get (pool.executeSwapFromX fl (D 17) zero)).1, (get (pool.executeSwapFromX fl (D 17) zero)).2,
      by decide +kernel, by decide +kernel⟩,
    (get (pool.executeSwapFromY fl (D 17) zero)).1, (get (pool.executeSwapFromY fl (D 17) zero)).2,
      by decide +kernel, by decide +kernel⟩

/-! ### C40, the part about swaps -/

/-- C40: a swap changes no position, in either direction. -/
theorem C40_swap {fl : FloatEnv} {p p' : Pool} {d o : Decimal} {r : SwapOutput}
    (h : p.executeSwapFromX fl d o = .ok (p', r) ∨ p.executeSwapFromY fl d o = .ok (p', r)) :
    p'.positions = p.positions := by
  rcases h with h | h
  · exact (booksX h).positions
  · exact (booksY h).positions

/-! ### C35: what is taken and given -/

/-- The total taken so far stays within the offer. -/
theorem within_stepX {fl : FloatEnv} {dx o : Decimal} {p p' : Pool} {a a' : SwapAcc} {g : Nat}
    (hs : stepX fl dx o p a g = .ok (p', a')) : a'.recv.toRat ≤ dx.toRat := by
  obtain ⟨rem, r, ysum, newY, c1, chk, rs, newX, xFee, yAdj, fees, p1, h1, _, _, _, _, h6, h7, h8, h9, h10,
    _⟩ := stepX_ok hs
  have := not_isNegative.1 h8
  rw [sub_toRat h7, sub_toRat h6, sub_toRat h1] at this
  rw [add_toRat h10, add_toRat h9]
  linarith

theorem within_stepY {fl : FloatEnv} {dy o : Decimal} {p p' : Pool} {a a' : SwapAcc} {g : Nat}
    (hs : stepY fl dy o p a g = .ok (p', a')) : a'.recv.toRat ≤ dy.toRat := by
  obtain ⟨rem, r, xsum, newX, c1, chk, rs, newY, yFee, xAdj, fees, p1, h1, _, _, _, _, h6, h7, h8, h9, h10,
    _⟩ := stepY_ok hs
  have := not_isNegative.1 h8
  rw [sub_toRat h7, sub_toRat h6, sub_toRat h1] at this
  rw [add_toRat h10, add_toRat h9]
  linarith

/-- C35 for a sale of X: the pool takes between nothing and the offer, and sends something
non-positive; it takes nothing exactly when it sends nothing. -/
theorem C35_from_x {fl : FloatEnv} {p p' : Pool} {dx o : Decimal} {r : SwapOutput}
    (h : p.executeSwapFromX fl dx o = .ok (p', r)) :
    0 ≤ r.recv.toRat ∧ r.recv.toRat ≤ dx.toRat ∧ r.send.toRat ≤ 0 ∧
    (r.recv.toRat = 0 ↔ r.send.toRat = 0) := by
  unfold executeSwapFromX at h
  rw [ite_ok] at h
  rcases h with ⟨_, h⟩ | ⟨h0, h⟩
  · simp [rpanic] at h
  simp only [Bool.not_eq_true', Bool.not_eq_false, isPositive_toRat] at h0
  obtain ⟨a', k, hf, _⟩ := loopX_inv (P := fun _ a => a.recv.toRat ≤ dx.toRat)
    (fun hP hg => by rw [(goalX_ok hg).2.1]; exact hP) (fun _ _ hs => within_stepX hs)
    (by simp [acc0, zero_toRat, h0.le]) h
  obtain ⟨_, e1, e2, e3, e4, e5, e6, e7, _⟩ := finishX_ok hf
  exact ⟨e5, e1 ▸ k, e6, e7⟩

/-- C35 for a sale of Y. -/
theorem C35_from_y {fl : FloatEnv} {p p' : Pool} {dy o : Decimal} {r : SwapOutput}
    (h : p.executeSwapFromY fl dy o = .ok (p', r)) :
    0 ≤ r.recv.toRat ∧ r.recv.toRat ≤ dy.toRat ∧ r.send.toRat ≤ 0 ∧
    (r.recv.toRat = 0 ↔ r.send.toRat = 0) := by
  unfold executeSwapFromY at h
  rw [ite_ok] at h
  rcases h with ⟨_, h⟩ | ⟨h0, h⟩
  · simp [rpanic] at h
  simp only [Bool.not_eq_true', Bool.not_eq_false, isPositive_toRat] at h0
  obtain ⟨a', k, hf, _⟩ := loopY_inv (P := fun _ a => a.recv.toRat ≤ dy.toRat)
    (fun hP hg => by rw [(goalY_ok hg).2.1]; exact hP) (fun _ _ hs => within_stepY hs)
    (by simp [acc0, zero_toRat, h0.le]) h
  obtain ⟨_, e1, e2, e3, e4, e5, e6, e7, _⟩ := finishY_ok hf
  exact ⟨e5, e1 ▸ k, e6, e7⟩

/-! ### C46: direction of the price within a step -/

/-- C46 for a sale of X within a range: the price falls or stays, and not below the goal's price. -/
theorem C46_from_x {fl : FloatEnv} {p : Pool} {startRp : Decimal} {goal : Nat} {liq dx o : Decimal}
    {r : SwapWithinResult} (h : p.swapWithinX fl startRp goal liq dx o = .ok r) :
    ∃ g, tickToRp goal = .ok g ∧ g.toRat ≤ r.endRp.toRat ∧ r.endRp.toRat ≤ startRp.toRat := by
  obtain ⟨_, _, _, h1, _⟩ := swapWithinX_ok h
  obtain ⟨g, ff, m, d, h2, h3, _, _, _, _, ⟨_, _, _, _, e, _⟩ | ⟨_, _, _, _, _, _, _, h4, h5⟩⟩ := fillX_ok h1
  · exact ⟨g, h2, by rw [e], by rw [e]; exact (gt_le h3).2.2 rfl⟩
  · exact ⟨g, h2, (lt_le h5).2.2 rfl, (gt_le h4).2.2 rfl⟩

/-- C46 for a sale of Y within a range: the price rises or stays, and not above the goal's price. -/
theorem C46_from_y {fl : FloatEnv} {p : Pool} {startRp : Decimal} {goal : Nat} {liq dy o : Decimal}
    {r : SwapWithinResult} (h : p.swapWithinY fl startRp goal liq dy o = .ok r) :
    ∃ g, tickToRp goal = .ok g ∧ startRp.toRat ≤ r.endRp.toRat ∧ r.endRp.toRat ≤ g.toRat := by
  obtain ⟨_, _, _, h1, _⟩ := swapWithinY_ok h
  obtain ⟨g, ff, m, d, h2, h3, _, _, _, _, ⟨_, _, _, _, e, _⟩ | ⟨_, _, _, _, _, _, _, h4, h5⟩⟩ := fillY_ok h1
  · exact ⟨g, h2, by rw [e]; exact (lt_le h3).2.2 rfl, by rw [e]⟩
  · exact ⟨g, h2, (lt_le h4).2.2 rfl, (gt_le h5).2.2 rfl⟩

/-- Steps of both kinds exist: one stops inside the range with a lower price, one reaches the goal. -/
example : (∃ r, pool.swapWithinX fl pool.gs.rp 15 pool.gs.liq (D 1) zero = .ok r ∧ r.cross = false ∧
      r.endRp.value < pool.gs.rp.value) ∧
    (∃ r, pool.swapWithinX fl pool.gs.rp 15 pool.gs.liq (D 17) zero = .ok r ∧ r.cross = true) ∧
    (∃ r, pool.swapWithinY fl pool.gs.rp 25 pool.gs.liq (D 1) zero = .ok r ∧ r.cross = false) :=
  ⟨⟨get (pool.swapWithinX fl pool.gs.rp 15 pool.gs.liq (D 1) zero), by decide +kernel⟩,
    ⟨get (pool.swapWithinX fl pool.gs.rp 15 pool.gs.liq (D 17) zero), by decide +kernel⟩,
    ⟨get (pool.swapWithinY fl pool.gs.rp 25 pool.gs.liq (D 1) zero), by decide +kernel⟩⟩

/-! ### C47: the fee -/

theorem fee_of_fill {dx ff m f rate : Decimal} (hd : dx.Amount 12)
    (h1 : rate.toRat ≤ 1) (hf : PoolMath.one.sub rate = .ok ff)
    (hm : dx.mul ff = .ok m) (hs : dx.sub m = .ok f) :
    m.toRat = floorAt 12 (dx.toRat * (1 - rate.toRat)) ∧ f.toRat = dx.toRat - m.toRat ∧
      rate.toRat * dx.toRat ≤ f.toRat := by
  have one : PoolMath.one.toRat = 1 := by
    have : PoolMath.one = ⟨10 ^ 12, 12, false⟩ := by decide
    rw [this, toRat_mk]; norm_num
  have e := sub_toRat hf
  rw [one] at e
  have hffs : ff.negative = false := by
    obtain ⟨_, _, _, _, e5⟩ := sub_ok.1 hf
    by_cases hz : ff.value = 0
    · rw [e5 hz]; rfl
    · cases hn : ff.negative
      · rfl
      · have := isNegative_toRat.1 (isNegative_iff.2 ⟨hn, hz⟩)
        linarith
  have hmm := (mul_toRat hm hd.2 hffs).2.2
  rw [hd.1, e] at hmm
  have hsub := sub_toRat hs
  refine ⟨hmm, hsub, ?_⟩
  have hn : 0 ≤ dx.toRat * (1 - rate.toRat) := mul_nonneg hd.nonneg (by linarith)
  have := floorAt_le (s := 12) hn
  rw [hsub, hmm]
  linarith

/-- C47 for a sale of X: a step that is filled inside the range takes the whole offer, of which the
offer times (1 - rate), rounded down to twelve places, is exchanged and the rest is the fee; the fee is
at least the rate times the offer. -/
theorem C47_from_x {fl : FloatEnv} {p : Pool} {startRp : Decimal} {goal : Nat} {liq dx o : Decimal}
    {r : SwapWithinResult} (hd : dx.Amount 12) (h1 : p.feeRate.toRat ≤ 1)
    (h : p.swapWithinX fl startRp goal liq dx o = .ok r) (hc : r.cross = false) :
    r.recv.toRat + r.recvFee.toRat = dx.toRat ∧
    r.recv.toRat = floorAt 12 (dx.toRat * (1 - p.feeRate.toRat)) ∧
    p.feeRate.toRat * dx.toRat ≤ r.recvFee.toRat := by
  obtain ⟨_, _, _, h2, _⟩ := swapWithinX_ok h
  obtain ⟨g, ff, m, d, _, _, hf, hm, _, _, ⟨_, e, _⟩ | ⟨_, _, e, hs, _⟩⟩ := fillX_ok h2
  · rw [hc] at e; cases e
  · obtain ⟨k1, k2, k3⟩ := fee_of_fill hd h1 hf hm hs
    rw [e]
    exact ⟨by linarith, k1, k3⟩

/-- C47 for a sale of Y. -/
theorem C47_from_y {fl : FloatEnv} {p : Pool} {startRp : Decimal} {goal : Nat} {liq dy o : Decimal}
    {r : SwapWithinResult} (hd : dy.Amount 12) (h1 : p.feeRate.toRat ≤ 1)
    (h : p.swapWithinY fl startRp goal liq dy o = .ok r) (hc : r.cross = false) :
    r.recv.toRat + r.recvFee.toRat = dy.toRat ∧
    r.recv.toRat = floorAt 12 (dy.toRat * (1 - p.feeRate.toRat)) ∧
    p.feeRate.toRat * dy.toRat ≤ r.recvFee.toRat := by
  obtain ⟨_, _, _, h2, _⟩ := swapWithinY_ok h
  obtain ⟨g, ff, m, d, _, _, hf, hm, _, _, ⟨_, e, _⟩ | ⟨_, _, e, hs, _⟩⟩ := fillY_ok h2
  · rw [hc] at e; cases e
  · obtain ⟨k1, k2, k3⟩ := fee_of_fill hd h1 hf hm hs
    rw [e]
    exact ⟨by linarith, k1, k3⟩

/-! ### C37: termination -/

theorem countP_lt {l : List Nat} {P Q : Nat → Bool} (hQ : ∀ k, Q k = true → P k = true) {g : Nat} (hg : g ∈ l)
    (hP : P g = true) (hn : Q g = false) : l.countP Q < l.countP P := by
  induction l with
  | nil => cases hg
  | cons k l ih =>
    have hle : l.countP Q ≤ l.countP P := List.countP_mono_left fun k _ h => hQ k h
    rw [List.countP_cons, List.countP_cons]
    rcases List.mem_cons.1 hg with rfl | hg
    · rw [hP, hn]; simp; omega
    · have := ih hg
      have hk := hQ k
      cases h1 : Q k
      · simp; omega
      · rw [hk h1]; simp; omega

/-- A step that stays inside its range uses up the offer. -/
theorem filledX {fl : FloatEnv} {dx o : Decimal} (hdx : dx.isPositive = true) {p p' : Pool} {a a' : SwapAcc} {g : Nat}
    (hs : stepX fl dx o p a g = .ok (p', a')) :
    (g ∈ p.ticks.map (·.1) → p'.gs.tick < g) ∨ a'.recv.lt dx = .ok false := by
  obtain ⟨rem, r, ysum, newY, c1, chk, rs, newX, xFee, yAdj, fees, p1, h1, h2, _, _, _, h6, h7, h8, h9, h10,
    _, _, _, _, _, _, _, _, _, hp1, h18⟩ := stepX_ok hs
  rcases h18 with ⟨_, _, _, hc⟩ | ⟨_, _, hn, _⟩ | ⟨hc, _⟩
  · exact .inl fun _ => cross_left_tick hc
  · exact .inl fun h => absurd h hn
  · right
    obtain ⟨_, _, _, h3, _⟩ := swapWithinX_ok h2
    obtain ⟨_, _, m, _, _, _, _, _, _, _, ⟨_, e, _⟩ | ⟨_, _, e, hf, _⟩⟩ := fillX_ok h3
    · rw [hc] at e; cases e
    · have he : a'.recv.toRat = dx.toRat := by
        rw [add_toRat h10, add_toRat h9, sub_toRat hf, e, sub_toRat h1]; ring
      obtain ⟨e1, e2⟩ := isPositive_iff.1 hdx
      have hsc : a'.recv.scale = dx.scale := by
        rw [(add_ok.1 h10).2.2.1, (add_ok.1 h9).2.2.1]; exact (sub_ok.1 h1).1.symm
      have hp : 0 < a'.recv.toRat := he ▸ isPositive_toRat.1 hdx
      have : a'.recv = dx := Amount.ext (Amount.of_scale hsc hp) ⟨rfl, e1⟩ he
      rw [this]
      unfold Decimal.lt
      simp [e1]

theorem filledY {fl : FloatEnv} {dy o : Decimal} (hdy : dy.isPositive = true) {p p' : Pool} {a a' : SwapAcc} {g : Nat}
    (hs : stepY fl dy o p a g = .ok (p', a')) :
    (g ∈ p.ticks.map (·.1) → p'.gs.tick = g) ∨ a'.recv.lt dy = .ok false := by
  obtain ⟨rem, r, xsum, newX, c1, chk, rs, newY, yFee, xAdj, fees, p1, h1, h2, _, _, _, h6, h7, h8, h9, h10,
    _, _, _, _, _, _, _, _, _, hp1, h18⟩ := stepY_ok hs
  rcases h18 with ⟨_, _, _, hc⟩ | ⟨_, _, hn, _⟩ | ⟨hc, _⟩
  · exact .inl fun _ => cross_right_tick hc
  · exact .inl fun h => absurd h hn
  · right
    obtain ⟨_, _, _, h3, _⟩ := swapWithinY_ok h2
    obtain ⟨_, _, m, _, _, _, _, _, _, _, ⟨_, e, _⟩ | ⟨_, _, e, hf, _⟩⟩ := fillY_ok h3
    · rw [hc] at e; cases e
    · have he : a'.recv.toRat = dy.toRat := by
        rw [add_toRat h10, add_toRat h9, sub_toRat hf, e, sub_toRat h1]; ring
      obtain ⟨e1, e2⟩ := isPositive_iff.1 hdy
      have hsc : a'.recv.scale = dy.scale := by
        rw [(add_ok.1 h10).2.2.1, (add_ok.1 h9).2.2.1]; exact (sub_ok.1 h1).1.symm
      have hp : 0 < a'.recv.toRat := he ▸ isPositive_toRat.1 hdy
      have : a'.recv = dy := Amount.ext (Amount.of_scale hsc hp) ⟨rfl, e1⟩ he
      rw [this]
      unfold Decimal.lt
      simp [e1]

/-- A step keeps the set of initialised ticks. -/
theorem keys_stepX {fl : FloatEnv} {dx o : Decimal} {p p' : Pool} {a a' : SwapAcc} {g : Nat}
    (hs : stepX fl dx o p a g = .ok (p', a')) : p'.ticks.map (·.1) = p.ticks.map (·.1) := by
  obtain ⟨rem, r, ysum, newY, c1, chk, rs, newX, xFee, yAdj, fees, p1, h1, h2, _, _, _, h6, h7, h8, h9, h10,
    _, _, _, _, _, _, _, _, _, hp1, h18⟩ := stepX_ok hs
  rcases h18 with ⟨_, _, _, hc⟩ | ⟨_, _, _, rfl⟩ | ⟨_, rfl⟩
  · rw [(crossTick_frame hc).2.2.2.2.2.2.2.2.2.2.1, hp1]
  · rw [hp1]
  · rw [hp1]

theorem keys_stepY {fl : FloatEnv} {dy o : Decimal} {p p' : Pool} {a a' : SwapAcc} {g : Nat}
    (hs : stepY fl dy o p a g = .ok (p', a')) : p'.ticks.map (·.1) = p.ticks.map (·.1) := by
  obtain ⟨rem, r, ysum, newY, c1, chk, rs, newX, xFee, yAdj, fees, p1, h1, h2, _, _, _, h6, h7, h8, h9, h10,
    _, _, _, _, _, _, _, _, _, hp1, h18⟩ := stepY_ok hs
  rcases h18 with ⟨_, _, _, hc⟩ | ⟨_, _, _, rfl⟩ | ⟨_, rfl⟩
  · rw [(crossTick_frame hc).2.2.2.2.2.2.2.2.2.2.1, hp1]
  · rw [hp1]
  · rw [hp1]

/-- From a state with `k` initialised ticks at or below the current one, a sale of X ends after at
most `k + 1` steps, and the bounded loop agrees with it. -/
theorem runs_x {fl : FloatEnv} {dx o : Decimal} (hdx : dx.isPositive = true) (k : Nat) :
    ∀ {p : Pool} {a : SwapAcc}, (p.ticks.map (·.1)).countP (fun t => decide (t ≤ p.gs.tick)) ≤ k →
      ∃ j res, j ≤ k + 1 ∧ RunX fl dx o p a j res ∧ ∀ n, k + 2 ≤ n → loopX fl dx o n p a = res := by
  induction k using Nat.strong_induction_on with
  | _ k ih =>
    intro p a hk
    have unfold1 : ∀ n, k + 2 ≤ n → ∃ m, n = m + 1 ∧ k + 1 ≤ m := fun n hn => ⟨n - 1, by omega, by omega⟩
    cases ht : unwrap (a.recv.lt dx) with
    | error e =>
      refine ⟨0, .error e, by omega, .failTest ht, fun n hn => ?_⟩
      obtain ⟨m, rfl, hm⟩ := unfold1 n hn
      rw [loopX_succ, ht]; rfl
    | ok t =>
      cases t with
      | false =>
        refine ⟨0, _, by omega, .done ht, fun n hn => ?_⟩
        obtain ⟨m, rfl, hm⟩ := unfold1 n hn
        rw [loopX_succ, ht]; rfl
      | true =>
        cases hg : goalX p a with
        | error e =>
          refine ⟨0, _, by omega, .failGoal ht hg, fun n hn => ?_⟩
          obtain ⟨m, rfl, hm⟩ := unfold1 n hn
          rw [loopX_succ, ht, bind_eq, if_pos rfl, hg]; rfl
        | ok q =>
          obtain ⟨p1, g, a1⟩ := q
          cases g with
          | none =>
            refine ⟨0, _, by omega, .exhausted ht hg, fun n hn => ?_⟩
            obtain ⟨m, rfl, hm⟩ := unfold1 n hn
            rw [loopX_succ, ht, bind_eq, if_pos rfl, hg]; rfl
          | some g =>
            cases hs : stepX fl dx o p1 a1 g with
            | error e =>
              refine ⟨1, _, by omega, .failStep ht hg hs, fun n hn => ?_⟩
              obtain ⟨m, rfl, hm⟩ := unfold1 n hn
              rw [loopX_succ, ht, bind_eq, if_pos rfl, hg, bind_eq]
              unfold afterGoalX
              simp only
              rw [hs]; rfl
            | ok q =>
              obtain ⟨p2, a2⟩ := q
              have hloop : ∀ m, loopX fl dx o (m + 1) p a = loopX fl dx o m p2 a2 := by
                intro m
                rw [loopX_succ, ht, bind_eq, if_pos rfl, hg, bind_eq]
                unfold afterGoalX
                simp only
                rw [hs]; rfl
              obtain ⟨b, _, htk, hgo, _⟩ := goalX_ok hg
              obtain ⟨m1, m2⟩ := hgo g rfl
              rcases filledX hdx hs with hc | hc
              · have hc := hc (b.keys ▸ m1)
                have hlt : (p2.ticks.map (·.1)).countP (fun t => decide (t ≤ p2.gs.tick)) <
                    (p.ticks.map (·.1)).countP (fun t => decide (t ≤ p.gs.tick)) := by
                  rw [keys_stepX hs, b.keys]
                  refine countP_lt (g := g) (fun t h => ?_) m1 ?_ ?_ <;>
                    simp only [decide_eq_true_eq, decide_eq_false_iff_not] at * <;> omega
                obtain ⟨j, res, i1, i2, i3⟩ := ih (k - 1) (by omega) (p := p2) (a := a2) (by omega)
                refine ⟨j + 1, res, by omega, .step ht hg hs i2, fun n hn => ?_⟩
                obtain ⟨m, rfl, hm⟩ := unfold1 n hn
                rw [hloop, i3 m (by omega)]
              · refine ⟨1, _, by omega, .step ht hg hs (.done (unwrap_ok.2 hc)), fun n hn => ?_⟩
                obtain ⟨m, rfl, hm⟩ := unfold1 n hn
                obtain ⟨m', rfl⟩ : ∃ m', m = m' + 1 := ⟨m - 1, by omega⟩
                rw [hloop, loopX_succ, unwrap_ok.2 hc]; rfl

/-- From a state with `k` initialised ticks above the current one, a sale of Y ends after at
most `k + 1` steps, and the bounded loop agrees with it. -/
theorem runs_y {fl : FloatEnv} {dy o : Decimal} (hdy : dy.isPositive = true) (k : Nat) :
    ∀ {p : Pool} {a : SwapAcc}, (p.ticks.map (·.1)).countP (fun t => decide (p.gs.tick < t)) ≤ k →
      ∃ j res, j ≤ k + 1 ∧ RunY fl dy o p a j res ∧ ∀ n, k + 2 ≤ n → loopY fl dy o n p a = res := by
  induction k using Nat.strong_induction_on with
  | _ k ih =>
    intro p a hk
    have unfold1 : ∀ n, k + 2 ≤ n → ∃ m, n = m + 1 ∧ k + 1 ≤ m := fun n hn => ⟨n - 1, by omega, by omega⟩
    cases ht : unwrap (a.recv.lt dy) with
    | error e =>
      refine ⟨0, .error e, by omega, .failTest ht, fun n hn => ?_⟩
      obtain ⟨m, rfl, hm⟩ := unfold1 n hn
      rw [loopY_succ, ht]; rfl
    | ok t =>
      cases t with
      | false =>
        refine ⟨0, _, by omega, .done ht, fun n hn => ?_⟩
        obtain ⟨m, rfl, hm⟩ := unfold1 n hn
        rw [loopY_succ, ht]; rfl
      | true =>
        cases hg : goalY p a with
        | error e =>
          refine ⟨0, _, by omega, .failGoal ht hg, fun n hn => ?_⟩
          obtain ⟨m, rfl, hm⟩ := unfold1 n hn
          rw [loopY_succ, ht, bind_eq, if_pos rfl, hg]; rfl
        | ok q =>
          obtain ⟨p1, g, a1⟩ := q
          cases g with
          | none =>
            refine ⟨0, _, by omega, .exhausted ht hg, fun n hn => ?_⟩
            obtain ⟨m, rfl, hm⟩ := unfold1 n hn
            rw [loopY_succ, ht, bind_eq, if_pos rfl, hg]; rfl
          | some g =>
            cases hs : stepY fl dy o p1 a1 g with
            | error e =>
              refine ⟨1, _, by omega, .failStep ht hg hs, fun n hn => ?_⟩
              obtain ⟨m, rfl, hm⟩ := unfold1 n hn
              rw [loopY_succ, ht, bind_eq, if_pos rfl, hg, bind_eq]
              unfold afterGoalY
              simp only
              rw [hs]; rfl
            | ok q =>
              obtain ⟨p2, a2⟩ := q
              have hloop : ∀ m, loopY fl dy o (m + 1) p a = loopY fl dy o m p2 a2 := by
                intro m
                rw [loopY_succ, ht, bind_eq, if_pos rfl, hg, bind_eq]
                unfold afterGoalY
                simp only
                rw [hs]; rfl
              obtain ⟨b, _, htk, hgo, _⟩ := goalY_ok hg
              obtain ⟨m1, m2⟩ := hgo g rfl
              rcases filledY hdy hs with hc | hc
              · have hc := hc (b.keys ▸ m1)
                have hlt : (p2.ticks.map (·.1)).countP (fun t => decide (p2.gs.tick < t)) <
                    (p.ticks.map (·.1)).countP (fun t => decide (p.gs.tick < t)) := by
                  rw [keys_stepY hs, b.keys]
                  refine countP_lt (g := g) (fun t h => ?_) m1 ?_ ?_ <;>
                    simp only [decide_eq_true_eq, decide_eq_false_iff_not] at * <;> omega
                obtain ⟨j, res, i1, i2, i3⟩ := ih (k - 1) (by omega) (p := p2) (a := a2) (by omega)
                refine ⟨j + 1, res, by omega, .step ht hg hs i2, fun n hn => ?_⟩
                obtain ⟨m, rfl, hm⟩ := unfold1 n hn
                rw [hloop, i3 m (by omega)]
              · refine ⟨1, _, by omega, .step ht hg hs (.done (unwrap_ok.2 hc)), fun n hn => ?_⟩
                obtain ⟨m, rfl, hm⟩ := unfold1 n hn
                obtain ⟨m', rfl⟩ : ∃ m', m = m' + 1 := ⟨m - 1, by omega⟩
                rw [hloop, loopY_succ, unwrap_ok.2 hc]; rfl

/-- C37 for a sale of X: in every pool state, for every positive amount, the loop of the source ends,
after at most one step per initialised tick plus one, and its outcome is the one of the model (whose
bound on the number of rounds therefore never shows). -/
theorem C37_from_x {fl : FloatEnv} {p : Pool} {dx o : Decimal} (hdx : dx.isPositive = true) :
    ∃ k, k ≤ p.ticks.length + 1 ∧ RunX fl dx o p p.acc0 k (p.executeSwapFromX fl dx o) := by
  have hle : (p.ticks.map (·.1)).countP (fun t => decide (t ≤ p.gs.tick)) ≤ p.ticks.length := by
    refine le_trans List.countP_le_length ?_
    rw [List.length_map]
  obtain ⟨j, res, h1, h2, h3⟩ := runs_x (fl := fl) (o := o) hdx p.ticks.length (a := p.acc0) hle
  refine ⟨j, h1, ?_⟩
  unfold executeSwapFromX
  rw [hdx]
  have := h3 p.swapFuel (by unfold swapFuel; omega)
  simp only [Bool.not_true, Bool.false_eq_true, if_false]
  rw [this]
  exact h2

/-- C37 for a sale of Y: in every pool state, for every positive amount, the loop of the source ends,
after at most one step per initialised tick plus one, and its outcome is the one of the model (whose
bound on the number of rounds therefore never shows). -/
theorem C37_from_y {fl : FloatEnv} {p : Pool} {dy o : Decimal} (hdy : dy.isPositive = true) :
    ∃ k, k ≤ p.ticks.length + 1 ∧ RunY fl dy o p p.acc0 k (p.executeSwapFromY fl dy o) := by
  have hle : (p.ticks.map (·.1)).countP (fun t => decide (p.gs.tick < t)) ≤ p.ticks.length := by
    refine le_trans List.countP_le_length ?_
    rw [List.length_map]
  obtain ⟨j, res, h1, h2, h3⟩ := runs_y (fl := fl) (o := o) hdy p.ticks.length (a := p.acc0) hle
  refine ⟨j, h1, ?_⟩
  unfold executeSwapFromY
  rw [hdy]
  have := h3 p.swapFuel (by unfold swapFuel; omega)
  simp only [Bool.not_true, Bool.false_eq_true, if_false]
  rw [this]
  exact h2

/-- The outcome of the relation is unique, so "ends with this outcome" is meaningful. -/
theorem C37_unique_x {fl : FloatEnv} {dx o : Decimal} {p : Pool} {a : SwapAcc} {k : Nat} {res : R (Pool × SwapOutput)}
    (h : RunX fl dx o p a k res) : ∀ {k' res'}, RunX fl dx o p a k' res' → k' = k ∧ res' = res := by
  induction h with
  | failTest h => intro k' r' h'; cases h' <;> simp_all
  | done h => intro k' r' h'; cases h' <;> simp_all
  | failGoal h h1 => intro k' r' h'; cases h' <;> simp_all
  | exhausted h h1 => intro k' r' h'; cases h' <;> simp_all
  | failStep h h1 h2 =>
    intro k' r' h'
    cases h' with
    | failTest g => simp_all
    | done g => simp_all
    | failGoal g g1 => simp_all
    | exhausted g g1 => rw [h1] at g1; simp at g1
    | failStep g g1 g2 =>
      rw [h1] at g1; simp only [ok_inj, Prod.mk.injEq, Option.some.injEq] at g1
      obtain ⟨rfl, rfl, rfl⟩ := g1
      rw [h2] at g2; cases g2; exact ⟨rfl, rfl⟩
    | step g g1 g2 g3 =>
      rw [h1] at g1; simp only [ok_inj, Prod.mk.injEq, Option.some.injEq] at g1
      obtain ⟨rfl, rfl, rfl⟩ := g1
      rw [h2] at g2; cases g2
  | step h h1 h2 h3 ih =>
    intro k' r' h'
    cases h' with
    | failTest g => simp_all
    | done g => simp_all
    | failGoal g g1 => simp_all
    | exhausted g g1 => rw [h1] at g1; simp at g1
    | failStep g g1 g2 =>
      rw [h1] at g1; simp only [ok_inj, Prod.mk.injEq, Option.some.injEq] at g1
      obtain ⟨rfl, rfl, rfl⟩ := g1
      rw [h2] at g2; cases g2
    | step g g1 g2 g3 =>
      rw [h1] at g1; simp only [ok_inj, Prod.mk.injEq, Option.some.injEq] at g1
      obtain ⟨rfl, rfl, rfl⟩ := g1
      rw [h2] at g2; simp only [ok_inj, Prod.mk.injEq] at g2
      obtain ⟨rfl, rfl⟩ := g2
      obtain ⟨e1, e2⟩ := ih g3
      exact ⟨by rw [e1], e2⟩

/-- The same for a sale of Y. -/
theorem C37_unique_y {fl : FloatEnv} {dx o : Decimal} {p : Pool} {a : SwapAcc} {k : Nat} {res : R (Pool × SwapOutput)}
    (h : RunY fl dx o p a k res) : ∀ {k' res'}, RunY fl dx o p a k' res' → k' = k ∧ res' = res := by
  induction h with
  | failTest h => intro k' r' h'; cases h' <;> simp_all
  | done h => intro k' r' h'; cases h' <;> simp_all
  | failGoal h h1 => intro k' r' h'; cases h' <;> simp_all
  | exhausted h h1 => intro k' r' h'; cases h' <;> simp_all
  | failStep h h1 h2 =>
    intro k' r' h'
    cases h' with
    | failTest g => simp_all
    | done g => simp_all
    | failGoal g g1 => simp_all
    | exhausted g g1 => rw [h1] at g1; simp at g1
    | failStep g g1 g2 =>
      rw [h1] at g1; simp only [ok_inj, Prod.mk.injEq, Option.some.injEq] at g1
      obtain ⟨rfl, rfl, rfl⟩ := g1
      rw [h2] at g2; cases g2; exact ⟨rfl, rfl⟩
    | step g g1 g2 g3 =>
      rw [h1] at g1; simp only [ok_inj, Prod.mk.injEq, Option.some.injEq] at g1
      obtain ⟨rfl, rfl, rfl⟩ := g1
      rw [h2] at g2; cases g2
  | step h h1 h2 h3 ih =>
    intro k' r' h'
    cases h' with
    | failTest g => simp_all
    | done g => simp_all
    | failGoal g g1 => simp_all
    | exhausted g g1 => rw [h1] at g1; simp at g1
    | failStep g g1 g2 =>
      rw [h1] at g1; simp only [ok_inj, Prod.mk.injEq, Option.some.injEq] at g1
      obtain ⟨rfl, rfl, rfl⟩ := g1
      rw [h2] at g2; cases g2
    | step g g1 g2 g3 =>
      rw [h1] at g1; simp only [ok_inj, Prod.mk.injEq, Option.some.injEq] at g1
      obtain ⟨rfl, rfl, rfl⟩ := g1
      rw [h2] at g2; simp only [ok_inj, Prod.mk.injEq] at g2
      obtain ⟨rfl, rfl⟩ := g2
      obtain ⟨e1, e2⟩ := ih g3
      exact ⟨by rw [e1], e2⟩

/-- A sale that crosses one tick and stops in the next range takes two steps; the bound is five. -/
example : (D 17).isPositive = true ∧ pool.ticks.length + 1 = 5 := by decide +kernel

end Hmm.Pool
