import Verif.Proofs.Ledger
import Verif.Tests.Sample

/-
Properties of whole histories of the in-memory pool: C36, C38; and of single deposits, withdrawals and
tick crossings: C40, C41, C48.
-/

namespace Hmm.Pool

open Decimal PoolMath Sample

/-! ### A non-trivial history -/

/-- Owner 2 withdraws part of a position, after trades in both directions with crossings. -/
def sample2 : R Pool := do
  let p ← Sample.two ⟨3000000000, 12, false⟩
  let (p, _) ← p.executeSwapFromX fl (D 17) PoolMath.zero
  let (p, _) ← p.executeSwapFromY fl (D 20) PoolMath.zero
  let (p, _) ← p.withdraw 2 (D 100) (mid 15) (mid 25)
  return p

theorem two_reachable {f : Decimal} {p : Pool} (h : Sample.two f = .ok p) : Reachable p := by
  unfold Sample.two at h
  rw [bind_ok] at h; obtain ⟨p0, h0, h⟩ := h
  rw [bind_ok] at h; obtain ⟨⟨p1, _⟩, h1, h⟩ := h
  rw [bind_ok] at h; obtain ⟨⟨p2, _⟩, h2, h⟩ := h
  cases h
  exact .step (.step (.new h0) (.deposit h1)) (.deposit h2)

theorem sample2_reachable {p : Pool} (h : sample2 = .ok p) : Reachable p := by
  unfold sample2 at h
  rw [bind_ok] at h; obtain ⟨p0, h0, h⟩ := h
  rw [bind_ok] at h; obtain ⟨⟨p1, _⟩, h1, h⟩ := h
  rw [bind_ok] at h; obtain ⟨⟨p2, _⟩, h2, h⟩ := h
  rw [bind_ok] at h; obtain ⟨⟨p3, _⟩, h3, h⟩ := h
  cases h
  exact .step (.step (.step (two_reachable h0) (.sellX h1)) (.sellY h2)) (.withdraw h3)

/-- That history completes, and leaves fees in both pots. -/
theorem sample2_ok : ∃ p, sample2 = .ok p ∧ p.xFee.value ≠ 0 ∧ p.yFee.value ≠ 0 :=
  ⟨get sample2, by decide +kernel, by decide +kernel, by decide +kernel⟩

/-! ### C36 -/

/-- C36: in every reachable state all reserves, fee pots and adjustment pots are non-negative. -/
theorem C36_funds {p : Pool} (h : Reachable p) :
    0 ≤ p.x.toRat ∧ 0 ≤ p.y.toRat ∧ 0 ≤ p.xFee.toRat ∧ 0 ≤ p.yFee.toRat ∧ 0 ≤ p.xAdj.toRat ∧
    0 ≤ p.yAdj.toRat :=
  let k := Funds.reachable h
  ⟨k.x, k.y, k.xFee, k.yFee, k.xAdj, k.yAdj⟩

example : ∃ p, Reachable p ∧ p.xFee.value ≠ 0 ∧ p.yFee.value ≠ 0 :=
  let ⟨p, h, k⟩ := sample2_ok
  ⟨p, sample2_reachable h, k⟩

/-! ### C38 -/

/-- C38: in every reachable state a tick has a record exactly when positions with liquidity begin or
end there, and then the record shows their total (gross) and their difference (net). -/
theorem C38_ticks {p : Pool} (h : Reachable p) (t : Nat) :
    (mapGet t p.ticks = none ∧ p.startingAt t = 0 ∧ p.endingAt t = 0) ∨
    (∃ ts, mapGet t p.ticks = some ts ∧ ts.liqGross.toRat = p.startingAt t + p.endingAt t ∧
      ts.liqNet.toRat = p.startingAt t - p.endingAt t ∧ 0 < ts.liqGross.toRat) := by
  have k := Booked.reachable h
  have hs : 0 ≤ p.startingAt t :=
    sumPos_nonneg (by intro k; split <;> simp) k.unique (fun q s hs => (k.pos q s hs).1)
  have he : 0 ≤ p.endingAt t :=
    sumPos_nonneg (by intro k; split <;> simp) k.unique (fun q s hs => (k.pos q s hs).1)
  have hg := k.gross t
  have hn := k.net t
  unfold grossAt at hg
  unfold netAt at hn
  cases hm : mapGet t p.ticks with
  | none =>
    rw [hm] at hg
    simp only [Option.elim] at hg
    exact .inl ⟨rfl, by linarith, by linarith⟩
  | some ts =>
    rw [hm] at hg hn
    exact .inr ⟨ts, rfl, hg, hn, k.init t ts hm⟩

/-- C38, the maps behind it: in every reachable state the tick map is in strictly ascending order, each
position has one entry, non-negative liquidity and a non-empty range on the tick grid. -/
theorem C38_maps {p : Pool} (h : Reachable p) :
    (p.ticks.map (·.1)).Pairwise (· < ·) ∧ (p.positions.map (·.1)).Nodup ∧
    ∀ k s, (k, s) ∈ p.positions → 0 ≤ s.liq.toRat ∧ k.lower < k.upper ∧ p.spacing ∣ k.lower ∧
      p.spacing ∣ k.upper :=
  let k := Booked.reachable h
  ⟨k.asc, k.unique, fun q s hs => k.pos q s (get_of_mem k.unique hs)⟩

/-- The tick at 15 of the sample history carries what owner 2 has left. -/
example : ∃ p, Reachable p ∧ (mapGet 15 p.ticks).isSome = true ∧ p.ticks.length = 4 :=
  ⟨get sample2, sample2_reachable (by decide +kernel), by decide +kernel, by decide +kernel⟩

/-! ### C40, C41 -/

/-- C40: a deposit changes at most the position of that owner and some one range `[lower, upper)`: the
one whose bounds are the given prices rounded down to the tick grid. -/
theorem C40_deposit {p p' : Pool} {user : Nat} {x y rpa rpb : Decimal} {r : Receipt}
    (h : p.deposit user x y rpa rpb = .ok (p', r)) :
    ∃ lower upper, p.rpToPossibleTick rpa false 0 = .ok lower ∧
      p.rpToPossibleTick rpb false lower = .ok upper ∧
      ∀ k, k ≠ ⟨user, lower, upper⟩ → mapGet k p'.positions = mapGet k p.positions := by
  obtain ⟨lower, upper, a, b, liq, p1, p2, px, py, _, _, _, _, g1, g2, g3, _, _, _, _, _, _, _, _, h1, _, _, h2, h3,
    h4, rfl⟩ := deposit_ok h
  obtain ⟨e1, _⟩ := payFees_frame h4
  obtain ⟨nf, old, base, h0⟩ := setPosition_map h1
  refine ⟨lower, upper, g1, g2, fun k hk => ?_⟩
  simp only [e1]
  exact setPositionMap_other h0 hk

/-- C40: the same for a withdrawal. -/
theorem C40_withdraw {p p' : Pool} {user : Nat} {liq rpa rpb : Decimal} {r : Receipt}
    (h : p.withdraw user liq rpa rpb = .ok (p', r)) :
    ∃ lower upper, p.rpToPossibleTick rpa false 0 = .ok lower ∧
      p.rpToPossibleTick rpb false lower = .ok upper ∧
      ∀ k, k ≠ ⟨user, lower, upper⟩ → mapGet k p'.positions = mapGet k p.positions := by
  obtain ⟨lower, upper, a, b, p1, p2, x0, y0, adj, px, py, _, g1, g2, g3, _, _, h1, _, _, _, _, _, _, _, _, _, _, _,
    h5, rfl⟩ := withdraw_ok h
  obtain ⟨e1, _⟩ := payFees_frame h5
  obtain ⟨nf, old, base, h0⟩ := setPosition_map h1
  refine ⟨lower, upper, g1, g2, fun k hk => ?_⟩
  simp only [e1]
  exact setPositionMap_other h0 hk

/-- C41: a withdrawal that succeeds asks for no more than the position holds, and takes exactly that
off it. -/
theorem C41_withdraw {p p' : Pool} {user : Nat} {liq rpa rpb : Decimal} {r : Receipt}
    (h : p.withdraw user liq rpa rpb = .ok (p', r)) :
    ∃ lower upper, p.rpToPossibleTick rpa false 0 = .ok lower ∧
      p.rpToPossibleTick rpb false lower = .ok upper ∧
      liq.toRat ≤ liqOf p.positions ⟨user, lower, upper⟩ ∧
      liqOf p'.positions ⟨user, lower, upper⟩ = liqOf p.positions ⟨user, lower, upper⟩ - liq.toRat := by
  obtain ⟨lower, upper, a, b, p1, p2, x0, y0, adj, px, py, _, g1, g2, g3, _, _, h1, _, _, _, _, _, _, _, _, _, _, _,
    h5, rfl⟩ := withdraw_ok h
  obtain ⟨e1, _⟩ := payFees_frame h5
  obtain ⟨nf, old, base, h0⟩ := setPosition_map h1
  refine ⟨lower, upper, g1, g2, ?_⟩
  simp only [e1]
  obtain ⟨k1, k2, _⟩ := setPositionMap_same h0
  rw [neg_toRat] at k1
  exact ⟨by linarith, by linarith⟩

/-- C41, the other direction: a deposit adds to the position exactly the liquidity that the pool
formula gives for the deposited amounts. -/
theorem C41_deposit {p p' : Pool} {user : Nat} {x y rpa rpb : Decimal} {r : Receipt}
    (h : p.deposit user x y rpa rpb = .ok (p', r)) :
    ∃ lower upper a b liq, p.rpToPossibleTick rpa false 0 = .ok lower ∧
      p.rpToPossibleTick rpb false lower = .ok upper ∧ tickToRp lower = .ok a ∧ tickToRp upper = .ok b ∧
      liqFromXYRpRng x y p.gs.rp a b = .ok liq ∧
      liqOf p'.positions ⟨user, lower, upper⟩ = liqOf p.positions ⟨user, lower, upper⟩ + liq.toRat := by
  obtain ⟨lower, upper, a, b, liq, p1, p2, px, py, _, _, _, _, g1, g2, g3, g4, g5, g6, _, _, _, _, _, h1, _, _, h2, h3,
    h4, rfl⟩ := deposit_ok h
  obtain ⟨e1, _⟩ := payFees_frame h4
  obtain ⟨nf, old, base, h0⟩ := setPosition_map h1
  refine ⟨lower, upper, a, b, liq, g1, g2, g4, g5, g6, ?_⟩
  simp only [e1]
  exact (setPositionMap_same h0).1

-- owner 2 can take 100 of their liquidity, but neither 3000 nor anything of owner 1's range
example : (pool.withdraw 2 (D 100) (mid 15) (mid 25)).isOk = true ∧
    pool.withdraw 2 (D 80000) (mid 15) (mid 25) = .error .panic ∧
    pool.withdraw 2 (D 100) (mid 10) (mid 30) = .error .panic := by decide +kernel

/-! ### C48 -/

/-- C48: crossing an initialised tick rightwards and, once the price is back at it, leftwards leaves
its record and the active liquidity as they were. -/
theorem C48_involution {p p1 p2 : Pool} {t : Nat} (h1 : p.crossTick t true = .ok p1)
    (h2 : p1.crossTick t false = .ok p2) :
    ∃ ts ts', mapGet t p.ticks = some ts ∧ mapGet t p2.ticks = some ts' ∧
      ts'.liqNet = ts.liqNet ∧ ts'.liqGross = ts.liqGross ∧
      ts'.fees.fx.toRat = ts.fees.fx.toRat ∧ ts'.fees.fy.toRat = ts.fees.fy.toRat ∧
      ts'.fees.hx.toRat = ts.fees.hx.toRat ∧ ts'.fees.hy.toRat = ts.fees.hy.toRat ∧
      p2.gs.liq.toRat = p.gs.liq.toRat ∧ p2.gs.fees = p.gs.fees := by
  obtain ⟨ts, fx, fy, hx, hy, nt, n, g1, _, a1, a2, a3, a4, _, _, a5, _, rfl⟩ := crossTick_ok h1
  obtain ⟨ts', fx', fy', hx', hy', nt', n', g2, _, b1, b2, b3, b4, _, _, b5, _, rfl⟩ := crossTick_ok h2
  simp only [mapGet_set_same] at g2
  cases g2
  refine ⟨ts, _, g1, mapGet_set_same _ _ _, rfl, rfl, ?_, ?_, ?_, ?_, ?_, rfl⟩
  · simp only [sub_toRat b1, sub_toRat a1]; ring
  · simp only [sub_toRat b2, sub_toRat a2]; ring
  · simp only [sub_toRat b3, sub_toRat a3]; ring
  · simp only [sub_toRat b4, sub_toRat a4]; ring
  · simp only [add_toRat b5, add_toRat a5]
    simp [neg_toRat]

/-- C48: a crossing in either direction changes the record of no other tick, and no position. -/
theorem C48_others {p p' : Pool} {t : Nat} {ltr : Bool} (h : p.crossTick t ltr = .ok p') {j : Nat}
    (hj : j ≠ t) : mapGet j p'.ticks = mapGet j p.ticks ∧ p'.positions = p.positions := by
  obtain ⟨ts, fx, fy, hx, hy, nt, n, _, _, _, _, _, _, _, _, _, _, rfl⟩ := crossTick_ok h
  exact ⟨mapGet_set_other hj _ _, rfl⟩

-- both crossings happen at tick 15 of the pool after a sale that went below it
example : ∃ p p1 p2, Reachable p ∧ p.crossTick 15 true = .ok p1 ∧ p1.crossTick 15 false = .ok p2 :=
  ⟨(get (pool.executeSwapFromX fl (D 17) PoolMath.zero)).1,
    get ((get (pool.executeSwapFromX fl (D 17) PoolMath.zero)).1.crossTick 15 true),
    get ((get ((get (pool.executeSwapFromX fl (D 17) PoolMath.zero)).1.crossTick 15 true)).crossTick 15 false),
    .step (two_reachable pool_ok.1) (.sellX (fl := fl) (dx := D 17) (o := PoolMath.zero)
      (r := (get (pool.executeSwapFromX fl (D 17) PoolMath.zero)).2) (by decide +kernel)),
    by decide +kernel, by decide +kernel⟩

end Hmm.Pool
