import Verif.Proofs.WorldCover
import Verif.Tests.WorldSample

/-
The vaults of a pool and what its positions are worth; everybody can leave.
-/

namespace Hmm.OnChain.World

open Decimal PoolMath World.Sample

/-! ### C113: the vaults cover the positions -/

/-- The full claim: the vaults of a pool always hold what its positions are worth, each in whole tokens. -/
def C113_statement : Prop := ∀ w, Reachable w → ∀ lp p, mapGet lp w.pools = some p → Covered w lp p

/-- User 2 deposits 1 X twice; each deposit is rounded down, the position is worth more. -/
theorem C113_false : ¬ C113_statement := by
  intro hc
  obtain ⟨w, h, e⟩ := holds_reachable (as := start ++ [.program (.deposit 100 (user 1 1 2 3) 10 30 20 100 100),
      .program (.deposit 100 (user 2 1 2 3) 25 30 20 1 0), .program (.deposit 100 (user 2 1 2 3) 25 30 20 1 0)])
    (p := fun w => match mapGet 100 w.pools with
      | some p => decide (¬ claimsX p ≤ w.balance (.vault p.xMint 100))
      | none => false) (by decide +kernel)
  split at e
  · next p hp => exact of_decide_eq_true e (hc w h 100 p hp).1
  · cases e

/-- Missing for the full claim: deposits into positions that have liquidity already.  Each of them puts the vaults short by
at most two X and one Y; without them the vaults cover the positions, whatever else happens. -/
theorem C113_covered_partial {lp n : Nat} {w v : World} (hr : Reachable w) {p : PoolAcc} (hp : mapGet lp w.pools = some p)
    (hc : Covered w lp p) (h : Filled lp w v n) : ∃ p', mapGet lp v.pools = some p' ∧
      claimsX p' ≤ v.balance (.vault p'.xMint lp) + 2 * n ∧ claimsY p' ≤ v.balance (.vault p'.yMint lp) + n ∧
      (n = 0 → Covered v lp p') := by
  obtain ⟨_, p', k1, k2⟩ := h.grew hr hp
  have h1 := k2.x
  have h2 := k2.y
  obtain ⟨c1, c2⟩ := hc
  have e1 := k2.xMint
  have e2 := k2.yMint
  refine ⟨p', k1, by rw [e1]; omega, by rw [e2]; omega, fun e => ⟨by rw [e1]; omega, by rw [e2]; omega⟩⟩

/-- A pool starts covered. -/
theorem C113_start {w v : World} {authority lp x y tick : Nat} (h : w.exec (.initializePool authority lp x y tick) = .ok v) :
    ∃ p, mapGet lp v.pools = some p ∧ Covered v lp p := by
  obtain ⟨mt, s, h0, _, _, _, _, _, _, _, _, _, e⟩ := initializePool_ok h
  exact ⟨_, by rw [e]; exact mapGet_set_same _ _ _, Nat.zero_le _, Nat.zero_le _⟩

/-- If the vaults cover the positions, nothing that others do, in any number of steps, stops a withdrawal or changes what it
pays: not even their withdrawals from the same pool.  Excepted are deposits into positions that have liquidity already,
and mints that can be frozen. -/
theorem C113_still {w v r : World} (hr : Reachable w) {lp : Nat} {p : PoolAcc} (hp : mapGet lp w.pools = some p)
    (hc : Covered w lp p) {c : Accounts} {lower upper current n : Nat} {m : Moved} (h0 : 0 < n)
    (hw : w.withdraw lp c lower upper current n = .ok (r, m))
    (hl : ∃ t, mapGet c.lp w.tokens = some t ∧ t.owner = .user c.user ∧ t.delegate = none)
    (hf : ∀ q, q = lp ∨ q = p.xMint ∨ q = p.yMint → ∃ mt, mapGet q w.mints = some mt ∧ mt.freezer = none)
    (hs : LeavingSteps c.user lp w v) : ∃ r', v.withdraw lp c lower upper current n = .ok (r', m) := by
  obtain ⟨hv, ku, kp, p', hp', hg, hc'⟩ := hs.keeps hr hp hc
  have g := (hr.guarded hp).1
  obtain ⟨hm, h⟩ := withdraw_redeemable hr hp h0 hw
  obtain ⟨tx, x1, x2, x3, x4⟩ := h.tokenX
  obtain ⟨ty, y1, y2, y3, y4⟩ := h.tokenY
  obtain ⟨vx, a1, a2, _⟩ := h.vaultX
  obtain ⟨vy, b1, b2, _⟩ := h.vaultY
  obtain ⟨tl, l1, l2, l3, l4, l5⟩ := h.lpTokens
  obtain ⟨vx', e, c2, c3, c4⟩ := g.vaultX
  rw [a1] at e; cases e
  obtain ⟨vy', e, d2, d3, d4⟩ := g.vaultY
  rw [b1] at e; cases e
  obtain ⟨tl0, e, o1, o2⟩ := hl
  rw [l1] at e; cases e
  have hx := hf p.xMint (.inr (.inl rfl))
  have hy := hf p.yMint (.inr (.inr rfl))
  have hlp := hf lp (.inl rfl)
  obtain ⟨tx', i1, i2, i3, i4, _⟩ := ku.token _ _ x1 x3 x4 (x2 ▸ hx)
  obtain ⟨ty', j1, j2, j3, j4, _⟩ := ku.token _ _ y1 y3 y4 (y2 ▸ hy)
  obtain ⟨tl2, k1, k2, k3, k4, k5⟩ := ku.token _ _ l1 o1 l3 (l2 ▸ hlp)
  obtain ⟨vx2, m1, m2, m3, m4⟩ := kp _ _ _ a1 c3 a2 (c2 ▸ hx)
  obtain ⟨vy2, n1, n2, n3, n4⟩ := kp _ _ _ b1 d3 b2 (d2 ▸ hy)
  obtain ⟨pos, q1, q2⟩ := h.position
  refine CanLeave.withdraw (e := ⟨c, lower, upper, current, n⟩) hv hp' hc' ⟨hm, h0, hg.tick ▸ h.atTick, hg.tick ▸ h.starts,
    hg.tick ▸ h.ends, ⟨pos, hg.pos _ _ rfl q1, q2⟩, hg.tick ▸ h.worth,
    ⟨tx', i1, (i2.trans x2).trans hg.xMint.symm, i3, i4⟩, ⟨ty', j1, (j2.trans y2).trans hg.yMint.symm, j3, j4⟩,
    ⟨vx2, hg.xMint ▸ m1, m4⟩, ⟨vy2, hg.yMint ▸ n1, n4⟩, ⟨tl2, k1, k2.trans l2, k4, k3, (k5 o2).1⟩⟩ ?_
  unfold balance
  rw [k1]
  exact l4.trans (k5 o2).2

/-- If the vaults cover the positions, withdrawals that are each possible on their own are possible one after the other, in
any order, and pay the same: everybody can leave.  They have to be from different positions and take LP tokens from
accounts of the users that have no delegate and hold enough for all of them. -/
theorem C113_all {w : World} (hr : Reachable w) {lp : Nat} {p : PoolAcc} (hp : mapGet lp w.pools = some p)
    (hc : Covered w lp p) (es : List (Exit × Moved)) (hd : (es.map fun e => e.1.key).Nodup)
    (hw : ∀ e ∈ es, 0 < e.1.n ∧
      ∃ v, w.withdraw lp e.1.accounts e.1.lower e.1.upper e.1.current e.1.n = .ok (v, e.2))
    (hl : ∀ e ∈ es, ∃ t, mapGet e.1.accounts.lp w.tokens = some t ∧ t.owner = .user e.1.accounts.user ∧
      t.delegate = none ∧ takenFrom e.1.accounts.lp (es.map (·.1)) ≤ t.amount) :
    ∃ v, w.leave lp (es.map (·.1)) = .ok (v, es.map (·.2)) := by
  refine leave_all es hr hp hc hd (fun e he => ?_) (fun e he => ?_)
  · obtain ⟨h0, v, h⟩ := hw e he
    obtain ⟨hm, h⟩ := withdraw_redeemable hr hp h0 h
    obtain ⟨vx, a1, a2, _⟩ := h.vaultX
    obtain ⟨vy, b1, b2, _⟩ := h.vaultY
    obtain ⟨tl, l1, l2, l3, _⟩ := h.lpTokens
    obtain ⟨t, t1, t2, t3, _⟩ := hl e he
    rw [l1] at t1; cases t1
    exact ⟨hm, h0, h.atTick, h.starts, h.ends, h.position, h.worth, h.tokenX, h.tokenY, ⟨vx, a1, a2⟩, ⟨vy, b1, b2⟩,
      ⟨tl, l1, l2, l3, t2, t3⟩⟩
  · obtain ⟨t, t1, _, _, t4⟩ := hl e he
    unfold balance
    rw [t1]
    exact t4

/-- User 1 and user 2 deposit, each for the first time. -/
def twoIn : List Act := start ++ [.token 9 (.setFreezer 100 none), .program (.deposit 100 (user 1 1 2 3) 10 30 20 100 100),
  .program (.deposit 100 (user 2 1 2 3) 25 30 20 5 0)]

/-- The withdrawals of everything by user 1 and by user 2. -/
def out1 : Exit := ⟨user 1 1 2 3, 10, 30, 20, 199860⟩
def out2 : Exit := ⟨user 2 1 2 3, 25, 30, 20, 20028⟩

/-- Whether a pool is covered. -/
def coveredAt (w : World) (lp : Nat) : Bool := match mapGet lp w.pools with
  | some p => decide (claimsX p ≤ w.balance (.vault p.xMint lp) ∧ claimsY p ≤ w.balance (.vault p.yMint lp)) &&
    decide ((p.xMint, p.yMint) = (1, 2))
  | none => false

theorem of_coveredAt {w : World} {lp : Nat} (h : coveredAt w lp = true) : ∃ p, mapGet lp w.pools = some p ∧
    Covered w lp p ∧ p.xMint = 1 ∧ p.yMint = 2 := by
  unfold coveredAt at h
  split at h
  · next p hp =>
    rw [Bool.and_eq_true, decide_eq_true_eq, decide_eq_true_eq, Prod.mk.injEq] at h
    exact ⟨p, hp, h.1, h.2⟩
  · cases h

/-- Whether a withdrawal pays this much and nobody but the owner may spend the LP tokens it takes. -/
def pays (w : World) (e : Exit) (m : Moved) (n : Nat) : Bool :=
  (match w.withdraw 100 e.accounts e.lower e.upper e.current e.n with
    | .ok (_, m') => decide (m' = m)
    | .error _ => false) &&
  decide ((mapGet e.accounts.lp w.tokens).map (fun t => (t.owner, t.delegate, t.amount)) = some (.user e.accounts.user, none, n))

theorem of_pays {w : World} {e : Exit} {m : Moved} {n : Nat} (h : pays w e m n = true) :
    (∃ v, w.withdraw 100 e.accounts e.lower e.upper e.current e.n = .ok (v, m)) ∧
    ∃ t, mapGet e.accounts.lp w.tokens = some t ∧ t.owner = .user e.accounts.user ∧ t.delegate = none ∧ t.amount = n := by
  unfold pays at h
  rw [Bool.and_eq_true, decide_eq_true_eq] at h
  obtain ⟨h1, h2⟩ := h
  obtain ⟨t, t1, t2⟩ := Option.map_eq_some_iff.1 h2
  rw [Prod.mk.injEq, Prod.mk.injEq] at t2
  refine ⟨?_, t, t1, t2⟩
  split at h1
  · next v m' hw => exact ⟨v, by rw [hw, of_decide_eq_true h1]⟩
  · cases h1

/-- Both can leave, in either order, and get all but one X and one Y back. -/
example : ∃ w, Reachable w ∧ (∃ v, w.leave 100 [out1, out2] = .ok (v, [⟨99, 99, 199860⟩, ⟨4, 0, 20028⟩])) ∧
    ∃ v, w.leave 100 [out2, out1] = .ok (v, [⟨4, 0, 20028⟩, ⟨99, 99, 199860⟩]) := by
  obtain ⟨w, h, e⟩ := holds_reachable (as := twoIn) (p := fun w => coveredAt w 100 &&
    (pays w out1 ⟨99, 99, 199860⟩ 199860 && pays w out2 ⟨4, 0, 20028⟩ 20028)) (by decide +kernel)
  rw [Bool.and_eq_true, Bool.and_eq_true] at e
  obtain ⟨e1, e2, e3⟩ := e
  obtain ⟨p, hp, hc, _⟩ := of_coveredAt e1
  obtain ⟨a1, t1, a2, a3, a4, a5⟩ := of_pays e2
  obtain ⟨b1, t2, b2, b3, b4, b5⟩ := of_pays e3
  refine ⟨w, h, C113_all h hp hc [(out1, ⟨99, 99, 199860⟩), (out2, ⟨4, 0, 20028⟩)] (by decide) ?_ ?_,
    C113_all h hp hc [(out2, ⟨4, 0, 20028⟩), (out1, ⟨99, 99, 199860⟩)] (by decide) ?_ ?_⟩
  all_goals
    intro e he
    rw [List.mem_cons, List.mem_singleton] at he
    rcases he with rfl | rfl
  · exact ⟨by decide, a1⟩
  · exact ⟨by decide, b1⟩
  · exact ⟨t1, a2, a3, a4, by rw [a5]; decide⟩
  · exact ⟨t2, b2, b3, b4, by rw [b5]; decide⟩
  · exact ⟨by decide, b1⟩
  · exact ⟨by decide, a1⟩
  · exact ⟨t2, b2, b3, b4, by rw [b5]; decide⟩
  · exact ⟨t1, a2, a3, a4, by rw [a5]; decide⟩

/-- User 1 can withdraw, also after user 2 has left. -/
example : ∃ w, Reachable w ∧ ∃ p r v, mapGet 100 w.pools = some p ∧ Covered w 100 p ∧
    w.withdraw 100 (user 1 1 2 3) 10 30 20 199860 = .ok (r, ⟨99, 99, 199860⟩) ∧
    (∃ t, mapGet (.key 13) w.tokens = some t ∧ t.owner = .user 1 ∧ t.delegate = none) ∧
    (∀ q, q = 100 ∨ q = p.xMint ∨ q = p.yMint → ∃ mt, mapGet q w.mints = some mt ∧ mt.freezer = none) ∧
    LeavingSteps 1 100 w v ∧ v.balance (.vault 1 100) = 100 := by
  obtain ⟨w, h, e⟩ := holds_reachable (as := twoIn) (p := fun w => coveredAt w 100 &&
    (pays w out1 ⟨99, 99, 199860⟩ 199860 && (decide ((mapGet 100 w.mints).map (·.freezer) = some none ∧
      (mapGet 1 w.mints).map (·.freezer) = some none ∧ (mapGet 2 w.mints).map (·.freezer) = some none) &&
    match w.exec (.withdraw 100 (user 2 1 2 3) 25 30 20 20028) with
      | .ok v => decide (v.balance (.vault 1 100) = 100)
      | .error _ => false))) (by decide +kernel)
  rw [Bool.and_eq_true, Bool.and_eq_true, Bool.and_eq_true, decide_eq_true_eq] at e
  obtain ⟨e1, e2, ⟨e3, e4, e5⟩, e6⟩ := e
  obtain ⟨p, hp, hc, px, py⟩ := of_coveredAt e1
  obtain ⟨⟨r, a1⟩, t1, a2, a3, a4, a5⟩ := of_pays e2
  split at e6
  · next v hv =>
    refine ⟨w, h, p, r, v, hp, hc, a1, ⟨t1, a2, a3, a4⟩, ?_, .program _ .refl (by simp [Instr.puts]) (by decide) hv,
      of_decide_eq_true e6⟩
    rw [px, py]
    rintro q (rfl | rfl | rfl)
    · exact Option.map_eq_some_iff.1 e3
    · exact Option.map_eq_some_iff.1 e4
    · exact Option.map_eq_some_iff.1 e5
  · cases e6

/-- User 2 deposits into an empty position and then again: the vaults are one X short, no more than two. -/
example : ∃ w v, Reachable w ∧ ∃ p, mapGet 100 w.pools = some p ∧ Covered w 100 p ∧ Filled 100 w v 1 ∧
    ∃ p', mapGet 100 v.pools = some p' ∧ claimsX p' = v.balance (.vault p'.xMint 100) + 1 := by
  obtain ⟨w, h, e⟩ := holds_reachable (as := start) (p := fun w => coveredAt w 100 &&
    (decide ((mapGet 100 w.pools).bind (fun p => (mapGet (⟨2, 25, 30⟩ : PosKey) p.positions).map (·.liq)) = some 0) &&
    match w.deposit 100 (user 2 1 2 3) 25 30 20 1 0 with
      | .ok (u, _) => match u.deposit 100 (user 2 1 2 3) 25 30 20 1 0 with
        | .ok (v, _) => match mapGet 100 v.pools with
          | some p => decide (claimsX p = v.balance (.vault p.xMint 100) + 1)
          | none => false
        | .error _ => false
      | .error _ => false)) (by decide +kernel)
  rw [Bool.and_eq_true, Bool.and_eq_true, decide_eq_true_eq] at e
  obtain ⟨e1, e2, e3⟩ := e
  obtain ⟨p, hp, hc, _⟩ := of_coveredAt e1
  split at e3
  · next u m hu =>
    split at e3
    · next v m' hv =>
      split at e3
      · next p' hp' =>
        refine ⟨w, v, h, p, hp, hc, .more (.first .refl ?_ hu) hv, p', hp', of_decide_eq_true e3⟩
        intro p2 q g1 g2
        rw [g1, Option.bind_some] at e2
        obtain ⟨q', k1, k2⟩ := Option.map_eq_some_iff.1 e2
        have g3 : mapGet (⟨2, 25, 30⟩ : PosKey) p2.positions = some q := g2
        rw [g3] at k1; cases k1
        exact k2
      · cases e3
    · cases e3
  · cases e3

end Hmm.OnChain.World
