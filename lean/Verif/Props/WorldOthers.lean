import Verif.Proofs.WorldWhen
import Verif.Tests.WorldSample

/-
What other users can do to a withdrawal.
-/

namespace Hmm.OnChain.World

open Decimal PoolMath World.Sample

/-! ### C110: others cannot block a withdrawal -/

/-- The full claim: if a user can withdraw, with LP tokens in an account of their own that has no delegate, they still can
after a step of somebody else. -/
def C110_statement : Prop := ∀ w, Reachable w → ∀ lp c lower upper current n r,
  w.withdraw lp c lower upper current n = .ok r →
  (∃ t, mapGet c.lp w.tokens = some t ∧ t.owner = .user c.user ∧ t.delegate = none) →
  ∀ v, ((∃ s i, s ≠ c.user ∧ w.tokenExec s i = .ok v) ∨ (∃ i s, i.payer = some s ∧ s ≠ c.user ∧ w.exec i = .ok v)) →
  ∃ r', v.withdraw lp c lower upper current n = .ok r'

/-- Whether user 1 can withdraw everything before a step and not after. -/
def blocked (w : World) (next : R World) : Bool :=
  (w.withdraw 100 (user 1 1 2 3) 10 30 20 199860).isOk &&
  decide ((mapGet (.key 13) w.tokens).map (fun t => (t.owner, t.delegate)) = some (.user 1, none)) &&
  match next with
  | .ok v => !(v.withdraw 100 (user 1 1 2 3) 10 30 20 199860).isOk
  | .error _ => false

theorem not_of_blocked {w : World} (hr : Reachable w) {next : R World}
    (hn : ∀ v, next = .ok v → (∃ s i, s ≠ 1 ∧ w.tokenExec s i = .ok v) ∨
      (∃ i s, i.payer = some s ∧ s ≠ 1 ∧ w.exec i = .ok v)) (h : blocked w next = true) : ¬ C110_statement := by
  intro hc
  unfold blocked at h
  rw [Bool.and_eq_true, Bool.and_eq_true, decide_eq_true_eq] at h
  obtain ⟨⟨h1, h2⟩, h3⟩ := h
  obtain ⟨t, k1, k2⟩ := Option.map_eq_some_iff.1 h2
  rw [Prod.mk.injEq] at k2
  cases hw : w.withdraw 100 (user 1 1 2 3) 10 30 20 199860 with
  | error e => rw [hw] at h1; cases h1
  | ok r =>
    cases hx : next with
    | error e => rw [hx] at h3; cases h3
    | ok v =>
      obtain ⟨r', hr'⟩ := hc w hr 100 (user 1 1 2 3) 10 30 20 199860 r hw ⟨t, k1, k2.1, k2.2⟩ v (hn v hx)
      rw [hx] at h3
      simp only [hr', Except.isOk, Except.toBool, Bool.not_true, Bool.false_eq_true] at h3

/-- Whoever may freeze accounts of the LP mint, which `initialize_pool` does not look at, can stop a withdrawal: user 9
freezes the LP tokens of user 1. -/
theorem C110_false : ¬ C110_statement := by
  obtain ⟨w, h, e⟩ := holds_reachable (as := start ++ [.program (.deposit 100 (user 1 1 2 3) 10 30 20 100 100)])
    (p := fun w => blocked w (w.tokenExec 9 (.freeze (.key 13) true))) (by decide +kernel)
  exact not_of_blocked h (fun v hv => .inl ⟨9, _, by decide, hv⟩) e

/-- User 1 deposits; user 2 deposits 1 X twice, into a range above the price. -/
def crowded : List Act := start ++ [.program (.deposit 100 (user 1 1 2 3) 10 30 20 100 100),
  .program (.deposit 100 (user 2 1 2 3) 25 30 20 1 0), .program (.deposit 100 (user 2 1 2 3) 25 30 20 1 0)]

/-- So can a withdrawal of somebody else, because deposits are rounded down: user 2 withdraws, and X is one token short. -/
theorem C110_drained : ¬ C110_statement := by
  obtain ⟨w, h, e⟩ := holds_reachable (as := crowded)
    (p := fun w => blocked w (w.exec (.withdraw 100 (user 2 1 2 3) 25 30 20 8000))) (by decide +kernel)
  exact not_of_blocked h (fun v hv => .inr ⟨_, 2, rfl, by decide, hv⟩) e

/-- Missing for the full claim: mints that can be frozen, withdrawals of others from the same pool, and withdrawals of
nothing.  Nothing else that others do, in any number of steps, stops the withdrawal or changes what it pays; in particular
deposits of others into the same pool do not. -/
theorem C110_partial {w v r : World} (hr : Reachable w) {lp : Nat} {p : PoolAcc} (hp : mapGet lp w.pools = some p)
    {c : Accounts} {lower upper current n : Nat} {m : Moved} (h0 : 0 < n)
    (hw : w.withdraw lp c lower upper current n = .ok (r, m))
    (hl : ∃ t, mapGet c.lp w.tokens = some t ∧ t.owner = .user c.user ∧ t.delegate = none)
    (hf : ∀ q, q = lp ∨ q = p.xMint ∨ q = p.yMint → ∃ mt, mapGet q w.mints = some mt ∧ mt.freezer = none)
    (hs : OthersSteps c.user lp w v) : ∃ r', v.withdraw lp c lower upper current n = .ok (r', m) := by
  obtain ⟨hv, ku, kp, p', hp', hg⟩ := hs.keeps hr hp
  have g := (hr.guarded hp).1
  obtain ⟨hm, h⟩ := withdraw_redeemable hr hp h0 hw
  obtain ⟨tx, x1, x2, x3, x4⟩ := h.tokenX
  obtain ⟨ty, y1, y2, y3, y4⟩ := h.tokenY
  obtain ⟨vx, a1, a2, a3⟩ := h.vaultX
  obtain ⟨vy, b1, b2, b3⟩ := h.vaultY
  obtain ⟨tl, l1, l2, l3, l4, l5⟩ := h.lpTokens
  obtain ⟨vx', e, c2, c3, c4⟩ := g.vaultX
  rw [a1] at e; cases e
  obtain ⟨vy', e, d2, d3, d4⟩ := g.vaultY
  rw [b1] at e; cases e
  obtain ⟨tl0, e, o1, o2⟩ := hl
  rw [l1] at e; cases e
  have hx := hf p.xMint (.inr (.inl rfl))
  have hy := hf p.yMint (.inr (.inr rfl))
  have hlp := hf lp (.inl rfl)
  obtain ⟨tx', i1, i2, i3, i4, _⟩ := ku.token _ _ x1 x3 x4 (x2 ▸ hx)
  obtain ⟨ty', j1, j2, j3, j4, _⟩ := ku.token _ _ y1 y3 y4 (y2 ▸ hy)
  obtain ⟨tl2, k1, k2, k3, k4, k5⟩ := ku.token _ _ l1 o1 l3 (l2 ▸ hlp)
  obtain ⟨vx2, m1, m2, m3, m4, m5⟩ := kp.token _ _ a1 c3 a2 (c2 ▸ hx)
  obtain ⟨vy2, n1, n2, n3, n4, n5⟩ := kp.token _ _ b1 d3 b2 (d2 ▸ hy)
  obtain ⟨pos, q1, q2⟩ := h.position
  have := withdraw_when hv hp' h0 (c := c) (lower := lower) (upper := upper) (current := current) (x := m.x) (y := m.y)
    ⟨hg.tick ▸ h.atTick, hg.tick ▸ h.starts, hg.tick ▸ h.ends, ⟨pos, hg.pos _ _ rfl q1, q2⟩, hg.tick ▸ h.worth,
      ⟨tx', i1, (i2.trans x2).trans hg.xMint.symm, i3, i4⟩, ⟨ty', j1, (j2.trans y2).trans hg.yMint.symm, j3, j4⟩,
      ⟨vx2, hg.xMint ▸ m1, m4, a3.trans (m5 c4).2⟩, ⟨vy2, hg.yMint ▸ n1, n4, b3.trans (n5 d4).2⟩,
      ⟨tl2, k1, k2.trans l2, k4, l4.trans (k5 o2).2, .inl ⟨k3, fun k e => by rw [(k5 o2).1] at e; cases e⟩⟩⟩
  obtain ⟨r', h'⟩ := this
  exact ⟨r', by rw [h', ← hm]⟩

/-- User 9 gives up freezing LP tokens, user 1 deposits. -/
def settled : List Act := start ++ [.token 9 (.setFreezer 100 none), .program (.deposit 100 (user 1 1 2 3) 10 30 20 100 100)]

/-- Then user 2 deposits into the same pool and sends a token to a vault, and user 9 issues more X. -/
example : ∃ w, Reachable w ∧ ∃ p r m v, mapGet 100 w.pools = some p ∧
    w.withdraw 100 (user 1 1 2 3) 10 30 20 199860 = .ok (r, m) ∧ m = ⟨99, 99, 199860⟩ ∧
    (∃ t, mapGet (.key 13) w.tokens = some t ∧ t.owner = .user 1 ∧ t.delegate = none) ∧
    (∀ q, q = 100 ∨ q = p.xMint ∨ q = p.yMint → ∃ mt, mapGet q w.mints = some mt ∧ mt.freezer = none) ∧
    OthersSteps 1 100 w v ∧ v.balance (.vault 1 100) = 105 := by
  obtain ⟨w, h, e⟩ := holds_reachable (as := settled) (p := fun w =>
    decide ((mapGet 100 w.pools).map (fun p => (p.xMint, p.yMint)) = some (1, 2)) &&
    decide ((mapGet (.key 13) w.tokens).map (fun t => (t.owner, t.delegate)) = some (.user 1, none)) &&
    decide ((mapGet 100 w.mints).map (·.freezer) = some none ∧ (mapGet 1 w.mints).map (·.freezer) = some none ∧
      (mapGet 2 w.mints).map (·.freezer) = some none) &&
    (match w.withdraw 100 (user 1 1 2 3) 10 30 20 199860 with
      | .ok (_, m) => decide (m = ⟨99, 99, 199860⟩)
      | .error _ => false) &&
    (match w.exec (.deposit 100 (user 2 1 2 3) 25 30 20 5 0) with
      | .ok w1 => match w1.tokenExec 2 (.transfer (.key 21) (.vault 1 100) 1) with
        | .ok w2 => match w2.tokenExec 9 (.mintTo 1 (.key 21) 5) with
          | .ok v => decide (v.balance (.vault 1 100) = 105)
          | .error _ => false
        | .error _ => false
      | .error _ => false)) (by decide +kernel)
  simp only [Bool.and_eq_true, decide_eq_true_eq] at e
  obtain ⟨⟨⟨⟨e1, e2⟩, e3, e4, e5⟩, e6⟩, e7⟩ := e
  obtain ⟨p, p1, p2⟩ := Option.map_eq_some_iff.1 e1
  obtain ⟨t, t1, t2⟩ := Option.map_eq_some_iff.1 e2
  rw [Prod.mk.injEq] at p2 t2
  split at e6
  · next r m hw =>
    split at e7
    · next w1 h1 =>
      split at e7
      · next w2 h2 =>
        split at e7
        · next v h3 =>
          refine ⟨w, h, p, r, m, v, p1, hw, of_decide_eq_true e6, ⟨t, t1, t2.1, t2.2⟩, ?_, ?_, of_decide_eq_true e7⟩
          · rw [p2.1, p2.2]
            rintro q (rfl | rfl | rfl)
            · exact Option.map_eq_some_iff.1 e3
            · exact Option.map_eq_some_iff.1 e4
            · exact Option.map_eq_some_iff.1 e5
          · exact .token 9 _ (.token 2 _ (.program _ .refl (by simp [Instr.takes]) (by decide) h1) (by decide) h2) (by decide) h3
        · cases e7
      · cases e7
    · cases e7
  · cases e6

end Hmm.OnChain.World
