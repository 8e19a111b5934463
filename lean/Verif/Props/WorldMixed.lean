import Verif.Proofs.WorldMixed
import Verif.Tests.WorldSample

/-
Deposits and withdrawals on the ledger do not stand in each other's way.
-/

namespace Hmm.OnChain.World

open World.Sample

/-! ### C143: those who join and those who leave a pool on the ledger do not stand in each other's way -/

/-- If a deposit and a withdrawal that is not of nothing are both possible, and the pool does not trade its own LP tokens,
then each is possible after the other, with the same payments, and the ledgers in the end are alike.  The user, the position
and the accounts may be the same or not. -/
theorem C143_either_order {w v v' : World} (hw : Reachable w) {lp : Nat} {p : PoolAcc} (hp : mapGet lp w.pools = some p)
    (hx : p.xMint ≠ lp) (hy : p.yMint ≠ lp) {c d : Accounts} {lower upper current x y lower' upper' current' k : Nat}
    {m n : Moved} (x64 : x < 2 ^ 64) (y64 : y < 2 ^ 64) (hk : 0 < k)
    (h : w.deposit lp c lower upper current x y = .ok (v, m))
    (g : w.withdraw lp d lower' upper' current' k = .ok (v', n)) :
    ∃ u u', v.withdraw lp d lower' upper' current' k = .ok (u, n) ∧
      v'.deposit lp c lower upper current x y = .ok (u', m) ∧ Alike lp u u' :=
  mixed_orders hw hp hx hy (r := ⟨c, lower, upper, current, x, y⟩) (s := ⟨d, lower', upper', current', k⟩) ⟨x64, y64⟩ hk h g

/-- If some deposits can be made one after the other, and so can some withdrawals, then the withdrawals can be made after
the deposits and the deposits after the withdrawals, all with the same payments, and the ledgers in the end are alike. -/
theorem C143_all {w v u : World} (hw : Reachable w) {lp : Nat} {p : PoolAcc} (hp : mapGet lp w.pools = some p)
    (hx : p.xMint ≠ lp) (hy : p.yMint ≠ lp) {rs : List (Purchase × Moved)} {ss : List (Redemption × Moved)}
    (hr : ∀ r ∈ rs, r.1.x < 2 ^ 64 ∧ r.1.y < 2 ^ 64) (hs : ∀ s ∈ ss, 0 < s.1.n) (h : Purchases lp w rs v)
    (g : Redemptions lp w ss u) : ∃ z z', Redemptions lp v ss z ∧ Purchases lp u rs z' ∧ Alike lp z z' :=
  purchases_redemptions h hw ⟨p, hp, hx, hy⟩ hr hs g

/-- User 1 leaves while user 2 joins, and user 1 adds to the position they take from. -/
example : ∃ w v u p r r' s, ∃ m m' n : Moved, Reachable w ∧ mapGet 100 w.pools = some p ∧ p.xMint ≠ 100 ∧ p.yMint ≠ 100 ∧
    r.c.user ≠ s.c.user ∧ r'.c = s.c ∧ r'.lower = s.lower ∧ r'.upper = s.upper ∧ 0 < s.n ∧ 0 < m.lp ∧ 0 < m'.lp ∧ 0 < n.x ∧
    Purchases 100 w [(r, m), (r', m')] v ∧ Redemptions 100 w [(s, n)] u := by
  obtain ⟨w, h, e⟩ := holds_reachable (as := start ++ [.program (.deposit 100 (user 1 1 2 3) 10 30 20 100 100)])
    (p := fun w =>
    match mapGet 100 w.pools with
    | none => false
    | some p =>
      match w.deposit 100 (user 2 1 2 3) 25 30 20 5 0 with
      | .error _ => false
      | .ok (v, m) =>
        match v.deposit 100 (user 1 1 2 3) 10 30 20 50 50 with
        | .error _ => false
        | .ok (_, m') =>
          match w.withdraw 100 (user 1 1 2 3) 10 30 20 100000 with
          | .error _ => false
          | .ok (_, n) => decide (p.xMint ≠ 100 ∧ p.yMint ≠ 100 ∧ 0 < m.lp ∧ 0 < m'.lp ∧ 0 < n.x)) (by decide +kernel)
  simp only at e
  split at e
  · cases e
  · next p hp =>
    split at e
    · cases e
    · next v m h1 =>
      split at e
      · cases e
      · next u m' h2 =>
        split at e
        · cases e
        · next z n h3 =>
          obtain ⟨e1, e2, e3, e4, e5⟩ := of_decide_eq_true e
          exact ⟨w, u, z, p, ⟨user 2 1 2 3, 25, 30, 20, 5, 0⟩, ⟨user 1 1 2 3, 10, 30, 20, 50, 50⟩,
            ⟨user 1 1 2 3, 10, 30, 20, 100000⟩, m, m', n, h, hp, e1, e2, by decide, rfl, rfl, rfl, by decide, e3, e4, e5,
            .cons h1 (.cons h2 .nil), .cons h3 .nil⟩

/-- In the pool 300, which trades its own LP tokens, it is different: user 1, who approved themselves for 100 of their LP
tokens, can deposit some and can withdraw 100, but after the deposit they cannot withdraw. -/
theorem C143_own_tokens : ∃ w v v' m n, ∃ c : Accounts, Reachable w ∧ w.deposit 300 c 10 30 20 100 100 = .ok (v, m) ∧
    w.withdraw 300 c 10 30 20 100 = .ok (v', n) ∧ ¬ ∃ u k, v.withdraw 300 c 10 30 20 100 = .ok (u, k) := by
  obtain ⟨w, h, e⟩ := holds_reachable (as := start ++ [.program (.deposit 300 (user 1 5 2 5) 10 30 20 100 100),
      .token 1 (.approve (.key 15) (.user 1) 100)]) (p := fun w =>
    match w.deposit 300 (user 1 5 2 5) 10 30 20 100 100 with
    | .error _ => false
    | .ok (v, _) =>
      match w.withdraw 300 (user 1 5 2 5) 10 30 20 100 with
      | .error _ => false
      | .ok _ =>
        match v.withdraw 300 (user 1 5 2 5) 10 30 20 100 with
        | .error _ => true
        | .ok _ => false) (by decide +kernel)
  simp only at e
  split at e
  · cases e
  · next v m h1 =>
    split at e
    · cases e
    · next u h2 =>
      split at e
      · next h3 =>
        refine ⟨w, v, u.1, m, u.2, user 1 5 2 5, h, h1, h2, ?_⟩
        rintro ⟨_, _, g⟩
        rw [h3] at g; cases g
      · cases e

end Hmm.OnChain.World
