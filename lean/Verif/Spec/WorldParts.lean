import Verif.Spec.WorldOrder

/-
What is different when a withdrawal is made in parts.
-/

namespace Hmm.OnChain.World

/-- The ledgers `v` and `u` hold the same, except that in `u` the vaults of the pool have `dx` and `dy` more and the user's
accounts that much less. -/
structure Owing (lp : Nat) (p : PoolAcc) (c : Accounts) (dx dy : Nat) (v u : World) : Prop where
  tokens : ∀ a t, mapGet a v.tokens = some t → ∃ n, mapGet a u.tokens = some { t with amount := n } ∧
    (n : ℤ) = t.amount + (if a = .vault p.xMint lp then (dx : ℤ) else 0) + (if a = .vault p.yMint lp then (dy : ℤ) else 0) -
      (if a = c.tokenX then (dx : ℤ) else 0) - (if a = c.tokenY then (dy : ℤ) else 0)
  absent : ∀ a, mapGet a v.tokens = none → mapGet a u.tokens = none
  mints : ∀ m, mapGet m u.mints = mapGet m v.mints
  others : ∀ q, q ≠ lp → mapGet q u.pools = mapGet q v.pools
  pool : ∀ p, mapGet lp v.pools = some p → ∃ q, mapGet lp u.pools = some q ∧ SameRecord p q

end Hmm.OnChain.World
