import Verif.Spec.World

/-
What a withdrawal needs and what it pays.
-/

namespace Hmm.OnChain.World

open PoolMath

/-- What `n` units of liquidity between two ticks are worth at a third, in whole tokens: with the root prices `p`, `a`, `b`
in units of the twelfth place and `q` for `p` moved between `a` and `b`, X is `n (b - q) / (q b)` and Y is `n (q - a)`, the
product `q b` and both results rounded down.  The products with `n` have to fit in 128 bits. -/
def Worth (tick lower upper n x y : Nat) : Prop :=
  ∃ p a b, tickToRp tick = .ok ⟨p, 12, false⟩ ∧ tickToRp lower = .ok ⟨a, 12, false⟩ ∧ tickToRp upper = .ok ⟨b, 12, false⟩ ∧
    n * 10 ^ 12 * (b - clampAt p a b) < 2 ^ 128 ∧ n * 10 ^ 12 * (clampAt p a b - a) < 2 ^ 128 ∧
    x = n * (b - clampAt p a b) * 10 ^ 12 / (clampAt p a b * b / 10 ^ 12) / 10 ^ 12 ∧ y = n * (clampAt p a b - a) / 10 ^ 12

/-- The user may spend `n` tokens of an account: as owner who is not also its delegate, or as delegate for that much. -/
def MaySpend (t : Token) (user n : Nat) : Prop :=
  (t.owner = .user user ∧ ∀ k, t.delegate ≠ some (.user user, k)) ∨ ∃ k, t.delegate = some (.user user, k) ∧ n ≤ k

/-- The user can redeem `n` LP tokens of the pool `lp` for `x` and `y`: the position has the liquidity and does not end at
the pool's tick, the vaults hold the worth, the LP tokens are there and the user's to spend, and nothing is frozen. -/
structure Redeemable (w : World) (lp : Nat) (p : PoolAcc) (c : Accounts) (lower upper current n x y : Nat) : Prop where
  atTick : current = p.gs.tick
  starts : lower ≠ p.gs.tick
  ends : upper ≠ p.gs.tick
  position : ∃ q, mapGet (⟨c.user, lower, upper⟩ : PosKey) p.positions = some q ∧ (n : ℚ) ≤ q.amount
  worth : Worth p.gs.tick lower upper n x y
  tokenX : ∃ t, mapGet c.tokenX w.tokens = some t ∧ t.mint = p.xMint ∧ t.owner = .user c.user ∧ t.frozen = false
  tokenY : ∃ t, mapGet c.tokenY w.tokens = some t ∧ t.mint = p.yMint ∧ t.owner = .user c.user ∧ t.frozen = false
  vaultX : ∃ t, mapGet (.vault p.xMint lp) w.tokens = some t ∧ t.frozen = false ∧ x ≤ t.amount
  vaultY : ∃ t, mapGet (.vault p.yMint lp) w.tokens = some t ∧ t.frozen = false ∧ y ≤ t.amount
  lpTokens : ∃ t, mapGet c.lp w.tokens = some t ∧ t.mint = lp ∧ t.frozen = false ∧ n ≤ t.amount ∧ MaySpend t c.user n

end Hmm.OnChain.World
