import Verif.Spec.World

/-
Several withdrawals from one pool, and ledgers that hold the same.
-/

namespace Hmm.OnChain.World

/-- What a user asks of a pool when they withdraw. -/
structure Redemption where
  c : Accounts
  lower : Nat
  upper : Nat
  current : Nat
  n : Nat

/-- Withdrawals from the pool `lp`, one after the other, each with what was paid. -/
inductive Redemptions (lp : Nat) : World → List (Redemption × Moved) → World → Prop where
  | nil {w : World} : Redemptions lp w [] w
  | cons {w v u : World} {r : Redemption} {m : Moved} {rest : List (Redemption × Moved)} :
      w.withdraw lp r.c r.lower r.upper r.current r.n = .ok (v, m) → Redemptions lp v rest u →
      Redemptions lp w ((r, m) :: rest) u

/-- What a tick account says: its tick, its fees, its net and its gross liquidity. -/
def tickSays (t : Tick) : Nat × Fee × ℚ × ℚ := (t.tick, t.fee, t.netAmount, t.grossAmount)

/-- Two records of a pool with the same authority, mints, pool state, bitmap, positions, and ticks that say the same. -/
structure SameRecord (p q : PoolAcc) : Prop where
  authority : q.authority = p.authority
  xMint : q.xMint = p.xMint
  yMint : q.yMint = p.yMint
  gs : q.gs = p.gs
  bitmap : q.bitmap = p.bitmap
  positions : ∀ k : PosKey, mapGet k q.positions = mapGet k p.positions
  ticks : ∀ t, (mapGet t q.ticks).map tickSays = (mapGet t p.ticks).map tickSays

/-- Two ledgers with the same token accounts, mints and pools. -/
structure SameLedger (lp : Nat) (w v : World) : Prop where
  tokens : ∀ a, mapGet a v.tokens = mapGet a w.tokens
  mints : ∀ m, mapGet m v.mints = mapGet m w.mints
  others : ∀ q, q ≠ lp → mapGet q v.pools = mapGet q w.pools
  pool : ∀ p, mapGet lp w.pools = some p → ∃ q, mapGet lp v.pools = some q ∧ SameRecord p q

end Hmm.OnChain.World
