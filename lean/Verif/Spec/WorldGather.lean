import Verif.Spec.World

/-
Several deposits into one pool, and ledgers that hold the same up to the pool's bitmap.
-/

namespace Hmm.OnChain.World

/-- What a user asks of a pool when they deposit. -/
structure Purchase where
  c : Accounts
  lower : Nat
  upper : Nat
  current : Nat
  x : Nat
  y : Nat

/-- Deposits into the pool `lp`, one after the other, each with what was taken and minted. -/
inductive Purchases (lp : Nat) : World → List (Purchase × Moved) → World → Prop where
  | nil {w : World} : Purchases lp w [] w
  | cons {w v u : World} {r : Purchase} {m : Moved} {rest : List (Purchase × Moved)} :
      w.deposit lp r.c r.lower r.upper r.current r.x r.y = .ok (v, m) → Purchases lp v rest u →
      Purchases lp w ((r, m) :: rest) u

/-- What a tick account holds: its tick, its fees, its net liquidity, and its gross liquidity with its scale. -/
def tickHolds (t : Tick) : Nat × Fee × ℚ × Nat × Nat := (t.tick, t.fee, t.netAmount, t.gross, t.grossScale)

/-- Two records of a pool with the same authority, mints, pool state, positions, and ticks that hold the same. -/
structure AlikeRecord (p q : PoolAcc) : Prop where
  authority : q.authority = p.authority
  xMint : q.xMint = p.xMint
  yMint : q.yMint = p.yMint
  gs : q.gs = p.gs
  bitmap : q.bitmap.isSome = p.bitmap.isSome
  positions : ∀ k : PosKey, mapGet k q.positions = mapGet k p.positions
  ticks : ∀ t, (mapGet t q.ticks).map tickHolds = (mapGet t p.ticks).map tickHolds

/-- Two ledgers with the same token accounts, mints and pools, up to the bitmap of the pool `lp`. -/
structure Alike (lp : Nat) (w v : World) : Prop where
  tokens : ∀ a, mapGet a v.tokens = mapGet a w.tokens
  mints : ∀ m, mapGet m v.mints = mapGet m w.mints
  others : ∀ q, q ≠ lp → mapGet q v.pools = mapGet q w.pools
  pool : ∀ p, mapGet lp w.pools = some p → ∃ q, mapGet lp v.pools = some q ∧ AlikeRecord p q

end Hmm.OnChain.World
