import Verif.Spec.Deals

/-
The same pool and the same dealings with the users called by other names.
-/

namespace Hmm

/-- The position of the user under their new name. -/
def PositionKey.named (σ : Nat → Nat) (k : PositionKey) : PositionKey := { k with user := σ k.user }

namespace Pool

/-- The pool with the owners of the positions under their new names. -/
def named (σ : Nat → Nat) (p : Pool) : Pool := { p with positions := p.positions.map fun e => (e.1.named σ, e.2) }

/-- What is done is done by the user under their new name. -/
def Deal.named (σ : Nat → Nat) : Deal → Deal
  | .deposit o => .deposit { o with user := σ o.user }
  | .withdraw o => .withdraw { o with user := σ o.user }
  | .sellX fl d o => .sellX fl d o
  | .sellY fl d o => .sellY fl d o

/-- Two pools that differ at most in who holds which positions, and in the sign of a net liquidity of zero. -/
structure AlikeToTraders (p q : Pool) : Prop where
  spacing : q.spacing = p.spacing
  gs : q.gs = p.gs
  ticks : ∀ t, q.atTick t = p.atTick t
  x : q.x = p.x
  y : q.y = p.y
  xAdj : q.xAdj = p.xAdj
  yAdj : q.yAdj = p.yAdj
  xFee : q.xFee = p.xFee
  yFee : q.yFee = p.yFee
  c : q.c = p.c
  feeRate : q.feeRate = p.feeRate

/-- It is a sale. -/
def Deal.Sale : Deal → Prop
  | .deposit _ => False
  | .withdraw _ => False
  | .sellX _ _ _ => True
  | .sellY _ _ _ => True

/-- The user holds no position. -/
def Newcomer (p : Pool) (u : Nat) : Prop := ∀ e ∈ p.positions, e.1.user ≠ u

end Pool

end Hmm
