import Verif.Spec.FloatReach

/-
The floating-point pool with its users called by other names, and with other owners of its liquidity.
-/

namespace Hmm.Flt

/-- The position of the user under their new name. -/
def PositionKey.named (σ : Nat → Nat) (k : PositionKey) : PositionKey := { k with user := σ k.user }

/-- The pool with the owners of the positions under their new names. -/
def Pool.named (σ : Nat → Nat) (p : Pool) : Pool := { p with positions := p.positions.map fun e => (e.1.named σ, e.2) }

/-- The pool with other positions, everything else being as it is. -/
def Pool.ownedBy (p : Pool) (ps : List (PositionKey × PositionState)) : Pool := { p with positions := ps }

end Hmm.Flt
