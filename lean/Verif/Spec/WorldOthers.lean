import Verif.Spec.World

/-
What happens on the ledger while a user does nothing and nobody withdraws from a pool.
-/

namespace Hmm.OnChain.World

/-- Who signs a deposit or a withdrawal. -/
def Instr.payer : Instr → Option Nat
  | .deposit _ c _ _ _ _ _ => some c.user
  | .withdraw _ c _ _ _ _ => some c.user
  | _ => none

/-- The instruction is a withdrawal from the pool `lp`. -/
def Instr.takes (lp : Nat) : Instr → Prop
  | .withdraw q _ _ _ _ _ => q = lp
  | _ => False

/-- Any number of steps in which the user `u` signs no deposit, no withdrawal and no token instruction, and nobody withdraws
from the pool `lp`. -/
inductive OthersSteps (u lp : Nat) (w : World) : World → Prop where
  | refl : OthersSteps u lp w w
  | program {v x : World} (i : Instr) : OthersSteps u lp w v → ¬ i.takes lp → i.payer ≠ some u → v.exec i = .ok x →
      OthersSteps u lp w x
  | token {v x : World} (s : Nat) (i : TokenInstr) : OthersSteps u lp w v → s ≠ u → v.tokenExec s i = .ok x →
      OthersSteps u lp w x

end Hmm.OnChain.World
