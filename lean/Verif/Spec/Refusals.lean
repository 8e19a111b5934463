import Verif.Spec.WorldOpen

/-
How instructions of the program can fail.
-/

namespace Hmm.OnChain.World

/-- A failure that is not reported with an error code of the program: a panic, an account that Anchor refuses, or a failure of
the token program. -/
def Plain (e : Err) : Prop := e = .panic ∨ e = .code .anchorConstraint ∨ e = .code .tokenError

/-- The accounts named in a deposit or withdrawal exist and belong together. -/
structure Named (w : World) (lp : Nat) (p : PoolAcc) (c : Accounts) (lower upper current : Nat) : Prop where
  atTick : current = p.gs.tick
  bitmap : p.bitmap.isSome
  here : (mapGet p.gs.tick p.ticks).isSome
  position : (mapGet (⟨c.user, lower, upper⟩ : PosKey) p.positions).isSome
  tokenX : ∃ t, mapGet c.tokenX w.tokens = some t ∧ t.mint = p.xMint ∧ t.owner = .user c.user
  tokenY : ∃ t, mapGet c.tokenY w.tokens = some t ∧ t.mint = p.yMint ∧ t.owner = .user c.user
  lpTokens : ∃ t, mapGet c.lp w.tokens = some t ∧ t.mint = lp

/-- The ticks named in an instruction. -/
def Instr.namedTicks : Instr → List Nat
  | .initializePool _ _ _ _ t => [t]
  | .initializeBitmap _ => []
  | .initializeTick _ t => [t]
  | .createPosition _ _ l u => [l, u]
  | .deposit _ _ l u t _ _ => [l, u, t]
  | .withdraw _ _ l u t _ => [l, u, t]

/-- A deposit, not another instruction. -/
def Instr.IsDeposit (i : Instr) : Prop := ∃ lp c l u t x y, i = .deposit lp c l u t x y

end Hmm.OnChain.World
