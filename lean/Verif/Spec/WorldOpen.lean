import Verif.Spec.WorldBuy

/-
Opening pools, and the accounts that a deposit needs.
-/

namespace Hmm.OnChain.World

/-- Several instructions, one after the other. -/
def run (w : World) : List Instr → R World
  | [] => .ok w
  | i :: is => do (← w.exec i).run is

/-- An instruction that only creates an account of a pool: a bitmap, a tick or a position of this user. -/
def Instr.Creates (user : Nat) : Instr → Prop
  | .initializeBitmap _ => True
  | .initializeTick _ _ => True
  | .createPosition _ u _ _ => u = user
  | _ => False

/-- The ticks and the position of a range, as far as they exist, have room for more liquidity. -/
structure Roomy (p : PoolAcc) (user lower upper l : Nat) : Prop where
  position : ∀ q, mapGet (⟨user, lower, upper⟩ : PosKey) p.positions = some q → q.liq + l < 2 ^ 128
  starts : ∀ t, mapGet lower p.ticks = some t → t.gross + l < 2 ^ 128
  ends : ∀ t, mapGet upper p.ticks = some t → t.gross + l < 2 ^ 128
  active : lower ≤ p.gs.tick → p.gs.tick < upper → p.gs.liq + l < 2 ^ 128

/-- The tokens are ready for a deposit of liquidity `l`, paid with `dx` and `dy`. -/
structure Funded (w : World) (lp : Nat) (p : PoolAcc) (c : Accounts) (l dx dy : Nat) : Prop where
  tokenX : ∃ t, mapGet c.tokenX w.tokens = some t ∧ t.mint = p.xMint ∧ t.owner = .user c.user ∧ t.frozen = false ∧
    dx ≤ t.amount + (if c.tokenX = c.lp then l / 10 ^ 12 else 0) ∧ MaySpend t c.user dx
  tokenY : ∃ t, mapGet c.tokenY w.tokens = some t ∧ t.mint = p.yMint ∧ t.owner = .user c.user ∧ t.frozen = false ∧
    dy ≤ t.amount + (if c.tokenY = c.lp then l / 10 ^ 12 else 0) ∧ MaySpend t c.user dy
  vaultX : ∃ t, mapGet (.vault p.xMint lp) w.tokens = some t ∧ t.frozen = false
  vaultY : ∃ t, mapGet (.vault p.yMint lp) w.tokens = some t ∧ t.frozen = false
  lpTokens : ∃ t, mapGet c.lp w.tokens = some t ∧ t.mint = lp ∧ t.frozen = false
  supply : ∃ m, mapGet lp w.mints = some m ∧ m.supply + l / 10 ^ 12 < 2 ^ 64

end Hmm.OnChain.World
