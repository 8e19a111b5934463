import Verif.Model.World
import Verif.Spec.OnChain

/-
Balances and supplies on a ledger with many pools, and the single pool seen in it.
-/

namespace Hmm.OnChain.World

/-- Balance of a token account, zero if there is none. -/
def balance (w : World) (a : Addr) : Nat := (mapGet a w.tokens).elim 0 (·.amount)

/-- Supply of a mint, zero if there is none. -/
def supply (w : World) (m : Nat) : Nat := (mapGet m w.mints).elim 0 (·.supply)

/-- The tokens of a mint in all token accounts together. -/
def held (w : World) (m : Nat) : ℚ := (w.tokens.map fun e => if e.2.mint = m then (e.2.amount : ℚ) else 0).sum

/-- The state `s` of a single pool is that of the pool `lp` on the ledger: its own accounts, the supply of its LP mint
and its two vaults. -/
structure Shows (w : World) (lp : Nat) (p : PoolAcc) (s : Chain) : Prop where
  gs : s.gs = p.gs
  bitmap : s.bitmap = p.bitmap
  ticks : s.ticks = p.ticks
  positions : s.positions = p.positions
  supply : s.lpSupply = w.supply lp
  vaultX : s.vaultX = w.balance (.vault p.xMint lp)
  vaultY : s.vaultY = w.balance (.vault p.yMint lp)

/-- Any number of steps. -/
inductive Steps : World → World → Prop where
  | refl {w : World} : Steps w w
  | tail {w v u : World} : Steps w v → Step v u → Steps w u

/-- The pool named by an instruction. -/
def Instr.lp : Instr → Nat
  | .initializePool _ q _ _ _ => q
  | .initializeBitmap q => q
  | .initializeTick q _ => q
  | .createPosition q _ _ _ => q
  | .deposit q _ _ _ _ _ _ => q
  | .withdraw q _ _ _ _ _ => q

/-- The instruction is a deposit into the pool `lp` or a withdrawal from it. -/
def Instr.pays (lp : Nat) : Instr → Prop
  | .deposit q _ _ _ _ _ _ => q = lp
  | .withdraw q _ _ _ _ _ => q = lp
  | _ => False

/-- What has happened since the state `w`, together with the account of the group `who` with the pool `lp`. -/
inductive History (lp : Nat) (who : Nat → Bool) (w : World) : World → Account → Prop where
  | refl : History lp who w w ⟨0, 0, 0, 0, 0⟩
  | deposit {v u : World} {a : Account} {c : Accounts} {lower upper current x y : Nat} {m : Moved} :
      History lp who w v a → v.deposit lp c lower upper current x y = .ok (u, m) →
      History lp who w u (if who c.user then
        { a with deposits := a.deposits + 1, paidX := a.paidX + m.x, paidY := a.paidY + m.y } else a)
  | withdraw {v u : World} {a : Account} {c : Accounts} {lower upper current n : Nat} {m : Moved} :
      History lp who w v a → v.withdraw lp c lower upper current n = .ok (u, m) →
      History lp who w u (if who c.user then
        { a with takenX := a.takenX + m.x, takenY := a.takenY + m.y } else a)
  | program {v u : World} {a : Account} (i : Instr) : ¬ i.pays lp →
      History lp who w v a → v.exec i = .ok u → History lp who w u a
  | token {v u : World} {a : Account} (signer : Nat) (i : TokenInstr) :
      History lp who w v a → v.tokenExec signer i = .ok u → History lp who w u a

end Hmm.OnChain.World
