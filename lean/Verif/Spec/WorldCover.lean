import Verif.Spec.WorldOthers

/-
What the positions of a pool on the ledger are worth in whole tokens, and histories with the number of deposits into
positions that already had liquidity.
-/

namespace Hmm.OnChain.World

open PoolMath

/-- X of `l` units (of the twelfth place) of liquidity in whole tokens, rounded down, at the root prices `p`, `a`, `b`. -/
def wholeX (p a b l : Nat) : Nat :=
  l * (b - clampAt p a b) / 10 ^ 12 * 10 ^ 12 / (clampAt p a b * b / 10 ^ 12) / 10 ^ 12

/-- Y of `l` units (of the twelfth place) of liquidity in whole tokens, rounded down, at the root prices `p`, `a`, `b`. -/
def wholeY (p a b l : Nat) : Nat := l * (clampAt p a b - a) / 10 ^ 12 / 10 ^ 12

/-- X that a position is worth in whole tokens, for the pool at root price `p`. -/
def claimX (p : Nat) (k : PosKey) (q : Position) : Nat :=
  match tickToRp k.lower, tickToRp k.upper with
  | .ok a, .ok b => wholeX p a.value b.value q.liq
  | _, _ => 0

/-- Y that a position is worth in whole tokens, for the pool at root price `p`. -/
def claimY (p : Nat) (k : PosKey) (q : Position) : Nat :=
  match tickToRp k.lower, tickToRp k.upper with
  | .ok a, .ok b => wholeY p a.value b.value q.liq
  | _, _ => 0

/-- X that all positions of a pool are worth, each in whole tokens. -/
def claimsX (p : PoolAcc) : Nat := (p.positions.map fun e => claimX p.gs.rp e.1 e.2).sum

/-- Y that all positions of a pool are worth, each in whole tokens. -/
def claimsY (p : PoolAcc) : Nat := (p.positions.map fun e => claimY p.gs.rp e.1 e.2).sum

/-- The vaults of a pool hold what its positions are worth. -/
def Covered (w : World) (lp : Nat) (p : PoolAcc) : Prop :=
  claimsX p ≤ w.balance (.vault p.xMint lp) ∧ claimsY p ≤ w.balance (.vault p.yMint lp)

/-- The instruction is a deposit into the pool `lp`. -/
def Instr.puts (lp : Nat) : Instr → Prop
  | .deposit q _ _ _ _ _ _ => q = lp
  | _ => False

/-- The position, if there is one, has no liquidity. -/
def Empty (w : World) (lp : Nat) (k : PosKey) : Prop :=
  ∀ p q, mapGet lp w.pools = some p → mapGet k p.positions = some q → q.liq = 0

/-- Any number of steps, with the number of deposits into positions of the pool `lp` that had liquidity already. -/
inductive Filled (lp : Nat) (w : World) : World → Nat → Prop where
  | refl : Filled lp w w 0
  | first {v u : World} {n : Nat} {c : Accounts} {lower upper current x y : Nat} {m : Moved} :
      Filled lp w v n → Empty v lp ⟨c.user, lower, upper⟩ → v.deposit lp c lower upper current x y = .ok (u, m) →
      Filled lp w u n
  | more {v u : World} {n : Nat} {c : Accounts} {lower upper current x y : Nat} {m : Moved} :
      Filled lp w v n → v.deposit lp c lower upper current x y = .ok (u, m) → Filled lp w u (n + 1)
  | program {v u : World} {n : Nat} (i : Instr) : Filled lp w v n → ¬ i.puts lp → v.exec i = .ok u → Filled lp w u n
  | token {v u : World} {n : Nat} (s : Nat) (i : TokenInstr) : Filled lp w v n → v.tokenExec s i = .ok u → Filled lp w u n

/-- Any number of steps in which the user `u` signs no deposit, no withdrawal and no token instruction, and nobody
deposits into a position of the pool `lp` that has liquidity already. -/
inductive LeavingSteps (u lp : Nat) (w : World) : World → Prop where
  | refl : LeavingSteps u lp w w
  | first {v x : World} {c : Accounts} {lower upper current a b : Nat} {m : Moved} : LeavingSteps u lp w v → c.user ≠ u →
      Empty v lp ⟨c.user, lower, upper⟩ → v.deposit lp c lower upper current a b = .ok (x, m) → LeavingSteps u lp w x
  | program {v x : World} (i : Instr) : LeavingSteps u lp w v → ¬ i.puts lp → i.payer ≠ some u → v.exec i = .ok x →
      LeavingSteps u lp w x
  | token {v x : World} (s : Nat) (i : TokenInstr) : LeavingSteps u lp w v → s ≠ u → v.tokenExec s i = .ok x →
      LeavingSteps u lp w x

/-- A withdrawal somebody wants to make. -/
structure Exit where
  accounts : Accounts
  lower : Nat
  upper : Nat
  current : Nat
  n : Nat

/-- The position an exit is from. -/
def Exit.key (e : Exit) : PosKey := ⟨e.accounts.user, e.lower, e.upper⟩

/-- Some withdrawals from a pool, one after the other, and what each has paid. -/
def leave (w : World) (lp : Nat) : List Exit → R (World × List Moved)
  | [] => .ok (w, [])
  | e :: es => do
    let (v, m) ← w.withdraw lp e.accounts e.lower e.upper e.current e.n
    let (u, ms) ← v.leave lp es
    .ok (u, m :: ms)

/-- LP tokens that some withdrawals take from one account. -/
def takenFrom (a : Addr) (es : List Exit) : Nat := (es.map fun e => if e.accounts.lp = a then e.n else 0).sum

end Hmm.OnChain.World
