import Verif.Spec.Proto

/-
The prototype's pool with its users called by other names, and with other owners of its liquidity.
-/

namespace Hmm.Proto

/-- The position of the user under their new name. -/
def Key.named (σ : Nat → Nat) (k : Key) : Key := { k with user := σ k.user }

/-- The pool with the owners of the positions under their new names. -/
def Pool.named (σ : Nat → Nat) (p : Pool) : Pool := { p with positions := p.positions.map fun e => (e.1.named σ, e.2) }

/-- The pool with other positions, everything else being as it is. -/
def Pool.ownedBy (p : Pool) (ps : List (Key × PositionState)) : Pool := { p with positions := ps }

/-- The same answer, or the same exception, leaving the pool changed by `g`. -/
def leaving {α : Type} (g : Pool → Pool) : EStateM.Result Err Pool α → EStateM.Result Err Pool α
  | .ok a p => .ok a (g p)
  | .error e p => .error e (g p)

/-- What somebody asks of the prototype. -/
inductive Ask
  | deposit (user : Nat) (x y rpa rpb : F64)
  | withdraw (user : Nat) (liq : Num) (rpa rpb : F64)
  | sellX (dx : F64) (oracle : Option F64)
  | sellY (dy : F64) (oracle : Option F64)

/-- The same, asked by somebody of another name. -/
def Ask.named (σ : Nat → Nat) : Ask → Ask
  | deposit u x y rpa rpb => deposit (σ u) x y rpa rpb
  | withdraw u l rpa rpb => withdraw (σ u) l rpa rpb
  | sellX dx o => sellX dx o
  | sellY dy o => sellY dy o

/-- What they see. -/
inductive Answer
  | paid (r : Pool.Receipt)
  | sold (o : Pool.Output)
  | raised (e : Err)

/-- The pool that a call leaves, by returning or by raising, and what is seen. -/
def seen {α : Type} (g : α → Answer) : EStateM.Result Err Pool α → Pool × Answer
  | .ok a p => (p, g a)
  | .error e p => (p, .raised e)

def Ask.call (m : LibM) (fuel : Nat) (p : Pool) : Ask → Pool × Answer
  | deposit u x y rpa rpb => seen .paid (Pool.deposit m u x y rpa rpb p)
  | withdraw u l rpa rpb => seen .paid (Pool.withdraw m u l rpa rpb p)
  | sellX dx o => seen .sold (Pool.executeSwapFromX m fuel dx o p)
  | sellY dy o => seen .sold (Pool.executeSwapFromY m fuel dy o p)

/-- One call after the other, going on after exceptions, as in a notebook. -/
def session (m : LibM) (fuel : Nat) : Pool → List Ask → Pool × List Answer
  | p, [] => (p, [])
  | p, a :: as =>
    let (q, r) := a.call m fuel p
    let (q, rs) := session m fuel q as
    (q, r :: rs)

end Hmm.Proto
