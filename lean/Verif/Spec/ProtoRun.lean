import Verif.Spec.Proto

/-
Histories of a pool, as the prototype and the Rust twin carry them out.
-/

namespace Hmm.Proto

open F64

/-- What somebody asks of a pool. -/
inductive Act
  | deposit (user : Nat) (x y rpa rpb : F64)
  | sellX (dx oracle : F64)
  | sellY (dy oracle : F64)

/-- What the prototype answers. -/
inductive Done
  | took (r : Pool.Receipt)
  | sold (o : Pool.Output)

/-- What the Rust code answers. -/
inductive Did
  | took (r : Flt.Pool.Receipt)
  | sold (o : Flt.SwapOutput)

/-- The Rust code is asked. -/
def Act.rs (m : LibM) (fuel : Nat) (p : Flt.Pool) : Act → R (Flt.Pool × Did)
  | deposit u x y rpa rpb => do
    let (p', r) ← p.deposit m u x y rpa rpb
    return (p', .took r)
  | sellX d o => do
    let (p', r) ← p.executeSwapFromX m fuel d o
    return (p', .sold r)
  | sellY d o => do
    let (p', r) ← p.executeSwapFromY m fuel d o
    return (p', .sold r)

/-- The Rust code is asked one thing after the other. -/
def rsRun (m : LibM) (fuel : Nat) : Flt.Pool → List Act → R (Flt.Pool × List Did)
  | p, [] => .ok (p, [])
  | p, a :: l => do
    let (p1, d) ← a.rs m fuel p
    let (p2, ds) ← rsRun m fuel p1 l
    return (p2, d :: ds)

/-- The same answer. -/
inductive SameDone (m : LibM) : Did → Done → Prop
  | took (r) : SameDone m (.took r) (.took r)
  | sold {r s} (rp : F64) (h : SameOut m rp r s) : SameDone m (.sold r) (.sold s)

/-- What is asked of a deposit for the two to agree: it comes while the price is that of the pool's tick; its range is in order,
does not reach below tick zero and neither begins nor ends there; something is taken; and the liquidity of positions is a
double. -/
structure Proper (m : LibM) (rpa rpb : F64) (q : Pool) (r : Pool.Receipt) (q' : Pool) : Prop where
  price : tickToRp m q.tick = .ok q.rp
  above : lt rpa one = false ∧ lt rpb one = false
  range : ∃ lo up a b, q.rpToPossibleTick m rpa false = .ok lo ∧ q.rpToPossibleTick m rpb false = .ok up ∧
    tickToRp m lo = .ok a ∧ tickToRp m up = .ok b ∧ le a b = true ∧ lo ≠ 0 ∧ up ≠ 0
  some : F64.eq r.x zero = false ∨ F64.eq r.y zero = false
  exact : Exact q'.positions

/-- The prototype carries out a history, with such deposits in it. -/
inductive Carried (m : LibM) (fuel : Nat) : Pool → List Act → List Done → Pool → Prop
  | nil (q) : Carried m fuel q [] [] q
  | deposit {q q1 q' l ds u x y rpa rpb r} (h : Pool.deposit m u x y rpa rpb q = .ok r q1) (hp : Proper m rpa rpb q r q1)
      (rest : Carried m fuel q1 l ds q') : Carried m fuel q (.deposit u x y rpa rpb :: l) (.took r :: ds) q'
  | sellX {q q1 q' l ds d o r} (h : Pool.executeSwapFromX m fuel d (some o) q = .ok r q1)
      (rest : Carried m fuel q1 l ds q') : Carried m fuel q (.sellX d o :: l) (.sold r :: ds) q'
  | sellY {q q1 q' l ds d o r} (h : Pool.executeSwapFromY m fuel d (some o) q = .ok r q1)
      (rest : Carried m fuel q1 l ds q') : Carried m fuel q (.sellY d o :: l) (.sold r :: ds) q'

end Hmm.Proto
