import Verif.Spec.Earned

/-
What it takes for owners to get their money back.
-/

namespace Hmm.Pool

/-- Numbers below this can be multiplied by a one with twelve decimals, at twelve decimals, in 128 bits. -/
def top : ℚ := 2 ^ 128 / 10 ^ 24

/-- No amount in the pool is so large that computing with it would outgrow 128 bits. -/
structure Small (p : Pool) : Prop where
  x : p.x.toRat < top
  y : p.y.toRat < top
  pots : ∀ k, (p.pot k).toRat < top
  total : p.totalLiq < top
  ranges : ∀ key, 0 < liqOf p.positions key →
    liqOf p.positions key * tickPrice key.upper < top ∧ tickPrice key.upper ^ 2 < top

/-- The reserves hold what the positions hold. -/
def Covered (p : Pool) : Prop := p.owedX ≤ p.x.toRat ∧ p.owedY ≤ p.y.toRat

/-- The two prices given name the range of a position. -/
def Names (p : Pool) (key : PositionKey) (rpa rpb : Decimal) : Prop :=
  p.rpToPossibleTick rpa false 0 = .ok key.lower ∧ p.rpToPossibleTick rpb false key.lower = .ok key.upper

/-- One owner after the other withdraws the whole of a position. -/
inductive Leaves : Pool → List PositionKey → Pool → Prop
  | nil {p : Pool} : Leaves p [] p
  | cons {p p1 p' : Pool} {key : PositionKey} {keys : List PositionKey} {liq rpa rpb : Decimal} {r : Receipt} :
      liq.toRat = liqOf p.positions key → Names p key rpa rpb → p.withdraw key.user liq rpa rpb = .ok (p1, r) →
      Leaves p1 keys p' → Leaves p (key :: keys) p'

end Hmm.Pool
