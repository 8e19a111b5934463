import Verif.Spec.Order

/-
What the owner of a position gets out of deposits and withdrawals, while nothing is sold.
-/

namespace Hmm.Pool

open Decimal

/-- Deposits and withdrawals of anybody, one after the other.  The numbers are what has been paid for the position
`key`, out of the reserves less into them, of X and of Y, fees and adjustments apart, and how many deposits were added
to liquidity that the position had already. -/
inductive Dealings (key : PositionKey) : Pool → ℚ → ℚ → Nat → Pool → Prop
  | none {p : Pool} : Dealings key p 0 0 0 p
  | put {p p1 p' : Pool} {o : Offer} {r : Receipt} {x y : ℚ} {n : Nat} : p.deposit o.user o.x o.y o.rpa o.rpb = .ok (p1, r) →
      o.For p key → Dealings key p1 x y n p' →
      Dealings key p (x - r.x.toRat) (y - r.y.toRat) (if liqOf p.positions key = 0 then n else n + 1) p'
  | take {p p1 p' : Pool} {o : Request} {r : Receipt} {x y : ℚ} {n : Nat} : p.withdraw o.user o.liq o.rpa o.rpb = .ok (p1, r) →
      o.For p key → Dealings key p1 x y n p' → Dealings key p (x + r.x.toRat) (y + r.y.toRat) n p'
  | otherPut {p p1 p' : Pool} {o : Offer} {r : Receipt} {x y : ℚ} {n : Nat} :
      p.deposit o.user o.x o.y o.rpa o.rpb = .ok (p1, r) → ¬ o.For p key → Dealings key p1 x y n p' →
      Dealings key p x y n p'
  | otherTake {p p1 p' : Pool} {o : Request} {r : Receipt} {x y : ℚ} {n : Nat} :
      p.withdraw o.user o.liq o.rpa o.rpb = .ok (p1, r) → ¬ o.For p key → Dealings key p1 x y n p' →
      Dealings key p x y n p'

end Hmm.Pool
