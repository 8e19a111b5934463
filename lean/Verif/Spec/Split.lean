import Verif.Spec.Reach

/-
A sale in parts.
-/

namespace Hmm.Pool

/-- `SalesX p n q x y`: `n` sales of X in a row lead from `p` to `q`; the pool takes `x` of X in all, and `y` is the
Y it pays for it together with what it withholds as HMM adjustment.  Every sale starts in a state of the histories of
`ClearReachable` (how the last one ends does not matter). -/
inductive SalesX (p : Pool) : Nat → Pool → ℚ → ℚ → Prop
  | none : SalesX p 0 p 0 0
  | sell {n : Nat} {fl : FloatEnv} {q q' : Pool} {x y : ℚ} {dx o : Decimal} {r : SwapOutput} :
      SalesX p n q x y → ClearReachable q → q.executeSwapFromX fl dx o = .ok (q', r) →
      SalesX p (n + 1) q' (x + r.recv.toRat) (y + (r.sendHmmAdj.toRat - r.send.toRat))

/-- The same for sales of Y. -/
inductive SalesY (p : Pool) : Nat → Pool → ℚ → ℚ → Prop
  | none : SalesY p 0 p 0 0
  | sell {n : Nat} {fl : FloatEnv} {q q' : Pool} {x y : ℚ} {dy o : Decimal} {r : SwapOutput} :
      SalesY p n q y x → ClearReachable q → q.executeSwapFromY fl dy o = .ok (q', r) →
      SalesY p (n + 1) q' (y + r.recv.toRat) (x + (r.sendHmmAdj.toRat - r.send.toRat))

end Hmm.Pool
