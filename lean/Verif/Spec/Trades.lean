import Verif.Spec.Reach

/-
Sequences of swaps, by whichever traders, with what they pay in and take out.
-/

namespace Hmm.Pool

/-- `Trades n p q dx dy`: `n` swaps in a row lead from `p` to `q`; in total the traders pay in `dx` of X and
`dy` of Y, where what they take out counts as negative. -/
inductive Trades (p : Pool) : Nat → Pool → ℚ → ℚ → Prop
  | none : Trades p 0 p 0 0
  | sellX {n : Nat} {fl : FloatEnv} {q q' : Pool} {x y : ℚ} {dx o : Decimal} {r : SwapOutput} :
      Trades p n q x y → q.executeSwapFromX fl dx o = .ok (q', r) →
      Trades p (n + 1) q' (x + r.recv.toRat) (y + r.send.toRat)
  | sellY {n : Nat} {fl : FloatEnv} {q q' : Pool} {x y : ℚ} {dy o : Decimal} {r : SwapOutput} :
      Trades p n q x y → q.executeSwapFromY fl dy o = .ok (q', r) →
      Trades p (n + 1) q' (x + r.send.toRat) (y + r.recv.toRat)

/-- Such a sequence in which every swap starts in a state of the histories of `ClearReachable` (how the last
one ends does not matter). -/
inductive ClearTrades (p : Pool) : Nat → Pool → ℚ → ℚ → Prop
  | none : ClearTrades p 0 p 0 0
  | sellX {n : Nat} {fl : FloatEnv} {q q' : Pool} {x y : ℚ} {dx o : Decimal} {r : SwapOutput} :
      ClearTrades p n q x y → ClearReachable q → q.executeSwapFromX fl dx o = .ok (q', r) →
      ClearTrades p (n + 1) q' (x + r.recv.toRat) (y + r.send.toRat)
  | sellY {n : Nat} {fl : FloatEnv} {q q' : Pool} {x y : ℚ} {dy o : Decimal} {r : SwapOutput} :
      ClearTrades p n q x y → ClearReachable q → q.executeSwapFromY fl dy o = .ok (q', r) →
      ClearTrades p (n + 1) q' (x + r.send.toRat) (y + r.recv.toRat)

end Hmm.Pool
