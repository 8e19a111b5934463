import Verif.Model.Pool

/-
The swap loops as relations, without a bound on the number of rounds.
The model runs the `while` loops of `execute_swap_from_x` / `execute_swap_from_y` on a bounded number
of rounds; the relations below follow the source text (mod 788-896, 1051-1159) round by round, so "the
loop ends after `k` steps with this outcome" can be stated without that bound.
-/

namespace Hmm.Pool

/-- The choice of the next goal tick at the head of the loop of a sale of X. -/
def goalX (p : Pool) (a : SwapAcc) : R (Pool × Option Nat × SwapAcc) :=
  if p.gs.liq.isPositive then do
    return (p, ← p.leftLimit a.currT, a)
  else do
    let (p, goal, rp) ← p.tryGetInRange false
    return (p, goal, { a with currRp := rp })

/-- The choice of the next goal tick at the head of the loop of a sale of Y. -/
def goalY (p : Pool) (a : SwapAcc) : R (Pool × Option Nat × SwapAcc) :=
  if p.gs.liq.isPositive then do
    return (p, ← p.rightLimit a.currT p.gs.tick, a)
  else do
    let (p, goal, rp) ← p.tryGetInRange true
    return (p, goal, { a with currRp := rp })

/-- `RunX … p a k res`: the loop of a sale of X, entered in state `p` with totals `a`, ends after
exactly `k` swap steps with outcome `res` (a result or an error). -/
inductive RunX (fl : FloatEnv) (dx o : Decimal) : Pool → SwapAcc → Nat → R (Pool × SwapOutput) → Prop
  /-- the loop test itself fails -/
  | failTest {p a e} : unwrap (a.recv.lt dx) = .error e → RunX fl dx o p a 0 (.error e)
  /-- everything offered has been taken -/
  | done {p a} : unwrap (a.recv.lt dx) = .ok false → RunX fl dx o p a 0 (finishX p a)
  /-- the search for the next tick fails -/
  | failGoal {p a e} : unwrap (a.recv.lt dx) = .ok true → goalX p a = .error e →
      RunX fl dx o p a 0 (.error e)
  /-- no further tick: the liquidity is used up -/
  | exhausted {p a p1 a1} : unwrap (a.recv.lt dx) = .ok true → goalX p a = .ok (p1, none, a1) →
      RunX fl dx o p a 0 (finishX p1 a1)
  /-- a step fails -/
  | failStep {p a p1 g a1 e} : unwrap (a.recv.lt dx) = .ok true → goalX p a = .ok (p1, some g, a1) →
      stepX fl dx o p1 a1 g = .error e → RunX fl dx o p a 1 (.error e)
  /-- a step succeeds and the loop goes on -/
  | step {p a p1 g a1 p2 a2 k res} : unwrap (a.recv.lt dx) = .ok true →
      goalX p a = .ok (p1, some g, a1) → stepX fl dx o p1 a1 g = .ok (p2, a2) →
      RunX fl dx o p2 a2 k res → RunX fl dx o p a (k + 1) res

/-- `RunY … p a k res`: the loop of a sale of Y, entered in state `p` with totals `a`, ends after
exactly `k` swap steps with outcome `res` (a result or an error). -/
inductive RunY (fl : FloatEnv) (dy o : Decimal) : Pool → SwapAcc → Nat → R (Pool × SwapOutput) → Prop
  /-- the loop test itself fails -/
  | failTest {p a e} : unwrap (a.recv.lt dy) = .error e → RunY fl dy o p a 0 (.error e)
  /-- everything offered has been taken -/
  | done {p a} : unwrap (a.recv.lt dy) = .ok false → RunY fl dy o p a 0 (finishY p a)
  /-- the search for the next tick fails -/
  | failGoal {p a e} : unwrap (a.recv.lt dy) = .ok true → goalY p a = .error e →
      RunY fl dy o p a 0 (.error e)
  /-- no further tick: the liquidity is used up -/
  | exhausted {p a p1 a1} : unwrap (a.recv.lt dy) = .ok true → goalY p a = .ok (p1, none, a1) →
      RunY fl dy o p a 0 (finishY p1 a1)
  /-- a step fails -/
  | failStep {p a p1 g a1 e} : unwrap (a.recv.lt dy) = .ok true → goalY p a = .ok (p1, some g, a1) →
      stepY fl dy o p1 a1 g = .error e → RunY fl dy o p a 1 (.error e)
  /-- a step succeeds and the loop goes on -/
  | step {p a p1 g a1 p2 a2 k res} : unwrap (a.recv.lt dy) = .ok true →
      goalY p a = .ok (p1, some g, a1) → stepY fl dy o p1 a1 g = .ok (p2, a2) →
      RunY fl dy o p2 a2 k res → RunY fl dy o p a (k + 1) res

end Hmm.Pool
