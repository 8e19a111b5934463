import Verif.Spec.Fees
import Verif.Spec.Solvency

/-
Who is owed the fees of a swap, and what the positions can still claim.
-/

namespace Hmm

/-- One stage of a swap, at one tick: what went into each fee pot, and the growth per unit of liquidity
credited for it. -/
structure Stage where
  tick : Nat
  fee : Kind → ℚ
  rate : Kind → ℚ

namespace Pool

/-- The pot behind one kind of growth. -/
def pot (p : Pool) : Kind → Decimal
  | .fx => p.xFee
  | .fy => p.yFee
  | .hx => p.xAdj
  | .hy => p.yAdj

/-- The growth noted in a position when it was last settled. -/
def noted (ps : List (PositionKey × PositionState)) (key : PositionKey) (k : Kind) : ℚ :=
  (mapGet key ps).elim 0 fun s => (s.fees.at k).toRat

/-- The fees of a swap are shared, stage by stage, among the positions in range at that stage: each gets
its share per unit of liquidity, rounded down to the last digit, and nobody else gets anything. -/
structure Shared (p p' : Pool) (ss : List Stage) : Prop where
  pot : ∀ k, (p'.pot k).toRat = (p.pot k).toRat + (ss.map (·.fee k)).sum
  split : ∀ s ∈ ss, 0 < p.inRange s.tick ∧ ∀ k, 0 ≤ s.rate k ∧
    s.rate k * p.inRange s.tick ≤ s.fee k ∧ s.fee k < (s.rate k + ulp 12) * p.inRange s.tick
  inside : ∀ key, 0 < liqOf p.positions key → ∀ k, p'.inside k key.lower key.upper =
    p.inside k key.lower key.upper +
      (ss.map fun s => if key.lower ≤ s.tick ∧ s.tick < key.upper then s.rate k else 0).sum

/-- What all positions together have earned between two states with the same positions. -/
def gained (p p' : Pool) (k : Kind) : ℚ :=
  sumPos (fun key => p'.inside k key.lower key.upper - p.inside k key.lower key.upper) p.positions

/-- What all positions together can still claim: liquidity times the growth inside their range since they
were last settled. -/
def unclaimed (p : Pool) (k : Kind) : ℚ :=
  sumPos (fun key => p.inside k key.lower key.upper - noted p.positions key k) p.positions

/-- No position begins or ends at a tick. -/
def Unused (p : Pool) (t : Nat) : Prop := p.startingAt t = 0 ∧ p.endingAt t = 0

/-- Histories in which every new position is opened at a lower bound not in use, swaps that fill the whole
offer leave the price away from the grid, and the total liquidity never exceeds a cap, with the number of
operations, a swap counting once for each initialised tick and once more. -/
inductive Fresh (cap : ℚ) : Nat → Pool → Prop
  | new {rp : Decimal} {spacing : Nat} {c fee : Decimal} {p : Pool} :
      Pool.new rp spacing c fee = .ok p → Fresh cap 0 p
  | deposit {n : Nat} {p p' : Pool} {user lower upper : Nat} {x y rpa rpb : Decimal} {r : Receipt} :
      Fresh cap n p → p.rpToPossibleTick rpa false 0 = .ok lower → p.rpToPossibleTick rpb false lower = .ok upper →
      mapGet ⟨user, lower, upper⟩ p.positions ≠ none ∨ Unused p lower →
      p.deposit user x y rpa rpb = .ok (p', r) → p'.totalLiq ≤ cap → Fresh cap (n + 1) p'
  | withdraw {n : Nat} {p p' : Pool} {user : Nat} {liq rpa rpb : Decimal} {r : Receipt} : Fresh cap n p →
      p.withdraw user liq rpa rpb = .ok (p', r) → Fresh cap (n + 1) p'
  | sellX {n : Nat} {fl : FloatEnv} {p p' : Pool} {dx o : Decimal} {r : SwapOutput} : Fresh cap n p →
      p.executeSwapFromX fl dx o = .ok (p', r) → (r.recv.toRat = dx.toRat → Away p') →
      Fresh cap (n + (p.ticks.length + 1)) p'
  | sellY {n : Nat} {fl : FloatEnv} {p p' : Pool} {dy o : Decimal} {r : SwapOutput} : Fresh cap n p →
      p.executeSwapFromY fl dy o = .ok (p', r) → (r.recv.toRat = dy.toRat → Away p') →
      Fresh cap (n + (p.ticks.length + 1)) p'

end Pool

end Hmm
