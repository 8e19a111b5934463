import Verif.Spec.Reach

/-
What the positions of a pool could claim at its price, computed exactly.
-/

namespace Hmm.Pool

/-- The root price of a tick, as a number. -/
def tickPrice (t : Nat) : ℚ :=
  match PoolMath.tickToRp t with
  | .ok q => q.toRat
  | .error _ => 0

/-- A price moved into a range. -/
def clampTo (v lo hi : ℚ) : ℚ := max lo (min v hi)

/-- The Y that a liquidity `l` between the ticks `lower` and `upper` holds at the root price `v`. -/
def shareY (l v : ℚ) (lower upper : Nat) : ℚ :=
  (clampTo v (tickPrice lower) (tickPrice upper) - tickPrice lower) * l

/-- The X that it holds. -/
def shareX (l v : ℚ) (lower upper : Nat) : ℚ :=
  (1 / clampTo v (tickPrice lower) (tickPrice upper) - 1 / tickPrice upper) * l

/-- The Y behind all positions: a position of liquidity `L` over the root prices `[a, b]` holds
`L·(√P - a)` of Y, with `√P` moved into the range. -/
def owedY (p : Pool) : ℚ :=
  sumPos (fun k => clampTo p.gs.rp.toRat (tickPrice k.lower) (tickPrice k.upper) - tickPrice k.lower) p.positions

/-- The X behind all positions: `L·(1/√P - 1/b)` each, with `√P` moved into the range. -/
def owedX (p : Pool) : ℚ :=
  sumPos (fun k => 1 / clampTo p.gs.rp.toRat (tickPrice k.lower) (tickPrice k.upper) - 1 / tickPrice k.upper)
    p.positions

/-- The liquidity of all positions together. -/
def totalLiq (p : Pool) : ℚ := sumPos (fun _ => 1) p.positions

/-- Histories as in `ClearReachable` in which all positions together never had more liquidity than `cap`,
with a count of roundings: one for each deposit, and for each swap one more than there are initialised
ticks. -/
inductive Capped (cap : ℚ) : Nat → Pool → Prop
  | new {rp : Decimal} {spacing : Nat} {c fee : Decimal} {p : Pool} :
      Pool.new rp spacing c fee = .ok p → Capped cap 0 p
  | deposit {n : Nat} {p p' : Pool} {user : Nat} {x y rpa rpb : Decimal} {r : Receipt} : Capped cap n p →
      p.deposit user x y rpa rpb = .ok (p', r) → p'.totalLiq ≤ cap → Capped cap (n + 1) p'
  | withdraw {n : Nat} {p p' : Pool} {user : Nat} {liq rpa rpb : Decimal} {r : Receipt} : Capped cap n p →
      p.withdraw user liq rpa rpb = .ok (p', r) → Capped cap n p'
  | sellX {n : Nat} {fl : FloatEnv} {p p' : Pool} {dx o : Decimal} {r : SwapOutput} : Capped cap n p →
      p.executeSwapFromX fl dx o = .ok (p', r) → (r.recv.toRat = dx.toRat → Away p') →
      Capped cap (n + (p.ticks.length + 1)) p'
  | sellY {n : Nat} {fl : FloatEnv} {p p' : Pool} {dy o : Decimal} {r : SwapOutput} : Capped cap n p →
      p.executeSwapFromY fl dy o = .ok (p', r) → (r.recv.toRat = dy.toRat → Away p') →
      Capped cap (n + (p.ticks.length + 1)) p'

end Hmm.Pool
