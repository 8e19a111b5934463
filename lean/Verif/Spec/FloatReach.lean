import Verif.Model.FloatPool
import Verif.Spec.F64

/-
Histories of the floating-point pool, and what its ticks should record.
-/

namespace Hmm.Flt

open F64

/-- The pools reachable by calls of the public methods that return; `m` is the math library, the same
throughout. -/
inductive Reach (m : LibM) : Pool → Prop
  | new {rp c fee : F64} {spacing : Nat} {p : Pool} (h : Pool.new m rp spacing c fee = .ok p) : Reach m p
  | deposit {p p' : Pool} {r : Pool.Receipt} {user : Nat} {x y rpa rpb : F64} (h0 : Reach m p)
      (h : p.deposit m user x y rpa rpb = .ok (p', r)) : Reach m p'
  | withdraw {p p' : Pool} {r : Pool.Receipt} {user : Nat} {liq rpa rpb : F64} (h0 : Reach m p)
      (h : p.withdraw m user liq rpa rpb = .ok (p', r)) : Reach m p'
  | swapX {p p' : Pool} {o : SwapOutput} {fuel : Nat} {dx oracle : F64} (h0 : Reach m p)
      (h : p.executeSwapFromX m fuel dx oracle = .ok (p', o)) : Reach m p'
  | swapY {p p' : Pool} {o : SwapOutput} {fuel : Nat} {dy oracle : F64} (h0 : Reach m p)
      (h : p.executeSwapFromY m fuel dy oracle = .ok (p', o)) : Reach m p'

/-- `p'` is reached from `p` by further calls that return. -/
inductive Later (m : LibM) (p : Pool) : Pool → Prop
  | refl : Later m p p
  | deposit {q q' : Pool} {r : Pool.Receipt} {user : Nat} {x y rpa rpb : F64} (h0 : Later m p q)
      (h : q.deposit m user x y rpa rpb = .ok (q', r)) : Later m p q'
  | withdraw {q q' : Pool} {r : Pool.Receipt} {user : Nat} {liq rpa rpb : F64} (h0 : Later m p q)
      (h : q.withdraw m user liq rpa rpb = .ok (q', r)) : Later m p q'
  | swapX {q q' : Pool} {o : SwapOutput} {fuel : Nat} {dx oracle : F64} (h0 : Later m p q)
      (h : q.executeSwapFromX m fuel dx oracle = .ok (q', o)) : Later m p q'
  | swapY {q q' : Pool} {o : SwapOutput} {fuel : Nat} {dy oracle : F64} (h0 : Later m p q)
      (h : q.executeSwapFromY m fuel dy oracle = .ok (q', o)) : Later m p q'

/-- The sum over the positions of their liquidity, weighted by `w`. -/
def Pool.sumLiq (p : Pool) (w : PositionKey → ℚ) : ℚ := (p.positions.map fun e => w e.1 * e.2.liq.val).sum

/-- Liquidity of all positions together. -/
def Pool.total (p : Pool) : ℚ := p.sumLiq fun _ => 1

/-- Liquidity of the positions with a bound at `t`; one with both bounds there counts twice. -/
def Pool.touching (p : Pool) (t : Nat) : ℚ :=
  p.sumLiq fun k => (if k.lower = t then 1 else 0) + (if k.upper = t then 1 else 0)

/-- Liquidity that becomes active when the price rises through `t`. -/
def Pool.entering (p : Pool) (t : Nat) : ℚ :=
  p.sumLiq fun k => (if k.lower = t then 1 else 0) - (if k.upper = t then 1 else 0)

/-- The tick records are those of the positions. -/
def Pool.Books (p : Pool) : Prop :=
  ∀ t, match mapGet t p.ticks with
    | none => p.touching t = 0 ∧ p.entering t = 0
    | some ts => ts.liqGross.Is (p.touching t) ∧ ts.liqNet.Is (p.entering t) ∧ 0 < p.touching t

/-- Every position has a finite liquidity, and together they hold at most `2^52`. -/
def Pool.Bounded (p : Pool) : Prop := (∀ k v, (k, v) ∈ p.positions → v.liq.Finite) ∧ p.total ≤ 2 ^ 52

/-- Liquidity of the positions whose range contains the current tick. -/
def Pool.inRange (p : Pool) : ℚ :=
  p.sumLiq fun k => if k.lower ≤ p.gs.tick ∧ p.gs.tick < k.upper then 1 else 0

/-- Histories in which withdrawals are of whole liquidity and the liquidity of all positions together never
exceeds `2^52`. -/
inductive WholeReach (m : LibM) : Pool → Prop
  | new {rp c fee : F64} {spacing : Nat} {p : Pool} (h : Pool.new m rp spacing c fee = .ok p) : WholeReach m p
  | deposit {p p' : Pool} {r : Pool.Receipt} {user : Nat} {x y rpa rpb : F64} (h0 : WholeReach m p)
      (h : p.deposit m user x y rpa rpb = .ok (p', r)) (hb : p'.Bounded) : WholeReach m p'
  | withdraw {p p' : Pool} {r : Pool.Receipt} {user : Nat} {liq rpa rpb : F64} {n : ℤ} (h0 : WholeReach m p)
      (hn : liq.IsInt n) (h : p.withdraw m user liq rpa rpb = .ok (p', r)) : WholeReach m p'
  | swapX {p p' : Pool} {o : SwapOutput} {fuel : Nat} {dx oracle : F64} (h0 : WholeReach m p)
      (h : p.executeSwapFromX m fuel dx oracle = .ok (p', o)) : WholeReach m p'
  | swapY {p p' : Pool} {o : SwapOutput} {fuel : Nat} {dy oracle : F64} (h0 : WholeReach m p)
      (h : p.executeSwapFromY m fuel dy oracle = .ok (p', o)) : WholeReach m p'

/-- The same without swaps. -/
inductive Quiet (m : LibM) : Pool → Prop
  | new {rp c fee : F64} {spacing : Nat} {p : Pool} (h : Pool.new m rp spacing c fee = .ok p) : Quiet m p
  | deposit {p p' : Pool} {r : Pool.Receipt} {user : Nat} {x y rpa rpb : F64} (h0 : Quiet m p)
      (h : p.deposit m user x y rpa rpb = .ok (p', r)) (hb : p'.Bounded) : Quiet m p'
  | withdraw {p p' : Pool} {r : Pool.Receipt} {user : Nat} {liq rpa rpb : F64} {n : ℤ} (h0 : Quiet m p)
      (hn : liq.IsInt n) (h : p.withdraw m user liq rpa rpb = .ok (p', r)) : Quiet m p'

theorem Quiet.whole {m : LibM} {p : Pool} (h : Quiet m p) : WholeReach m p := by
  induction h with
  | new h => exact .new h
  | deposit _ h hb ih => exact .deposit ih h hb
  | withdraw _ hn h ih => exact .withdraw ih hn h

theorem WholeReach.reach {m : LibM} {p : Pool} (h : WholeReach m p) : Reach m p := by
  induction h with
  | new h => exact .new h
  | deposit _ h _ ih => exact .deposit ih h
  | withdraw _ _ h ih => exact .withdraw ih h
  | swapX _ h ih => exact .swapX ih h
  | swapY _ h ih => exact .swapY ih h

end Hmm.Flt
