import Verif.Spec.FloatReach

/-
Where price and current tick of the floating-point pool stand with respect to the initialised ticks, and
histories in which no swap stops on one of them.
-/

namespace Hmm.Flt

open F64

/-- Price and current tick are on the same side of every initialised tick, whose prices rise with the ticks.
The price may be that of a tick. -/
def Pool.Placed (m : LibM) (p : Pool) : Prop :=
  (∀ k ∈ p.ticks.map (·.1), if k ≤ p.gs.tick then le (tickToRp m k) p.gs.rp = true else le p.gs.rp (tickToRp m k) = true) ∧
  ∀ j ∈ p.ticks.map (·.1), ∀ k ∈ p.ticks.map (·.1), j ≤ k → le (tickToRp m j) (tickToRp m k) = true

instance (m : LibM) (p : Pool) : Decidable (p.Placed m) := by unfold Pool.Placed; infer_instance

/-- The tick computed for the price `rp` is on the same side of every initialised tick as `rp`, which is not
the price of any of them. -/
def Pool.Clear (m : LibM) (p : Pool) (rp : F64) : Prop :=
  ∀ k ∈ p.ticks.map (·.1),
    if k ≤ rpToTick m rp false then lt (tickToRp m k) rp = true else lt rp (tickToRp m k) = true

instance (m : LibM) (p : Pool) (rp : F64) : Decidable (p.Clear m rp) := by unfold Pool.Clear; infer_instance

/-- The prices at which rounds of a sale of X end without reaching a tick. -/
def stopsX (m : LibM) (dx o : F64) : Nat → Pool → Pool.SwapAcc → List F64
  | 0, _, _ => []
  | fuel + 1, p, a =>
    if lt a.recv dx then
      let aim : R (Pool × Option Nat × F64) :=
        if lt F64.zero p.gs.liq then .ok (p, p.leftLimit a.currT, a.currRp) else p.tryGetInRange m false
      match aim with
      | .ok (q, some g, rp) =>
        match q.swapWithinX m rp g q.gs.liq (sub dx a.recv) o, Pool.stepX m dx o q { a with currRp := rp } g with
        | .ok r, .ok (q', a') => (if r.cross then [] else [r.endRp]) ++ stopsX m dx o fuel q' a'
        | _, _ => []
      | _ => []
    else []

/-- The prices at which rounds of a sale of Y end without reaching a tick. -/
def stopsY (m : LibM) (dy o : F64) : Nat → Pool → Pool.SwapAcc → List F64
  | 0, _, _ => []
  | fuel + 1, p, a =>
    if lt a.recv dy then
      let aim : R (Pool × Option Nat × F64) :=
        if lt F64.zero p.gs.liq then do return (p, ← p.rightLimit a.currT p.gs.tick, a.currRp) else p.tryGetInRange m true
      match aim with
      | .ok (q, some g, rp) =>
        match q.swapWithinY m rp g q.gs.liq (sub dy a.recv) o, Pool.stepY m dy o q { a with currRp := rp } g with
        | .ok r, .ok (q', a') => (if r.cross then [] else [r.endRp]) ++ stopsY m dy o fuel q' a'
        | _, _ => []
      | _ => []
    else []

/-- Histories as in `WholeReach` on a grid, with deposits to ranges whose lower bound is not above the upper one
and whose ticks are in place, and swaps that do not stop on an initialised tick. -/
inductive ClearReach (m : LibM) : Pool → Prop
  | new {rp c fee : F64} {spacing : Nat} {p : Pool} (hs : 0 < spacing ∧ spacing < 2 ^ 32)
      (h : Pool.new m rp spacing c fee = .ok p) : ClearReach m p
  | deposit {p p' : Pool} {r : Pool.Receipt} {user : Nat} {x y rpa rpb : F64} (h0 : ClearReach m p)
      (hr : rpToPossibleTk m rpa p.spacing false ≤ rpToPossibleTk m rpb p.spacing false)
      (h : p.deposit m user x y rpa rpb = .ok (p', r)) (hb : p'.Bounded) (hp : p'.Placed m) : ClearReach m p'
  | withdraw {p p' : Pool} {r : Pool.Receipt} {user : Nat} {liq rpa rpb : F64} {n : ℤ} (h0 : ClearReach m p)
      (hn : liq.IsInt n) (h : p.withdraw m user liq rpa rpb = .ok (p', r)) : ClearReach m p'
  | swapX {p p' : Pool} {o : SwapOutput} {fuel : Nat} {dx oracle : F64} (h0 : ClearReach m p)
      (h : p.executeSwapFromX m fuel dx oracle = .ok (p', o))
      (hc : ∀ rp ∈ stopsX m dx oracle fuel p p.acc0, p.Clear m rp) : ClearReach m p'
  | swapY {p p' : Pool} {o : SwapOutput} {fuel : Nat} {dy oracle : F64} (h0 : ClearReach m p)
      (h : p.executeSwapFromY m fuel dy oracle = .ok (p', o))
      (hc : ∀ rp ∈ stopsY m dy oracle fuel p p.acc0, p.Clear m rp) : ClearReach m p'

theorem ClearReach.whole {m : LibM} {p : Pool} (h : ClearReach m p) : WholeReach m p := by
  induction h with
  | new _ h => exact .new h
  | deposit _ _ h hb _ ih => exact .deposit ih h hb
  | withdraw _ hn h ih => exact .withdraw ih hn h
  | swapX _ h _ ih => exact .swapX ih h
  | swapY _ h _ ih => exact .swapY ih h

end Hmm.Flt
