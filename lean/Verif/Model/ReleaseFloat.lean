import Verif.Model.FloatPool

/-
The floating-point pool, `programs/hmmcl-sandbox/src/cl_pool_float/mod.rs` ("mod"), in a build without overflow
checks.  Ticks are `u32`; the only plain integer operator of the module is `provided_tick - 1` in `cross_tick`
(mod 183).  Only the functions that reach it are repeated; creation, deposits and withdrawals are those of
`FloatPool.lean`.
-/

namespace Hmm.Flt.Unchecked

open F64 Pool

/-- `t - 1` on a `u32` without overflow checks. -/
def pred32 (t : Nat) : Nat := if t = 0 then 2 ^ 32 - 1 else t - 1

/-- `cross_tick`, mod 152-188. -/
def crossTick (p : Pool) (tick : Nat) (leftToRight : Bool) : R Pool := do
  if !leftToRight && p.gs.tick ≠ tick then rpanic
  else
    let g := p.gs.fees
    match mapGet tick p.ticks with
    | none => rpanic
    | some ts =>
      let liq := if leftToRight then ts.liqNet else ts.liqNet.neg
      let f : Fees := ⟨sub g.fx ts.fees.fx, sub g.fy ts.fees.fy, sub g.hx ts.fees.hx, sub g.hy ts.fees.hy⟩
      let p := { p with ticks := mapSet tick { ts with fees := f } p.ticks }
      let t := if leftToRight then tick else p.tickToPossibleTick (pred32 tick) leftToRight
      (p.setTick t).addGlblLiq liq

/-- The descending loop of `try_get_in_range`, mod 264-285. -/
def tryInRangeLeft (m : LibM) : List Nat → Pool → R (Pool × Option Nat × F64)
  | [], p => .ok (p, none, p.gs.rp)
  | tk :: tks, p => do
    if tk > p.gs.tick then tryInRangeLeft m tks p
    else
      let p := (p.setTick tk).setRp (tickToRp m tk)
      let p ← crossTick p tk false
      let goal := p.leftLimit p.gs.tick
      if lt p.gs.liq F64.zero then rpanic
      else if lt F64.zero p.gs.liq then return (p, goal, p.gs.rp)
      else tryInRangeLeft m tks p

/-- The ascending loop of `try_get_in_range`, mod 287-306. -/
def tryInRangeRight (m : LibM) : List Nat → Pool → R (Pool × Option Nat × F64)
  | [], p => .ok (p, none, p.gs.rp)
  | tk :: tks, p => do
    if tk ≤ p.gs.tick then tryInRangeRight m tks p
    else
      let p := (p.setTick tk).setRp (tickToRp m tk)
      let p ← crossTick p tk true
      let goal ← p.rightLimit tk tk
      if lt p.gs.liq F64.zero then rpanic
      else if lt F64.zero p.gs.liq then return (p, goal, p.gs.rp)
      else tryInRangeRight m tks p

/-- `try_get_in_range`, mod 255-309, with `GetInRangeOutput::new`, comp 221-226. -/
def tryGetInRange (m : LibM) (p : Pool) (leftToRight : Bool) : R (Pool × Option Nat × F64) := do
  if lt F64.zero p.gs.liq then rpanic
  else
    let (p, goal, rp) ← (if leftToRight then tryInRangeRight m (p.tickKeys false) p
      else tryInRangeLeft m (p.tickKeys true) p)
    if lt rp F64.zero then rpanic else return (p, goal, rp)

/-- The `Some(gtk)` arm of the loop of `execute_swap_from_x`, mod 687-737. -/
def stepX (m : LibM) (dx o : F64) (p : Pool) (a : SwapAcc) (gtk : Nat) : R (Pool × SwapAcc) := do
  let r ← p.swapWithinX m a.currRp gtk p.gs.liq (sub dx a.recv) o
  rassert (le F64.zero (sub (add p.y r.send) r.sendHmmAdj))
  rassert (le (add r.recv r.recvFee) (sub dx a.recv))
  let a : SwapAcc := ⟨add a.recv (add r.recv r.recvFee), add a.send r.send, add a.adj r.sendHmmAdj,
    add a.fee r.recvFee, r.endTick, r.endRp⟩
  let p := { (p.setTick r.endTick).setRp r.endRp with
    x := add p.x r.recv, y := add p.y (sub r.send r.sendHmmAdj),
    xFee := add p.xFee r.recvFee, yAdj := add p.yAdj r.sendHmmAdj }
  let p := if lt F64.zero p.gs.liq then
      p.setFees { p.gs.fees with
        fx := add p.gs.fees.fx (div r.recvFee p.gs.liq), hy := add p.gs.fees.hy (div r.sendHmmAdj p.gs.liq) }
    else p
  let p ← (if r.cross then do
      rassert (decide (r.endTick = gtk))
      if (mapGet gtk p.ticks).isSome then crossTick p gtk false else .ok p
    else .ok p)
  return (p, a)

/-- The `while` loop of `execute_swap_from_x`, mod 643-739. -/
def loopX (m : LibM) (dx o : F64) : Nat → Pool → SwapAcc → R (Pool × SwapOutput)
  | 0, _, _ => .error .diverge
  | fuel + 1, p, a => do
    if lt a.recv dx then
      let (p, goal, a) ← (if lt F64.zero p.gs.liq then .ok (p, p.leftLimit a.currT, a)
        else do
          let (p, goal, rp) ← tryGetInRange m p false
          return (p, goal, { a with currRp := rp }) : R (Pool × Option Nat × SwapAcc))
      match goal with
      | none => finishX p a
      | some gtk => do
        let (p, a) ← stepX m dx o p a gtk
        loopX m dx o fuel p a
    else finishX p a

/-- `execute_swap_from_x`, mod 623-756, with at most `fuel` rounds of its loop. -/
def executeSwapFromX (m : LibM) (fuel : Nat) (p : Pool) (dx o : F64) : R (Pool × SwapOutput) :=
  if le dx F64.zero then rpanic else loopX m dx o fuel p p.acc0

/-- The `Some(gtk)` arm of the loop of `execute_swap_from_y`, mod 927-977. -/
def stepY (m : LibM) (dy o : F64) (p : Pool) (a : SwapAcc) (gtk : Nat) : R (Pool × SwapAcc) := do
  let r ← p.swapWithinY m a.currRp gtk p.gs.liq (sub dy a.recv) o
  rassert (le F64.zero (sub (add p.x r.send) r.sendHmmAdj))
  rassert (le (add r.recv r.recvFee) (sub dy a.recv))
  let a : SwapAcc := ⟨add a.recv (add r.recv r.recvFee), add a.send r.send, add a.adj r.sendHmmAdj,
    add a.fee r.recvFee, r.endTick, r.endRp⟩
  let p := { (p.setTick r.endTick).setRp r.endRp with
    x := add p.x (sub r.send r.sendHmmAdj), y := add p.y r.recv,
    xAdj := add p.xAdj r.sendHmmAdj, yFee := add p.yFee r.recvFee }
  let p := if lt F64.zero p.gs.liq then
      p.setFees { p.gs.fees with
        hx := add p.gs.fees.hx (div r.sendHmmAdj p.gs.liq), fy := add p.gs.fees.fy (div r.recvFee p.gs.liq) }
    else p
  let p ← (if r.cross then do
      rassert (decide (r.endTick = gtk))
      if (mapGet gtk p.ticks).isSome then crossTick p gtk true else .ok p
    else .ok p)
  return (p, a)

/-- The `while` loop of `execute_swap_from_y`, mod 883-979. -/
def loopY (m : LibM) (dy o : F64) : Nat → Pool → SwapAcc → R (Pool × SwapOutput)
  | 0, _, _ => .error .diverge
  | fuel + 1, p, a => do
    if lt a.recv dy then
      let (p, goal, a) ← (if lt F64.zero p.gs.liq then do
          return (p, ← p.rightLimit a.currT p.gs.tick, a)
        else do
          let (p, goal, rp) ← tryGetInRange m p true
          return (p, goal, { a with currRp := rp }) : R (Pool × Option Nat × SwapAcc))
      match goal with
      | none => finishY p a
      | some gtk => do
        let (p, a) ← stepY m dy o p a gtk
        loopY m dy o fuel p a
    else finishY p a

/-- `execute_swap_from_y`, mod 863-996, with at most `fuel` rounds of its loop. -/
def executeSwapFromY (m : LibM) (fuel : Nat) (p : Pool) (dy o : F64) : R (Pool × SwapOutput) :=
  if le dy F64.zero then rpanic else loopY m dy o fuel p p.acc0

end Hmm.Flt.Unchecked
