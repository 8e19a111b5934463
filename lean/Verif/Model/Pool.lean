import Verif.Model.PoolMath
import Verif.Model.Maps

/-
Model of the in-memory pool: `programs/hmmcl-sandbox/src/cl_pool/cl_components.rs` ("comp") and
`programs/hmmcl-sandbox/src/cl_pool/mod.rs` ("mod").
`println!` is omitted, except that the arithmetic inside its arguments is kept because it can panic.
-/

namespace Hmm

open PoolMath

/-- The four fee quantities that occur together everywhere: swap fee (`f`) and HMM adjustment (`h`)
for tokens X and Y.  The character-indexed `fee`/`set_fee` accessors (comp 80-101, 158-179, 221-242)
become field access; their "not a valid fee type" panics are unreachable from `mod.rs`. -/
structure Fees where
  fx : Decimal
  fy : Decimal
  hx : Decimal
  hy : Decimal
  deriving DecidableEq, Repr, Inhabited

/-- All four fees zero at compute scale. -/
def Fees.zero : Fees := ⟨PoolMath.zero, PoolMath.zero, PoolMath.zero, PoolMath.zero⟩

/-- The test "any fee is negative" of the constructors, comp 44, 130, 199. -/
def Fees.anyNegative (f : Fees) : Bool :=
  f.fx.isNegative || f.fy.isNegative || f.hx.isNegative || f.hy.isNegative

/-- `GlobalState`, comp 17-26. -/
structure GlobalState where
  liq : Decimal
  rp : Decimal
  tick : Nat
  fees : Fees
  deriving DecidableEq, Repr, Inhabited

/-- `GlobalState::new`, comp 29-56. -/
def GlobalState.new (liq rp : Decimal) (tick : Nat) (fees : Fees) : R GlobalState :=
  if liq.isNegative then rpanic
  else if rp.isNegative then rpanic
  else if fees.anyNegative then rpanic
  else .ok ⟨liq, rp, tick, fees⟩

/-- `GlobalState::add_liq`, comp 60-67. -/
def GlobalState.addLiq (g : GlobalState) (d : Decimal) : R GlobalState := do
  let n ← unwrap (g.liq.add d)
  if n.isNegative then rpanic else return { g with liq := n }

/-- `TickState`, comp 107-116. -/
structure TickState where
  liqNet : Decimal
  liqGross : Decimal
  fees : Fees
  deriving DecidableEq, Repr, Inhabited

/-- `TickState::new`, comp 119-141. -/
def TickState.new (liqNet liqGross : Decimal) (fees : Fees) : R TickState :=
  if liqGross.isNegative then rpanic
  else if fees.anyNegative then rpanic
  else .ok ⟨liqNet, liqGross, fees⟩

/-- `TickState::add_liq_net`, comp 145-147. -/
def TickState.addLiqNet (t : TickState) (d : Decimal) : R TickState := do
  let n ← unwrap (t.liqNet.add d)
  return { t with liqNet := n }

/-- `TickState::add_liq_gross`, comp 151-157. -/
def TickState.addLiqGross (t : TickState) (d : Decimal) : R TickState := do
  let n ← unwrap (t.liqGross.add d)
  if n.isNegative then rpanic else return { t with liqGross := n }

/-- `PositionState`, comp 185-192. -/
structure PositionState where
  liq : Decimal
  fees : Fees
  deriving DecidableEq, Repr, Inhabited

/-- `PositionState::new`, comp 195-209. -/
def PositionState.new (liq : Decimal) (fees : Fees) : R PositionState :=
  if liq.isNegative then rpanic
  else if fees.anyNegative then rpanic
  else .ok ⟨liq, fees⟩

/-- `PositionState::add_liq`, comp 213-219. -/
def PositionState.addLiq (p : PositionState) (d : Decimal) : R PositionState := do
  let n ← unwrap (p.liq.add d)
  if n.isNegative then rpanic else return { p with liq := n }

/-- `PositionKey`, mod 18: user, lower tick, upper tick.  User ids are strings in Rust; they are only
compared for equality, so natural numbers stand for them. -/
structure PositionKey where
  user : Nat
  lower : Nat
  upper : Nat
  deriving DecidableEq, Repr, Inhabited

/-- `Pool`, mod 21-36.  Token names and decimals are omitted: nothing reads them. -/
structure Pool where
  spacing : Nat
  gs : GlobalState
  ticks : List (Nat × TickState)
  positions : List (PositionKey × PositionState)
  x : Decimal
  y : Decimal
  xAdj : Decimal
  yAdj : Decimal
  xFee : Decimal
  yFee : Decimal
  c : Decimal
  feeRate : Decimal
  deriving DecidableEq, Repr, Inhabited

/-- `SwapWithinResult`, comp 292-300. -/
structure SwapWithinResult where
  recv : Decimal
  send : Decimal
  endTick : Nat
  endRp : Decimal
  cross : Bool
  sendHmmAdj : Decimal
  recvFee : Decimal
  deriving DecidableEq, Repr, Inhabited

/-- `SwapWithinResult::new`, comp 304-335. -/
def SwapWithinResult.new (recv send : Decimal) (endTick : Nat) (endRp : Decimal) (cross : Bool)
    (sendHmmAdj recvFee : Decimal) : R SwapWithinResult :=
  if recv.isNegative then rpanic
  else if send.isPositive then rpanic
  else if sendHmmAdj.isNegative || recvFee.isNegative then rpanic
  else if endRp.isNegative then rpanic
  else .ok ⟨recv, send, endTick, endRp, cross, sendHmmAdj, recvFee⟩

/-- `SwapOutput`, comp 360-367. -/
structure SwapOutput where
  recv : Decimal
  send : Decimal
  sendHmmAdj : Decimal
  recvFee : Decimal
  avgPrice : Decimal
  endPrice : Decimal
  deriving DecidableEq, Repr, Inhabited

/-- `SwapOutput::new`, comp 371-407. -/
def SwapOutput.new (recv send sendHmmAdj recvFee avgPrice endPrice : Decimal) : R SwapOutput :=
  if recv.isNegative then rpanic
  else if send.isPositive then rpanic
  else if recv.isPositive && send.isZero then rpanic
  else if recv.isZero && !send.isZero then rpanic
  else if sendHmmAdj.isNegative || recvFee.isNegative then rpanic
  else if avgPrice.isNegative || endPrice.isNegative then rpanic
  else .ok ⟨recv, send, sendHmmAdj, recvFee, avgPrice, endPrice⟩

namespace Pool

/-- `Pool::new`, mod 41-93 (without token names and decimals). -/
def new (bootstrapRp : Decimal) (spacing : Nat) (hmmC feeRate : Decimal) : R Pool := do
  if bootstrapRp.isNegative then rpanic
  else if hmmC.isNegative then rpanic
  else if (← unwrap ((← hmmC.toComputeScale).gt PoolMath.two)) then rpanic
  else if feeRate.isNegative then rpanic
  else
    let tk ← rpToPossibleTk bootstrapRp spacing false 0
    let rp ← tickToRp tk
    let gs ← GlobalState.new PoolMath.zero rp tk Fees.zero
    return {
      spacing, gs, ticks := [], positions := [],
      x := PoolMath.zero, y := PoolMath.zero, xAdj := PoolMath.zero, yAdj := PoolMath.zero,
      xFee := PoolMath.zero, yFee := PoolMath.zero, c := hmmC, feeRate }

/-- `Pool::tick_to_possible_tick`, mod 136-141. -/
def tickToPossibleTick (p : Pool) (tick : Nat) (leftToRight : Bool) : R Nat :=
  tkToPossibleTk tick p.spacing leftToRight

/-- `Pool::rp_to_possible_tick`, mod 143-146. -/
def rpToPossibleTick (p : Pool) (rp : Decimal) (leftToRight : Bool) (start : Nat) : R Nat :=
  rpToPossibleTk rp p.spacing leftToRight start

/-- `Pool::set_glbl_tick`, mod 116-118. -/
def setTick (p : Pool) (t : Nat) : Pool := { p with gs := { p.gs with tick := t } }

/-- `Pool::set_glbl_rp`, mod 122-124. -/
def setRp (p : Pool) (rp : Decimal) : Pool := { p with gs := { p.gs with rp := rp } }

/-- `Pool::set_fee_glbl`, mod 129-131, all four at once. -/
def setFees (p : Pool) (f : Fees) : Pool := { p with gs := { p.gs with fees := f } }

/-- `Pool::add_glbl_liq`, mod 110-112. -/
def addGlblLiq (p : Pool) (d : Decimal) : R Pool := do
  let g ← p.gs.addLiq d
  return { p with gs := g }

/-- `Pool::initialize_tick`, mod 148-158. -/
def initializeTick (p : Pool) (tick : Nat) : R Pool := do
  let f := if p.gs.tick ≥ tick then p.gs.fees else Fees.zero
  let ts ← TickState.new PoolMath.zero PoolMath.zero f
  return { p with ticks := treeInsert tick ts p.ticks }

/-- `Pool::unset_tick`, mod 160-162. -/
def unsetTick (p : Pool) (tick : Nat) : Pool := { p with ticks := mapErase tick p.ticks }

/-- `Pool::update_tick`, mod 164-183. -/
def updateTick (p : Pool) (tick : Nat) (liqDelta : Decimal) (upper : Bool) : R Pool := do
  let p ← (match mapGet tick p.ticks with
    | none => p.initializeTick tick
    | some _ => .ok p)
  match mapGet tick p.ticks with
  | none => rpanic
  | some ts =>
    let ts ← ts.addLiqNet (if upper then liqDelta.neg else liqDelta)
    let ts ← ts.addLiqGross liqDelta
    let p := { p with ticks := mapSet tick ts p.ticks }
    if ts.liqGross.isZero then return p.unsetTick tick else return p

/-- `Pool::cross_tick`, mod 185-221.  `provided_tick - 1` panics at tick 0 (overflow checks on). -/
def crossTick (p : Pool) (tick : Nat) (leftToRight : Bool) : R Pool := do
  if !leftToRight && p.gs.tick ≠ tick then rpanic
  else
    let g := p.gs.fees
    match mapGet tick p.ticks with
    | none => rpanic
    | some ts =>
      let liq := if leftToRight then ts.liqNet else ts.liqNet.neg
      let fx ← unwrap (g.fx.sub ts.fees.fx)
      let fy ← unwrap (g.fy.sub ts.fees.fy)
      let hx ← unwrap (g.hx.sub ts.fees.hx)
      let hy ← unwrap (g.hy.sub ts.fees.hy)
      let p := { p with ticks := mapSet tick { ts with fees := ⟨fx, fy, hx, hy⟩ } p.ticks }
      let t ← (if leftToRight then .ok tick
        else do p.tickToPossibleTick (← checkedSub tick 1) leftToRight)
      (p.setTick t).addGlblLiq liq

/-- `Pool::tick_keys_cloned`, mod 279-286. -/
def tickKeys (p : Pool) (reverse : Bool) : List Nat :=
  let ks := p.ticks.map (·.1)
  if reverse then ks.reverse else ks

/-- `Pool::get_left_limit_of_swap_within`, mod 223-236. -/
def leftLimit (p : Pool) (startT : Nat) : R (Option Nat) := do
  let tick ← p.tickToPossibleTick (Nat.min startT p.gs.tick) false
  return (p.tickKeys true).find? (fun tk => decide (tk ≤ tick))

/-- `Pool::get_right_limit_of_swap_within`, mod 238-277. -/
def rightLimit (p : Pool) (startT glblTick : Nat) : R (Option Nat) := do
  let st ← p.tickToPossibleTick startT false
  if st = glblTick then return (p.tickKeys false).find? (fun tk => decide (tk > st))
  else if st > glblTick then return (p.tickKeys false).find? (fun tk => decide (tk ≥ st))
  else rpanic

/-- The descending loop of `try_get_in_range`, mod 297-320. -/
def tryInRangeLeft : List Nat → Pool → R (Pool × Option Nat × Decimal)
  | [], p => .ok (p, none, p.gs.rp)
  | tk :: tks, p => do
    if tk > p.gs.tick then tryInRangeLeft tks p
    else
      let rp ← tickToRp tk
      let p := (p.setTick tk).setRp rp
      let p ← p.crossTick tk false
      let goal ← p.leftLimit p.gs.tick
      if p.gs.liq.isNegative then rpanic
      else if p.gs.liq.isPositive then return (p, goal, p.gs.rp)
      else tryInRangeLeft tks p

/-- The ascending loop of `try_get_in_range`, mod 322-343. -/
def tryInRangeRight : List Nat → Pool → R (Pool × Option Nat × Decimal)
  | [], p => .ok (p, none, p.gs.rp)
  | tk :: tks, p => do
    if tk ≤ p.gs.tick then tryInRangeRight tks p
    else
      let rp ← tickToRp tk
      let p := (p.setTick tk).setRp rp
      let p ← p.crossTick tk true
      let goal ← p.rightLimit tk tk
      if p.gs.liq.isNegative then rpanic
      else if p.gs.liq.isPositive then return (p, goal, p.gs.rp)
      else tryInRangeRight tks p

/-- `Pool::try_get_in_range`, mod 288-346, with `GetInRangeOutput::new`, comp 277-282, which refuses
a negative root price. -/
def tryGetInRange (p : Pool) (leftToRight : Bool) : R (Pool × Option Nat × Decimal) := do
  if p.gs.liq.isPositive then rpanic
  else
    let (p, goal, rp) ← (if leftToRight then tryInRangeRight (p.tickKeys false) p
      else tryInRangeLeft (p.tickKeys true) p)
    if rp.isNegative then rpanic else return (p, goal, rp)

/-! ### Deposits and withdrawals -/

/-- `Pool::fee_below_above`, mod 349-372, for one kind of fee: `fg` is the global growth of that kind
and `sel` reads it from a tick. -/
def feeBelowAbove (p : Pool) (sel : Fees → Decimal) (tick : Nat) : R (Decimal × Decimal) := do
  let fg := sel p.gs.fees
  match mapGet tick p.ticks with
  | none => return (fg, PoolMath.zero)
  | some ts =>
    let f0 := sel ts.fees
    let o ← unwrap (fg.sub f0)
    if p.gs.tick ≥ tick then return (f0, o) else return (o, f0)

/-- `Pool::fee_rng`, mod 374-391.  `assert_eq!` on `Decimal` compares all three fields. -/
def feeRng (p : Pool) (sel : Fees → Decimal) (lower upper : Nat) : R Decimal := do
  let (blwLwr, abvLwr) ← p.feeBelowAbove sel lower
  let (blwUpr, abvUpr) ← p.feeBelowAbove sel upper
  let sumLwr ← unwrap (blwLwr.add abvLwr)
  let sumUpr ← unwrap (blwUpr.add abvUpr)
  rassert (decide (sumLwr = sumUpr))
  let e ← unwrap (sumLwr.sub blwLwr)
  let e ← unwrap (e.sub abvUpr)
  if e.isNegative then rpanic else return e

/-- The position-map part of `_set_position`, mod 409-469: the new map, the old fee record and the
liquidity base for fees. -/
def setPositionMap (positions : List (PositionKey × PositionState)) (key : PositionKey)
    (liqDelta : Decimal) (newFees : Fees) :
    R (List (PositionKey × PositionState) × Fees × Decimal) := do
  match mapGet key positions with
  | none =>
    if liqDelta.isNegative then rpanic
    else
      let ps ← PositionState.new liqDelta Fees.zero
      return (mapSet key ps positions, Fees.zero, PoolMath.zero)
  | some poz =>
    let base := poz.liq
    if base.isNegative then rpanic
    else
      let newLiq ← unwrap (base.add liqDelta)
      if liqDelta.isNegative && newLiq.isNegative then rpanic
      else if newLiq.isZero then return (mapErase key positions, poz.fees, base)
      else
        let poz' ← poz.addLiq liqDelta
        return (mapSet key { poz' with fees := newFees } positions, poz.fees, base)

/-- `Pool::_set_position`, mod 393-499.  Returns the new pool and the uncollected fees. -/
def setPosition (p : Pool) (user lower upper : Nat) (liqDelta : Decimal) : R (Pool × Fees) := do
  let newFx ← p.feeRng (·.fx) lower upper
  let newFy ← p.feeRng (·.fy) lower upper
  let newHx ← p.feeRng (·.hx) lower upper
  let newHy ← p.feeRng (·.hy) lower upper
  let (positions, old, base) ←
    setPositionMap p.positions ⟨user, lower, upper⟩ liqDelta ⟨newFx, newFy, newHx, newHy⟩
  let p := { p with positions := positions }
  let fux ← unwrap (newFx.sub old.fx)
  let fuy ← unwrap (newFy.sub old.fy)
  let hux ← unwrap (newHx.sub old.hx)
  let huy ← unwrap (newHy.sub old.hy)
  rassert (!fux.isNegative)
  rassert (!fuy.isNegative)
  rassert (!hux.isNegative)
  rassert (!huy.isNegative)
  let p ← p.updateTick lower liqDelta false
  let p ← p.updateTick upper liqDelta true
  let p ← (if p.gs.tick ≥ lower ∧ p.gs.tick < upper then p.addGlblLiq liqDelta else .ok p)
  let fx ← base.mul fux
  let fy ← base.mul fuy
  let hx ← base.mul hux
  let hy ← base.mul huy
  return (p, ⟨fx, fy, hx, hy⟩)

/-- What `deposit` and `withdraw` only print (mod 573-583, 643-648); returned here so that theorems
can speak about the amounts moved. -/
structure Receipt where
  /-- amount added to (deposit) or taken from (withdrawal) the X reserve -/
  x : Decimal
  /-- the same for Y -/
  y : Decimal
  /-- fees paid out to the user -/
  fees : Fees
  /-- total charged to (deposit) or sent to (withdrawal) the user, X -/
  totalX : Decimal
  /-- the same for Y -/
  totalY : Decimal
  deriving DecidableEq, Repr, Inhabited

/-- The common end of `deposit` (mod 560-571) and `withdraw` (mod 630-641): pays fees and adjustments
out of the pots, after checking that the pots cover them. -/
def payFees (p : Pool) (f : Fees) : R Pool := do
  if (← unwrap (p.xFee.lt f.fx)) then rpanic
  else if (← unwrap (p.yFee.lt f.fy)) then rpanic
  else if (← unwrap (p.xAdj.lt f.hx)) then rpanic
  else if (← unwrap (p.yAdj.lt f.hy)) then rpanic
  else
    let xFee ← unwrap (p.xFee.sub f.fx)
    let xAdj ← unwrap (p.xAdj.sub f.hx)
    let yFee ← unwrap (p.yFee.sub f.fy)
    let yAdj ← unwrap (p.yAdj.sub f.hy)
    return { p with xFee, xAdj, yFee, yAdj }

/-- `Pool::deposit`, mod 501-584. -/
def deposit (p : Pool) (user : Nat) (x y rpa rpb : Decimal) : R (Pool × Receipt) := do
  rassert (!x.isNegative)
  rassert (!y.isNegative)
  rassert (!rpa.isNegative)
  rassert (!rpb.isNegative)
  let lower ← p.rpToPossibleTick rpa false 0
  let upper ← p.rpToPossibleTick rpb false lower
  rassert (decide (upper > lower))
  let rpaU ← tickToRp lower
  let rpbU ← tickToRp upper
  let rpU := p.gs.rp
  let liq ← liqFromXYRpRng x y rpU rpaU rpbU
  if liq.isNegative then rpanic
  else
    let xIn ← xFromLRpRng liq rpU rpaU rpbU
    if (← unwrap (xIn.gt x)) then rpanic
    else
      let yIn ← yFromLRpRng liq rpU rpaU rpbU
      if (← unwrap (yIn.gt y)) then rpanic
      else
        let (p, f) ← p.setPosition user lower upper liq
        let xDeb ← unwrap ((← unwrap (xIn.sub f.fx)).sub f.hx)
        let yDeb ← unwrap ((← unwrap (yIn.sub f.fy)).sub f.hy)
        let px ← unwrap (p.x.add xIn)
        let py ← unwrap (p.y.add yIn)
        let p ← p.payFees f
        let _ ← unwrap (f.fx.add f.hx)
        let _ ← unwrap (f.fy.add f.hy)
        let _ ← unwrap (x.sub xDeb)
        let _ ← unwrap (y.sub yDeb)
        return ({ p with x := px, y := py }, ⟨xIn, yIn, f, xDeb, yDeb⟩)

/-- `Pool::withdraw`, mod 586-649. -/
def withdraw (p : Pool) (user : Nat) (liq rpa rpb : Decimal) : R (Pool × Receipt) := do
  rassert (!liq.isNegative)
  let lower ← p.rpToPossibleTick rpa false 0
  let upper ← p.rpToPossibleTick rpb false lower
  rassert (decide (upper > lower))
  let rpaU ← tickToRp lower
  let rpbU ← tickToRp upper
  let (p, f) ← p.setPosition user lower upper liq.neg
  let rpU := p.gs.rp
  let xOut ← xFromLRpRng liq rpU rpaU rpbU
  let yOut ← yFromLRpRng liq rpU rpaU rpbU
  let adj ← unwrap (PoolMath.one.sub adjWithdrawal)
  let xOut ← xOut.mul adj
  let yOut ← yOut.mul adj
  let xSent ← unwrap ((← unwrap (xOut.add f.fx)).add f.hx)
  let ySent ← unwrap ((← unwrap (yOut.add f.fy)).add f.hy)
  if (← unwrap (p.x.lt xOut)) then rpanic
  else if (← unwrap (p.y.lt yOut)) then rpanic
  else
    let px ← unwrap (p.x.sub xOut)
    let py ← unwrap (p.y.sub yOut)
    let p ← p.payFees f
    let _ ← unwrap (f.fx.add f.hx)
    let _ ← unwrap (f.fy.add f.hy)
    return ({ p with x := px, y := py }, ⟨xOut, yOut, f, xSent, ySent⟩)

/-! ### Swaps -/

/-- The choice of the Y amount in `swap_within_tick_from_x`, mod 714-740.  In line 721 the first
conjunct is implied by the failed test of line 715 and is not repeated. -/
def doneDyX (fl : FloatEnv) (p : Pool) (startRp endRp liq rpOracle dyCpmm : Decimal) : R Decimal := do
  if p.c.isZero || rpOracle.isZero then return dyCpmm
  else if (← unwrap (rpOracle.gte startRp)) then return dyCpmm
  else if (← unwrap (rpOracle.gte endRp)) then
    let d1 ← dyFromLDrpHmm fl liq startRp rpOracle p.c rpOracle
    let d2 ← dyFromLDrp liq rpOracle endRp
    if d1.isPositive || d2.isPositive then rpanic
    else unwrap (d1.add d2)
  else if (← unwrap (rpOracle.lt endRp)) then
    dyFromLDrpHmm fl liq startRp endRp p.c rpOracle
  else rpanic

/-- The quantity part of `swap_within_tick_from_x`, mod 669-712: `(done_dx, fee_x, cross, end_t, end_rp)`.
`goal_tick - 1` panics at tick 0 (overflow checks on). -/
def fillX (p : Pool) (startRp : Decimal) (goal : Nat) (liq dx : Decimal) :
    R (Decimal × Decimal × Bool × Nat × Decimal) := do
  let rpGoal ← tickToRp goal
  if (← unwrap (rpGoal.gt startRp)) then rpanic
  else
    let feeFactor ← unwrap (PoolMath.one.sub p.feeRate)
    let dxMax ← dx.mul feeFactor
    let doable ← dxFromLDrp liq startRp rpGoal
    if doable.isNegative then rpanic
    else if (← unwrap (doable.lt dxMax)) then
      let fee ← (← doable.div feeFactor).mul p.feeRate
      return (doable, fee, true, goal, rpGoal)
    else
      let fee ← unwrap (dx.sub dxMax)
      let endRp ← rpNewFromLDx liq startRp dxMax
      let endT ← rpToTickLoop endRp false (← checkedSub goal 1)
      if (← unwrap (endRp.gt startRp)) then rpanic
      else if (← unwrap (endRp.lt rpGoal)) then rpanic
      else return (dxMax, fee, false, endT, endRp)

/-- `Pool::swap_within_tick_from_x`, mod 652-764. -/
def swapWithinX (fl : FloatEnv) (p : Pool) (startRp : Decimal) (goal : Nat) (liq dx rpOracle : Decimal) :
    R SwapWithinResult := do
  if dx.isNegative then rpanic
  else
    let (doneDx, feeX, cross, endT, endRp) ← p.fillX startRp goal liq dx
    let dyCpmm ← dyFromLDrp liq startRp endRp
    let doneDy ← doneDyX fl p startRp endRp liq rpOracle dyCpmm
    let hmmAdj ← unwrap (doneDy.sub dyCpmm)
    if dyCpmm.isPositive then rpanic
    else if hmmAdj.isNegative then rpanic
    else if (← unwrap (p.y.add dyCpmm)).isNegative then rpanic
    else
      if !doneDx.isZero && !doneDy.isZero then
        let avg ← doneDy.neg.div (← unwrap (doneDx.add feeX))
        let sq ← startRp.powInt 2
        rassert (!(← unwrap (avg.gt sq)))
      SwapWithinResult.new doneDx doneDy endT endRp cross hmmAdj feeX

/-- Running totals of a swap loop: `swpd_dx`, `swpd_dy`, adjustment and fee, plus `curr_t`, `curr_rp`
(mod 776-786, 1039-1049).  `recv`/`send` are the input/output totals. -/
structure SwapAcc where
  recv : Decimal
  send : Decimal
  adj : Decimal
  fee : Decimal
  currT : Nat
  currRp : Decimal
  deriving DecidableEq, Repr, Inhabited

/-- The closing block of `execute_swap_from_x`, mod 807-827 and 898-911. -/
def finishX (p : Pool) (a : SwapAcc) : R (Pool × SwapOutput) := do
  let avg ← (if a.recv.isZero then .ok PoolMath.zero else a.send.neg.div a.recv)
  let endP ← p.gs.rp.powInt 2
  let o ← SwapOutput.new a.recv a.send a.adj a.fee avg endP
  return (p, o)

/-- The `Some(gtk)` arm of the loop of `execute_swap_from_x`, mod 830-894. -/
def stepX (fl : FloatEnv) (dx rpOracle : Decimal) (p : Pool) (a : SwapAcc) (gtk : Nat) :
    R (Pool × SwapAcc) := do
  let rem ← unwrap (dx.sub a.recv)
  let r ← p.swapWithinX fl a.currRp gtk p.gs.liq rem rpOracle
  let newY ← unwrap ((← unwrap (p.y.add r.send)).sub r.sendHmmAdj)
  rassert (!newY.isNegative)
  let check ← unwrap ((← unwrap (rem.sub r.recv)).sub r.recvFee)
  rassert (!check.isNegative)
  let recv ← unwrap ((← unwrap (a.recv.add r.recv)).add r.recvFee)
  let send ← unwrap (a.send.add r.send)
  let adj ← unwrap (a.adj.add r.sendHmmAdj)
  let fee ← unwrap (a.fee.add r.recvFee)
  let newX ← unwrap (p.x.add r.recv)
  let xFee ← unwrap (p.xFee.add r.recvFee)
  let yAdj ← unwrap (p.yAdj.add r.sendHmmAdj)
  let p := { (p.setTick r.endTick).setRp r.endRp with x := newX, y := newY, xFee, yAdj }
  let p ← (if p.gs.liq.isPositive then do
      let fx ← unwrap ((← r.recvFee.div p.gs.liq).add p.gs.fees.fx)
      let hy ← unwrap ((← r.sendHmmAdj.div p.gs.liq).add p.gs.fees.hy)
      return p.setFees { p.gs.fees with fx, hy }
    else .ok p)
  let p ← (if r.cross then do
      rassert (decide (r.endTick = gtk))
      if (mapGet gtk p.ticks).isSome then p.crossTick gtk false else .ok p
    else .ok p)
  return (p, ⟨recv, send, adj, fee, r.endTick, r.endRp⟩)

/-- The `while` loop of `execute_swap_from_x`, mod 788-896.  The first argument bounds the number of
rounds; running out of it is reported as `Err.diverge` (never happens, see `Verif.Props.Swap`). -/
def loopX (fl : FloatEnv) (dx rpOracle : Decimal) : Nat → Pool → SwapAcc → R (Pool × SwapOutput)
  | 0, _, _ => .error .diverge
  | fuel + 1, p, a => do
    if (← unwrap (a.recv.lt dx)) then
      let (p, goal, a) ← (if p.gs.liq.isPositive then do
          return (p, ← p.leftLimit a.currT, a)
        else do
          let (p, goal, rp) ← p.tryGetInRange false
          return (p, goal, { a with currRp := rp }) : R (Pool × Option Nat × SwapAcc))
      match goal with
      | none => finishX p a
      | some gtk => do
        let (p, a) ← stepX fl dx rpOracle p a gtk
        loopX fl dx rpOracle fuel p a
    else finishX p a

/-- Bound on the rounds of a swap loop: one per initialised tick plus two. -/
def swapFuel (p : Pool) : Nat := p.ticks.length + 2

/-- Starting totals of a swap loop. -/
def acc0 (p : Pool) : SwapAcc :=
  ⟨PoolMath.zero, PoolMath.zero, PoolMath.zero, PoolMath.zero, p.gs.tick, p.gs.rp⟩

/-- `Pool::execute_swap_from_x`, mod 766-912. -/
def executeSwapFromX (fl : FloatEnv) (p : Pool) (dx rpOracle : Decimal) : R (Pool × SwapOutput) :=
  if !dx.isPositive then rpanic
  else loopX fl dx rpOracle p.swapFuel p p.acc0

/-- The choice of the X amount in `swap_within_tick_from_y`, mod 980-1004. -/
def doneDxY (fl : FloatEnv) (p : Pool) (startRp endRp liq rpOracle dxCpmm : Decimal) : R Decimal := do
  if p.c.isZero || rpOracle.isZero then return dxCpmm
  else if (← unwrap (rpOracle.lte startRp)) then return dxCpmm
  else if (← unwrap (rpOracle.lte endRp)) then
    let d1 ← dxFromLDrpHmm fl liq startRp rpOracle p.c rpOracle
    let d2 ← dxFromLDrp liq rpOracle endRp
    if d1.isPositive || d2.isPositive then rpanic
    else unwrap (d1.add d2)
  else if (← unwrap (rpOracle.gt endRp)) then
    dxFromLDrpHmm fl liq startRp endRp p.c rpOracle
  else rpanic

/-- The quantity part of `swap_within_tick_from_y`, mod 931-976: `(done_dy, fee_y, cross, end_t, end_rp)`.
`glbl_tick() - 1` panics at tick 0 (overflow checks on). -/
def fillY (p : Pool) (startRp : Decimal) (goal : Nat) (liq dy : Decimal) :
    R (Decimal × Decimal × Bool × Nat × Decimal) := do
  let rpGoal ← tickToRp goal
  if (← unwrap (rpGoal.lt startRp)) then rpanic
  else
    let feeFactor ← unwrap (PoolMath.one.sub p.feeRate)
    let dyMax ← dy.mul feeFactor
    let doable ← dyFromLDrp liq startRp rpGoal
    if doable.isNegative then rpanic
    else if (← unwrap (doable.lt dyMax)) then
      let fee ← (← doable.div feeFactor).mul p.feeRate
      return (doable, fee, true, goal, rpGoal)
    else
      let fee ← unwrap (dy.sub dyMax)
      let endRp ← rpNewFromLDy liq startRp dyMax
      let seek ← p.tickToPossibleTick (← checkedSub p.gs.tick 1) false
      let endT ← rpToTickLoop endRp false seek
      if (← unwrap (endRp.lt startRp)) then rpanic
      else if (← unwrap (endRp.gt rpGoal)) then rpanic
      else return (dyMax, fee, false, endT, endRp)

/-- `Pool::swap_within_tick_from_y`, mod 914-1028.  The average-price guard of line 1020 tests
`done_dy.is_zero()` (without negation), as in the source. -/
def swapWithinY (fl : FloatEnv) (p : Pool) (startRp : Decimal) (goal : Nat) (liq dy rpOracle : Decimal) :
    R SwapWithinResult := do
  if dy.isNegative then rpanic
  else
    let (doneDy, feeY, cross, endT, endRp) ← p.fillY startRp goal liq dy
    let dxCpmm ← dxFromLDrp liq startRp endRp
    let doneDx ← doneDxY fl p startRp endRp liq rpOracle dxCpmm
    let hmmAdj ← unwrap (doneDx.sub dxCpmm)
    if dxCpmm.isPositive then rpanic
    else if hmmAdj.isNegative then rpanic
    else if (← unwrap (p.x.add dxCpmm)).isNegative then rpanic
    else
      if !doneDx.isZero && doneDy.isZero then
        let avg ← (← unwrap (doneDy.add feeY)).div doneDx
        let sq ← startRp.powInt 2
        rassert (!(← unwrap (avg.lt sq)))
      SwapWithinResult.new doneDy doneDx endT endRp cross hmmAdj feeY

/-- The closing block of `execute_swap_from_y`, mod 1070-1090 and 1161-1175. -/
def finishY (p : Pool) (a : SwapAcc) : R (Pool × SwapOutput) := do
  let avg ← (if a.send.isZero then .ok PoolMath.zero else a.recv.div a.send.neg)
  let endP ← p.gs.rp.powInt 2
  let o ← SwapOutput.new a.recv a.send a.adj a.fee avg endP
  return (p, o)

/-- The `Some(gtk)` arm of the loop of `execute_swap_from_y`, mod 1093-1157. -/
def stepY (fl : FloatEnv) (dy rpOracle : Decimal) (p : Pool) (a : SwapAcc) (gtk : Nat) :
    R (Pool × SwapAcc) := do
  let rem ← unwrap (dy.sub a.recv)
  let r ← p.swapWithinY fl a.currRp gtk p.gs.liq rem rpOracle
  let newX ← unwrap ((← unwrap (p.x.add r.send)).sub r.sendHmmAdj)
  rassert (!newX.isNegative)
  let check ← unwrap ((← unwrap (rem.sub r.recv)).sub r.recvFee)
  rassert (!check.isNegative)
  let send ← unwrap (a.send.add r.send)
  let recv ← unwrap ((← unwrap (a.recv.add r.recv)).add r.recvFee)
  let adj ← unwrap (a.adj.add r.sendHmmAdj)
  let fee ← unwrap (a.fee.add r.recvFee)
  let newY ← unwrap (p.y.add r.recv)
  let xAdj ← unwrap (p.xAdj.add r.sendHmmAdj)
  let yFee ← unwrap (p.yFee.add r.recvFee)
  let p := { (p.setTick r.endTick).setRp r.endRp with x := newX, y := newY, xAdj, yFee }
  let p ← (if p.gs.liq.isPositive then do
      let hx ← unwrap ((← r.sendHmmAdj.div p.gs.liq).add p.gs.fees.hx)
      let fy ← unwrap ((← r.recvFee.div p.gs.liq).add p.gs.fees.fy)
      return p.setFees { p.gs.fees with hx, fy }
    else .ok p)
  let p ← (if r.cross then do
      rassert (decide (r.endTick = gtk))
      if (mapGet gtk p.ticks).isSome then p.crossTick gtk true else .ok p
    else .ok p)
  return (p, ⟨recv, send, adj, fee, r.endTick, r.endRp⟩)

/-- The `while` loop of `execute_swap_from_y`, mod 1051-1159. -/
def loopY (fl : FloatEnv) (dy rpOracle : Decimal) : Nat → Pool → SwapAcc → R (Pool × SwapOutput)
  | 0, _, _ => .error .diverge
  | fuel + 1, p, a => do
    if (← unwrap (a.recv.lt dy)) then
      let (p, goal, a) ← (if p.gs.liq.isPositive then do
          return (p, ← p.rightLimit a.currT p.gs.tick, a)
        else do
          let (p, goal, rp) ← p.tryGetInRange true
          return (p, goal, { a with currRp := rp }) : R (Pool × Option Nat × SwapAcc))
      match goal with
      | none => finishY p a
      | some gtk => do
        let (p, a) ← stepY fl dy rpOracle p a gtk
        loopY fl dy rpOracle fuel p a
    else finishY p a

/-- `Pool::execute_swap_from_y`, mod 1030-1176. -/
def executeSwapFromY (fl : FloatEnv) (p : Pool) (dy rpOracle : Decimal) : R (Pool × SwapOutput) :=
  if !dy.isPositive then rpanic
  else loopY fl dy rpOracle p.swapFuel p p.acc0

end Pool

end Hmm
