import Verif.Model.F64
import Verif.Model.Maps

/-
Model of the floating-point twin of the pool, `programs/hmmcl-sandbox/src/cl_pool_float`:
`cl_math.rs` ("math"), `cl_components.rs` ("comp") and `mod.rs` ("mod").
`println!` is omitted: arithmetic on doubles in its arguments cannot fail.  Comparisons are written as
in the source, since with NaN `!(a < b)` is not `a >= b`.
-/

namespace Hmm.Flt

open F64

/-! ### Formulas, `cl_math.rs` -/

/-- `TICK_BASE`, math 4. -/
def tickBase : F64 := lit 10001 10000

/-- `1.0 - ADJ_WHOLE_FILL`, math 5, mod 604. -/
def adjWholeFill : F64 := sub one (lit 1 1000000000000)

/-- `1.0 - ADJ_WITHDRAWAL`, math 6, mod 499. -/
def adjWithdrawal : F64 := sub one (lit 1 1000000000000)

/-- `tick_to_rp`, math 9-11. -/
def tickToRp (m : LibM) (tick : Nat) : F64 := m.powf tickBase.sqrt (ofNat tick)

/-- `rp_to_tick`, math 13-19.  `f64::log(self, base)` is `self.ln() / base.ln()`. -/
def rpToTick (m : LibM) (rp : F64) (leftToRight : Bool) : Nat :=
  let l := div (m.ln rp) (m.ln tickBase.sqrt)
  if leftToRight then l.ceil.toU32 else l.floor.toU32

/-- `tk_to_possible_tk`, math 21-32. -/
def tkToPossibleTk (tick spacing : Nat) (leftToRight : Bool) : Nat :=
  let ts := ofNat spacing
  let tk := ofNat tick
  let r := if leftToRight then mul (div tk ts).ceil ts else mul (div tk ts).floor ts
  r.toU32

/-- `rp_to_possible_tk`, math 34-38. -/
def rpToPossibleTk (m : LibM) (rp : F64) (spacing : Nat) (leftToRight : Bool) : Nat :=
  tkToPossibleTk (rpToTick m rp leftToRight) spacing leftToRight

/-- `liq_x_only`, math 40-45. -/
def liqXOnly (x rpa rpb : F64) : F64 := div (mul (mul x rpa) rpb) (sub rpb rpa)

/-- `liq_y_only`, math 47-52. -/
def liqYOnly (y rpa rpb : F64) : F64 := div y (sub rpb rpa)

/-- `liq_from_x_y_rp_rng`, math 54-72. -/
def liqFromXYRpRng (x y rp rpa rpb : F64) : F64 :=
  if le rp rpa then liqXOnly x rpa rpb
  else if lt rp rpb then min (liqXOnly x rp rpb) (liqYOnly y rpa rp)
  else liqYOnly y rpa rpb

/-- `x_from_l_rp_rng`, math 82-87. -/
def xFromLRpRng (l rp rpa rpb : F64) : F64 :=
  let rp := max (min rp rpb) rpa
  div (mul l (sub rpb rp)) (mul rp rpb)

/-- `y_from_l_rp_rng`, math 97-102. -/
def yFromLRpRng (l rp rpa rpb : F64) : F64 :=
  let rp := max (min rp rpb) rpa
  mul l (sub rp rpa)

/-- `dx_from_l_drp`, math 131-134. -/
def dxFromLDrp (l old new : F64) : F64 := mul l (sub (div one new) (div one old))

/-- `dy_from_l_drp`, math 136-139. -/
def dyFromLDrp (l old new : F64) : F64 := mul l (sub new old)

/-- `dx_from_l_drp_hmm`, math 141-150. -/
def dxFromLDrpHmm (m : LibM) (l old new c o : F64) : F64 :=
  if F64.eq c one then mul (div l o) (m.ln (div old new))
  else
    let omc := sub one c
    let cmo := omc.neg
    div (mul (div l (m.powf o c)) (sub (m.powf new cmo) (m.powf old cmo))) omc

/-- `dy_from_l_drp_hmm`, math 152-160. -/
def dyFromLDrpHmm (m : LibM) (l old new c o : F64) : F64 :=
  if F64.eq c one then mul (mul l o) (m.ln (div old new))
  else
    let omc := sub one c
    div (mul (mul l (m.powf o c)) (sub (m.powf new omc) (m.powf old omc))) omc

/-- `rp_new_from_l_dx`, math 162-166. -/
def rpNewFromLDx (l old dx : F64) : F64 := div one (add (div dx l) (div one old))

/-- `rp_new_from_l_dy`, math 168-171. -/
def rpNewFromLDy (l old dy : F64) : F64 := add (div dy l) old

/-! The functions of math 74-80, 89-95, 103-129 (tick arguments, range bounds from amounts) are not
called by the pool. -/

/-- `liq_from_x_y_tick_rng`, math 74-80. -/
def liqFromXYTickRng (m : LibM) (x y : F64) (t ta tb : Nat) : F64 :=
  liqFromXYRpRng x y (tickToRp m t) (tickToRp m ta) (tickToRp m tb)

/-- `x_from_l_tick_rng`, math 89-95. -/
def xFromLTickRng (m : LibM) (l : F64) (t ta tb : Nat) : F64 :=
  xFromLRpRng l (tickToRp m t) (tickToRp m ta) (tickToRp m tb)

/-- `y_from_l_tick_rng`, math 103-109. -/
def yFromLTickRng (m : LibM) (l : F64) (t ta tb : Nat) : F64 :=
  yFromLRpRng l (tickToRp m t) (tickToRp m ta) (tickToRp m tb)

/-- `rpa_from_l_rp_y`, math 111-114. -/
def rpaFromLRpY (l rp y : F64) : F64 := sub rp (div y l)

/-- `rpb_from_l_rp_x`, math 116-119. -/
def rpbFromLRpX (l rp x : F64) : F64 := div (mul l rp) (sub l (mul rp x))

/-- `rpa_from_x_y_rp_rpb`, math 121-124. -/
def rpaFromXYRpRpb (x y rp rpb : F64) : F64 := sub (add (div y (mul rpb x)) rp) (div y (mul rp x))

/-- `rpb_from_x_y_rp_rpa`, math 126-129. -/
def rpbFromXYRpRpa (x y rp rpa : F64) : F64 :=
  div (mul rp y) (add (mul (mul (sub rpa rp) rp) x) y)

/-! ### Components, `cl_components.rs` -/

/-- Swap fee (`f`) and HMM adjustment (`h`) for X and Y; the character-indexed accessors (comp 62-86,
129-153, 187-211) become field access, their panic is unreachable from `mod.rs`. -/
structure Fees where
  fx : F64
  fy : F64
  hx : F64
  hy : F64
  deriving DecidableEq, Repr, Inhabited

/-- All four zero. -/
def Fees.zero : Fees := ⟨F64.zero, F64.zero, F64.zero, F64.zero⟩

/-- `GlobalState`, comp 14-24. -/
structure GlobalState where
  liq : F64
  rp : F64
  tick : Nat
  fees : Fees
  deriving DecidableEq, Repr, Inhabited

/-- `GlobalState::new`, comp 27-40. -/
def GlobalState.new (liq rp : F64) (tick : Nat) (fees : Fees) : R GlobalState :=
  if lt liq F64.zero then rpanic else .ok ⟨liq, rp, tick, fees⟩

/-- `GlobalState::add_liq`, comp 44-49. -/
def GlobalState.addLiq (g : GlobalState) (d : F64) : R GlobalState :=
  if lt (add g.liq d) F64.zero then rpanic else .ok { g with liq := add g.liq d }

/-- `TickState`, comp 89-98. -/
structure TickState where
  liqNet : F64
  liqGross : F64
  fees : Fees
  deriving DecidableEq, Repr, Inhabited

/-- `TickState::new`, comp 101-113. -/
def TickState.new (liqNet liqGross : F64) (fees : Fees) : R TickState :=
  if lt liqGross F64.zero then rpanic else .ok ⟨liqNet, liqGross, fees⟩

/-- `TickState::add_liq_net`, comp 117-119. -/
def TickState.addLiqNet (t : TickState) (d : F64) : TickState := { t with liqNet := add t.liqNet d }

/-- `TickState::add_liq_gross`, comp 123-128. -/
def TickState.addLiqGross (t : TickState) (d : F64) : R TickState :=
  if lt (add t.liqGross d) F64.zero then rpanic else .ok { t with liqGross := add t.liqGross d }

/-- `PositionState`, comp 155-163. -/
structure PositionState where
  liq : F64
  fees : Fees
  deriving DecidableEq, Repr, Inhabited

/-- `PositionState::new`, comp 166-177. -/
def PositionState.new (liq : F64) (fees : Fees) : R PositionState :=
  if lt liq F64.zero then rpanic else .ok ⟨liq, fees⟩

/-- `PositionState::add_liq`, comp 181-186. -/
def PositionState.addLiq (p : PositionState) (d : F64) : R PositionState :=
  if lt (add p.liq d) F64.zero then rpanic else .ok { p with liq := add p.liq d }

/-- `PositionKey`, mod 12-13; natural numbers stand for the user names, which are only compared. -/
structure PositionKey where
  user : Nat
  lower : Nat
  upper : Nat
  deriving DecidableEq, Repr, Inhabited

/-- `Pool`, mod 15-31, without token names and decimals, which nothing reads. -/
structure Pool where
  spacing : Nat
  gs : GlobalState
  ticks : List (Nat × TickState)
  positions : List (PositionKey × PositionState)
  x : F64
  y : F64
  xAdj : F64
  yAdj : F64
  xFee : F64
  yFee : F64
  c : F64
  feeRate : F64
  deriving DecidableEq, Repr, Inhabited

/-- `SwapWithinResult`, comp 235-244. -/
structure SwapWithinResult where
  recv : F64
  send : F64
  endTick : Nat
  endRp : F64
  cross : Bool
  sendHmmAdj : F64
  recvFee : F64
  deriving DecidableEq, Repr, Inhabited

/-- `SwapWithinResult::new`, comp 248-278. -/
def SwapWithinResult.new (recv send : F64) (endTick : Nat) (endRp : F64) (cross : Bool)
    (sendHmmAdj recvFee : F64) : R SwapWithinResult :=
  if lt recv F64.zero then rpanic
  else if lt F64.zero send then rpanic
  else if lt sendHmmAdj F64.zero || lt recvFee F64.zero then rpanic
  else if lt endRp F64.zero then rpanic
  else .ok ⟨recv, send, endTick, endRp, cross, sendHmmAdj, recvFee⟩

/-- `SwapOutput`, comp 302-310. -/
structure SwapOutput where
  recv : F64
  send : F64
  sendHmmAdj : F64
  recvFee : F64
  avgPrice : F64
  endPrice : F64
  deriving DecidableEq, Repr, Inhabited

/-- `SwapOutput::new`, comp 314-342. -/
def SwapOutput.new (recv send sendHmmAdj recvFee avgPrice endPrice : F64) : R SwapOutput :=
  if lt recv F64.zero then rpanic
  else if lt F64.zero send then rpanic
  else if lt sendHmmAdj F64.zero || lt recvFee F64.zero then rpanic
  else if lt avgPrice F64.zero || lt endPrice F64.zero then rpanic
  else .ok ⟨recv, send, sendHmmAdj, recvFee, avgPrice, endPrice⟩

/-! ### The pool, `mod.rs` -/

namespace Pool

/-- `Pool::new`, mod 36-64. -/
def new (m : LibM) (bootstrapRp : F64) (spacing : Nat) (hmmC feeRate : F64) : R Pool := do
  let tk := rpToPossibleTk m bootstrapRp spacing false
  let gs ← GlobalState.new F64.zero (tickToRp m tk) tk Fees.zero
  return {
    spacing, gs, ticks := [], positions := [], x := F64.zero, y := F64.zero, xAdj := F64.zero,
    yAdj := F64.zero, xFee := F64.zero, yFee := F64.zero, c := hmmC, feeRate }

/-- `set_glbl_tick`, mod 87-89. -/
def setTick (p : Pool) (t : Nat) : Pool := { p with gs := { p.gs with tick := t } }

/-- `set_glbl_rp`, mod 93-95. -/
def setRp (p : Pool) (rp : F64) : Pool := { p with gs := { p.gs with rp := rp } }

/-- `set_fee_glbl`, mod 100-102. -/
def setFees (p : Pool) (f : Fees) : Pool := { p with gs := { p.gs with fees := f } }

/-- `add_glbl_liq`, mod 81-83. -/
def addGlblLiq (p : Pool) (d : F64) : R Pool := do
  let g ← p.gs.addLiq d
  return { p with gs := g }

/-- `tick_to_possible_tick`, mod 107-112. -/
def tickToPossibleTick (p : Pool) (tick : Nat) (leftToRight : Bool) : Nat :=
  tkToPossibleTk tick p.spacing leftToRight

/-- `rp_to_possible_tick`, mod 114-117. -/
def rpToPossibleTick (m : LibM) (p : Pool) (rp : F64) (leftToRight : Bool) : Nat :=
  rpToPossibleTk m rp p.spacing leftToRight

/-- `initialize_tick`, mod 119-129. -/
def initializeTick (p : Pool) (tick : Nat) : R Pool := do
  let f := if p.gs.tick ≥ tick then p.gs.fees else Fees.zero
  let ts ← TickState.new F64.zero F64.zero f
  return { p with ticks := treeInsert tick ts p.ticks }

/-- `unset_tick`, mod 131-133. -/
def unsetTick (p : Pool) (tick : Nat) : Pool := { p with ticks := mapErase tick p.ticks }

/-- `update_tick`, mod 135-150. -/
def updateTick (p : Pool) (tick : Nat) (liqDelta : F64) (upper : Bool) : R Pool := do
  let p ← (match mapGet tick p.ticks with
    | none => p.initializeTick tick
    | some _ => .ok p)
  match mapGet tick p.ticks with
  | none => rpanic
  | some ts =>
    let ts := ts.addLiqNet (if upper then liqDelta.neg else liqDelta)
    let ts ← ts.addLiqGross liqDelta
    let p := { p with ticks := mapSet tick ts p.ticks }
    if F64.eq ts.liqGross F64.zero then return p.unsetTick tick else return p

/-- `cross_tick`, mod 152-188.  `provided_tick - 1` panics at tick 0 (overflow checks on). -/
def crossTick (p : Pool) (tick : Nat) (leftToRight : Bool) : R Pool := do
  if !leftToRight && p.gs.tick ≠ tick then rpanic
  else
    let g := p.gs.fees
    match mapGet tick p.ticks with
    | none => rpanic
    | some ts =>
      let liq := if leftToRight then ts.liqNet else ts.liqNet.neg
      let f : Fees := ⟨sub g.fx ts.fees.fx, sub g.fy ts.fees.fy, sub g.hx ts.fees.hx, sub g.hy ts.fees.hy⟩
      let p := { p with ticks := mapSet tick { ts with fees := f } p.ticks }
      let t ← (if leftToRight then .ok tick
        else do return p.tickToPossibleTick (← checkedSub tick 1) leftToRight)
      (p.setTick t).addGlblLiq liq

/-- `tick_keys_cloned`, mod 246-253. -/
def tickKeys (p : Pool) (reverse : Bool) : List Nat :=
  let ks := p.ticks.map (·.1)
  if reverse then ks.reverse else ks

/-- `get_left_limit_of_swap_within`, mod 190-203. -/
def leftLimit (p : Pool) (startT : Nat) : Option Nat :=
  let tick := p.tickToPossibleTick (Nat.min startT p.gs.tick) false
  (p.tickKeys true).find? (fun tk => decide (tk ≤ tick))

/-- `get_right_limit_of_swap_within`, mod 205-244. -/
def rightLimit (p : Pool) (startT glblTick : Nat) : R (Option Nat) :=
  let st := p.tickToPossibleTick startT false
  if st = glblTick then .ok ((p.tickKeys false).find? (fun tk => decide (tk > st)))
  else if st > glblTick then .ok ((p.tickKeys false).find? (fun tk => decide (tk ≥ st)))
  else rpanic

/-- The descending loop of `try_get_in_range`, mod 264-285. -/
def tryInRangeLeft (m : LibM) : List Nat → Pool → R (Pool × Option Nat × F64)
  | [], p => .ok (p, none, p.gs.rp)
  | tk :: tks, p => do
    if tk > p.gs.tick then tryInRangeLeft m tks p
    else
      let p := (p.setTick tk).setRp (tickToRp m tk)
      let p ← p.crossTick tk false
      let goal := p.leftLimit p.gs.tick
      if lt p.gs.liq F64.zero then rpanic
      else if lt F64.zero p.gs.liq then return (p, goal, p.gs.rp)
      else tryInRangeLeft m tks p

/-- The ascending loop of `try_get_in_range`, mod 287-306. -/
def tryInRangeRight (m : LibM) : List Nat → Pool → R (Pool × Option Nat × F64)
  | [], p => .ok (p, none, p.gs.rp)
  | tk :: tks, p => do
    if tk ≤ p.gs.tick then tryInRangeRight m tks p
    else
      let p := (p.setTick tk).setRp (tickToRp m tk)
      let p ← p.crossTick tk true
      let goal ← p.rightLimit tk tk
      if lt p.gs.liq F64.zero then rpanic
      else if lt F64.zero p.gs.liq then return (p, goal, p.gs.rp)
      else tryInRangeRight m tks p

/-- `try_get_in_range`, mod 255-309, with `GetInRangeOutput::new`, comp 221-226. -/
def tryGetInRange (m : LibM) (p : Pool) (leftToRight : Bool) : R (Pool × Option Nat × F64) := do
  if lt F64.zero p.gs.liq then rpanic
  else
    let (p, goal, rp) ← (if leftToRight then tryInRangeRight m (p.tickKeys false) p
      else tryInRangeLeft m (p.tickKeys true) p)
    if lt rp F64.zero then rpanic else return (p, goal, rp)

/-- `fee_below_above`, mod 312-330, for the kind of fee read by `sel`. -/
def feeBelowAbove (p : Pool) (sel : Fees → F64) (tick : Nat) : F64 × F64 :=
  let fg := sel p.gs.fees
  match mapGet tick p.ticks with
  | none => (fg, F64.zero)
  | some ts =>
    let f0 := sel ts.fees
    if p.gs.tick ≥ tick then (f0, sub fg f0) else (sub fg f0, f0)

/-- `fee_rng`, mod 332-342.  `assert_eq!` is equality of doubles. -/
def feeRng (p : Pool) (sel : Fees → F64) (lower upper : Nat) : R F64 := do
  let (blwLwr, abvLwr) := p.feeBelowAbove sel lower
  let (blwUpr, abvUpr) := p.feeBelowAbove sel upper
  rassert (F64.eq (add blwLwr abvLwr) (add blwUpr abvUpr))
  return sub (sub (add blwLwr abvLwr) blwLwr) abvUpr

/-- The position-map part of `_set_position`, mod 366-404: the new map, the old fee record and the
liquidity base for fees. -/
def setPositionMap (positions : List (PositionKey × PositionState)) (key : PositionKey) (liqDelta : F64)
    (newFees : Fees) : R (List (PositionKey × PositionState) × Fees × F64) := do
  match mapGet key positions with
  | none =>
    if lt liqDelta F64.zero then rpanic
    else
      let ps ← PositionState.new liqDelta Fees.zero
      return (mapSet key ps positions, Fees.zero, F64.zero)
  | some poz =>
    let base := poz.liq
    if lt liqDelta F64.zero && lt (add base liqDelta) F64.zero then rpanic
    else if F64.eq (add base liqDelta) F64.zero then return (mapErase key positions, poz.fees, base)
    else
      let poz' ← poz.addLiq liqDelta
      return (mapSet key { poz' with fees := newFees } positions, poz.fees, base)

/-- `_set_position`, mod 344-420.  Returns the new pool and the uncollected fees. -/
def setPosition (p : Pool) (user lower upper : Nat) (liqDelta : F64) : R (Pool × Fees) := do
  let newFx ← p.feeRng (·.fx) lower upper
  let newFy ← p.feeRng (·.fy) lower upper
  let newHx ← p.feeRng (·.hx) lower upper
  let newHy ← p.feeRng (·.hy) lower upper
  let (positions, old, base) ←
    setPositionMap p.positions ⟨user, lower, upper⟩ liqDelta ⟨newFx, newFy, newHx, newHy⟩
  let p := { p with positions := positions }
  let fux := sub newFx old.fx
  let fuy := sub newFy old.fy
  let hux := sub newHx old.hx
  let huy := sub newHy old.hy
  rassert (le F64.zero fux && le F64.zero fuy && le F64.zero hux && le F64.zero huy)
  let p ← p.updateTick lower liqDelta false
  let p ← p.updateTick upper liqDelta true
  let p ← (if p.gs.tick ≥ lower ∧ p.gs.tick < upper then p.addGlblLiq liqDelta else .ok p)
  return (p, ⟨mul base fux, mul base fuy, mul base hux, mul base huy⟩)

/-- What `deposit` and `withdraw` only print (mod 457-459, 503-504). -/
structure Receipt where
  /-- amount added to (deposit) or taken from (withdrawal) the X reserve -/
  x : F64
  /-- the same for Y -/
  y : F64
  /-- fees paid out to the user -/
  fees : Fees
  /-- total charged to (deposit) or sent to (withdrawal) the user, X -/
  totalX : F64
  /-- the same for Y -/
  totalY : F64
  deriving DecidableEq, Repr, Inhabited

/-- The pots after paying out, mod 463-466 and 509-512.  Nothing is checked. -/
def payFees (p : Pool) (f : Fees) : Pool :=
  { p with
    xFee := sub p.xFee f.fx, xAdj := sub p.xAdj f.hx, yFee := sub p.yFee f.fy, yAdj := sub p.yAdj f.hy }

/-- `deposit`, mod 422-475 (`FLOOR_LIQ` is true). -/
def deposit (m : LibM) (p : Pool) (user : Nat) (x y rpa rpb : F64) : R (Pool × Receipt) := do
  if lt x F64.zero || lt y F64.zero then rpanic
  else
    let lower := p.rpToPossibleTick m rpa false
    let upper := p.rpToPossibleTick m rpb false
    let rpaU := tickToRp m lower
    let rpbU := tickToRp m upper
    let rpU := p.gs.rp
    let liq := (liqFromXYRpRng x y rpU rpaU rpbU).floor
    let xIn := xFromLRpRng liq rpU rpaU rpbU
    let yIn := yFromLRpRng liq rpU rpaU rpbU
    if lt x xIn then rpanic
    else if lt y yIn then rpanic
    else
      let (p, f) ← p.setPosition user lower upper liq
      let xDeb := sub (sub xIn f.fx) f.hx
      let yDeb := sub (sub yIn f.fy) f.hy
      let p := { p with x := add p.x xIn, y := add p.y yIn }
      return (p.payFees f, ⟨xIn, yIn, f, xDeb, yDeb⟩)

/-- `withdraw`, mod 477-516. -/
def withdraw (m : LibM) (p : Pool) (user : Nat) (liq rpa rpb : F64) : R (Pool × Receipt) := do
  if lt liq F64.zero then rpanic
  else
    let lower := p.rpToPossibleTick m rpa false
    let upper := p.rpToPossibleTick m rpb false
    let rpaU := tickToRp m lower
    let rpbU := tickToRp m upper
    let (p, f) ← p.setPosition user lower upper liq.neg
    let rpU := p.gs.rp
    let xOut := mul (xFromLRpRng liq rpU rpaU rpbU) adjWithdrawal
    let yOut := mul (yFromLRpRng liq rpU rpaU rpbU) adjWithdrawal
    let xSent := add (add xOut f.fx) f.hx
    let ySent := add (add yOut f.fy) f.hy
    let p := { p with x := sub p.x xOut, y := sub p.y yOut }
    return (p.payFees f, ⟨xOut, yOut, f, xSent, ySent⟩)

/-! ### Swaps -/

/-- The choice of the Y amount in `swap_within_tick_from_x`, mod 580-601. -/
def doneDyX (m : LibM) (p : Pool) (startRp endRp liq o dyCpmm : F64) : R F64 :=
  if F64.eq p.c F64.zero || le startRp o then .ok dyCpmm
  else if lt o startRp && le endRp o then
    .ok (add (dyFromLDrpHmm m liq startRp o p.c o) (dyFromLDrp liq o endRp))
  else if lt o endRp then .ok (dyFromLDrpHmm m liq startRp endRp p.c o)
  else rpanic

/-- The quantity part of `swap_within_tick_from_x`, mod 535-577: `(done_dx, fee_x, cross, end_t, end_rp)`. -/
def fillX (m : LibM) (p : Pool) (startRp : F64) (goal : Nat) (liq dx : F64) :
    R (F64 × F64 × Bool × Nat × F64) :=
  let rpGoal := tickToRp m goal
  if lt startRp rpGoal then rpanic
  else
    let dxMax := mul dx (sub one p.feeRate)
    let doable := dxFromLDrp liq startRp rpGoal
    if lt doable F64.zero then rpanic
    else if lt doable dxMax then
      .ok (doable, mul (div doable (sub one p.feeRate)) p.feeRate, true, goal, rpGoal)
    else
      let endRp := rpNewFromLDx liq startRp dxMax
      if lt startRp endRp then rpanic
      else if lt endRp rpGoal then rpanic
      else .ok (dxMax, sub dx dxMax, false, rpToTick m endRp false, endRp)

/-- `swap_within_tick_from_x`, mod 519-621. -/
def swapWithinX (m : LibM) (p : Pool) (startRp : F64) (goal : Nat) (liq dx o : F64) :
    R SwapWithinResult := do
  if le dx F64.zero then rpanic
  else
    let (doneDx, feeX, cross, endT, endRp) ← p.fillX m startRp goal liq dx
    let dyCpmm := dyFromLDrp liq startRp endRp
    let doneDy ← p.doneDyX m startRp endRp liq o dyCpmm
    let doneDy := mul doneDy adjWholeFill
    let dyCpmm := mul dyCpmm adjWholeFill
    let hmmAdj := sub doneDy dyCpmm
    if lt F64.zero dyCpmm then rpanic
    else if lt hmmAdj F64.zero then rpanic
    else if lt (add p.y dyCpmm) F64.zero then rpanic
    else SwapWithinResult.new doneDx doneDy endT endRp cross hmmAdj feeX

/-- Running totals of a swap loop with `curr_t`, `curr_rp`, mod 633-641, 873-881. -/
structure SwapAcc where
  recv : F64
  send : F64
  adj : F64
  fee : F64
  currT : Nat
  currRp : F64
  deriving DecidableEq, Repr, Inhabited

/-- The closing block of `execute_swap_from_x`, mod 663-684 and 740-755.  `powi(2)` is `x * x`. -/
def finishX (p : Pool) (a : SwapAcc) : R (Pool × SwapOutput) := do
  let avg := if F64.eq a.recv F64.zero then F64.zero else div a.send.neg a.recv
  let o ← SwapOutput.new a.recv a.send a.adj a.fee avg (mul p.gs.rp p.gs.rp)
  return (p, o)

/-- The `Some(gtk)` arm of the loop of `execute_swap_from_x`, mod 687-737. -/
def stepX (m : LibM) (dx o : F64) (p : Pool) (a : SwapAcc) (gtk : Nat) : R (Pool × SwapAcc) := do
  let r ← p.swapWithinX m a.currRp gtk p.gs.liq (sub dx a.recv) o
  rassert (le F64.zero (sub (add p.y r.send) r.sendHmmAdj))
  rassert (le (add r.recv r.recvFee) (sub dx a.recv))
  let a : SwapAcc := ⟨add a.recv (add r.recv r.recvFee), add a.send r.send, add a.adj r.sendHmmAdj,
    add a.fee r.recvFee, r.endTick, r.endRp⟩
  let p := { (p.setTick r.endTick).setRp r.endRp with
    x := add p.x r.recv, y := add p.y (sub r.send r.sendHmmAdj),
    xFee := add p.xFee r.recvFee, yAdj := add p.yAdj r.sendHmmAdj }
  let p := if lt F64.zero p.gs.liq then
      p.setFees { p.gs.fees with
        fx := add p.gs.fees.fx (div r.recvFee p.gs.liq), hy := add p.gs.fees.hy (div r.sendHmmAdj p.gs.liq) }
    else p
  let p ← (if r.cross then do
      rassert (decide (r.endTick = gtk))
      if (mapGet gtk p.ticks).isSome then p.crossTick gtk false else .ok p
    else .ok p)
  return (p, a)

/-- The `while` loop of `execute_swap_from_x`, mod 643-739.  The first argument bounds the number of
rounds; running out of it is reported as `Err.diverge`. -/
def loopX (m : LibM) (dx o : F64) : Nat → Pool → SwapAcc → R (Pool × SwapOutput)
  | 0, _, _ => .error .diverge
  | fuel + 1, p, a => do
    if lt a.recv dx then
      let (p, goal, a) ← (if lt F64.zero p.gs.liq then .ok (p, p.leftLimit a.currT, a)
        else do
          let (p, goal, rp) ← p.tryGetInRange m false
          return (p, goal, { a with currRp := rp }) : R (Pool × Option Nat × SwapAcc))
      match goal with
      | none => finishX p a
      | some gtk => do
        let (p, a) ← stepX m dx o p a gtk
        loopX m dx o fuel p a
    else finishX p a

/-- Starting totals of a swap loop. -/
def acc0 (p : Pool) : SwapAcc := ⟨F64.zero, F64.zero, F64.zero, F64.zero, p.gs.tick, p.gs.rp⟩

/-- `execute_swap_from_x`, mod 623-756, with at most `fuel` rounds of its loop. -/
def executeSwapFromX (m : LibM) (fuel : Nat) (p : Pool) (dx o : F64) : R (Pool × SwapOutput) :=
  if le dx F64.zero then rpanic else loopX m dx o fuel p p.acc0

/-- The choice of the X amount in `swap_within_tick_from_y`, mod 820-840. -/
def doneDxY (m : LibM) (p : Pool) (startRp endRp liq o dxCpmm : F64) : R F64 :=
  if F64.eq p.c F64.zero || le o startRp then .ok dxCpmm
  else if lt startRp o && le o endRp then
    .ok (add (dxFromLDrpHmm m liq startRp o p.c o) (dxFromLDrp liq o endRp))
  else if lt endRp o then .ok (dxFromLDrpHmm m liq startRp endRp p.c o)
  else rpanic

/-- The quantity part of `swap_within_tick_from_y`, mod 774-816: `(done_dy, fee_y, cross, end_t, end_rp)`. -/
def fillY (m : LibM) (p : Pool) (startRp : F64) (goal : Nat) (liq dy : F64) :
    R (F64 × F64 × Bool × Nat × F64) :=
  let rpGoal := tickToRp m goal
  if lt rpGoal startRp then rpanic
  else
    let dyMax := mul dy (sub one p.feeRate)
    let doable := dyFromLDrp liq startRp rpGoal
    if lt doable F64.zero then rpanic
    else if lt doable dyMax then
      .ok (doable, mul (div doable (sub one p.feeRate)) p.feeRate, true, goal, rpGoal)
    else
      let endRp := rpNewFromLDy liq startRp dyMax
      if lt endRp startRp then rpanic
      else if lt rpGoal endRp then rpanic
      else .ok (dyMax, sub dy dyMax, false, rpToTick m endRp false, endRp)

/-- `swap_within_tick_from_y`, mod 758-861. -/
def swapWithinY (m : LibM) (p : Pool) (startRp : F64) (goal : Nat) (liq dy o : F64) :
    R SwapWithinResult := do
  if le dy F64.zero then rpanic
  else
    let (doneDy, feeY, cross, endT, endRp) ← p.fillY m startRp goal liq dy
    let dxCpmm := dxFromLDrp liq startRp endRp
    let doneDx ← p.doneDxY m startRp endRp liq o dxCpmm
    let dxCpmm := mul dxCpmm adjWholeFill
    let doneDx := mul doneDx adjWholeFill
    let hmmAdj := sub doneDx dxCpmm
    if lt F64.zero dxCpmm then rpanic
    else if lt hmmAdj F64.zero then rpanic
    else if lt (add p.x dxCpmm) F64.zero then rpanic
    else SwapWithinResult.new doneDy doneDx endT endRp cross hmmAdj feeY

/-- The closing block of `execute_swap_from_y`, mod 903-924 and 980-995. -/
def finishY (p : Pool) (a : SwapAcc) : R (Pool × SwapOutput) := do
  let avg := if F64.eq a.send F64.zero then F64.zero else div a.recv.neg a.send
  let o ← SwapOutput.new a.recv a.send a.adj a.fee avg (mul p.gs.rp p.gs.rp)
  return (p, o)

/-- The `Some(gtk)` arm of the loop of `execute_swap_from_y`, mod 927-977. -/
def stepY (m : LibM) (dy o : F64) (p : Pool) (a : SwapAcc) (gtk : Nat) : R (Pool × SwapAcc) := do
  let r ← p.swapWithinY m a.currRp gtk p.gs.liq (sub dy a.recv) o
  rassert (le F64.zero (sub (add p.x r.send) r.sendHmmAdj))
  rassert (le (add r.recv r.recvFee) (sub dy a.recv))
  let a : SwapAcc := ⟨add a.recv (add r.recv r.recvFee), add a.send r.send, add a.adj r.sendHmmAdj,
    add a.fee r.recvFee, r.endTick, r.endRp⟩
  let p := { (p.setTick r.endTick).setRp r.endRp with
    x := add p.x (sub r.send r.sendHmmAdj), y := add p.y r.recv,
    xAdj := add p.xAdj r.sendHmmAdj, yFee := add p.yFee r.recvFee }
  let p := if lt F64.zero p.gs.liq then
      p.setFees { p.gs.fees with
        hx := add p.gs.fees.hx (div r.sendHmmAdj p.gs.liq), fy := add p.gs.fees.fy (div r.recvFee p.gs.liq) }
    else p
  let p ← (if r.cross then do
      rassert (decide (r.endTick = gtk))
      if (mapGet gtk p.ticks).isSome then p.crossTick gtk true else .ok p
    else .ok p)
  return (p, a)

/-- The `while` loop of `execute_swap_from_y`, mod 883-979. -/
def loopY (m : LibM) (dy o : F64) : Nat → Pool → SwapAcc → R (Pool × SwapOutput)
  | 0, _, _ => .error .diverge
  | fuel + 1, p, a => do
    if lt a.recv dy then
      let (p, goal, a) ← (if lt F64.zero p.gs.liq then do
          return (p, ← p.rightLimit a.currT p.gs.tick, a)
        else do
          let (p, goal, rp) ← p.tryGetInRange m true
          return (p, goal, { a with currRp := rp }) : R (Pool × Option Nat × SwapAcc))
      match goal with
      | none => finishY p a
      | some gtk => do
        let (p, a) ← stepY m dy o p a gtk
        loopY m dy o fuel p a
    else finishY p a

/-- `execute_swap_from_y`, mod 863-996, with at most `fuel` rounds of its loop. -/
def executeSwapFromY (m : LibM) (fuel : Nat) (p : Pool) (dy o : F64) : R (Pool × SwapOutput) :=
  if le dy F64.zero then rpanic else loopY m dy o fuel p p.acc0

end Pool

end Hmm.Flt
