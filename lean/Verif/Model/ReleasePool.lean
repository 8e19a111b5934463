import Verif.Model.Release
import Verif.Model.Pool

/-
The in-memory pool (`cl_pool`) built without overflow checks.  As in `Release.lean`, the functions that contain, or call
something that contains, a plain operator are repeated with wrapping in place of panics; everything else is taken from
`Decimal.lean`, `Ln.lean`, `PoolMath.lean` and `Pool.lean`.  Line numbers refer to the same files as there.

Plain operators of the pool, besides those of the decimals: `provided_tick - 1` in mod 216, `goal_tick - 1` in mod 702,
`self.glbl_tick() - 1` in mod 965, all on `u128`.
-/

namespace Hmm

namespace Release

/-- Plain `-` on `u128` of a release build. -/
def wrapSub (a b : Nat) : Nat := if b ≤ a then a - b else a + u128Size - b

namespace InMemory

/-! ### Powers, `decimal.rs` -/

/-- `Decimal::is_integer`, 185-189. -/
def isInteger (d : Decimal) : R Bool := do
  let i0 ← toScale d 0
  let i ← toScale i0 d.scale
  let diff ← unwrap (d.sub i)
  return diff.isZero

/-- The arms of `impl Pow<Decimal>`, 467-494, for an exponent that is tested in order; `rec` stands
for the recursive call of line 488. -/
def powDecWith (rec : Decimal → R Decimal) (d exp : Decimal) : R Decimal := do
  let one ← toScale (Decimal.fromInt 1) d.scale
  let two ← toScale (Decimal.fromInt 2) d.scale
  let four ← toScale (Decimal.fromInt 4) d.scale
  let quarter ← div one four
  let half ← div one two
  let five ← toScale (Decimal.fromInt 5) d.scale
  let oneQuarter ← div five four
  let three ← toScale (Decimal.fromInt 3) d.scale
  let oneHalf ← div three two
  if exp.isZero then return one
  if (← unwrap (exp.eq quarter)) then
    let r ← unwrap (sqrt d)
    return (← unwrap (sqrt r))
  if (← unwrap (exp.eq half)) then
    return (← unwrap (sqrt d))
  if (← unwrap (exp.eq one)) then return d
  if (← unwrap (exp.eq oneQuarter)) then
    let r ← unwrap (sqrt d)
    let r ← unwrap (sqrt r)
    return (← mul d r)
  if (← unwrap (exp.eq oneHalf)) then
    let r ← unwrap (sqrt d)
    return (← mul d r)
  let isInt ← isInteger exp
  if isInt && exp.isPositive then
    let n ← abs exp
    return (← powInt d n)
  if isInt && exp.isNegative then
    let n ← abs exp
    return (← div one (← powInt d n))
  if exp.isNegative then
    let p ← rec (Decimal.new exp.value exp.scale false)
    return (← div one p)
  rpanic

/-- `impl Pow<Decimal> for Decimal`, 451-495.  The recursive call has a non-negative exponent, so
the recursion is at most one level deep: the inner call can only reach the last arm's panic. -/
def powDec (d exp : Decimal) : R Decimal :=
  powDecWith (powDecWith (fun _ => rpanic) d) d exp

/-! ### Logarithm, `decimal.rs` -/

/-- `log_table_value`, 869-901.  Conversion to `usize` (64 bit) drops the sign and panics above
`2^64 - 1` (`Into<usize>`, 540-544). -/
def logTableValue (s t : Decimal) (col : Nat) : R (Decimal × Decimal × Nat) := do
  let s ← div s t
  let place ← Hmm.pow10 (col + 1)
  let f := Decimal.new place s.scale false
  let t ← div (← mul s f) f
  let rowD ← unwrap ((← mul t f).sub f)
  let row ← u64 rowD.value
  let lx ← (match row with
    | 0 => .ok 0
    | r + 1 => if r < 9 ∧ col < 12 then logTable r col else .ok 0 : R Nat)
  return (s, t, lx)

/-- `impl BitLength for Decimal`, 904-930.  (The function `fl` gets the scale, not the denominator, and covers both builds.) -/
def bitLength (fl : FloatEnv) (d : Decimal) : R Decimal :=
  if d.isNegative then rerr .signedDecimalsNotSupported
  else if d.isZero then .ok (Decimal.fromInt 0)
  else do
    let (v, neg) := fl d.value d.scale
    let v ← u128 v
    let x := Decimal.new v d.scale neg
    let r ← (if neg then toScaleUp x 0 else toScale x 0)
    return Decimal.new r.value 0 neg

/-- The ten chained table lookups of `ln`, 952-961, accumulating the sum of 963-984; `n` lookups are
left, starting at column `col`. -/
def lnLoop : Nat → Nat → Decimal → Decimal → Nat → R Nat
  | 0, _, _, _, acc => .ok acc
  | n + 1, col, s, t, acc => do
    let (s', t', lx) ← logTableValue s t col
    let acc' ← checkedAdd acc lx
    lnLoop n (col + 1) s' t' acc'

/-- `impl Ln for Decimal`, 934-992. -/
def ln (fl : FloatEnv) (d : Decimal) : R Decimal := do
  if d.isNegative then rerr .signedDecimalsNotSupported
  else
    let scaledOut ← toComputeScale d
    let ln2 := Decimal.new 693147180559 12 false
    let bl ← unwrap (bitLength fl d)
    let two6 ← toScale (Decimal.fromInt 2) 6
    let bl6 ← toScale bl 6
    let mx ← toComputeScale (← powDec two6 bl6)
    let sum ← lnLoop 10 0 scaledOut mx 0
    let lxSum := Decimal.new sum 12 scaledOut.negative
    let r ← unwrap ((← mul ln2 bl).add lxSum)
    toScale r d.scale

/-! ### Pool formulas, `cl_pool/cl_math.rs` -/

/-- The loop of `rp_to_tick_loop`, 53-62.  The first argument is `u128::MAX - x`: the Rust loop
increments `x` with `checked_add(1).unwrap()`, so it panics when that number is exhausted. -/
def rpToTickLoopFrom (m rp : Decimal) (leftToRight : Bool) : Nat → Nat → Decimal → R Nat
  | room, x, rez => do
    let rez ← mul rez m
    if (← unwrap (rez.gte rp)) then
      (if leftToRight then checkedAdd x 1 else .ok x)
    else
      match room with
      | 0 => rpanic
      | room + 1 => rpToTickLoopFrom m rp leftToRight room (x + 1) rez

/-- `PoolMath::rp_to_tick_loop`, 49-64. -/
def rpToTickLoop (rp : Decimal) (leftToRight : Bool) (start : Nat) : R Nat := do
  let m ← tickBaseRoot
  let rez ← powInt m start
  rpToTickLoopFrom m rp leftToRight (u128Size - 1 - start) start rez

/-- `PoolMath::tk_to_possible_tk`, 66-77. -/
def tkToPossibleTk (tick spacing : Nat) (leftToRight : Bool) : R Nat := do
  let ts := Decimal.fromInt spacing
  let tk := Decimal.fromInt tick
  let r ← (if leftToRight then do mul (← divUp tk ts) ts else do mul (← div tk ts) ts)
  return r.value

/-- `PoolMath::rp_to_possible_tk`, 79-83. -/
def rpToPossibleTk (rp : Decimal) (spacing : Nat) (leftToRight : Bool) (start : Nat) : R Nat := do
  let t ← rpToTickLoop rp leftToRight start
  tkToPossibleTk t spacing leftToRight

/-- `PoolMath::dx_from_l_drp`, 255-267. -/
def dxFromLDrp (l rpOld rpNew : Decimal) : R Decimal := do
  if rpOld.isZero || rpNew.isZero then rpanic
  else
    let diff ← unwrap (rpOld.sub rpNew)
    let m ← mul rpOld rpNew
    div (← mul l diff) m

/-- `PoolMath::dy_from_l_drp`, 269-273. -/
def dyFromLDrp (l rpOld rpNew : Decimal) : R Decimal := do
  mul (← unwrap (rpNew.sub rpOld)) l

/-- `PoolMath::dx_from_l_drp_hmm`, 275-314. -/
def dxFromLDrpHmm (fl : FloatEnv) (l rpOld rpNew c rpOracle : Decimal) : R Decimal := do
  if (← unwrap ((← toComputeScale c).lt PoolMath.one)) then rpanic
  else if (← unwrap (rpOld.eq rpNew)) then return PoolMath.zero
  else if (← unwrap ((← toComputeScale c).eq PoolMath.one)) then
    let a ← unwrap (ln fl rpOld)
    let b ← unwrap (ln fl rpNew)
    let r ← unwrap (a.sub b)
    if rpOracle.isZero then rpanic
    else mul (← div l rpOracle) r
  else
    let cmo ← unwrap (c.sub PoolMath.one)
    let omc := cmo.neg
    let oc ← powDec rpOracle c
    let nw ← powDec rpNew cmo
    let od ← powDec rpOld cmo
    let diff ← unwrap (nw.sub od)
    div (← mul (← div l oc) diff) omc

/-- `PoolMath::dy_from_l_drp_hmm`, 316-358. -/
def dyFromLDrpHmm (fl : FloatEnv) (l rpOld rpNew c rpOracle : Decimal) : R Decimal := do
  if (← unwrap ((← toComputeScale c).lt PoolMath.one)) then rpanic
  else if (← unwrap (rpOld.eq rpNew)) then return PoolMath.zero
  else if rpOld.isZero || rpNew.isZero then rpanic
  else if (← unwrap ((← toComputeScale c).eq PoolMath.one)) then
    let a ← unwrap (ln fl rpOld)
    let b ← unwrap (ln fl rpNew)
    let r ← unwrap (a.sub b)
    mul (← mul l rpOracle) r
  else
    let cmo ← unwrap (c.sub PoolMath.one)
    let omc := cmo.neg
    let oc ← powDec rpOracle c
    let nw ← powDec rpNew cmo
    let od ← powDec rpOld cmo
    let inw ← div PoolMath.one nw
    let iod ← div PoolMath.one od
    let diff ← unwrap (inw.sub iod)
    div (← mul (← mul l oc) diff) omc

/-- `PoolMath::rp_new_from_l_dx`, 360-376. -/
def rpNewFromLDx (l rpOld dx : Decimal) : R Decimal := do
  let numer ← mul l rpOld
  let denom ← unwrap ((← mul dx rpOld).add l)
  if denom.isZero then rpanic
  else
    let r ← div numer denom
    if r.isNegative then rpanic else return r

/-- `PoolMath::rp_new_from_l_dy`, 378-389. -/
def rpNewFromLDy (l rpOld dy : Decimal) : R Decimal := do
  if l.isZero then rpanic
  else
    let r ← unwrap ((← div dy l).add rpOld)
    if r.isNegative then rpanic else return r

/-! ### The pool, `cl_pool/mod.rs` (mod) -/

/-- `Pool::new`, mod 41-93 (without token names and decimals). -/
def new (bootstrapRp : Decimal) (spacing : Nat) (hmmC feeRate : Decimal) : R Pool := do
  if bootstrapRp.isNegative then rpanic
  else if hmmC.isNegative then rpanic
  else if (← unwrap ((← toComputeScale hmmC).gt PoolMath.two)) then rpanic
  else if feeRate.isNegative then rpanic
  else
    let tk ← rpToPossibleTk bootstrapRp spacing false 0
    let rp ← tickToRp tk
    let gs ← GlobalState.new PoolMath.zero rp tk Fees.zero
    return {
      spacing, gs, ticks := [], positions := [],
      x := PoolMath.zero, y := PoolMath.zero, xAdj := PoolMath.zero, yAdj := PoolMath.zero,
      xFee := PoolMath.zero, yFee := PoolMath.zero, c := hmmC, feeRate }

/-- `Pool::tick_to_possible_tick`, mod 136-141. -/
def tickToPossibleTick (p : Pool) (tick : Nat) (leftToRight : Bool) : R Nat :=
  tkToPossibleTk tick p.spacing leftToRight

/-- `Pool::rp_to_possible_tick`, mod 143-146. -/
def rpToPossibleTick (p : Pool) (rp : Decimal) (leftToRight : Bool) (start : Nat) : R Nat :=
  rpToPossibleTk rp p.spacing leftToRight start

/-- `Pool::cross_tick`, mod 185-221.  `provided_tick - 1` wraps to `2^128 - 1` at tick 0. -/
def crossTick (p : Pool) (tick : Nat) (leftToRight : Bool) : R Pool := do
  if !leftToRight && p.gs.tick ≠ tick then rpanic
  else
    let g := p.gs.fees
    match mapGet tick p.ticks with
    | none => rpanic
    | some ts =>
      let liq := if leftToRight then ts.liqNet else ts.liqNet.neg
      let fx ← unwrap (g.fx.sub ts.fees.fx)
      let fy ← unwrap (g.fy.sub ts.fees.fy)
      let hx ← unwrap (g.hx.sub ts.fees.hx)
      let hy ← unwrap (g.hy.sub ts.fees.hy)
      let p := { p with ticks := mapSet tick { ts with fees := ⟨fx, fy, hx, hy⟩ } p.ticks }
      let t ← (if leftToRight then .ok tick
        else tickToPossibleTick p (wrapSub tick 1) leftToRight)
      (p.setTick t).addGlblLiq liq

/-- `Pool::get_left_limit_of_swap_within`, mod 223-236. -/
def leftLimit (p : Pool) (startT : Nat) : R (Option Nat) := do
  let tick ← tickToPossibleTick p (Nat.min startT p.gs.tick) false
  return (p.tickKeys true).find? (fun tk => decide (tk ≤ tick))

/-- `Pool::get_right_limit_of_swap_within`, mod 238-277. -/
def rightLimit (p : Pool) (startT glblTick : Nat) : R (Option Nat) := do
  let st ← tickToPossibleTick p startT false
  if st = glblTick then return (p.tickKeys false).find? (fun tk => decide (tk > st))
  else if st > glblTick then return (p.tickKeys false).find? (fun tk => decide (tk ≥ st))
  else rpanic

/-- The descending loop of `try_get_in_range`, mod 297-320. -/
def tryInRangeLeft : List Nat → Pool → R (Pool × Option Nat × Decimal)
  | [], p => .ok (p, none, p.gs.rp)
  | tk :: tks, p => do
    if tk > p.gs.tick then tryInRangeLeft tks p
    else
      let rp ← tickToRp tk
      let p := (p.setTick tk).setRp rp
      let p ← crossTick p tk false
      let goal ← leftLimit p p.gs.tick
      if p.gs.liq.isNegative then rpanic
      else if p.gs.liq.isPositive then return (p, goal, p.gs.rp)
      else tryInRangeLeft tks p

/-- The ascending loop of `try_get_in_range`, mod 322-343. -/
def tryInRangeRight : List Nat → Pool → R (Pool × Option Nat × Decimal)
  | [], p => .ok (p, none, p.gs.rp)
  | tk :: tks, p => do
    if tk ≤ p.gs.tick then tryInRangeRight tks p
    else
      let rp ← tickToRp tk
      let p := (p.setTick tk).setRp rp
      let p ← crossTick p tk true
      let goal ← rightLimit p tk tk
      if p.gs.liq.isNegative then rpanic
      else if p.gs.liq.isPositive then return (p, goal, p.gs.rp)
      else tryInRangeRight tks p

/-- `Pool::try_get_in_range`, mod 288-346, with `GetInRangeOutput::new`, comp 277-282, which refuses
a negative root price. -/
def tryGetInRange (p : Pool) (leftToRight : Bool) : R (Pool × Option Nat × Decimal) := do
  if p.gs.liq.isPositive then rpanic
  else
    let (p, goal, rp) ← (if leftToRight then tryInRangeRight (p.tickKeys false) p
      else tryInRangeLeft (p.tickKeys true) p)
    if rp.isNegative then rpanic else return (p, goal, rp)

/-- `Pool::_set_position`, mod 393-499.  Returns the new pool and the uncollected fees. -/
def setPosition (p : Pool) (user lower upper : Nat) (liqDelta : Decimal) : R (Pool × Fees) := do
  let newFx ← p.feeRng (·.fx) lower upper
  let newFy ← p.feeRng (·.fy) lower upper
  let newHx ← p.feeRng (·.hx) lower upper
  let newHy ← p.feeRng (·.hy) lower upper
  let (positions, old, base) ←
    Pool.setPositionMap p.positions ⟨user, lower, upper⟩ liqDelta ⟨newFx, newFy, newHx, newHy⟩
  let p := { p with positions := positions }
  let fux ← unwrap (newFx.sub old.fx)
  let fuy ← unwrap (newFy.sub old.fy)
  let hux ← unwrap (newHx.sub old.hx)
  let huy ← unwrap (newHy.sub old.hy)
  rassert (!fux.isNegative)
  rassert (!fuy.isNegative)
  rassert (!hux.isNegative)
  rassert (!huy.isNegative)
  let p ← p.updateTick lower liqDelta false
  let p ← p.updateTick upper liqDelta true
  let p ← (if p.gs.tick ≥ lower ∧ p.gs.tick < upper then p.addGlblLiq liqDelta else .ok p)
  let fx ← mul base fux
  let fy ← mul base fuy
  let hx ← mul base hux
  let hy ← mul base huy
  return (p, ⟨fx, fy, hx, hy⟩)

/-- `Pool::deposit`, mod 501-584. -/
def deposit (p : Pool) (user : Nat) (x y rpa rpb : Decimal) : R (Pool × Pool.Receipt) := do
  rassert (!x.isNegative)
  rassert (!y.isNegative)
  rassert (!rpa.isNegative)
  rassert (!rpb.isNegative)
  let lower ← rpToPossibleTick p rpa false 0
  let upper ← rpToPossibleTick p rpb false lower
  rassert (decide (upper > lower))
  let rpaU ← tickToRp lower
  let rpbU ← tickToRp upper
  let rpU := p.gs.rp
  let liq ← liqFromXYRpRng x y rpU rpaU rpbU
  if liq.isNegative then rpanic
  else
    let xIn ← xFromLRpRng liq rpU rpaU rpbU
    if (← unwrap (xIn.gt x)) then rpanic
    else
      let yIn ← yFromLRpRng liq rpU rpaU rpbU
      if (← unwrap (yIn.gt y)) then rpanic
      else
        let (p, f) ← setPosition p user lower upper liq
        let xDeb ← unwrap ((← unwrap (xIn.sub f.fx)).sub f.hx)
        let yDeb ← unwrap ((← unwrap (yIn.sub f.fy)).sub f.hy)
        let px ← unwrap (p.x.add xIn)
        let py ← unwrap (p.y.add yIn)
        let p ← p.payFees f
        let _ ← unwrap (f.fx.add f.hx)
        let _ ← unwrap (f.fy.add f.hy)
        let _ ← unwrap (x.sub xDeb)
        let _ ← unwrap (y.sub yDeb)
        return ({ p with x := px, y := py }, ⟨xIn, yIn, f, xDeb, yDeb⟩)

/-- `Pool::withdraw`, mod 586-649. -/
def withdraw (p : Pool) (user : Nat) (liq rpa rpb : Decimal) : R (Pool × Pool.Receipt) := do
  rassert (!liq.isNegative)
  let lower ← rpToPossibleTick p rpa false 0
  let upper ← rpToPossibleTick p rpb false lower
  rassert (decide (upper > lower))
  let rpaU ← tickToRp lower
  let rpbU ← tickToRp upper
  let (p, f) ← setPosition p user lower upper liq.neg
  let rpU := p.gs.rp
  let xOut ← xFromLRpRng liq rpU rpaU rpbU
  let yOut ← yFromLRpRng liq rpU rpaU rpbU
  let adj ← unwrap (PoolMath.one.sub PoolMath.adjWithdrawal)
  let xOut ← mul xOut adj
  let yOut ← mul yOut adj
  let xSent ← unwrap ((← unwrap (xOut.add f.fx)).add f.hx)
  let ySent ← unwrap ((← unwrap (yOut.add f.fy)).add f.hy)
  if (← unwrap (p.x.lt xOut)) then rpanic
  else if (← unwrap (p.y.lt yOut)) then rpanic
  else
    let px ← unwrap (p.x.sub xOut)
    let py ← unwrap (p.y.sub yOut)
    let p ← p.payFees f
    let _ ← unwrap (f.fx.add f.hx)
    let _ ← unwrap (f.fy.add f.hy)
    return ({ p with x := px, y := py }, ⟨xOut, yOut, f, xSent, ySent⟩)

/-- The choice of the Y amount in `swap_within_tick_from_x`, mod 714-740.  In line 721 the first
conjunct is implied by the failed test of line 715 and is not repeated. -/
def doneDyX (fl : FloatEnv) (p : Pool) (startRp endRp liq rpOracle dyCpmm : Decimal) : R Decimal := do
  if p.c.isZero || rpOracle.isZero then return dyCpmm
  else if (← unwrap (rpOracle.gte startRp)) then return dyCpmm
  else if (← unwrap (rpOracle.gte endRp)) then
    let d1 ← dyFromLDrpHmm fl liq startRp rpOracle p.c rpOracle
    let d2 ← dyFromLDrp liq rpOracle endRp
    if d1.isPositive || d2.isPositive then rpanic
    else unwrap (d1.add d2)
  else if (← unwrap (rpOracle.lt endRp)) then
    dyFromLDrpHmm fl liq startRp endRp p.c rpOracle
  else rpanic

/-- The quantity part of `swap_within_tick_from_x`, mod 669-712: `(done_dx, fee_x, cross, end_t, end_rp)`.
`goal_tick - 1` wraps to `2^128 - 1` at tick 0. -/
def fillX (p : Pool) (startRp : Decimal) (goal : Nat) (liq dx : Decimal) :
    R (Decimal × Decimal × Bool × Nat × Decimal) := do
  let rpGoal ← tickToRp goal
  if (← unwrap (rpGoal.gt startRp)) then rpanic
  else
    let feeFactor ← unwrap (PoolMath.one.sub p.feeRate)
    let dxMax ← mul dx feeFactor
    let doable ← dxFromLDrp liq startRp rpGoal
    if doable.isNegative then rpanic
    else if (← unwrap (doable.lt dxMax)) then
      let fee ← mul (← div doable feeFactor) p.feeRate
      return (doable, fee, true, goal, rpGoal)
    else
      let fee ← unwrap (dx.sub dxMax)
      let endRp ← rpNewFromLDx liq startRp dxMax
      let endT ← rpToTickLoop endRp false (wrapSub goal 1)
      if (← unwrap (endRp.gt startRp)) then rpanic
      else if (← unwrap (endRp.lt rpGoal)) then rpanic
      else return (dxMax, fee, false, endT, endRp)

/-- `Pool::swap_within_tick_from_x`, mod 652-764. -/
def swapWithinX (fl : FloatEnv) (p : Pool) (startRp : Decimal) (goal : Nat) (liq dx rpOracle : Decimal) :
    R SwapWithinResult := do
  if dx.isNegative then rpanic
  else
    let (doneDx, feeX, cross, endT, endRp) ← fillX p startRp goal liq dx
    let dyCpmm ← dyFromLDrp liq startRp endRp
    let doneDy ← doneDyX fl p startRp endRp liq rpOracle dyCpmm
    let hmmAdj ← unwrap (doneDy.sub dyCpmm)
    if dyCpmm.isPositive then rpanic
    else if hmmAdj.isNegative then rpanic
    else if (← unwrap (p.y.add dyCpmm)).isNegative then rpanic
    else
      if !doneDx.isZero && !doneDy.isZero then
        let avg ← div doneDy.neg (← unwrap (doneDx.add feeX))
        let sq ← powInt startRp 2
        rassert (!(← unwrap (avg.gt sq)))
      SwapWithinResult.new doneDx doneDy endT endRp cross hmmAdj feeX

/-- The closing block of `execute_swap_from_x`, mod 807-827 and 898-911. -/
def finishX (p : Pool) (a : Pool.SwapAcc) : R (Pool × SwapOutput) := do
  let avg ← (if a.recv.isZero then .ok PoolMath.zero else div a.send.neg a.recv)
  let endP ← powInt p.gs.rp 2
  let o ← SwapOutput.new a.recv a.send a.adj a.fee avg endP
  return (p, o)

/-- The `Some(gtk)` arm of the loop of `execute_swap_from_x`, mod 830-894. -/
def stepX (fl : FloatEnv) (dx rpOracle : Decimal) (p : Pool) (a : Pool.SwapAcc) (gtk : Nat) :
    R (Pool × Pool.SwapAcc) := do
  let rem ← unwrap (dx.sub a.recv)
  let r ← swapWithinX fl p a.currRp gtk p.gs.liq rem rpOracle
  let newY ← unwrap ((← unwrap (p.y.add r.send)).sub r.sendHmmAdj)
  rassert (!newY.isNegative)
  let check ← unwrap ((← unwrap (rem.sub r.recv)).sub r.recvFee)
  rassert (!check.isNegative)
  let recv ← unwrap ((← unwrap (a.recv.add r.recv)).add r.recvFee)
  let send ← unwrap (a.send.add r.send)
  let adj ← unwrap (a.adj.add r.sendHmmAdj)
  let fee ← unwrap (a.fee.add r.recvFee)
  let newX ← unwrap (p.x.add r.recv)
  let xFee ← unwrap (p.xFee.add r.recvFee)
  let yAdj ← unwrap (p.yAdj.add r.sendHmmAdj)
  let p := { (p.setTick r.endTick).setRp r.endRp with x := newX, y := newY, xFee, yAdj }
  let p ← (if p.gs.liq.isPositive then do
      let fx ← unwrap ((← div r.recvFee p.gs.liq).add p.gs.fees.fx)
      let hy ← unwrap ((← div r.sendHmmAdj p.gs.liq).add p.gs.fees.hy)
      return p.setFees { p.gs.fees with fx, hy }
    else .ok p)
  let p ← (if r.cross then do
      rassert (decide (r.endTick = gtk))
      if (mapGet gtk p.ticks).isSome then crossTick p gtk false else .ok p
    else .ok p)
  return (p, ⟨recv, send, adj, fee, r.endTick, r.endRp⟩)

/-- The `while` loop of `execute_swap_from_x`, mod 788-896.  The first argument bounds the number of
rounds; running out of it is reported as `Err.diverge`. -/
def loopX (fl : FloatEnv) (dx rpOracle : Decimal) : Nat → Pool → Pool.SwapAcc → R (Pool × SwapOutput)
  | 0, _, _ => .error .diverge
  | fuel + 1, p, a => do
    if (← unwrap (a.recv.lt dx)) then
      let (p, goal, a) ← (if p.gs.liq.isPositive then do
          return (p, ← leftLimit p a.currT, a)
        else do
          let (p, goal, rp) ← tryGetInRange p false
          return (p, goal, { a with currRp := rp }) : R (Pool × Option Nat × Pool.SwapAcc))
      match goal with
      | none => finishX p a
      | some gtk => do
        let (p, a) ← stepX fl dx rpOracle p a gtk
        loopX fl dx rpOracle fuel p a
    else finishX p a

/-- `Pool::execute_swap_from_x`, mod 766-912, if it takes at most `n` rounds. -/
def executeSwapFromX (fl : FloatEnv) (n : Nat) (p : Pool) (dx rpOracle : Decimal) : R (Pool × SwapOutput) :=
  if !dx.isPositive then rpanic
  else loopX fl dx rpOracle n p p.acc0

/-- The choice of the X amount in `swap_within_tick_from_y`, mod 980-1004. -/
def doneDxY (fl : FloatEnv) (p : Pool) (startRp endRp liq rpOracle dxCpmm : Decimal) : R Decimal := do
  if p.c.isZero || rpOracle.isZero then return dxCpmm
  else if (← unwrap (rpOracle.lte startRp)) then return dxCpmm
  else if (← unwrap (rpOracle.lte endRp)) then
    let d1 ← dxFromLDrpHmm fl liq startRp rpOracle p.c rpOracle
    let d2 ← dxFromLDrp liq rpOracle endRp
    if d1.isPositive || d2.isPositive then rpanic
    else unwrap (d1.add d2)
  else if (← unwrap (rpOracle.gt endRp)) then
    dxFromLDrpHmm fl liq startRp endRp p.c rpOracle
  else rpanic

/-- The quantity part of `swap_within_tick_from_y`, mod 931-976: `(done_dy, fee_y, cross, end_t, end_rp)`.
`glbl_tick() - 1` wraps to `2^128 - 1` at tick 0. -/
def fillY (p : Pool) (startRp : Decimal) (goal : Nat) (liq dy : Decimal) :
    R (Decimal × Decimal × Bool × Nat × Decimal) := do
  let rpGoal ← tickToRp goal
  if (← unwrap (rpGoal.lt startRp)) then rpanic
  else
    let feeFactor ← unwrap (PoolMath.one.sub p.feeRate)
    let dyMax ← mul dy feeFactor
    let doable ← dyFromLDrp liq startRp rpGoal
    if doable.isNegative then rpanic
    else if (← unwrap (doable.lt dyMax)) then
      let fee ← mul (← div doable feeFactor) p.feeRate
      return (doable, fee, true, goal, rpGoal)
    else
      let fee ← unwrap (dy.sub dyMax)
      let endRp ← rpNewFromLDy liq startRp dyMax
      let seek ← tickToPossibleTick p (wrapSub p.gs.tick 1) false
      let endT ← rpToTickLoop endRp false seek
      if (← unwrap (endRp.lt startRp)) then rpanic
      else if (← unwrap (endRp.gt rpGoal)) then rpanic
      else return (dyMax, fee, false, endT, endRp)

/-- `Pool::swap_within_tick_from_y`, mod 914-1028.  The average-price guard of line 1020 tests
`done_dy.is_zero()` (without negation), as in the source. -/
def swapWithinY (fl : FloatEnv) (p : Pool) (startRp : Decimal) (goal : Nat) (liq dy rpOracle : Decimal) :
    R SwapWithinResult := do
  if dy.isNegative then rpanic
  else
    let (doneDy, feeY, cross, endT, endRp) ← fillY p startRp goal liq dy
    let dxCpmm ← dxFromLDrp liq startRp endRp
    let doneDx ← doneDxY fl p startRp endRp liq rpOracle dxCpmm
    let hmmAdj ← unwrap (doneDx.sub dxCpmm)
    if dxCpmm.isPositive then rpanic
    else if hmmAdj.isNegative then rpanic
    else if (← unwrap (p.x.add dxCpmm)).isNegative then rpanic
    else
      if !doneDx.isZero && doneDy.isZero then
        let avg ← div (← unwrap (doneDy.add feeY)) doneDx
        let sq ← powInt startRp 2
        rassert (!(← unwrap (avg.lt sq)))
      SwapWithinResult.new doneDy doneDx endT endRp cross hmmAdj feeY

/-- The closing block of `execute_swap_from_y`, mod 1070-1090 and 1161-1175. -/
def finishY (p : Pool) (a : Pool.SwapAcc) : R (Pool × SwapOutput) := do
  let avg ← (if a.send.isZero then .ok PoolMath.zero else div a.recv a.send.neg)
  let endP ← powInt p.gs.rp 2
  let o ← SwapOutput.new a.recv a.send a.adj a.fee avg endP
  return (p, o)

/-- The `Some(gtk)` arm of the loop of `execute_swap_from_y`, mod 1093-1157. -/
def stepY (fl : FloatEnv) (dy rpOracle : Decimal) (p : Pool) (a : Pool.SwapAcc) (gtk : Nat) :
    R (Pool × Pool.SwapAcc) := do
  let rem ← unwrap (dy.sub a.recv)
  let r ← swapWithinY fl p a.currRp gtk p.gs.liq rem rpOracle
  let newX ← unwrap ((← unwrap (p.x.add r.send)).sub r.sendHmmAdj)
  rassert (!newX.isNegative)
  let check ← unwrap ((← unwrap (rem.sub r.recv)).sub r.recvFee)
  rassert (!check.isNegative)
  let send ← unwrap (a.send.add r.send)
  let recv ← unwrap ((← unwrap (a.recv.add r.recv)).add r.recvFee)
  let adj ← unwrap (a.adj.add r.sendHmmAdj)
  let fee ← unwrap (a.fee.add r.recvFee)
  let newY ← unwrap (p.y.add r.recv)
  let xAdj ← unwrap (p.xAdj.add r.sendHmmAdj)
  let yFee ← unwrap (p.yFee.add r.recvFee)
  let p := { (p.setTick r.endTick).setRp r.endRp with x := newX, y := newY, xAdj, yFee }
  let p ← (if p.gs.liq.isPositive then do
      let hx ← unwrap ((← div r.sendHmmAdj p.gs.liq).add p.gs.fees.hx)
      let fy ← unwrap ((← div r.recvFee p.gs.liq).add p.gs.fees.fy)
      return p.setFees { p.gs.fees with hx, fy }
    else .ok p)
  let p ← (if r.cross then do
      rassert (decide (r.endTick = gtk))
      if (mapGet gtk p.ticks).isSome then crossTick p gtk true else .ok p
    else .ok p)
  return (p, ⟨recv, send, adj, fee, r.endTick, r.endRp⟩)

/-- The `while` loop of `execute_swap_from_y`, mod 1051-1159. -/
def loopY (fl : FloatEnv) (dy rpOracle : Decimal) : Nat → Pool → Pool.SwapAcc → R (Pool × SwapOutput)
  | 0, _, _ => .error .diverge
  | fuel + 1, p, a => do
    if (← unwrap (a.recv.lt dy)) then
      let (p, goal, a) ← (if p.gs.liq.isPositive then do
          return (p, ← rightLimit p a.currT p.gs.tick, a)
        else do
          let (p, goal, rp) ← tryGetInRange p true
          return (p, goal, { a with currRp := rp }) : R (Pool × Option Nat × Pool.SwapAcc))
      match goal with
      | none => finishY p a
      | some gtk => do
        let (p, a) ← stepY fl dy rpOracle p a gtk
        loopY fl dy rpOracle fuel p a
    else finishY p a

/-- `Pool::execute_swap_from_y`, mod 1030-1176, if it takes at most `n` rounds. -/
def executeSwapFromY (fl : FloatEnv) (n : Nat) (p : Pool) (dy rpOracle : Decimal) : R (Pool × SwapOutput) :=
  if !dy.isPositive then rpanic
  else loopY fl dy rpOracle n p p.acc0

end InMemory

end Release

end Hmm
