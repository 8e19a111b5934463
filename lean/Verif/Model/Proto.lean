import Verif.Model.FloatPool

/-
Model of the Python prototype of the pool, `programs/hmmcl-sandbox/src/cl_python/v3_pool.py` ("py").

Python's floats are the doubles of `F64.lean`; unlike in Rust, dividing by zero, a power that overflows and the logarithm of
what is not positive raise exceptions.  Python's integers are unbounded: ticks are `Int`, and so is the liquidity of a deposit
(py 614), while the liquidity of a withdrawal is whatever the caller passes.  An exception does not undo what was written
before it, so a failing call also has a state.  All exceptions are `Err.panic`.
Left out: names and decimals of the tokens, printing.
-/

namespace Hmm.Proto

open F64
open Flt (Fees)

/-! ### Numbers -/

/-- A Python number. -/
inductive Num where
  | int (n : Int)
  | flt (x : F64)
  deriving DecidableEq, Repr, Inhabited

/-- Raises unless a double is finite. -/
def finite : F64 → R F64
  | fin s n => .ok (fin s n)
  | _ => rpanic

/-- Conversion of an integer, to the nearest double; raises `OverflowError`. -/
def ofInt (n : Int) : R F64 := finite (ofRatio (decide (n < 0)) (n.natAbs * unit) 1)

namespace Num

/-- `float(n)`, also implicit when an integer meets a float. -/
def toFlt : Num → R F64
  | int n => ofInt n
  | flt x => .ok x

/-- `-n`. -/
def neg : Num → Num
  | int n => int (-n)
  | flt x => flt x.neg

/-- `a + b`: exact on integers. -/
def add : Num → Num → R Num
  | int a, int b => .ok (int (a + b))
  | a, b => do return flt (F64.add (← a.toFlt) (← b.toFlt))

/-- `n < 0.0`. -/
def isNeg : Num → Bool
  | int n => decide (n < 0)
  | flt x => lt x zero

/-- `n == 0.0`. -/
def isZero : Num → Bool
  | int n => decide (n = 0)
  | flt x => F64.eq x zero

/-- `n >= 0.0`. -/
def isNonneg : Num → Bool
  | int n => decide (0 ≤ n)
  | flt x => le zero x

end Num

/-- `a / b` on floats. -/
def fdiv (a b : F64) : R F64 := if F64.eq b zero then rpanic else .ok (F64.div a b)

/-- `a / b` on integers: the nearest double to the quotient.  Both are below `2^53` wherever the prototype divides integers, so
that converting them first is exact. -/
def idiv (a b : Int) : R F64 := do fdiv (← ofInt a) (← ofInt b)

/-- `math.floor`. -/
def floor (x : F64) : R Int :=
  match x.floor with
  | fin s n => .ok (signed s (n / unit))
  | _ => rpanic

/-- `math.ceil`. -/
def ceil (x : F64) : R Int :=
  match x.ceil with
  | fin s n => .ok (signed s (n / unit))
  | _ => rpanic

/-- Whether a double is an infinity. -/
def isInf : F64 → Bool
  | inf _ => true
  | _ => false

/-- `a ** b` on floats.  A negative base with an exponent that is no integer gives a complex number in Python; all bases are
prices, and it is an error here. -/
def pow (m : LibM) (a b : F64) : R F64 :=
  if F64.eq a zero && lt b zero then rpanic
  else if lt a zero then rpanic
  else
    let r := m.powf a b
    if isInf r && !isInf a && !isInf b then rpanic else .ok r

/-- `math.log`. -/
def log (m : LibM) (x : F64) : R F64 := if le x zero then rpanic else .ok (m.ln x)

/-- `min(a, b)`. -/
def min (a b : F64) : F64 := if lt b a then b else a

/-- `max(a, b)`. -/
def max (a b : F64) : F64 := if lt a b then b else a

/-! ### Formulas -/

/-- `liq_x_only`, py 147-154. -/
def liqXOnly (x rpa rpb : F64) : R F64 := fdiv (mul (mul x rpa) rpb) (sub rpb rpa)

/-- `liq_y_only`, py 156-163. -/
def liqYOnly (y rpa rpb : F64) : R F64 := fdiv y (sub rpb rpa)

/-- `liq_from_x_y_rP_rng`, py 165-184. -/
def liqFromXYRpRng (x y rp rpa rpb : F64) : R F64 := do
  if le rp rpa then liqXOnly x rpa rpb
  else if lt rp rpb then
    let lx ← liqXOnly x rp rpb
    let ly ← liqYOnly y rpa rp
    return min lx ly
  else liqYOnly y rpa rpb

/-- `x_from_L_rP_rng`, py 193-198. -/
def xFromLRpRng (l rp rpa rpb : F64) : R F64 :=
  let rp := max (min rp rpb) rpa
  fdiv (mul l (sub rpb rp)) (mul rp rpb)

/-- `y_from_L_rP_rng`, py 207-212. -/
def yFromLRpRng (l rp rpa rpb : F64) : F64 :=
  let rp := max (min rp rpb) rpa
  mul l (sub rp rpa)

/-- `dX_from_L_drP`, py 243-246. -/
def dxFromLDrp (l old new : F64) : R F64 := do
  let a ← fdiv one new
  let b ← fdiv one old
  return mul l (sub a b)

/-- `dY_from_L_drP`, py 248-251. -/
def dyFromLDrp (l old new : F64) : F64 := mul l (sub new old)

/-- `dX_from_L_drP_hmm`, py 253-261. -/
def dxFromLDrpHmm (m : LibM) (l old new c o : F64) : R F64 := do
  if F64.eq c one then return mul (← fdiv l o) (← log m (← fdiv old new))
  else
    let omc := sub one c
    let cmo := omc.neg
    fdiv (mul (← fdiv l (← pow m o c)) (sub (← pow m new cmo) (← pow m old cmo))) omc

/-- `dY_from_L_drP_hmm`, py 263-270. -/
def dyFromLDrpHmm (m : LibM) (l old new c o : F64) : R F64 := do
  if F64.eq c one then return mul (mul l o) (← log m (← fdiv old new))
  else
    let omc := sub one c
    fdiv (mul (mul l (← pow m o c)) (sub (← pow m new omc) (← pow m old omc))) omc

/-- `rP_new_from_L_dX`, py 272-276. -/
def rpNewFromLDx (l old dx : F64) : R F64 := do
  let a ← fdiv dx l
  let b ← fdiv one old
  fdiv one (F64.add a b)

/-- `rP_new_from_L_dY`, py 278-281. -/
def rpNewFromLDy (l old dy : F64) : R F64 := do return F64.add (← fdiv dy l) old

/-- `tick_to_rP`, py 283-285. -/
def tickToRp (m : LibM) (tick : Int) : R F64 := do pow m Flt.tickBase (← idiv tick 2)

/-- `rP_to_tick`, py 287-293.  `math.log(x, d)` is the quotient of the logarithms. -/
def rpToTick (m : LibM) (rp : F64) (leftToRight : Bool) : R Int := do
  let d := m.powf Flt.tickBase (← idiv 1 2)
  let l ← fdiv (← log m rp) (← log m d)
  if leftToRight then ceil l else floor l

/-! ### State -/

/-- `TickState`, py 34-50. -/
structure TickState where
  net : F64
  gross : F64
  fees : Fees
  deriving DecidableEq, Repr, Inhabited

/-- `PositionState`, py 53-61. -/
structure PositionState where
  liq : Num
  fees : Fees
  deriving DecidableEq, Repr, Inhabited

/-- Key of a position, py 544. -/
structure Key where
  user : Nat
  lower : Int
  upper : Int
  deriving DecidableEq, Repr, Inhabited

/-- `Pool` with its `GlobalState`, py 19-31, 64-106.  The dictionary of ticks is kept in ascending order: it is only read by key
or sorted. -/
structure Pool where
  spacing : Int
  liq : F64
  rp : F64
  tick : Int
  fees : Fees
  ticks : List (Int × TickState)
  positions : List (Key × PositionState)
  x : F64
  y : F64
  xAdj : F64
  yAdj : F64
  xFee : F64
  yFee : F64
  c : F64
  feeRate : F64
  deriving DecidableEq, Repr, Inhabited

/-- A method: with the state it leaves, also if it raises. -/
abbrev Py := EStateM Err Pool

/-- Something that does not touch the state. -/
def comp {α : Type} : R α → Py α
  | .ok a => fun p => .ok a p
  | .error e => fun p => .error e p

/-- `assert` and `if ...: raise`. -/
def check (b : Bool) : Py Unit := comp (rassert b)

/-- `d[k] = v` on the ascending dictionary of ticks. -/
def insertTick (k : Int) (v : TickState) : List (Int × TickState) → List (Int × TickState)
  | [] => [(k, v)]
  | (k', v') :: m =>
    if k < k' then (k, v) :: (k', v') :: m
    else if k' = k then (k, v) :: m
    else (k', v') :: insertTick k v m

namespace Pool

/-- `tick_to_possible_tick`, py 302-308. -/
def tickToPossibleTick (p : Pool) (tick : Int) (leftToRight : Bool) : R Int := do
  let q ← idiv tick p.spacing
  return (← if leftToRight then ceil q else floor q) * p.spacing

/-- `rP_to_possible_tick`, py 310-313. -/
def rpToPossibleTick (m : LibM) (p : Pool) (rp : F64) (leftToRight : Bool) : R Int := do
  p.tickToPossibleTick (← rpToTick m rp leftToRight) leftToRight

/-- `__init__`, py 72-106. -/
def new (m : LibM) (bootstrapRp : F64) (spacing : Int) (hmmC feeRate : F64) : R Pool := do
  let p : Pool := ⟨spacing, zero, zero, 0, Fees.zero, [], [], zero, zero, zero, zero, zero, zero, hmmC, feeRate⟩
  let tk ← p.rpToPossibleTick m bootstrapRp false
  return { p with rp := ← tickToRp m tk, tick := tk }

/-- `initialize_tick`, py 315-327. -/
def initializeTick (tick : Int) : Py Unit :=
  modify fun p => { p with ticks := insertTick tick ⟨zero, zero, if p.tick ≥ tick then p.fees else Fees.zero⟩ p.ticks }

/-- `update_tick`, py 332-344. -/
def updateTick (tick : Int) (d : Num) (upper : Bool) : Py Unit := do
  if (mapGet tick (← get).ticks).isNone then initializeTick tick
  match mapGet tick (← get).ticks with
  | none => comp rpanic
  | some ts =>
    let net := F64.add ts.net (← comp (if upper then d.neg else d).toFlt)
    modify fun p => { p with ticks := mapSet tick { ts with net := net } p.ticks }
    let gross := F64.add ts.gross (← comp d.toFlt)
    modify fun p => { p with ticks := mapSet tick { ts with net := net, gross := gross } p.ticks }
    if F64.eq gross zero then modify fun p => { p with ticks := mapErase tick p.ticks }

/-- `sorted(self.active_ticks.keys())`. -/
def keys (p : Pool) (reverse : Bool) : List Int :=
  let ks := p.ticks.map (·.1)
  if reverse then ks.reverse else ks

/-- `get_left_limit_of_swap_within`, py 346-359. -/
def leftLimit (p : Pool) (start : Int) : R (Option Int) := do
  let tick ← p.tickToPossibleTick (Min.min start p.tick) false
  return (p.keys true).find? fun tk => decide (tk ≤ tick)

/-- `get_right_limit_of_swap_within`, py 361-399. -/
def rightLimit (p : Pool) (start glbl : Int) : R (Option Int) := do
  let st ← p.tickToPossibleTick start false
  if st = glbl then return (p.keys false).find? fun tk => decide (tk > st)
  else if st > glbl then return (p.keys false).find? fun tk => decide (tk ≥ st)
  else rpanic

/-- `cross_tick`, py 457-490. -/
def crossTick (tick : Int) (leftToRight : Bool) : Py Unit := do
  let p ← get
  check (leftToRight || decide (p.tick = tick))
  match mapGet tick p.ticks with
  | none => comp rpanic
  | some ts =>
    let d := if leftToRight then ts.net else ts.net.neg
    check (!lt (F64.add p.liq d) zero)
    let g := p.fees
    let f : Fees := ⟨sub g.fx ts.fees.fx, sub g.fy ts.fees.fy, sub g.hx ts.fees.hx, sub g.hy ts.fees.hy⟩
    modify fun p => { p with liq := F64.add p.liq d, ticks := mapSet tick { ts with fees := f } p.ticks }
    if leftToRight then modify fun p => { p with tick := tick }
    else
      let t ← comp ((← get).tickToPossibleTick (tick - 1) leftToRight)
      modify fun p => { p with tick := t }

/-- The descending loop of `try_get_in_range`, py 408-429. -/
def tryLeft (m : LibM) : List Int → Py (Option Int × Int × F64)
  | [] => do
    let p ← get
    return (none, p.tick, p.rp)
  | tk :: tks => do
    if tk > (← get).tick then tryLeft m tks
    else
      modify fun p => { p with tick := tk }
      let rp ← comp (tickToRp m tk)
      modify fun p => { p with rp := rp }
      crossTick tk false
      let p ← get
      let goal ← comp (p.leftLimit p.tick)
      check (!lt p.liq zero)
      if lt zero p.liq then return (goal, tk, p.rp) else tryLeft m tks

/-- The ascending loop of `try_get_in_range`, py 430-453. -/
def tryRight (m : LibM) : List Int → Py (Option Int × Int × F64)
  | [] => do
    let p ← get
    return (none, p.tick, p.rp)
  | tk :: tks => do
    if tk ≤ (← get).tick then tryRight m tks
    else
      modify fun p => { p with tick := tk }
      let rp ← comp (tickToRp m tk)
      modify fun p => { p with rp := rp }
      crossTick tk true
      let p ← get
      let goal ← comp (p.rightLimit tk tk)
      check (!lt p.liq zero)
      if lt zero p.liq then return (goal, tk, p.rp) else tryRight m tks

/-- `try_get_in_range`, py 401-455. -/
def tryGetInRange (m : LibM) (leftToRight : Bool) : Py (Option Int × Int × F64) := do
  let p ← get
  check (!lt zero p.liq)
  if leftToRight then tryRight m (p.keys false) else tryLeft m (p.keys true)

/-- `fee_below_above`, py 492-511. -/
def feeBelowAbove (p : Pool) (sel : Fees → F64) (tick : Int) : F64 × F64 :=
  let fg := sel p.fees
  match mapGet tick p.ticks with
  | none => (fg, zero)
  | some ts =>
    let f0 := sel ts.fees
    if p.tick ≥ tick then (f0, sub fg f0) else (sub fg f0, f0)

/-- `fee_rng`, py 513-521. -/
def feeRng (p : Pool) (sel : Fees → F64) (lower upper : Int) : R F64 := do
  let (blwLwr, abvLwr) := p.feeBelowAbove sel lower
  let (blwUpr, abvUpr) := p.feeBelowAbove sel upper
  rassert (F64.eq (F64.add blwLwr abvLwr) (F64.add blwUpr abvUpr))
  return sub (sub (F64.add blwLwr abvLwr) blwLwr) abvUpr

/-- The dictionary of positions in `_set_position`, py 534-576: the new dictionary, the old fee record and the liquidity on
which fees are paid. -/
def setPositionMap (positions : List (Key × PositionState)) (key : Key) (d : Num) (new : Fees) :
    R (List (Key × PositionState) × Fees × Num) := do
  match mapGet key positions with
  | none =>
    if d.isNeg then rpanic else return (mapSet key ⟨d, Fees.zero⟩ positions, Fees.zero, .flt zero)
  | some poz =>
    if d.isNeg && (← poz.liq.add d).isNeg then rpanic
    else
      let s ← poz.liq.add d
      if s.isZero then return (mapErase key positions, poz.fees, poz.liq)
      else return (mapSet key ⟨s, new⟩ positions, poz.fees, poz.liq)

/-- `_set_position`, py 523-597: returns the uncollected fees. -/
def setPosition (user : Nat) (lower upper : Int) (d : Num) : Py Fees := do
  let p ← get
  let fx ← comp (p.feeRng (·.fx) lower upper)
  let fy ← comp (p.feeRng (·.fy) lower upper)
  let hx ← comp (p.feeRng (·.hx) lower upper)
  let hy ← comp (p.feeRng (·.hy) lower upper)
  let (positions, old, base) ← comp (setPositionMap p.positions ⟨user, lower, upper⟩ d ⟨fx, fy, hx, hy⟩)
  modify fun p => { p with positions := positions }
  let u : Fees := ⟨sub fx old.fx, sub fy old.fy, sub hx old.hx, sub hy old.hy⟩
  check (le zero u.fx && le zero u.fy)
  check (le zero u.hx && le zero u.hy)
  updateTick lower d false
  updateTick upper d true
  let p ← get
  if p.tick ≥ lower ∧ p.tick < upper then
    let l ← comp d.toFlt
    modify fun p => { p with liq := F64.add p.liq l }
  let b ← comp base.toFlt
  return ⟨mul b u.fx, mul b u.fy, mul b u.hx, mul b u.hy⟩

/-- The pots after paying out, py 632-635 and 669-672. -/
def payFees (p : Pool) (f : Fees) : Pool :=
  { p with xFee := sub p.xFee f.fx, xAdj := sub p.xAdj f.hx, yFee := sub p.yFee f.fy, yAdj := sub p.yAdj f.hy }

/-- What `deposit` and `withdraw` print. -/
abbrev Receipt := Flt.Pool.Receipt

/-- `deposit`, py 599-639. -/
def deposit (m : LibM) (user : Nat) (x y rpa rpb : F64) : Py Receipt := do
  check (le zero x)
  check (le zero y)
  let p ← get
  let lower ← comp (p.rpToPossibleTick m rpa false)
  let upper ← comp (p.rpToPossibleTick m rpb false)
  let rp ← comp (tickToRp m p.tick)
  let a ← comp (tickToRp m lower)
  let b ← comp (tickToRp m upper)
  let liq ← comp (do floor (← liqFromXYRpRng x y rp a b))
  let l ← comp (ofInt liq)
  let xIn ← comp (xFromLRpRng l rp a b)
  let yIn := yFromLRpRng l rp a b
  check (le xIn x)
  check (le yIn y)
  let f ← setPosition user lower upper (.int liq)
  let xDeb := sub (sub xIn f.fx) f.hx
  let yDeb := sub (sub yIn f.fy) f.hy
  modify fun p => ({ p with x := F64.add p.x xIn, y := F64.add p.y yIn }).payFees f
  return ⟨xIn, yIn, f, xDeb, yDeb⟩

/-- `withdraw`, py 641-675.  `1 - ADJ_WITHDRAWAL` is one. -/
def withdraw (m : LibM) (user : Nat) (liq : Num) (rpa rpb : F64) : Py Receipt := do
  check liq.isNonneg
  let p ← get
  let lower ← comp (p.rpToPossibleTick m rpa false)
  let upper ← comp (p.rpToPossibleTick m rpb false)
  let f ← setPosition user lower upper liq.neg
  let p ← get
  let rp ← comp (tickToRp m p.tick)
  let a ← comp (tickToRp m lower)
  let b ← comp (tickToRp m upper)
  let l ← comp liq.toFlt
  let xOut ← comp (xFromLRpRng l rp a b)
  let xOut := mul xOut one
  let yOut := mul (yFromLRpRng l rp a b) one
  let xSent := F64.add (F64.add xOut f.fx) f.hx
  let ySent := F64.add (F64.add yOut f.fy) f.hy
  modify fun p => ({ p with x := sub p.x xOut, y := sub p.y yOut }).payFees f
  return ⟨xOut, yOut, f, xSent, ySent⟩

/-! ### Swaps -/

/-- Result of `swap_within_tick_from_X` and `swap_within_tick_from_Y`: received, sent, tick, price, whether to cross, withheld
of what is sent, fee. -/
structure Within where
  recv : F64
  send : F64
  endTick : Int
  endRp : F64
  cross : Bool
  adj : F64
  fee : F64
  deriving DecidableEq, Repr, Inhabited

/-- The quantity part of `swap_within_tick_from_X`, py 689-730. -/
def fillX (m : LibM) (p : Pool) (startRp : F64) (goal : Int) (l dx : F64) : R (F64 × F64 × Bool × Int × F64) := do
  let rpGoal ← tickToRp m goal
  if lt startRp rpGoal then rpanic
  else
    let dxMax := mul dx (sub one p.feeRate)
    let doable ← dxFromLDrp l startRp rpGoal
    if lt doable zero then rpanic
    else if lt doable dxMax then
      let fee := mul (← fdiv doable (sub one p.feeRate)) p.feeRate
      return (doable, fee, true, goal, rpGoal)
    else
      let endRp ← rpNewFromLDx l startRp dxMax
      let endT ← rpToTick m endRp false
      if lt startRp endRp then rpanic
      else if lt endRp rpGoal then rpanic
      else return (dxMax, sub dx dxMax, false, endT, endRp)

/-- The choice of the Y amount, py 734-767. -/
def doneDyX (m : LibM) (p : Pool) (startRp endRp l : F64) (o : Option F64) (amm : F64) : R F64 := do
  match o with
  | none => return amm
  | some o =>
    if F64.eq p.c zero || le startRp o then return amm
    else if lt o startRp && le endRp o then
      return F64.add (← dyFromLDrpHmm m l startRp o p.c o) (dyFromLDrp l o endRp)
    else if lt o endRp then dyFromLDrpHmm m l startRp endRp p.c o
    else rpanic

/-- `swap_within_tick_from_X`, py 677-783. -/
def swapWithinX (m : LibM) (p : Pool) (startRp : F64) (goal : Int) (l dx : F64) (o : Option F64) : R Within := do
  if le dx zero then rpanic
  else
    let (done, fee, cross, endT, endRp) ← p.fillX m startRp goal l dx
    let amm := dyFromLDrp l startRp endRp
    let dy ← p.doneDyX m startRp endRp l o amm
    let dy := mul dy Flt.adjWholeFill
    let amm := mul amm Flt.adjWholeFill
    let adj := sub dy amm
    if lt zero amm then rpanic
    else if lt adj zero then rpanic
    else if lt (F64.add p.y amm) zero then rpanic
    else return ⟨done, dy, endT, endRp, cross, adj, fee⟩

/-- Running totals of a swap. -/
structure Acc where
  recv : F64
  send : F64
  adj : F64
  fee : F64
  currT : Int
  currRp : F64
  deriving DecidableEq, Repr, Inhabited

/-- What a swap returns; the average price may be `None`. -/
structure Output where
  recv : F64
  send : F64
  adj : F64
  fee : F64
  avg : Option F64
  endPrice : F64
  deriving DecidableEq, Repr, Inhabited

/-- `a / b if b != 0.0 else None`. -/
def average (a b : F64) : R (Option F64) := do
  if F64.eq b zero then return none else return some (← fdiv a b)

/-- The end of `execute_swap_from_X`, py 816-829 and 877-887. -/
def finishX (m : LibM) (a : Acc) : Py Output := do
  let avg ← comp (average a.send.neg a.recv)
  let e ← comp (pow m (← get).rp (ofNat 2))
  return ⟨a.recv, a.send, a.adj, a.fee, avg, e⟩

/-- One round of the loop of `execute_swap_from_X`, py 831-875. -/
def stepX (m : LibM) (dx : F64) (o : Option F64) (a : Acc) (goal : Int) : Py Acc := do
  let p ← get
  let r ← comp (p.swapWithinX m a.currRp goal p.liq (sub dx a.recv) o)
  check (le zero (sub (F64.add p.y r.send) r.adj))
  check (le (F64.add r.recv r.fee) (sub dx a.recv))
  let a : Acc := ⟨F64.add a.recv (F64.add r.recv r.fee), F64.add a.send r.send, F64.add a.adj r.adj, F64.add a.fee r.fee,
    r.endTick, r.endRp⟩
  modify fun p => { p with
    tick := r.endTick, rp := r.endRp, x := F64.add p.x r.recv, y := F64.add p.y (sub r.send r.adj),
    xFee := F64.add p.xFee r.fee, yAdj := F64.add p.yAdj r.adj }
  if lt zero p.liq then
    let f ← comp (fdiv r.fee p.liq)
    modify fun p => { p with fees := { p.fees with fx := F64.add p.fees.fx f } }
    let h ← comp (fdiv r.adj p.liq)
    modify fun p => { p with fees := { p.fees with hy := F64.add p.fees.hy h } }
  if r.cross then
    check (decide (r.endTick = goal))
    if (mapGet goal (← get).ticks).isSome then crossTick goal false
  return a

/-- The loop of `execute_swap_from_X`, py 806-875, with at most so many rounds. -/
def loopX (m : LibM) (dx : F64) (o : Option F64) : Nat → Acc → Py Output
  | 0, _ => comp (.error .diverge)
  | fuel + 1, a => do
    if lt a.recv dx then
      let p ← get
      let (goal, a) ← (if lt zero p.liq then do
          let goal ← comp (p.leftLimit a.currT)
          return (goal, a)
        else do
          let (goal, t, rp) ← tryGetInRange m false
          return (goal, { a with currT := t, currRp := rp }) : Py (Option Int × Acc))
      match goal with
      | none => finishX m a
      | some g => do
        let a ← stepX m dx o a g
        loopX m dx o fuel a
    else finishX m a

/-- `execute_swap_from_X`, py 785-887. -/
def executeSwapFromX (m : LibM) (fuel : Nat) (dx : F64) (o : Option F64) : Py Output := do
  check (!le dx zero)
  let p ← get
  loopX m dx o fuel ⟨zero, zero, zero, zero, p.tick, p.rp⟩

/-- The quantity part of `swap_within_tick_from_Y`, py 901-942. -/
def fillY (m : LibM) (p : Pool) (startRp : F64) (goal : Int) (l dy : F64) : R (F64 × F64 × Bool × Int × F64) := do
  let rpGoal ← tickToRp m goal
  if lt rpGoal startRp then rpanic
  else
    let dyMax := mul dy (sub one p.feeRate)
    let doable := dyFromLDrp l startRp rpGoal
    if lt doable zero then rpanic
    else if lt doable dyMax then
      let fee := mul (← fdiv doable (sub one p.feeRate)) p.feeRate
      return (doable, fee, true, goal, rpGoal)
    else
      let endRp ← rpNewFromLDy l startRp dyMax
      let endT ← rpToTick m endRp false
      if lt endRp startRp then rpanic
      else if lt rpGoal endRp then rpanic
      else return (dyMax, sub dy dyMax, false, endT, endRp)

/-- The choice of the X amount, py 946-979. -/
def doneDxY (m : LibM) (p : Pool) (startRp endRp l : F64) (o : Option F64) (amm : F64) : R F64 := do
  match o with
  | none => return amm
  | some o =>
    if F64.eq p.c zero || le o startRp then return amm
    else if lt startRp o && le o endRp then
      return F64.add (← dxFromLDrpHmm m l startRp o p.c o) (← dxFromLDrp l o endRp)
    else if lt endRp o then dxFromLDrpHmm m l startRp endRp p.c o
    else rpanic

/-- `swap_within_tick_from_Y`, py 889-995. -/
def swapWithinY (m : LibM) (p : Pool) (startRp : F64) (goal : Int) (l dy : F64) (o : Option F64) : R Within := do
  if le dy zero then rpanic
  else
    let (done, fee, cross, endT, endRp) ← p.fillY m startRp goal l dy
    let amm ← dxFromLDrp l startRp endRp
    let dx ← p.doneDxY m startRp endRp l o amm
    let amm := mul amm Flt.adjWholeFill
    let dx := mul dx Flt.adjWholeFill
    let adj := sub dx amm
    if lt zero amm then rpanic
    else if lt adj zero then rpanic
    else if lt (F64.add p.x amm) zero then rpanic
    else return ⟨done, dx, endT, endRp, cross, adj, fee⟩

/-- The end of `execute_swap_from_Y`, py 1031-1044 and 1092-1102. -/
def finishY (m : LibM) (a : Acc) : Py Output := do
  let avg ← comp (average a.recv.neg a.send)
  let e ← comp (pow m (← get).rp (ofNat 2))
  return ⟨a.recv, a.send, a.adj, a.fee, avg, e⟩

/-- One round of the loop of `execute_swap_from_Y`, py 1046-1090. -/
def stepY (m : LibM) (dy : F64) (o : Option F64) (a : Acc) (goal : Int) : Py Acc := do
  let p ← get
  let r ← comp (p.swapWithinY m a.currRp goal p.liq (sub dy a.recv) o)
  check (le zero (sub (F64.add p.x r.send) r.adj))
  check (le (F64.add r.recv r.fee) (sub dy a.recv))
  let a : Acc := ⟨F64.add a.recv (F64.add r.recv r.fee), F64.add a.send r.send, F64.add a.adj r.adj, F64.add a.fee r.fee,
    r.endTick, r.endRp⟩
  modify fun p => { p with
    tick := r.endTick, rp := r.endRp, x := F64.add p.x (sub r.send r.adj), y := F64.add p.y r.recv,
    xAdj := F64.add p.xAdj r.adj, yFee := F64.add p.yFee r.fee }
  if lt zero p.liq then
    let h ← comp (fdiv r.adj p.liq)
    modify fun p => { p with fees := { p.fees with hx := F64.add p.fees.hx h } }
    let f ← comp (fdiv r.fee p.liq)
    modify fun p => { p with fees := { p.fees with fy := F64.add p.fees.fy f } }
  if r.cross then
    check (decide (r.endTick = goal))
    if (mapGet goal (← get).ticks).isSome then crossTick goal true
  return a

/-- The loop of `execute_swap_from_Y`, py 1018-1090, with at most so many rounds. -/
def loopY (m : LibM) (dy : F64) (o : Option F64) : Nat → Acc → Py Output
  | 0, _ => comp (.error .diverge)
  | fuel + 1, a => do
    if lt a.recv dy then
      let p ← get
      let (goal, a) ← (if lt zero p.liq then do
          let goal ← comp (p.rightLimit a.currT p.tick)
          return (goal, a)
        else do
          let (goal, t, rp) ← tryGetInRange m true
          return (goal, { a with currT := t, currRp := rp }) : Py (Option Int × Acc))
      match goal with
      | none => finishY m a
      | some g => do
        let a ← stepY m dy o a g
        loopY m dy o fuel a
    else finishY m a

/-- `execute_swap_from_Y`, py 997-1102. -/
def executeSwapFromY (m : LibM) (fuel : Nat) (dy : F64) (o : Option F64) : Py Output := do
  check (!le dy zero)
  let p ← get
  loopY m dy o fuel ⟨zero, zero, zero, zero, p.tick, p.rp⟩

end Pool

end Hmm.Proto
