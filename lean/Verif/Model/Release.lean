import Verif.Model.World

/-
The on-chain program as it is deployed.  `Cargo.toml` (both the workspace's and the program's) sets no
`overflow-checks`, so a release build, which is what `cargo build-bpf` makes, does not panic when one of the plain operators
overflows: the result is reduced modulo the size of the type.  This file repeats the operations of `Decimal.lean`,
`PoolMath.lean`, `Bitmap.lean`, `OnChain.lean` and `World.lean` that contain, or call something that contains, a plain
operator, with wrapping in place of panics.  Everything else (`checked_*` followed by `expect`/`unwrap`, `try_into().unwrap()`,
array indexing, `assert_eq!`) panics in either build and is taken from those files.  Line numbers refer to the same files as
there.

Plain operators reached by the instructions: `10u128.pow(..)` in `decimal.rs` 128, 132, 146, 152, 166, 432, 436; the fee sums
`f_x + h_x` and `f_y + h_y` in `deposit.rs` 267, 270 and `withdraw.rs` 251, 256; `+` and `<<` of `tick_bitmap.rs` 37-56.
-/

namespace Hmm

namespace Release

/-- `10u128.pow(k)` of a release build. -/
def pow10 (k : Nat) : Nat := 10 ^ k % u128Size

/-- Plain `+` on `u128` of a release build. -/
def wrapAdd (a b : Nat) : Nat := (a + b) % u128Size

/-! ### Decimals, `decimal.rs` -/

/-- `Decimal::denominator`, 165-167. -/
def denominator (d : Decimal) : Nat := pow10 d.scale

/-- `Decimal::to_scale`, 124-138. -/
def toScale (d : Decimal) (scale : Nat) : R Decimal := do
  if d.scale > scale then
    let v ← checkedDiv d.value (pow10 (d.scale - scale))
    return ⟨v, scale, d.negative⟩
  else
    let v ← checkedMul d.value (pow10 (scale - d.scale))
    return ⟨v, scale, d.negative⟩

/-- `Decimal::to_compute_scale`, 160-162. -/
def toComputeScale (d : Decimal) : R Decimal := toScale d computeScale

/-- `Decimal::abs`, 93-95. -/
def abs (d : Decimal) : R Nat := do (← toScale d 0).toU64

/-- `impl Mul<Decimal> for Decimal`, 277-290. -/
def mul (a b : Decimal) : R Decimal := do
  let p ← checkedMul a.value b.value
  let v ← checkedDiv p (denominator b)
  return ⟨v, a.scale, !(a.negative == b.negative)⟩

/-- `impl MulUp<Decimal> for Decimal`, 305-322. -/
def mulUp (a b : Decimal) : R Decimal := do
  let p ← checkedMul a.value b.value
  let d1 ← checkedSub (denominator b) 1
  let s ← checkedAdd p d1
  let v ← checkedDiv s (denominator b)
  return ⟨v, a.scale, !(a.negative == b.negative)⟩

/-- `impl Div<Decimal> for Decimal`, 384-397. -/
def div (a b : Decimal) : R Decimal := do
  let p ← checkedMul a.value (denominator b)
  let v ← checkedDiv p b.value
  return ⟨v, a.scale, !(a.negative == b.negative)⟩

/-- `impl DivUp<Decimal> for Decimal`, 401-416. -/
def divUp (a b : Decimal) : R Decimal := do
  let p ← checkedMul a.value (denominator b)
  let b1 ← checkedSub b.value 1
  let s ← checkedAdd p b1
  let v ← checkedDiv s b.value
  return ⟨v, a.scale, !(a.negative == b.negative)⟩

/-- `Decimal::to_scale_up`, 142-157. -/
def toScaleUp (d : Decimal) (scale : Nat) : R Decimal := do
  let decimal := Decimal.new d.value scale d.negative
  if d.scale ≥ scale then divUp decimal (Decimal.new (pow10 (d.scale - scale)) 0 d.negative)
  else mulUp decimal (Decimal.new (pow10 (scale - d.scale)) 0 d.negative)

/-- `impl DivScale<Decimal> for Decimal`, 420-448. -/
def divToScale (a b : Decimal) (toScale : Nat) : R Decimal := do
  let diff : Int := (a.scale : Int) - toScale - b.scale
  let v ← (if diff > 0 then do
      let q ← checkedDiv a.value b.value
      checkedDiv q (pow10 diff.toNat)
    else do
      let m ← checkedMul a.value (pow10 (-diff).toNat)
      checkedDiv m b.value)
  return ⟨v, toScale, !(a.negative == b.negative)⟩

/-- `impl Sqrt for Decimal`, 995-1048. -/
def sqrt (d : Decimal) : R Decimal := do
  let zero := Decimal.new 0 d.scale false
  let one ← toScale (Decimal.fromInt 1) d.scale
  let isZ ← unwrap (d.eq zero)
  let isO ← unwrap (d.eq one)
  if isZ || isO then return d
  if d.value * denominator d ≥ u128Size then rerr .exceedsPrecisionRange
  else
    let n := d.value * denominator d
    let approx := 2 ^ (Decimal.bitLen n / 2)
    match Decimal.sqrtLoop n Decimal.sqrtFuel (n / approx) 0 with
    | none => .error .diverge
    | some r => do
      let y ← r
      return ⟨y, d.scale, d.negative⟩

/-- The loop of `impl Pow<u128>`, 513-520. -/
def powLoop : Nat → Nat → Decimal → Decimal → R Decimal
  | 0, exp, _, result => if exp = 0 then .ok result else .error .diverge
  | k + 1, exp, base, result =>
    if exp = 0 then .ok result
    else do
      let result ← (if exp % 2 ≠ 0 then mul result base else .ok result)
      let base ← mul base base
      powLoop k (exp / 2) base result

/-- `impl Pow<u128> for Decimal`, 498-523. -/
def powInt (d : Decimal) (exp : Nat) : R Decimal := do
  let one : Decimal := ⟨denominator d, d.scale, d.negative⟩
  if exp = 0 then return one
  powLoop 128 exp d one

/-! ### Pool formulas, `cl_pool/cl_math.rs` -/

/-- `PoolMath::tick_base`, 28-30. -/
def tickBase : R Decimal := toComputeScale (Decimal.new 10001 4 false)

/-- `PoolMath::tick_base_root`, 32-34. -/
def tickBaseRoot : R Decimal := do unwrap (sqrt (← tickBase))

/-- `PoolMath::tick_to_rp`, 36-38. -/
def tickToRp (tick : Nat) : R Decimal := do powInt (← tickBaseRoot) tick

/-- `PoolMath::liq_x_only`, 85-96. -/
def liqXOnly (x rpa rpb : Decimal) : R Decimal := do
  let d ← unwrap (rpb.sub rpa)
  if d.isNegative || d.isZero then rpanic
  else
    let a ← mul x rpa
    let b ← mul a rpb
    div b d

/-- `PoolMath::liq_y_only`, 98-108. -/
def liqYOnly (y rpa rpb : Decimal) : R Decimal := do
  let d ← unwrap (rpb.sub rpa)
  if d.isNegative || d.isZero then rpanic
  else div y d

/-- `PoolMath::liq_from_x_y_rp_rng`, 110-134. -/
def liqFromXYRpRng (x y rp rpa rpb : Decimal) : R Decimal := do
  if (← unwrap (rp.lte rpa)) then liqXOnly x rpa rpb
  else if (← unwrap (rp.lt rpb)) then
    let lx ← liqXOnly x rp rpb
    let ly ← liqYOnly y rpa rp
    lx.min ly
  else liqYOnly y rpa rpb

/-- `PoolMath::x_from_l_rp_rng`, 144-157. -/
def xFromLRpRng (l rp rpa rpb : Decimal) : R Decimal := do
  if rp.isZero || rpb.isZero || rpa.isZero then rpanic
  else
    let rp ← (← rp.min rpb).max rpa
    let d ← unwrap (rpb.sub rp)
    let m ← mul rp rpb
    div (← mul l d) m

/-- `PoolMath::y_from_l_rp_rng`, 167-178. -/
def yFromLRpRng (l rp rpa rpb : Decimal) : R Decimal := do
  let rp ← (← rp.min rpb).max rpa
  let d ← unwrap (rp.sub rpa)
  if d.isNegative then rpanic
  else mul l d

/-! ### Bitmap, `state/tick_bitmap.rs` -/

/-- An `i32` sum of a release build: reduced modulo `2^32` into `-2^31 .. 2^31 - 1`. -/
def wrapI32 (n : Int) : Int := (n + 2 ^ 31) % 2 ^ 32 - 2 ^ 31

/-- The byte index of a tick, 37. -/
def keyOf (tick : Int) : Int := wrapI32 (tick / 8)

/-- The bit index of a tick, 40. -/
def ixOf (tick : Int) : Int := Int.tmod (wrapI32 (tick + bitmapSize)) 8

/-- `1 << ix` for a `u8` of a release build: the low three bits of the shift count. -/
def bit (ix : Int) : Nat := 1 <<< (ix % 8).toNat

/-- `activate_tick`, 34-42. -/
def activateTick (b : Bitmap) (tick : Int) : R Bitmap := do
  let k ← Bitmap.index (keyOf tick)
  return b.setByte k (b.byte k ||| bit (ixOf tick))

/-- `unset_tick`, 44-49. -/
def unsetTick (b : Bitmap) (tick : Int) : R Bitmap := do
  let k ← Bitmap.index (keyOf tick)
  return b.setByte k (b.byte k &&& (255 ^^^ bit (ixOf tick)))

/-- `tick_is_active`, 51-56. -/
def tickIsActive (b : Bitmap) (tick : Int) : R Bool := do
  let k ← Bitmap.index (keyOf tick)
  return (b.byte k >>> (ixOf tick % 8).toNat) &&& 1 != 0

/-! ### Fees, ticks and positions, `instructions/manage_*.rs` -/

open OnChain

/-- One component of `compute_latest_fee`, `manage_fee.rs` 54-85 and 88-91. -/
def latestFeeOf (sel : Fee → Nat) (lower upper current : Nat) (glbl lwr upr : Fee) (scale : Nat) : R Nat := do
  let d ← feeWithinRange lower upper current ⟨sel glbl, glbl.scale, false⟩ ⟨sel lwr, lwr.scale, false⟩
    ⟨sel upr, upr.scale, false⟩
  return (← toScale d scale).value

/-- `compute_latest_fee`, `manage_fee.rs` 45-93. -/
def computeLatestFee (lower upper current : Nat) (glbl lwr upr : Fee) (scale : Nat) : R Fee := do
  let fx ← latestFeeOf (·.fx) lower upper current glbl lwr upr scale
  let fy ← latestFeeOf (·.fy) lower upper current glbl lwr upr scale
  let hx ← latestFeeOf (·.hx) lower upper current glbl lwr upr scale
  let hy ← latestFeeOf (·.hy) lower upper current glbl lwr upr scale
  return ⟨scale, fx, fy, hx, hy⟩

/-- `update_tick`, `manage_tick.rs` 50-100. -/
def updateTick (ts : Tick) (tick : Nat) (delta : Decimal) (upper : Bool) : R Tick := do
  if tick ≠ ts.tick then rerr .tickMismatch
  else
    let net ← toComputeScale (Decimal.new ts.net ts.netScale (ts.netNeg != 0))
    let net ← unwrap (net.add (if upper then delta.neg else delta))
    let gross ← toComputeScale (Decimal.new ts.gross ts.grossScale false)
    let gross ← unwrap (gross.add delta)
    if gross.negative then rerr .negativeTickGrossLiquidity
    else return { ts with
      net := net.value, netScale := net.scale, netNeg := if net.negative then 1 else 0,
      gross := gross.value, grossScale := gross.scale }

/-- `update_position`, `manage_position.rs` 77-111. -/
def updatePosition (ps : Position) (lwr upr : Tick) (delta : Decimal) (lower upper : Nat) (newFee : Fee) :
    R (Position × Tick × Tick) := do
  let l ← toComputeScale (Decimal.new ps.liq ps.liqScale false)
  let l ← unwrap (l.add delta)
  if l.negative then rerr .insufficientPositionLiquidity
  else
    let lwr ← unwrap (updateTick lwr lower delta false)
    let upr ← unwrap (updateTick upr upper delta true)
    return ({ ps with liq := l.value, liqScale := l.scale, fee := newFee }, lwr, upr)

/-- The fee terms, `deposit.rs` 267, 270 and `withdraw.rs` 251, 256. -/
def feeTerm (a b scale to : Nat) : R Decimal := toScale (Decimal.new (wrapAdd a b) scale false) to

/-! ### Instructions -/

namespace World

open OnChain.World

/-- `initialize_pool`, `instructions/initialize_pool.rs` 13-108. -/
def initializePool (w : World) (authority lp x y tick : Nat) : R World := do
  constraint (mapGet lp w.pools).isNone
  let _ ← load (mapGet x w.mints)
  let _ ← load (mapGet y w.mints)
  let m ← load (mapGet lp w.mints)
  match m.authority with
  | none => rpanic
  | some a =>
    constraint (decide (a = .pool lp))
    let w ← w.initVault (.vault x lp) x lp
    let w ← w.initVault (.vault y lp) y lp
    let w ← w.initVault (.lpVault lp) lp lp
    let rp ← toScale (← tickToRp tick) rootPriceScale
    let g : Global := ⟨0, liquidityScale, rp.value, rootPriceScale, tick, Fee.zero⟩
    return { w with pools := mapSet lp ⟨authority, x, y, g, none, [], []⟩ w.pools }

/-- `deposit::handle`, `instructions/deposit.rs` 178-324. -/
def deposit (w : World) (lp : Nat) (c : Accounts) (lower upper current xAmount yAmount : Nat) : R (World × Moved) := do
  let p ← load (mapGet lp w.pools)
  let a ← loadAccounts w lp p c lower upper current
  let x ← toComputeScale (Decimal.fromInt xAmount)
  let y ← toComputeScale (Decimal.fromInt yAmount)
  let rpa ← tickToRp lower
  let rpb ← tickToRp upper
  let rp ← tickToRp current
  let delta ← liqFromXYRpRng x y rp rpa rpb
  if delta.negative then rerr .negativeDepositLiquidity
  else
    let b ← (if a.lwr.gross = 0 then activateTick a.bitmap 0 else .ok a.bitmap)
    let b ← (if a.upr.gross = 0 then activateTick b 40000 else .ok b)
    let xIn ← xFromLRpRng delta rp rpa rpb
    let yIn ← yFromLRpRng delta rp rpa rpb
    let newFee ← computeLatestFee lower upper current p.gs.fee a.lwr.fee a.upr.fee a.pos.fee.scale
    let (pos, lwr, upr) ← unwrap (updatePosition a.pos a.lwr a.upr delta lower upper newFee)
    let g ← updateGlobal p.gs lower upper current delta
    let xDeb ← unwrap (xIn.sub (← feeTerm newFee.fx newFee.hx newFee.scale xIn.scale))
    let yDeb ← unwrap (yIn.sub (← feeTerm newFee.fy newFee.hy newFee.scale yIn.scale))
    if (← unwrap (xDeb.gt x)) then rerr .depositAmountExceeded
    else if (← unwrap (yDeb.gt y)) then rerr .depositAmountExceeded
    else
      let minted ← abs delta
      let w ← w.mintTo lp c.lp (.pool lp) minted
      let dx ← abs xDeb
      let w ← w.transfer c.tokenX (.vault p.xMint lp) (.user c.user) dx
      let dy ← abs yDeb
      let w ← w.transfer c.tokenY (.vault p.yMint lp) (.user c.user) dy
      return ({ w with pools := mapSet lp (writeBack p g c.user lower upper current ⟨b, pos, lwr, upr, a.cur⟩) w.pools },
        ⟨dx, dy, minted⟩)

/-- `withdraw::handle`, `instructions/withdraw.rs` 168-296. -/
def withdraw (w : World) (lp : Nat) (c : Accounts) (lower upper current amount : Nat) : R (World × Moved) := do
  let p ← load (mapGet lp w.pools)
  let a ← loadAccounts w lp p c lower upper current
  let delta := (← toComputeScale (Decimal.fromInt amount)).neg
  let rpa ← tickToRp lower
  let rpb ← tickToRp upper
  let rp ← tickToRp current
  let newFee ← computeLatestFee lower upper current p.gs.fee a.lwr.fee a.upr.fee a.pos.fee.scale
  let (pos, lwr, upr) ← unwrap (updatePosition a.pos a.lwr a.upr delta lower upper newFee)
  let b ← unsetTick a.bitmap 0
  let b ← unsetTick b 40000
  let g ← updateGlobal p.gs lower upper current delta
  let xOut ← xFromLRpRng delta.neg rp rpa rpb
  let yOut ← yFromLRpRng delta.neg rp rpa rpb
  let xCred ← unwrap (xOut.add (← feeTerm newFee.fx newFee.hx newFee.scale xOut.scale))
  let yCred ← unwrap (yOut.add (← feeTerm newFee.fy newFee.hy newFee.scale yOut.scale))
  let w ← w.burn lp c.lp (.user c.user) amount
  let dx ← abs xCred
  let w ← w.transfer (.vault p.xMint lp) c.tokenX (.pool lp) dx
  let dy ← abs yCred
  let w ← w.transfer (.vault p.yMint lp) c.tokenY (.pool lp) dy
  return ({ w with pools := mapSet lp (writeBack p g c.user lower upper current ⟨b, pos, lwr, upr, a.cur⟩) w.pools },
    ⟨dx, dy, amount⟩)

/-- Effect of one instruction on the ledger, when it succeeds (`lib.rs` 33-89).  The three instructions that only create
accounts contain no arithmetic. -/
def exec (w : World) : OnChain.World.Instr → R World
  | .initializePool a lp x y t => initializePool w a lp x y t
  | .initializeBitmap lp => w.initializeBitmap lp
  | .initializeTick lp t => w.initializeTick lp t
  | .createPosition lp u l h => w.createPosition lp u l h
  | .deposit lp c l h cur x y => do return (← deposit w lp c l h cur x y).1
  | .withdraw lp c l h cur n => do return (← withdraw w lp c l h cur n).1

/-- One step of the ledger with the deployed program. -/
inductive Step : World → World → Prop where
  | program {w v : World} (i : OnChain.World.Instr) : exec w i = .ok v → Step w v
  | token {w v : World} (who : Nat) (i : TokenInstr) : w.tokenExec who i = .ok v → Step w v

/-- The states of the ledger that can be reached from an empty one with the deployed program. -/
inductive Reachable : World → Prop where
  | empty : Reachable ⟨[], [], []⟩
  | step {w v : World} : Reachable w → Step w v → Reachable v

end World

end Release

end Hmm
