import Verif.Model.Decimal
import Verif.Model.Ln

/-
Model of `programs/hmmcl-sandbox/src/cl_pool/cl_math.rs` (trait `PoolMath`).
Line numbers refer to that file.
-/

namespace Hmm

namespace PoolMath

/-- `PoolMath::ADJ_WITHDRAWAL`, 12-16. -/
def adjWithdrawal : Decimal := ⟨1, 12, false⟩

/-- `PoolMath::zero`, 18-20: `Decimal::default().to_compute_scale()`; the constant it evaluates to
(`zero_eq` in `Verif.Proofs.PoolMathBasic`). -/
def zero : Decimal := ⟨0, 12, false⟩

/-- `PoolMath::one`, 21-23; the constant it evaluates to (`one_eq`). -/
def one : Decimal := ⟨1000000000000, 12, false⟩

/-- `PoolMath::two`, 24-26; the constant it evaluates to (`two_eq`). -/
def two : Decimal := ⟨2000000000000, 12, false⟩

/-- `PoolMath::tick_base`, 28-30. -/
def tickBase : R Decimal := (Decimal.new 10001 4 false).toComputeScale

/-- `PoolMath::tick_base_root`, 32-34. -/
def tickBaseRoot : R Decimal := do unwrap (← tickBase).sqrt

/-- `PoolMath::tick_to_rp`, 36-38. -/
def tickToRp (tick : Nat) : R Decimal := do (← tickBaseRoot).powInt tick

/-- `PoolMath::rp_to_tick`, 40-47. -/
def rpToTick (fl : FloatEnv) (rp : Decimal) (leftToRight : Bool) : R Nat := do
  let base ← tickBaseRoot
  let a ← unwrap (rp.ln fl)
  let b ← unwrap (base.ln fl)
  let t ← (if leftToRight then a.divUp b else a.div b)
  let t ← t.toScale 0
  return t.value

/-- The loop of `rp_to_tick_loop`, 53-62.  The first argument is `u128::MAX - x`: the Rust loop
increments `x` with `checked_add(1).unwrap()`, so it panics when that number is exhausted. -/
def rpToTickLoopFrom (m rp : Decimal) (leftToRight : Bool) : Nat → Nat → Decimal → R Nat
  | room, x, rez => do
    let rez ← rez.mul m
    if (← unwrap (rez.gte rp)) then
      (if leftToRight then checkedAdd x 1 else .ok x)
    else
      match room with
      | 0 => rpanic
      | room + 1 => rpToTickLoopFrom m rp leftToRight room (x + 1) rez

/-- `PoolMath::rp_to_tick_loop`, 49-64. -/
def rpToTickLoop (rp : Decimal) (leftToRight : Bool) (start : Nat) : R Nat := do
  let m ← tickBaseRoot
  let rez ← m.powInt start
  rpToTickLoopFrom m rp leftToRight (u128Size - 1 - start) start rez

/-- `PoolMath::tk_to_possible_tk`, 66-77. -/
def tkToPossibleTk (tick spacing : Nat) (leftToRight : Bool) : R Nat := do
  let ts := Decimal.fromInt spacing
  let tk := Decimal.fromInt tick
  let r ← (if leftToRight then do (← tk.divUp ts).mul ts else do (← tk.div ts).mul ts)
  return r.value

/-- `PoolMath::rp_to_possible_tk`, 79-83. -/
def rpToPossibleTk (rp : Decimal) (spacing : Nat) (leftToRight : Bool) (start : Nat) : R Nat := do
  let t ← rpToTickLoop rp leftToRight start
  tkToPossibleTk t spacing leftToRight

/-- `PoolMath::liq_x_only`, 85-96. -/
def liqXOnly (x rpa rpb : Decimal) : R Decimal := do
  let d ← unwrap (rpb.sub rpa)
  if d.isNegative || d.isZero then rpanic
  else
    let a ← x.mul rpa
    let b ← a.mul rpb
    b.div d

/-- `PoolMath::liq_y_only`, 98-108. -/
def liqYOnly (y rpa rpb : Decimal) : R Decimal := do
  let d ← unwrap (rpb.sub rpa)
  if d.isNegative || d.isZero then rpanic
  else y.div d

/-- `PoolMath::liq_from_x_y_rp_rng`, 110-134. -/
def liqFromXYRpRng (x y rp rpa rpb : Decimal) : R Decimal := do
  if (← unwrap (rp.lte rpa)) then liqXOnly x rpa rpb
  else if (← unwrap (rp.lt rpb)) then
    let lx ← liqXOnly x rp rpb
    let ly ← liqYOnly y rpa rp
    lx.min ly
  else liqYOnly y rpa rpb

/-- `PoolMath::liq_from_x_y_tick_rng`, 136-142. -/
def liqFromXYTickRng (x y : Decimal) (t ta tb : Nat) : R Decimal := do
  let rp ← tickToRp t
  let rpa ← tickToRp ta
  let rpb ← tickToRp tb
  liqFromXYRpRng x y rp rpa rpb

/-- `PoolMath::x_from_l_rp_rng`, 144-157. -/
def xFromLRpRng (l rp rpa rpb : Decimal) : R Decimal := do
  if rp.isZero || rpb.isZero || rpa.isZero then rpanic
  else
    let rp ← (← rp.min rpb).max rpa
    let d ← unwrap (rpb.sub rp)
    let m ← rp.mul rpb
    (← l.mul d).div m

/-- `PoolMath::x_from_l_tick_rng`, 159-165. -/
def xFromLTickRng (l : Decimal) (t ta tb : Nat) : R Decimal := do
  let rp ← tickToRp t
  let rpa ← tickToRp ta
  let rpb ← tickToRp tb
  xFromLRpRng l rp rpa rpb

/-- `PoolMath::y_from_l_rp_rng`, 167-178. -/
def yFromLRpRng (l rp rpa rpb : Decimal) : R Decimal := do
  let rp ← (← rp.min rpb).max rpa
  let d ← unwrap (rp.sub rpa)
  if d.isNegative then rpanic
  else l.mul d

/-- `PoolMath::y_from_l_tick_rng`, 180-186. -/
def yFromLTickRng (l : Decimal) (t ta tb : Nat) : R Decimal := do
  let rp ← tickToRp t
  let rpa ← tickToRp ta
  let rpb ← tickToRp tb
  yFromLRpRng l rp rpa rpb

/-- `PoolMath::rpa_from_l_rp_y`, 188-200. -/
def rpaFromLRpY (l rp y : Decimal) : R Decimal := do
  if l.isZero then rpanic
  else
    let q ← y.div l
    let r ← unwrap (rp.sub q)
    if r.isNegative then rpanic else return r

/-- `PoolMath::rpb_from_l_rp_x`, 202-216. -/
def rpbFromLRpX (l rp x : Decimal) : R Decimal := do
  let m ← rp.mul x
  let denom ← unwrap (l.sub m)
  if denom.isZero then rpanic
  else
    let r ← (← l.mul rp).div denom
    if r.isNegative then rpanic else return r

/-- `PoolMath::rpa_from_x_y_rp_rpb`, 218-236. -/
def rpaFromXYRpRpb (x y rp rpb : Decimal) : R Decimal := do
  let rpbX ← rpb.mul x
  if rpbX.isZero then rpanic
  else
    let first ← y.div rpbX
    let rpX ← rp.mul x
    let last ← y.div rpX
    let r ← unwrap ((← unwrap (first.add rp)).sub last)
    if r.isNegative then rpanic else return r

/-- `PoolMath::rpb_from_x_y_rp_rpa`, 238-253. -/
def rpbFromXYRpRpa (x y rp rpa : Decimal) : R Decimal := do
  let numer ← rp.mul y
  let d ← unwrap (rp.sub rpa)
  if d.isNegative then rpanic
  else
    let d1 ← (← d.mul rp).mul x
    let denom ← unwrap (y.sub d1)
    if denom.isNegative || denom.isZero then rpanic
    else numer.div denom

/-- `PoolMath::dx_from_l_drp`, 255-267. -/
def dxFromLDrp (l rpOld rpNew : Decimal) : R Decimal := do
  if rpOld.isZero || rpNew.isZero then rpanic
  else
    let diff ← unwrap (rpOld.sub rpNew)
    let m ← rpOld.mul rpNew
    (← l.mul diff).div m

/-- `PoolMath::dy_from_l_drp`, 269-273. -/
def dyFromLDrp (l rpOld rpNew : Decimal) : R Decimal := do
  (← unwrap (rpNew.sub rpOld)).mul l

/-- `PoolMath::dx_from_l_drp_hmm`, 275-314. -/
def dxFromLDrpHmm (fl : FloatEnv) (l rpOld rpNew c rpOracle : Decimal) : R Decimal := do
  if (← unwrap ((← c.toComputeScale).lt one)) then rpanic
  else if (← unwrap (rpOld.eq rpNew)) then return zero
  else if (← unwrap ((← c.toComputeScale).eq one)) then
    let a ← unwrap (rpOld.ln fl)
    let b ← unwrap (rpNew.ln fl)
    let r ← unwrap (a.sub b)
    if rpOracle.isZero then rpanic
    else (← l.div rpOracle).mul r
  else
    let cmo ← unwrap (c.sub one)
    let omc := cmo.neg
    let oc ← rpOracle.powDec c
    let nw ← rpNew.powDec cmo
    let od ← rpOld.powDec cmo
    let diff ← unwrap (nw.sub od)
    (← (← l.div oc).mul diff).div omc

/-- `PoolMath::dy_from_l_drp_hmm`, 316-358. -/
def dyFromLDrpHmm (fl : FloatEnv) (l rpOld rpNew c rpOracle : Decimal) : R Decimal := do
  if (← unwrap ((← c.toComputeScale).lt one)) then rpanic
  else if (← unwrap (rpOld.eq rpNew)) then return zero
  else if rpOld.isZero || rpNew.isZero then rpanic
  else if (← unwrap ((← c.toComputeScale).eq one)) then
    let a ← unwrap (rpOld.ln fl)
    let b ← unwrap (rpNew.ln fl)
    let r ← unwrap (a.sub b)
    (← l.mul rpOracle).mul r
  else
    let cmo ← unwrap (c.sub one)
    let omc := cmo.neg
    let oc ← rpOracle.powDec c
    let nw ← rpNew.powDec cmo
    let od ← rpOld.powDec cmo
    let inw ← one.div nw
    let iod ← one.div od
    let diff ← unwrap (inw.sub iod)
    (← (← l.mul oc).mul diff).div omc

/-- `PoolMath::rp_new_from_l_dx`, 360-376. -/
def rpNewFromLDx (l rpOld dx : Decimal) : R Decimal := do
  let numer ← l.mul rpOld
  let denom ← unwrap ((← dx.mul rpOld).add l)
  if denom.isZero then rpanic
  else
    let r ← numer.div denom
    if r.isNegative then rpanic else return r

/-- `PoolMath::rp_new_from_l_dy`, 378-389. -/
def rpNewFromLDy (l rpOld dy : Decimal) : R Decimal := do
  if l.isZero then rpanic
  else
    let r ← unwrap ((← dy.div l).add rpOld)
    if r.isNegative then rpanic else return r

end PoolMath

end Hmm
