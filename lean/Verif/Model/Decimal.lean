import Verif.Model.Prim

/-
Model of `programs/hmmcl-sandbox/src/decimal.rs` (non-test code, except text conversion and `ln`,
which are in `DecimalText.lean` and `Ln.lean`).  Line numbers refer to that file.
-/

namespace Hmm

/-- `pub struct Decimal`, `decimal.rs` 34-38.  `value : u128` and `scale : u8` are natural numbers
here; `Decimal.WF` states the bounds. -/
structure Decimal where
  value : Nat
  scale : Nat
  negative : Bool
  deriving DecidableEq, Repr, Inhabited

/-- `COMPUTE_SCALE`, `decimal.rs` 10. -/
def computeScale : Nat := 12

namespace Decimal

/-- The bounds of the machine representation: `value : u128`, `scale : u8`. -/
def WF (d : Decimal) : Prop := d.value < u128Size ∧ d.scale < 256

instance (d : Decimal) : Decidable d.WF := by unfold WF; infer_instance

/-- `Decimal::new`, 53-59. -/
def new (value scale : Nat) (negative : Bool) : Decimal := ⟨value, scale, negative⟩

/-- `Decimal::from_u64`, 70-75, and `Decimal::from_u128`, 83-89. -/
def fromInt (n : Nat) : Decimal := ⟨n, 0, false⟩

/-- `Decimal::to_u64`, 78-80 (also `Into<u64>`, 526-530): panics when the value exceeds `u64`. -/
def toU64 (d : Decimal) : R Nat := u64 d.value

/-- `Decimal::denominator`, 165-167. -/
def denominator (d : Decimal) : R Nat := pow10 d.scale

/-- `Decimal::to_scale`, 124-138. -/
def toScale (d : Decimal) (scale : Nat) : R Decimal := do
  if d.scale > scale then
    let p ← pow10 (d.scale - scale)
    let v ← checkedDiv d.value p
    return ⟨v, scale, d.negative⟩
  else
    let p ← pow10 (scale - d.scale)
    let v ← checkedMul d.value p
    return ⟨v, scale, d.negative⟩

/-- `Decimal::to_compute_scale`, 160-162. -/
def toComputeScale (d : Decimal) : R Decimal := d.toScale computeScale

/-- `Decimal::one`, 61-63. -/
def one : R Decimal := (fromInt 1).toComputeScale

/-- `Decimal::two`, 65-67. -/
def two : R Decimal := (fromInt 2).toComputeScale

/-- `Decimal::abs`, 93-95. -/
def abs (d : Decimal) : R Nat := do (← d.toScale 0).toU64

/-- `Decimal::from_scaled_amount`, 104-110. -/
def fromScaledAmount (amount scale : Nat) : Decimal := ⟨amount, scale, false⟩

/-- `Decimal::to_scaled_amount`, 113-115. -/
def toScaledAmount (d : Decimal) (scale : Nat) : R Nat := do (← d.toScale scale).toU64

/-- `Decimal::is_zero`, 180-182. -/
def isZero (d : Decimal) : Bool := d.value == 0

/-- `Decimal::is_positive`, 170-172. -/
def isPositive (d : Decimal) : Bool := !d.negative && !d.isZero

/-- `Decimal::is_negative`, 175-177. -/
def isNegative (d : Decimal) : Bool := d.negative && !d.isZero

/-- `impl Mul<Decimal> for Decimal`, 277-290. -/
def mul (a b : Decimal) : R Decimal := do
  let p ← checkedMul a.value b.value
  let den ← b.denominator
  let v ← checkedDiv p den
  return ⟨v, a.scale, !(a.negative == b.negative)⟩

/-- `impl Mul<u128> for Decimal`, 293-301. -/
def mulInt (a : Decimal) (n : Nat) : R Decimal := do
  let v ← checkedMul a.value n
  return ⟨v, a.scale, a.negative⟩

/-- `impl MulUp<Decimal> for Decimal`, 305-322. -/
def mulUp (a b : Decimal) : R Decimal := do
  let den ← b.denominator
  let p ← checkedMul a.value b.value
  let d1 ← checkedSub den 1
  let s ← checkedAdd p d1
  let v ← checkedDiv s den
  return ⟨v, a.scale, !(a.negative == b.negative)⟩

/-- `impl Add<Decimal> for Decimal`, 325-368. -/
def add (a b : Decimal) : R Decimal := do
  if !(a.scale == b.scale) then
    rerr .differentScale
  else if a.negative == b.negative then
    let v ← checkedAdd a.value b.value
    return ⟨v, a.scale, a.negative⟩
  else if a.value > b.value then
    let v ← checkedSub a.value b.value
    return ⟨v, a.scale, a.negative⟩
  else if a.value < b.value then
    let v ← checkedSub b.value a.value
    return ⟨v, a.scale, b.negative⟩
  else
    return ⟨0, a.scale, false⟩

/-- `impl Sub<Decimal> for Decimal`, 371-381. -/
def sub (a b : Decimal) : R Decimal := a.add ⟨b.value, b.scale, !b.negative⟩

/-- `impl Div<Decimal> for Decimal`, 384-397. -/
def div (a b : Decimal) : R Decimal := do
  let den ← b.denominator
  let p ← checkedMul a.value den
  let v ← checkedDiv p b.value
  return ⟨v, a.scale, !(a.negative == b.negative)⟩

/-- `impl DivUp<Decimal> for Decimal`, 401-416. -/
def divUp (a b : Decimal) : R Decimal := do
  let den ← b.denominator
  let p ← checkedMul a.value den
  let b1 ← checkedSub b.value 1
  let s ← checkedAdd p b1
  let v ← checkedDiv s b.value
  return ⟨v, a.scale, !(a.negative == b.negative)⟩

/-- `Decimal::to_scale_up`, 142-157. -/
def toScaleUp (d : Decimal) (scale : Nat) : R Decimal := do
  let decimal := new d.value scale d.negative
  if d.scale ≥ scale then
    let p ← pow10 (d.scale - scale)
    decimal.divUp (new p 0 d.negative)
  else
    let p ← pow10 (scale - d.scale)
    decimal.mulUp (new p 0 d.negative)

/-- `Decimal::abs_up`, 99-101. -/
def absUp (d : Decimal) : R Nat := do (← d.toScaleUp 0).toU64

/-- `Decimal::to_scaled_amount_up`, 119-121. -/
def toScaledAmountUp (d : Decimal) (scale : Nat) : R Nat := do (← d.toScaleUp scale).toU64

/-- `impl DivScale<Decimal> for Decimal`, 420-448.  The scales are `u8`, so the `i32` subtractions
cannot overflow and are plain integer subtractions here. -/
def divToScale (a b : Decimal) (toScale : Nat) : R Decimal := do
  let diff : Int := (a.scale : Int) - toScale - b.scale
  let v ← (if diff > 0 then do
      let q ← checkedDiv a.value b.value
      let p ← pow10 diff.toNat
      checkedDiv q p
    else do
      let p ← pow10 (-diff).toNat
      let m ← checkedMul a.value p
      checkedDiv m b.value)
  return ⟨v, toScale, !(a.negative == b.negative)⟩

/-- `Decimal::is_integer`, 185-189. -/
def isInteger (d : Decimal) : R Bool := do
  let i0 ← d.toScale 0
  let i ← i0.toScale d.scale
  let diff ← unwrap (d.sub i)
  return diff.isZero

/-! ### Comparison, 564-657 -/

/-- `Compare::eq`, 566-572. -/
def eq (a b : Decimal) : R Bool :=
  if !(a.scale == b.scale) then rerr .differentScale
  else .ok (a.value == b.value && a.negative == b.negative)

/-- `Compare::lt`, 575-589. -/
def lt (a b : Decimal) : R Bool :=
  if !(a.scale == b.scale) then rerr .differentScale
  else if a.negative && b.negative then .ok (decide (a.value > b.value))
  else if a.negative && !b.negative then .ok true
  else if !a.negative && b.negative then .ok false
  else .ok (decide (a.value < b.value))

/-- `Compare::gt`, 592-606. -/
def gt (a b : Decimal) : R Bool :=
  if !(a.scale == b.scale) then rerr .differentScale
  else if a.negative && b.negative then .ok (decide (a.value < b.value))
  else if a.negative && !b.negative then .ok false
  else if !a.negative && b.negative then .ok true
  else .ok (decide (a.value > b.value))

/-- `Compare::gte`, 609-623. -/
def gte (a b : Decimal) : R Bool :=
  if !(a.scale == b.scale) then rerr .differentScale
  else if a.negative && b.negative then .ok (decide (a.value ≤ b.value))
  else if a.negative && !b.negative then .ok false
  else if !a.negative && b.negative then .ok true
  else .ok (decide (a.value ≥ b.value))

/-- `Compare::lte`, 626-640. -/
def lte (a b : Decimal) : R Bool :=
  if !(a.scale == b.scale) then rerr .differentScale
  else if a.negative && b.negative then .ok (decide (a.value ≥ b.value))
  else if a.negative && !b.negative then .ok true
  else if !a.negative && b.negative then .ok false
  else .ok (decide (a.value ≤ b.value))

/-- `Compare::min`, 642-648. -/
def min (a b : Decimal) : R Decimal := do
  if (← unwrap (a.lte b)) then return a else return b

/-- `Compare::max`, 650-656. -/
def max (a b : Decimal) : R Decimal := do
  if (← unwrap (a.gte b)) then return a else return b

/-- `impl Neg for Decimal`, 659-679. -/
def neg (d : Decimal) : Decimal :=
  if d.isNegative then ⟨d.value, d.scale, false⟩
  else if d.isPositive then ⟨d.value, d.scale, true⟩
  else d

/-! ### Square root, 995-1048 -/

/-- Bit length of a `u128`: `128 - leading_zeros`, 1014-1016. -/
def bitLen (n : Nat) : Nat := if n = 0 then 0 else Nat.log2 n + 1

/-- The Newton loop, 1027-1041.  Rust's `loop` has no bound; here it runs on `fuel` and `none`
means that the fuel ran out.  `Verif.Proofs.Sqrt` shows that this never happens with the fuel used
by `sqrt`. The two branches of the Rust loop have the same body. -/
def sqrtLoop (n : Nat) : Nat → Nat → Nat → Option (R Nat)
  | 0, _, _ => none
  | fuel + 1, y, y0 =>
    if (y > y0 ∧ y - y0 > 1) ∨ (y < y0 ∧ y0 - y > 1) then
      if y = 0 then some rpanic
      else if y + n / y < u128Size then sqrtLoop n fuel ((y + n / y) / 2) y
      else some rpanic
    else some (.ok y)

/-- Fuel given to the Newton loop by the model. -/
def sqrtFuel : Nat := 200

/-- `impl Sqrt for Decimal`, 995-1048.  The range test of line 1003 is always false for a `u128`.
Running out of fuel is reported as `Err.diverge` (it cannot happen, see `sqrtLoop`). -/
def sqrt (d : Decimal) : R Decimal := do
  let zero := new 0 d.scale false
  let one ← (fromInt 1).toScale d.scale
  let isZ ← unwrap (d.eq zero)
  let isO ← unwrap (d.eq one)
  if isZ || isO then return d
  let den ← d.denominator
  if d.value * den ≥ u128Size then rerr .exceedsPrecisionRange
  else
    let n := d.value * den
    let approx := 2 ^ (bitLen n / 2)
    match sqrtLoop n sqrtFuel (n / approx) 0 with
    | none => .error .diverge
    | some r => do
      let y ← r
      return ⟨y, d.scale, d.negative⟩

/-! ### Powers, 451-523 -/

/-- The loop of `impl Pow<u128>`, 513-520: `while current_exp > 0`.  A `u128` exponent is halved in
each round, so the loop makes at most 128 rounds; the first argument counts them down and is never
exhausted for `exp < 2^128` (see `Verif.Proofs.Pow`). -/
def powLoop : Nat → Nat → Decimal → Decimal → R Decimal
  | 0, exp, _, result => if exp = 0 then .ok result else .error .diverge
  | k + 1, exp, base, result =>
    if exp = 0 then .ok result
    else do
      let result ← (if exp % 2 ≠ 0 then result.mul base else .ok result)
      let base ← base.mul base
      powLoop k (exp / 2) base result

/-- `impl Pow<u128> for Decimal`, 498-523. -/
def powInt (d : Decimal) (exp : Nat) : R Decimal := do
  let den ← d.denominator
  let one : Decimal := ⟨den, d.scale, d.negative⟩
  if exp = 0 then return one
  powLoop 128 exp d one

/-- The arms of `impl Pow<Decimal>`, 467-494, for an exponent that is tested in order; `rec` stands
for the recursive call of line 488. -/
def powDecWith (rec : Decimal → R Decimal) (d exp : Decimal) : R Decimal := do
  let one ← (fromInt 1).toScale d.scale
  let two ← (fromInt 2).toScale d.scale
  let four ← (fromInt 4).toScale d.scale
  let quarter ← one.div four
  let half ← one.div two
  let five ← (fromInt 5).toScale d.scale
  let oneQuarter ← five.div four
  let three ← (fromInt 3).toScale d.scale
  let oneHalf ← three.div two
  if exp.isZero then return one
  if (← unwrap (exp.eq quarter)) then
    let r ← unwrap d.sqrt
    return (← unwrap r.sqrt)
  if (← unwrap (exp.eq half)) then
    return (← unwrap d.sqrt)
  if (← unwrap (exp.eq one)) then return d
  if (← unwrap (exp.eq oneQuarter)) then
    let r ← unwrap d.sqrt
    let r ← unwrap r.sqrt
    return (← d.mul r)
  if (← unwrap (exp.eq oneHalf)) then
    let r ← unwrap d.sqrt
    return (← d.mul r)
  let isInt ← exp.isInteger
  if isInt && exp.isPositive then
    let n ← exp.abs
    return (← d.powInt n)
  if isInt && exp.isNegative then
    let n ← exp.abs
    return (← one.div (← d.powInt n))
  if exp.isNegative then
    let p ← rec (new exp.value exp.scale false)
    return (← one.div p)
  rpanic

/-- `impl Pow<Decimal> for Decimal`, 451-495.  The recursive call has a non-negative exponent, so
the recursion is at most one level deep: the inner call can only reach the last arm's panic. -/
def powDec (d exp : Decimal) : R Decimal :=
  powDecWith (powDecWith (fun _ => rpanic) d) d exp

end Decimal

end Hmm
