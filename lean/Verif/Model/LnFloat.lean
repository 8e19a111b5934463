import Verif.Model.Ln
import Verif.Model.F64

/-
The floating-point side of `programs/hmmcl-sandbox/src/decimal.rs`: conversions of a `Decimal` to `f64` and `i32`, and the
floating-point step of `bit_length`, which `Ln.lean` leaves open.
-/

namespace Hmm

namespace F64

/-- `f64::abs`. -/
def mag : F64 → F64
  | nan => nan
  | inf _ => inf false
  | fin _ n => fin false n

/-- `f64::is_sign_negative`.  The sign of a NaN is not modelled; none reaches this. -/
def signBit : F64 → Bool
  | nan => false
  | inf s => s
  | fin s _ => s

/-- `f64 as u128`: towards zero, saturating, NaN to 0. -/
def toU128 : F64 → Nat
  | nan => 0
  | inf s => if s then 0 else u128Size - 1
  | fin s n => if s then 0 else Nat.min (n / unit) (u128Size - 1)

end F64

namespace Decimal

open F64

/-- `impl Into<f64> for Decimal`, 547-551.  `u128 as f64` rounds to nearest, which is `ofNat`. -/
def toF64 (d : Decimal) : R F64 := do
  let den ← d.denominator
  return F64.div (ofNat d.value) (ofNat den)

/-- `u128 as i32`: the low 32 bits, in two's complement. -/
def lowI32 (n : Nat) : Int :=
  let w : Nat := n % 2 ^ 32
  if w < 2 ^ 31 then (w : Int) else (w : Int) - 2 ^ 32

/-- `impl Into<i32> for Decimal`, 554-561; `checked_mul` fails for the one product out of range. -/
def toI32 (d : Decimal) : R Int :=
  let r := lowI32 d.value * (if d.negative then -1 else 1)
  if -2 ^ 31 ≤ r ∧ r < 2 ^ 31 then .ok r else rpanic

/-- The floating-point step of `bit_length`, 912-917, for a math library; `value.log(2.0)` is `value.ln() / 2.0.ln()`.  The
value is the conversion to `f64` above (the denominator's overflow panics in `bitLength`). -/
def floatLog (m : LibM) : FloatEnv := fun v s =>
  let x := F64.div (ofNat v) (ofNat (10 ^ s))
  let l := F64.div (m.ln x) (m.ln (ofNat 2))
  (toU128 (F64.mul l.mag (ofNat (10 ^ s))), l.signBit)

end Decimal

end Hmm
