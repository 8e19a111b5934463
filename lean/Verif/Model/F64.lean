import Verif.Model.Prim

/-
Model of Rust's `f64`, IEEE 754 binary64 with rounding to nearest, ties to even, as used by
`programs/hmmcl-sandbox/src/cl_pool_float`.  All operations here are exactly specified by the
standard.  `powf` and `ln` are not; they are a parameter (`LibM`).  Payloads and signs of NaN are
dropped: nothing in the source can observe them.
-/

namespace Hmm

/-- A double.  `fin neg n` is `± n · 2^-1074`: every finite double is an integer multiple of the
smallest one.  Results of the operations are always representable (`F64.Rep`, proved in
`Verif.Proofs.F64`). -/
inductive F64 where
  | nan
  | inf (neg : Bool)
  | fin (neg : Bool) (n : Nat)
  deriving DecidableEq, Repr, Inhabited

namespace F64

/-- The number 1 in units of the smallest double. -/
def unit : Nat := 2 ^ 1074

/-- Exponent (above the smallest) of the last of 53 significant binary digits. -/
def shiftOf (q : Nat) : Nat := (Nat.log2 q + 1) - 53

/-- `num / den` rounded to 53 significant binary digits, ties to even. -/
def roundNat (num den : Nat) : Nat :=
  let k := shiftOf (num / den)
  let d := den * 2 ^ k
  let m := num / d
  let r := num % d
  (if 2 * r < d then m else if d < 2 * r then m + 1 else if m % 2 = 0 then m else m + 1) * 2 ^ k

/-- Overflow threshold: `2^1024` in units of the smallest double. -/
def limit : Nat := 2 ^ 2098

/-- The double nearest to `± num / den` smallest doubles; overflow gives an infinity. -/
def ofRatio (neg : Bool) (num den : Nat) : F64 :=
  let n := roundNat num den
  if n < limit then fin neg n else inf neg

/-- Zero, `0.0`. -/
def zero : F64 := fin false 0

/-- One, `1.0`. -/
def one : F64 := fin false unit

/-- The literal `num / den`, correctly rounded as Rust literals are. -/
def lit (num den : Nat) : F64 := ofRatio false (num * unit) den

/-- `u32 as f64`, exact. -/
def ofNat (n : Nat) : F64 := lit n 1

/-- Negation. -/
def neg : F64 → F64
  | nan => nan
  | inf s => inf (!s)
  | fin s n => fin (!s) n

/-- Addition. -/
def add : F64 → F64 → F64
  | nan, _ => nan
  | _, nan => nan
  | inf a, inf b => if a = b then inf a else nan
  | inf a, fin _ _ => inf a
  | fin _ _, inf b => inf b
  | fin a m, fin b n =>
    if a = b then ofRatio a (m + n) 1
    else if n < m then ofRatio a (m - n) 1
    else if m < n then ofRatio b (n - m) 1
    else zero

/-- Subtraction. -/
def sub (a b : F64) : F64 := add a b.neg

/-- Multiplication. -/
def mul : F64 → F64 → F64
  | nan, _ => nan
  | _, nan => nan
  | inf a, inf b => inf (a != b)
  | inf a, fin b n => if n = 0 then nan else inf (a != b)
  | fin a m, inf b => if m = 0 then nan else inf (a != b)
  | fin a m, fin b n => ofRatio (a != b) (m * n) unit

/-- Division. -/
def div : F64 → F64 → F64
  | nan, _ => nan
  | _, nan => nan
  | inf _, inf _ => nan
  | inf a, fin b _ => inf (a != b)
  | fin a _, inf b => fin (a != b) 0
  | fin a m, fin b n =>
    if n = 0 then (if m = 0 then nan else inf (a != b)) else ofRatio (a != b) (m * unit) n

/-- Signed number of smallest doubles. -/
def signed (neg : Bool) (n : Nat) : Int := if neg then -(n : Int) else n

/-- `a < b`; false if one is NaN. -/
def lt : F64 → F64 → Bool
  | nan, _ => false
  | _, nan => false
  | inf a, inf b => a && !b
  | inf a, fin _ _ => a
  | fin _ _, inf b => !b
  | fin a m, fin b n => decide (signed a m < signed b n)

/-- `a == b`; false if one is NaN; zeros of both signs are equal. -/
def eq : F64 → F64 → Bool
  | nan, _ => false
  | _, nan => false
  | inf a, inf b => a == b
  | inf _, fin _ _ => false
  | fin _ _, inf _ => false
  | fin a m, fin b n => decide (signed a m = signed b n)

/-- `a <= b`. -/
def le (a b : F64) : Bool := lt a b || eq a b

/-- `f64::min`: the other operand if one is NaN. -/
def min (a b : F64) : F64 :=
  match a, b with
  | nan, b => b
  | a, nan => a
  | a, b => if lt b a then b else a

/-- `f64::max`: the other operand if one is NaN. -/
def max (a b : F64) : F64 :=
  match a, b with
  | nan, b => b
  | a, nan => a
  | a, b => if lt a b then b else a

/-- `f64::floor`. -/
def floor : F64 → F64
  | nan => nan
  | inf s => inf s
  | fin s n =>
    if n % unit = 0 then fin s n
    else if s then fin true ((n / unit + 1) * unit) else fin false (n / unit * unit)

/-- `f64::ceil`. -/
def ceil : F64 → F64
  | nan => nan
  | inf s => inf s
  | fin s n =>
    if n % unit = 0 then fin s n
    else if s then fin true (n / unit * unit) else fin false ((n / unit + 1) * unit)

/-- `f64 as u32`: truncates and saturates, NaN gives 0. -/
def toU32 : F64 → Nat
  | nan => 0
  | inf s => if s then 0 else 2 ^ 32 - 1
  | fin s n => if s then 0 else Nat.min (n / unit) (2 ^ 32 - 1)

/-- `f64::sqrt`.  Roots of doubles are never midway between doubles, so it is enough to know 64 more
binary digits and whether anything follows them. -/
def sqrt : F64 → F64
  | nan => nan
  | inf s => if s then nan else inf false
  | fin s n =>
    if n = 0 then fin s 0
    else if s then nan
    else
      let v := n * unit * 2 ^ 128
      let r := Nat.sqrt v
      ofRatio false (2 * r + if r * r = v then 0 else 1) (2 ^ 65)

end F64

/-- The two functions of the platform's math library that IEEE 754 does not fix: `f64::powf` and
`f64::ln`.  Arbitrary. -/
structure LibM where
  powf : F64 → F64 → F64
  ln : F64 → F64

end Hmm
