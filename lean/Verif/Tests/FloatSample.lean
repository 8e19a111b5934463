import Verif.Model.FloatPool

/-
A concrete math library for the floating-point pool, with `powf` and `ln` computed to more than 200 binary
digits and then rounded to the nearest double, and the unit tests of
`programs/hmmcl-sandbox/tests/float_*.rs` replayed with it.  Tests, not proofs; the theorems hold for
every `LibM`.
-/

namespace Hmm.Flt.Sample

open F64

/-- Working precision of the sample library: fixed point with this many binary places. -/
def prec : Nat := 320

/-- One in fixed point. -/
def fone : Nat := 2 ^ prec

/-- Fixed-point product. -/
def fmul (a b : Nat) : Nat := a * b / fone

/-- Fixed-point power with a natural exponent, by repeated squaring. -/
def fpow (b : Nat) : Nat → Nat → Nat → Nat
  | 0, _, acc => acc
  | fuel + 1, n, acc =>
    if n = 0 then acc else fpow (fmul b b) fuel (n / 2) (if n % 2 = 1 then fmul acc b else acc)

/-- A finite non-negative double in fixed point. -/
def fixOf : F64 → Nat
  | .fin _ n => n * fone / unit
  | _ => 0

/-- A fixed-point number rounded to the nearest double. -/
def ofFix (s : Bool) (n : Nat) : F64 := ofRatio s (n * unit) fone

/-- Power for exponents that are multiples of a quarter; other exponents do not occur in the tests. -/
def powf (b e : F64) : F64 :=
  match e with
  | .fin s n =>
    let q := n * 4 / unit
    let r := Nat.sqrt (Nat.sqrt (fixOf b * fone) * fone)
    let v := fpow (if q % 4 = 0 then fixOf b else r) 64 (if q % 4 = 0 then q / 4 else q) fone
    if s && q != 0 then ofFix false (fone * fone / v) else ofFix false v
  | _ => .nan

/-- `2 * atanh(z)` by its series, fixed point. -/
def atanh2 (z : Nat) : Nat :=
  (List.range 110).foldl (fun (s : Nat × Nat) i => (s.1 + 2 * s.2 / (2 * i + 1), fmul s.2 (fmul z z))) (0, z) |>.1

/-- `ln 2`. -/
def ln2 : Nat := atanh2 (fone / 3)

/-- Natural logarithm of a fixed-point number at least one. -/
def lnUp (v : Nat) : Nat :=
  let k := Nat.log2 (v / fone)
  let w := v / 2 ^ k
  k * ln2 + atanh2 ((w - fone) * fone / (w + fone))

/-- Natural logarithm. -/
def ln (x : F64) : F64 :=
  match x with
  | .fin false n =>
    if n = 0 then .inf true
    else if unit ≤ n then ofFix false (lnUp (fixOf x)) else ofFix true (lnUp (fone * unit / n))
  | .inf false => .inf false
  | _ => .nan

/-- The sample library. -/
def libm : LibM := ⟨powf, ln⟩

/-- The result of a call that returns. -/
def get {α : Type} [Inhabited α] : R α → α
  | .ok a => a
  | .error _ => default

/-- Square root of a whole number as in the tests, `2000_f64.sqrt()`. -/
def rt (n : Nat) : F64 := (ofNat n).sqrt

/-- The pool of most tests: ETH at 2000, a deposit of 2 and 4000 between 1333 and 3000. -/
def eth (c fee : F64) : R Pool := do
  let p ← Pool.new libm (rt 2000) 1 c fee
  return (← p.deposit libm 1 (ofNat 2) (ofNat 4000) (rt 1333) (rt 3000)).1

end Hmm.Flt.Sample
