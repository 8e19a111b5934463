import Verif.Model.Decimal

/-
Model of the natural logarithm of `programs/hmmcl-sandbox/src/decimal.rs`, 720-990.
-/

namespace Hmm

/-- The only use of floating point in `Decimal`: lines 912-917 compute
`|log2 (value / 10^scale)| * 10^scale` in `f64`, cast it to `u128`, and take the sign of the
logarithm.  The model leaves this as an arbitrary function of the value and the scale: every theorem
holds for all of them.  First component: the `u128`; second: `is_sign_negative`. -/
abbrev FloatEnv := Nat → Nat → Nat × Bool

/-- The table of `log_table`, 735-862 (9 rows, 12 columns). -/
def logTableRows : List (List Nat) :=
  [[95310179804, 9950330853, 999500333, 99995000, 9999950, 999999, 99999, 9999, 1000, 100, 10, 1],
   [182321556793, 19802627296, 1998002662, 199980002, 19999800, 1999998, 199999, 19999, 1999, 200, 20, 1],
   [262364264467, 29558802241, 2995508979, 299955008, 29999550, 2999995, 299999, 29999, 3000, 300, 30, 3],
   [336472236621, 39220713153, 3992021269, 399920021, 39999200, 3999991, 399999, 39999, 4000, 400, 40, 3],
   [405465108108, 48790164169, 4987541511, 499875041, 49998750, 4999987, 499999, 49999, 4999, 500, 50, 5],
   [470003629245, 58268908123, 5982071677, 599820071, 59998200, 5999982, 599999, 59999, 6000, 600, 60, 6],
   [530628251062, 67658648473, 6975613736, 699755114, 69997550, 6999975, 699999, 69999, 6999, 700, 70, 6],
   [587786664902, 76961041136, 7968169649, 799680170, 79996800, 7999968, 799999, 79999, 7999, 800, 80, 8],
   [641853886172, 86177696241, 8959741371, 899595242, 89995950, 8999959, 899999, 89999, 9000, 900, 90, 8]]

/-- `log_table`, 734-866; panics outside the table. -/
def logTable (row col : Nat) : R Nat :=
  match logTableRows[row]? with
  | none => rpanic
  | some r =>
    match r[col]? with
    | none => rpanic
    | some v => .ok v

namespace Decimal

/-- `log_table_value`, 869-901.  Conversion to `usize` (64 bit) drops the sign and panics above
`2^64 - 1` (`Into<usize>`, 540-544). -/
def logTableValue (s t : Decimal) (col : Nat) : R (Decimal × Decimal × Nat) := do
  let s ← s.div t
  let place ← pow10 (col + 1)
  let f := new place s.scale false
  let t ← (← s.mul f).div f
  let rowD ← unwrap ((← t.mul f).sub f)
  let row ← u64 rowD.value
  let lx ← (match row with
    | 0 => .ok 0
    | r + 1 => if r < 9 ∧ col < 12 then logTable r col else .ok 0 : R Nat)
  return (s, t, lx)

/-- `impl BitLength for Decimal`, 904-930. -/
def bitLength (fl : FloatEnv) (d : Decimal) : R Decimal :=
  if d.isNegative then rerr .signedDecimalsNotSupported
  else if d.isZero then .ok (fromInt 0)
  else do
    let (v, neg) := fl d.value d.scale
    let v ← u128 v
    let _ ← d.denominator
    let x := new v d.scale neg
    let r ← (if neg then x.toScaleUp 0 else x.toScale 0)
    return new r.value 0 neg

/-- The ten chained table lookups of `ln`, 952-961, accumulating the sum of 963-984; `n` lookups are
left, starting at column `col`. -/
def lnLoop : Nat → Nat → Decimal → Decimal → Nat → R Nat
  | 0, _, _, _, acc => .ok acc
  | n + 1, col, s, t, acc => do
    let (s', t', lx) ← logTableValue s t col
    let acc' ← checkedAdd acc lx
    lnLoop n (col + 1) s' t' acc'

/-- `impl Ln for Decimal`, 934-992. -/
def ln (fl : FloatEnv) (d : Decimal) : R Decimal := do
  if d.isNegative then rerr .signedDecimalsNotSupported
  else
    let scaledOut ← d.toComputeScale
    let ln2 := new 693147180559 12 false
    let bl ← unwrap (d.bitLength fl)
    let two6 ← (fromInt 2).toScale 6
    let bl6 ← bl.toScale 6
    let mx ← (← two6.powDec bl6).toComputeScale
    let sum ← lnLoop 10 0 scaledOut mx 0
    let lxSum := new sum 12 scaledOut.negative
    let r ← unwrap ((← ln2.mul bl).add lxSum)
    r.toScale d.scale

end Decimal

end Hmm
