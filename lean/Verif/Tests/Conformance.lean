import Verif.Model.Pool
import Verif.Model.DecimalText
import Verif.Model.Bitmap
import Verif.Model.OnChain

/-
The repository's own unit tests, replayed on the model: `decimal.rs` 1105-2741,
`tests/decimal_cl_math_test.rs`, `tests/decimal_cpmm_cl_test.rs`, `tests/decimal_hmm_fees_test.rs` and
`state/tick_bitmap.rs` 155-190, and `tests/hmmcl-sandbox.ts` (the on-chain program).  These are tests of the model's faithfulness, not proofs; no theorem
depends on this file.  `#guard` evaluates the model and fails the build when a test fails.

Test names are those of the Rust tests.  The inputs of `test_natural_log` and `test_bit_length` need the
floating-point step, for which the exact base-2 logarithm, truncated, is used (`exactLog2`).
-/

namespace Hmm.Conformance

open PoolMath Decimal

/-- A decimal `v / 10^s`. -/
def pos (v s : Nat) : Decimal := ⟨v, s, false⟩
/-- A decimal `- v / 10^s`. -/
def ngt (v s : Nat) : Decimal := ⟨v, s, true⟩
/-- `Decimal::from_u64(n).to_compute_scale()`. -/
def u (n : Nat) : R Decimal := (fromInt n).toComputeScale
/-- `Decimal::from_u64(n).to_compute_scale().sqrt().unwrap()`. -/
def root (n : Nat) : R Decimal := do unwrap (← u n).sqrt
/-- Did the call panic? -/
def panics {α : Type} : R α → Bool
  | .error .panic => true
  | _ => false
/-- Did the call return an error code? -/
def isErr {α : Type} : R α → Bool
  | .error (.code _) => true
  | _ => false
/-- Did the test run through with all assertions true? -/
def passes : R Bool → Bool
  | .ok b => b
  | _ => false

/-! ### `decimal.rs` -/

-- test_basic_examples
#guard (pos 1000000 6).mul (pos 1000000 6) == .ok (pos 1000000 6)
#guard (do (← (fromInt 3).toScale 6).div (← (fromInt 2).toScale 6)) == .ok (pos 1500000 6)
#guard (do (← (fromInt 2).toScale 6).divUp (← (fromInt 3).toScale 6)) == .ok (pos 666667 6)
#guard (do (← (fromInt 2).toScale 6).div (← (fromInt 3).toScale 6)) == .ok (pos 666666 6)
-- test_advanced_examples
#guard (fromInt 17134659154348278833).mul (fromInt 11676758639919526015)
  == .ok (fromInt 200077279322612464128594731044417340495)
#guard (pos 17134659154348278833 6).mul (pos 11676758639919526015 6)
  == .ok (pos 200077279322612464128594731044417 6)
#guard (do (← (pos 42000000000000 12).powDec (pos 1500000000000 12)).toScale 6) == .ok (pos 272191109 6)
#guard (do (← (pos 42000000000000 12).powDec (pos 1500000000000 12)).toScaleUp 6) == .ok (pos 272191110 6)
#guard root 2 == .ok (pos 1414213562373 12)
#guard (do (← (fromInt 2).toScale 8).sqrt) == .ok (pos 141421356 8)
#guard (do (← unwrap (← (fromInt 2).toScale 8).sqrt).toScaleUp 6) == .ok (pos 1414214 6)
-- test_denominator, test_to_u64
#guard (pos 42 2).denominator == .ok 100
#guard (pos 42 0).denominator == .ok 1
#guard (pos 69420 6).toU64 == .ok 69420
-- test_abs
#guard (pos 0 0).abs == .ok 0
#guard (pos 42 0).abs == .ok 42
#guard (pos 4269420 5).abs == .ok 42
#guard (ngt 4269420 5).abs == .ok 42
#guard (pos 4269420 5).absUp == .ok 43
#guard (ngt 4269420 5).absUp == .ok 43
-- test_to_scale, test_to_scale_up
#guard (pos 42 2).toScale 3 == .ok (pos 420 3)
#guard (pos 42 2).toScale 1 == .ok (pos 4 1)
#guard (pos 123 4).toScale 0 == .ok (pos 0 0)
#guard (pos 42 2).toScaleUp 3 == .ok (pos 420 3)
#guard (pos 42 2).toScaleUp 1 == .ok (pos 5 1)
#guard (pos 123 4).toScaleUp 0 == .ok (pos 1 0)
-- test_mul_decimal, test_mul_decimal_panic, test_mul_u128, test_mul_u128_panic
#guard (pos 1234 3).mul (pos 4321 5) == .ok (pos 53 3)
#guard panics ((pos (u128Size - 2) 3).mul (pos 2 3))
#guard (pos 9876 2).mulInt 555 == .ok (pos 5481180 2)
#guard panics ((pos (u128Size - 2) 2).mulInt 2)
-- test_add, test_add_panic
#guard isErr ((pos 1337 6).add (pos 555 2))
#guard (pos 1337 6).add (pos 555 6) == .ok (pos 1892 6)
#guard (pos 2 0).add (pos 2 0) == .ok (pos 4 0)
#guard (ngt 2 0).add (ngt 2 0) == .ok (ngt 4 0)
#guard (pos 4 0).add (ngt 3 0) == .ok (pos 1 0)
#guard (pos 2 0).add (ngt 5 0) == .ok (ngt 3 0)
#guard (ngt 4 0).add (pos 3 0) == .ok (ngt 1 0)
#guard (ngt 2 0).add (pos 5 0) == .ok (pos 3 0)
#guard panics ((pos (u128Size - 2) 2).add (pos 2 2))
-- test_sub
#guard isErr ((pos 1337 6).sub (pos 555 2))
#guard (pos 1337 6).sub (pos 555 6) == .ok (pos 782 6)
#guard (pos 10 6).sub (pos 15 6) == .ok (ngt 5 6)
#guard (pos 15 6).sub (pos 10 6) == .ok (pos 5 6)
#guard (ngt 10 6).sub (ngt 15 6) == .ok (pos 5 6)
#guard (ngt 10 6).sub (ngt 5 6) == .ok (ngt 5 6)
#guard (ngt 10 6).sub (pos 15 6) == .ok (ngt 25 6)
#guard (pos 10 6).sub (ngt 15 6) == .ok (pos 25 6)
#guard (pos 0 6).sub (pos 15 6) == .ok (ngt 15 6)
#guard (pos 0 6).sub (ngt 15 6) == .ok (pos 15 6)
-- test_div, test_div_panic, test_into_u64, test_into_u64_panic
#guard (pos 20 8).div (pos 2 3) == .ok (pos 10000 8)
#guard (pos 20 8).div (pos 3 3) == .ok (pos 6666 8)
#guard panics ((pos 10 3).div (pos 0 1))
#guard (pos 333333333333333 15).toU64 == .ok 333333333333333
#guard panics (pos (u128Size - 2) 15).toU64
-- test_into_string
#guard String.ofList (fromInt 42).display == "42"
#guard String.ofList (ngt 42 0).display == "-42"
#guard String.ofList (pos 0 6).display == "0.000000"
#guard String.ofList (pos 1500000 6).display == "1.500000"
#guard String.ofList (pos 500000 6).display == "0.500000"
#guard String.ofList (ngt 500000 6).display == "-0.500000"
-- test_from_string
#guard fromStr "1e6".toList == .ok (pos 1000000000000 6)
#guard fromStr "1.5e6".toList == .ok (pos 1500000000000 6)
#guard fromStr "-1.5e6".toList == .ok (ngt 1500000000000 6)
#guard fromStr "1.5e9".toList == .ok (pos 1500000000000000000 9)
#guard fromStr "42".toList == .ok (pos 42 0)
#guard fromStr "-42".toList == .ok (ngt 42 0)
#guard fromStr "1.5".toList == .ok (pos 15 1)
#guard fromStr "-1.5".toList == .ok (ngt 15 1)
#guard fromStr "42.500000".toList == .ok (pos 42500000 6)
#guard fromStr "42.500420".toList == .ok (pos 42500420 6)
-- test_lte
#guard isErr ((pos 1001 4).lte (pos 33 2))
#guard (pos 1001 4).lte (pos 33 4) == .ok false
#guard (pos 33 4).lte (pos 33 4) == .ok true
#guard (pos 10 4).lte (pos 33 4) == .ok true
#guard (ngt 42 0).lte (ngt 42 0) == .ok true
#guard (pos 42 0).lte (ngt 42 0) == .ok false
#guard (ngt 42 0).lte (pos 42 0) == .ok true
-- test_lt
#guard isErr ((pos 1001 4).lt (pos 33 2))
#guard (pos 1001 4).lt (pos 33 4) == .ok false
#guard (pos 33 4).lt (pos 33 4) == .ok false
#guard (pos 10 4).lt (pos 33 4) == .ok true
#guard (ngt 43 0).lt (ngt 42 0) == .ok true
#guard (pos 43 0).lt (ngt 42 0) == .ok false
#guard (ngt 43 0).lt (pos 42 0) == .ok true
-- test_gt
#guard isErr ((pos 1001 4).gt (pos 33 2))
#guard (pos 1001 4).gt (pos 33 4) == .ok true
#guard (pos 33 4).gt (pos 33 4) == .ok false
#guard (pos 10 4).gt (pos 33 4) == .ok false
#guard (ngt 43 0).gt (ngt 42 0) == .ok false
#guard (pos 43 0).gt (ngt 42 0) == .ok true
#guard (ngt 43 0).gt (pos 42 0) == .ok false
-- test_gte
#guard isErr ((pos 1001 4).gte (pos 33 2))
#guard (pos 1001 4).gte (pos 33 4) == .ok true
#guard (pos 33 4).gte (pos 33 4) == .ok true
#guard (pos 10 4).gte (pos 33 4) == .ok false
#guard (ngt 42 0).gte (ngt 42 0) == .ok true
#guard (pos 42 0).gte (ngt 42 0) == .ok true
#guard (ngt 42 0).gte (pos 42 0) == .ok false
-- test_eq
#guard isErr ((pos 1001 4).eq (pos 33 2))
#guard (pos 1001 4).eq (pos 33 4) == .ok false
#guard (pos 33 4).eq (pos 33 4) == .ok true
#guard (pos 10 4).eq (pos 33 4) == .ok false
#guard (pos 33 4).eq (ngt 33 4) == .ok false
-- test_min_max
#guard (pos 10 2).min (pos 11 2) == .ok (pos 10 2)
#guard (pos 10 2).max (pos 11 2) == .ok (pos 11 2)
#guard (pos 10 2).min (ngt 11 2) == .ok (ngt 11 2)
#guard (pos 10 2).max (ngt 11 2) == .ok (pos 10 2)
-- test_neg, test_sign
#guard (pos 0 0).neg.isNegative == false
#guard (pos 42 4).neg.isNegative == true
#guard (ngt 42 4).neg.isNegative == false
#guard (pos 0 0).isZero == true
#guard (pos 42 4).isPositive == true
#guard (pos 0 0).isPositive == false
#guard (ngt 24 4).isPositive == false
#guard (pos 42 4).isNegative == false
#guard (pos 0 0).isNegative == false
#guard (ngt 24 4).isNegative == true
-- test_is_integer
#guard (pos 0 0).isInteger == .ok true
#guard (pos 42 0).isInteger == .ok true
#guard (ngt 42 0).isInteger == .ok true
#guard (pos 42420 3).isInteger == .ok false
#guard (ngt 42420 3).isInteger == .ok false
-- test_pow_with_integer_exp
#guard (pos 0 6).powInt 100 == .ok (pos 0 6)
#guard (pos 10000000 6).powInt 0 == .ok (pos 1000000 6)
#guard (pos 2000000 6).powInt 18 == .ok (pos 262144000000 6)
#guard (pos 341200000 8).powInt 8 == .ok (pos 1836843602280 8)
-- test_pow_with_decimal_exp
#guard (pos 42000000 6).powDec (ngt 250000 6) == .ok (pos 392814 6)
#guard (pos 42000000 6).powDec (ngt 1000000 6) == .ok (pos 23809 6)
#guard (pos 42000000 6).powDec (pos 0 6) == .ok (pos 1000000 6)
#guard (pos 42000000000000 12).powDec (pos 250000000000 12) == .ok (pos 2545729895021 12)
#guard (pos 42000000000000 12).powDec (pos 500000000000 12) == .ok (pos 6480740698407 12)
#guard (pos 42000000000000 12).powDec (pos 1000000000000 12) == .ok (pos 42000000000000 12)
#guard (pos 42000000000000 12).powDec (pos 1250000000000 12) == .ok (pos 106920655590882 12)
#guard (pos 42000000000000 12).powDec (pos 1500000000000 12) == .ok (pos 272191109333094 12)
#guard (pos 42000000000000 12).powDec (pos 2000000000000 12) == .ok (pos 1764000000000000 12)
-- test_mul_up
#guard (pos 1 12).mulUp (pos 1 12) == .ok (pos 1 12)
#guard (pos 1000000 6).mulUp (pos 300000 6) == .ok (pos 300000 6)
#guard (pos 100 2).mulUp (pos 0 0) == .ok (pos 0 2)
#guard (pos 1000000000 9).mulUp (pos 3 6) == .ok (pos 3000 9)
-- test_div_up
#guard (pos 0 0).divUp (pos 1 0) == .ok (pos 0 0)
#guard (pos 1 0).divUp (pos 2 0) == .ok (pos 1 0)
#guard (do (← (pos 200000000001 6).divUp (pos 2000 3)).lt (pos 100000000001 6)) == .ok false
#guard (pos 42 2).divUp (pos 10 0) == .ok (pos 5 2)
-- test_div_to_scale
#guard (pos 20000 8).divToScale (pos 4 8) 8 == (fromInt 5000).toScale 8
#guard (pos 20000 8).divToScale (pos 4 8) 11 == (fromInt 5000).toScale 11
#guard (pos 20000 8).divToScale (pos 4 8) 5 == (fromInt 5000).toScale 5
#guard (pos 35 5).divToScale (pos 5 1) 7 == .ok (pos 7000 7)
#guard (pos 35 5).divToScale (pos 5 1) 9 == .ok (pos 700000 9)
#guard (pos 35 5).divToScale (pos 5 1) 5 == .ok (pos 70 5)
-- test_sqrt
#guard root 0 == u 0
#guard root 1 == u 1
#guard root 3 == .ok (pos 1732050807568 12)
#guard root 4 == u 2
#guard (do return (← (← unwrap (← (fromInt (u64Size - 1)).toScale 6).sqrt).toScaleUp 0).value) == .ok 4294967296
#guard (pos 3141592653589 12).sqrt == .ok (pos 1772453850905 12)
#guard (pos 3141592 6).sqrt == .ok (pos 1772453 6)
-- test_signed_add, test_signed_mul, test_signed_div
#guard (ngt 4 0).add (ngt 3 0) == .ok (ngt 7 0)
#guard (ngt 1 0).add (pos 1 0) == .ok (pos 0 0)
#guard (pos 3 0).add (ngt 5 0) == .ok (ngt 2 0)
#guard (ngt 5 0).add (pos 3 0) == .ok (ngt 2 0)
#guard (pos 5 0).add (ngt 2 0) == .ok (pos 3 0)
#guard (ngt 3 0).add (pos 5 0) == .ok (pos 2 0)
#guard (ngt 4 0).mul (ngt 3 0) == .ok (pos 12 0)
#guard (ngt 4 0).mul (pos 3 0) == .ok (ngt 12 0)
#guard (pos 4 0).mul (ngt 3 0) == .ok (ngt 12 0)
#guard (pos 4 0).mul (pos 3 0) == .ok (pos 12 0)
#guard (ngt 12 0).div (ngt 3 0) == .ok (pos 4 0)
#guard (ngt 12 0).div (pos 3 0) == .ok (ngt 4 0)
#guard (pos 12 0).div (ngt 3 0) == .ok (ngt 4 0)
#guard (pos 12 0).div (pos 3 0) == .ok (pos 4 0)

/-- Binary digits of a logarithm: `n` more digits of `log2 (a / b)` for `1 ≤ a / b < 2`, times `2^n`. -/
def logDigits : Nat → Nat → Nat → Nat → Nat
  | 0, _, _, acc => acc
  | n + 1, a, b, acc =>
    -- square, keeping 60 digits
    let q := (a * a * 2 ^ 200) / (b * b)
    if q ≥ 2 * 2 ^ 200 then logDigits n q (2 * 2 ^ 200) (2 * acc + 1) else logDigits n q (2 ^ 200) (2 * acc)

/-- `|log2 (v / 10^s)| * 10^s` rounded down, and whether the logarithm is negative. -/
def exactLog2 : FloatEnv := fun v s =>
  let a := if v ≥ 10 ^ s then v else 10 ^ s
  let b := if v ≥ 10 ^ s then 10 ^ s else v
  let k := Nat.log2 (a / b)
  ((k * 2 ^ 60 + logDigits 60 a (b * 2 ^ k) 0) * 10 ^ s / 2 ^ 60, decide (v < 10 ^ s))

-- test_natural_log
#guard (pos 93859063 8).ln exactLog2 == .ok (ngt 6337585 8)
#guard (pos 900000 6).ln exactLog2 == .ok (ngt 105360 6)
#guard (pos 900000000000 12).ln exactLog2 == .ok (ngt 105360515657 12)
#guard (pos 100000000000 12).ln exactLog2 == .ok (ngt 2302585092991 12)
#guard (do (← u 10).ln exactLog2) == .ok (pos 2302585092924 12)
-- test_bit_length (the last case rounds up in f64: the exact logarithm of 2^64 - 1 is below 64)
#guard (pos 0 0).bitLength exactLog2 == .ok (pos 0 0)
#guard (pos 10 0).bitLength exactLog2 == .ok (pos 3 0)
#guard (pos 900000 6).bitLength exactLog2 == .ok (ngt 1 0)
#guard (pos 1 2).bitLength exactLog2 == .ok (ngt 7 0)
#guard (pos 1 6).bitLength exactLog2 == .ok (ngt 20 0)
#guard (pos (u64Size - 1) 0).bitLength (fun _ _ => (64, false)) == .ok (pos 64 0)
#guard panics (unwrap ((ngt 10 0).bitLength exactLog2))

/-! ### `tests/decimal_cl_math_test.rs` -/

-- test_tick_to_tp_to_tick, tick_to_possible
#guard (do rpToTickLoop (← root 4000) false 0) == .ok 82944
#guard (do rpToTickLoop (← root 4000) true 0) == .ok 82945
#guard (do rpToPossibleTk (← root 4000) 30 false 0) == .ok 82920
#guard (do rpToPossibleTk (← root 4000) 30 true 0) == .ok 82950
-- problem1
#guard (do liqXOnly (← u 2) (← root 2000) (← root 2500)) == .ok (pos 847213595499815 12)
#guard (do yFromLRpRng (pos 847213595499815 12) (← root 2000) (← root 1500) (← root 2500))
  == .ok (pos 5076102359478491 12)
-- problem2
#guard (do rpaFromXYRpRpb (← u 2) (← u 4000) (← unwrap (← (← u 4000).div (← u 2)).sqrt) (← root 3000))
  == .ok (pos 36514837167010 12)
#guard (do rpaFromLRpY (← liqXOnly (← u 2) (← root 2000) (← root 3000)) (← root 2000) (← u 4000))
  == .ok (pos 36514837167010 12)
-- problem3
/-- The position of problem 3: liquidity, lower and upper root price. -/
def problem3 : R (Decimal × Decimal × Decimal) := do
  let rpa ← unwrap (← (← u 4000).div (← u 3)).sqrt
  let rpb ← root 3000
  return (← liqFromXYRpRng (← u 2) (← u 4000) (← root 2000) rpa rpb, rpa, rpb)
#guard (do let (l, a, b) ← problem3; xFromLRpRng l (← root 2500) a b) == .ok (pos 849364120474 12)
#guard (do let (l, a, b) ← problem3; yFromLRpRng l (← root 2500) a b) == .ok (pos 6572900043969071 12)
#guard (do (← u 2).add (← dxFromLDrp (← problem3).1 (← root 2000) (← root 2500))) == .ok (pos 849364120475 12)
#guard (do (← u 4000).add (← dyFromLDrp (← problem3).1 (← root 2000) (← root 2500)))
  == .ok (pos 6572900043969612 12)

/-! ### `tests/decimal_cpmm_cl_test.rs` -/

/-- A new pool at the root of `price` with one deposit of `x`, `y` between the roots of `a` and `b`. -/
def poolWith (price : Nat) (c fee : Decimal) (x y a b : Nat) : R Pool := do
  let p ← Pool.new (← root price) 1 c fee
  return (← p.deposit 1 (← u x) (← u y) (← root a) (← root b)).1

/-- The pool used by most tests. -/
def pool0 (c fee : Decimal) : R Pool := poolWith 2000 c fee 2 4000 1333 3000

/-- Sale of `n` whole X. -/
def sellX (p : Pool) (n : Nat) (o : Decimal) : R (Pool × SwapOutput) := do
  p.executeSwapFromX exactLog2 (← u n) o
/-- Sale of `n` whole Y. -/
def sellY (p : Pool) (n : Nat) (o : Decimal) : R (Pool × SwapOutput) := do
  p.executeSwapFromY exactLog2 (← u n) o

-- test_deposit
#guard passes do
  let p ← pool0 zero zero
  return p.x == pos 1999275813881 12 && p.y == pos 3999999999999996 12 && p.xAdj == zero && p.xFee == zero
    && p.yAdj == zero && p.yFee == zero
-- test_single_x_swap_no_fees
#guard passes do
  let (p, r) ← sellX (← pool0 zero zero) 3 zero
  return r.recv == pos 2449955017843 12 && r.send == ngt 3999999999999996 12
    && p.x == (← (pos 1999275813881 12).add r.recv) && p.y.isZero && p.xAdj == zero && p.xFee == zero
    && p.yAdj == zero && p.yFee == zero
-- test_breaking_trades_x
#guard passes do
  let (p, _) ← sellX (← pool0 zero zero) 3 zero
  let (q, _) ← sellX (← pool0 zero zero) 1 zero
  let (q, _) ← sellX q 1 zero
  let (q, _) ← sellX q 1 zero
  let (_, e) ← sellX p 1 zero
  let (_, e') ← sellX q 1 zero
  return (← q.x.gte p.x) && (← q.y.gte p.y) && p.gs.liq.isZero && q.gs.liq.isZero
    && e.recv.isZero && e.send.isZero && e'.recv.isZero && e'.send.isZero
-- test_pool_starts_w_no_liq_in_range_x
#guard passes do
  let p ← poolWith 150 zero zero 4 600 100 140
  let (q, r) ← sellX p 2 zero
  return p.x.isZero && p.y.isPositive && p.gs.liq.isZero && r.recv.isPositive && r.send.isNegative
    && q.gs.liq.isPositive && q.x.isPositive && (← q.gs.rp.lt (← root 150)) && (← q.gs.rp.gt (← root 100))
    && r.recv == (← u 2) && q.gs.liq == pos 327576681858244 12
-- test_liquidity_gap_on_the_way_down
#guard passes do
  let p ← poolWith 200 zero zero 4 600 175 250
  let (p, _) ← p.deposit 2 zero (← u 400) (← root 120) (← root 150)
  let (_, r) ← sellX p 7 zero
  return (← r.recv.gt (← u 4)) && (← r.recv.lt (← u 7)) && (← r.endPrice.lt (← u 120))
-- test_single_y_swap_no_fees
#guard passes do
  let (p, r) ← sellY (← pool0 zero zero) 6000 zero
  return r.send == ngt 1999275813881 12 && r.recv == pos 4896836737493549 12 && p.x.isZero
    && p.y == (← (pos 3999999999999996 12).add r.recv) && p.xAdj.isZero && p.xFee.isZero && p.yAdj.isZero
    && p.yFee.isZero
-- test_breaking_trades_y
#guard passes do
  let (p, _) ← sellY (← pool0 zero zero) 6000 zero
  let (q, _) ← sellY (← pool0 zero zero) 2000 zero
  let (q, _) ← sellY q 2000 zero
  let (q, _) ← sellY q 2000 zero
  let (_, e) ← sellY p 500 zero
  let (_, e') ← sellY q 500 zero
  return (← q.x.gte p.x) && (← q.y.gte p.y) && p.gs.liq.isZero && q.gs.liq.isZero
    && e.recv.isZero && e.send.isZero && e'.recv.isZero && e'.send.isZero
-- test_pool_starts_w_no_liq_in_range_y
#guard passes do
  let p ← poolWith 150 zero zero 4 600 180 230
  let (q, r) ← sellY p 200 zero
  return p.x.isPositive && p.y.isZero && p.gs.liq.isZero && r.recv.isPositive && r.send.isNegative
    && q.gs.liq.isPositive && q.y.isPositive && (← q.gs.rp.gt (← root 150)) && (← q.gs.rp.lt (← root 230))
    && r.recv == (← u 200) && q.gs.liq == pos 465306804972182 12
-- test_liquidity_gap_on_the_way_up
#guard passes do
  let p ← poolWith 175 zero zero 2 600 150 190
  let (p, _) ← p.deposit 2 (← u 3) zero (← root 210) (← root 250)
  let (q, r) ← sellY p 1500 zero
  return (← r.recv.gt (← u 600)) && (← r.recv.lt (← u 1500)) && (← (← q.gs.rp.powInt 2).gt (← u 210))
-- test_withdraw
#guard passes do
  let p ← poolWith 200 zero zero 4 600 174 250
  let (q, _) ← sellX p 20 zero
  let (q, _) ← q.withdraw 1 p.gs.liq (← root 174) (← root 250)
  return p.positions.length == 1 && p.ticks.length == 2 && p.x.isPositive && p.y.isPositive
    && p.gs.liq == pos 535700094901963 12 && q.positions.length == 0 && q.ticks.length == 0 && q.gs.liq == zero
    && q.x.isPositive && q.y.isZero

/-! ### `tests/decimal_hmm_fees_test.rs` -/

/-- `hmm_c = 1.5`. -/
def c15 : Decimal := pos 1500000000000 12
/-- Fee rate of 30 basis points. -/
def fee30 : Decimal := pos 3000000000 12

-- test_hmm_no_fees
#guard passes do
  let a ← pool0 zero zero
  let h ← pool0 c15 zero
  let o ← root 1500
  let (a1, ra) ← sellX a 3 o
  let (h1, rh) ← sellX h 3 o
  let o2 ← root 1700
  let (a2, sa) ← sellY a1 3955 o2
  let (h2, sh) ← sellY h1 3955 o2
  return a.x == h.x && a.y == h.y && rh.recv == ra.recv && decide (rh.send.value < ra.send.value)
    && rh.endPrice == ra.endPrice && (← rh.avgPrice.lt ra.avgPrice) && rh.sendHmmAdj == (← rh.send.sub ra.send)
    && h1.x == a1.x && h1.y == a1.y && h1.gs.tick == a1.gs.tick && h1.gs.rp == a1.gs.rp
    && h1.yAdj == pos 300041649746282 12 && (← h1.gs.rp.powInt 2) == pos 1332937085253129 12
    && rh.avgPrice == pos 1510214809376886 12
    && sh.recv == sa.recv && decide (sh.send.value < sa.send.value) && sh.endPrice == sa.endPrice
    && (← sh.endPrice.gt sa.avgPrice) && sh.sendHmmAdj == (← sh.send.sub sa.send)
    && h2.x == a2.x && h2.y == a2.y && h2.gs.tick == a2.gs.tick && h2.gs.rp == a2.gs.rp
    && h2.xAdj == pos 133871212606 12 && h2.yAdj == pos 300041649746282 12
    && (← h2.gs.rp.powInt 2) == pos 1991582365986590 12 && sh.avgPrice == pos 1724412033919077 12
-- test_fees
#guard [3, 1].all fun amt => passes do
  let n ← pool0 c15 zero
  let f ← pool0 c15 fee30
  let o ← root 1500
  let (n1, rn) ← sellX n amt o
  let (f1, rf) ← sellX f amt o
  let large ← (← u amt).gt n.x
  let common := (← f.x.add rf.recv) == (← f1.x.add rf.recvFee) && (← n.x.add rn.recv) == (← n1.x.add rn.recvFee)
    && (← rf.avgPrice.lt rn.avgPrice) && f1.xFee == rf.recvFee && n1.xFee == rn.recvFee && f1.xFee.isPositive
    && n1.xFee.isZero && rf.recvFee == (← rf.recv.mul fee30) && (← f1.xFee.add f1.yAdj).isPositive
  let (f2, _) ← f1.withdraw 1 f.gs.liq (← root 1333) (← root 3000)
  let more ← rf.recv.gt rn.recv
  let higher ← rf.endPrice.gt rn.endPrice
  return common && f.x == n.x
    && (if large then more && rf.send == rn.send && rf.endPrice == rn.endPrice
        else rf.recv == rn.recv && decide (rf.send.value < rn.send.value) && higher)
    && (← (← f2.xFee.add f2.yAdj).lt (pos 1000 12)) && f2.positions.length == 0
-- test_no_infinite_loop
#guard passes do
  let o ← root 1500
  let (_, r) ← sellX (← pool0 zero fee30) 3 o
  let p ← Pool.new (← root 2000) 1 zero fee30
  let (p, _) ← p.deposit 1 zero (← u 4000) (← root 1333) (← root 2000)
  let (p, _) ← p.deposit 2 (← u 2) zero (← root 2000) (← root 3000)
  let (_, r') ← sellX p 3 o
  return r == r'
-- test_small_trades_x
#guard passes do
  let p ← poolWith 10000 zero fee30 1000 10000000 8000 12500
  let (q, r) ← p.executeSwapFromX exactLog2 (pos 10800 12) zero
  return r.recv.isPositive && r.send.isNegative && decide (q.gs.tick ≤ p.gs.tick)
    && (← (← p.gs.rp.powInt 2).gt (← q.gs.rp.powInt 2)) && (← (← p.gs.rp.powInt 2).gte r.avgPrice)
-- test_small_trades_y
#guard passes do
  let rp ← unwrap (← (pos 9999999999999999992 12).div (pos 999577539060928 12)).sqrt
  let p ← Pool.new rp 1 zero fee30
  let (p, _) ← p.deposit 1 (← u 1000) (← u 10000000) (← root 8000) (← root 12500)
  let (q, r) ← p.executeSwapFromY exactLog2 (pos 950000 12) zero
  return r.recv.isPositive && r.send.isNegative && decide (p.gs.tick ≤ q.gs.tick)
    && (← (← p.gs.rp.powInt 2).lt (← q.gs.rp.powInt 2)) && (← (← p.gs.rp.powInt 2).lte r.avgPrice)

/-! ### `state/tick_bitmap.rs` -/

-- test_bitmap
#guard passes do
  let b := Bitmap.empty
  let n : Int := 400
  let b' ← b.activateTick n
  let b' ← b'.activateTick (n + 10)
  let b' ← b'.activateTick (n + 100)
  return !(← b.tickIsActive 0) && !(← b.tickIsActive n) && (← b'.tickIsActive n)

/-! ### `tests/hmmcl-sandbox.ts` -/

/-- The caller of the test: one user with plenty of tokens. -/
def caller : OnChain.Caller := ⟨1, 1, 1, 1⟩

/-- The account setup of lines 70-404. -/
def chain0 : R OnChain.Chain := do
  let s ← OnChain.initializePool 76012 0
  let s ← OnChain.initializeBitmap s
  let s ← OnChain.initializeTick s 71955
  let s ← OnChain.initializeTick s 80067
  let s ← OnChain.initializeTick s 76012
  let s ← OnChain.createPosition s 1 71955 80067
  return { s with lp := [(1, ⟨1, 0⟩)], userX := [(1, ⟨1, 21000000⟩)], userY := [(1, ⟨1, 21000000000⟩)] }

/-- What the test reads back after each instruction. -/
def readBack (s : OnChain.Chain) (liq : Nat) : Bool :=
  s.gs.tick == 76012 && s.gs.rp == 44719511943267 && s.gs.liq == liq
    && (mapGet ⟨1, 71955, 80067⟩ s.positions).map (·.liq) == some liq
    && (mapGet 71955 s.ticks).map (fun t => (t.net, t.netNeg, t.gross)) == some (liq, 0, liq)
    && (mapGet 80067 s.ticks).map (fun t => (t.net, t.netNeg, t.gross)) == some (liq, 1, liq)
    && (mapGet 76012 s.ticks).map (fun t => (t.net, t.netNeg, t.gross)) == some (0, 0, 0)

-- should make a deposit for user in range (A,B); should make a withdrawal for user in range (A,B)
#guard passes do
  let s ← chain0
  let (t, _) ← OnChain.deposit s caller 71955 80067 76012 2 4000
  let (w, _) ← OnChain.withdraw t caller 71955 80067 76012 400
  return readBack t 487204723244326 && (t.bitmap.map fun b => (b.byte 0, b.byte 5000)) == some (1, 1)
    && readBack w 87204723244326 && (w.bitmap.map fun b => (b.byte 0, b.byte 5000)) == some (0, 0)

end Hmm.Conformance
