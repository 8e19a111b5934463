import Verif.Model.Proto
import Verif.Tests.FloatSample

/-
Outputs recorded in the notebooks `programs/hmmcl-sandbox/src/cl_python/pool_hmm.ipynb` ("hmm") and `pool.ipynb` ("pool"),
replayed on the model of the prototype with the sample math library.  Doubles are compared exactly.  Tests, not proofs.

The notebooks were run when `ADJ_WHOLE_FILL` was 1e-8 (after a sale that empties the range, 1e-8 of the reserve is left); the
source at this commit has 1e-12.  So the amounts sent by swaps are compared through the formulas with the recorded factor, and
the rest (amounts received, fees, prices, ticks, fee growth) through the calls.
-/

namespace Hmm.Proto.Sample

open F64
open Flt.Sample (libm rt)

/-- The state after some calls; the pool of `default` if one raises. -/
def after (p : R Pool) (f : Py Unit) : Pool :=
  match p with
  | .ok p =>
    match f p with
    | .ok _ p => p
    | .error _ _ => default
  | .error _ => default

/-- The result of a call. -/
def result {α : Type} [Inhabited α] (p : Pool) (f : Py α) : α :=
  match f p with
  | .ok a _ => a
  | .error _ _ => default

/-- The state after a call. -/
def left {α : Type} (p : Pool) (f : Py α) : Pool :=
  match f p with
  | .ok _ p => p
  | .error _ p => p

/-- Drops a result. -/
def unit {α : Type} (f : Py α) : Py Unit := do
  let _ ← f
  return ()

/-- The pool of most cells. -/
def eth (c fee : F64) : Pool :=
  after (Pool.new libm (rt 2000) 1 c fee) (unit (Pool.deposit libm 1 (ofNat 2) (ofNat 4000) (rt 1333) (rt 3000)))

def swapX (dx : F64) (o : Option F64) : Py Pool.Output := Pool.executeSwapFromX libm 100 dx o
def swapY (dy : F64) (o : Option F64) : Py Pool.Output := Pool.executeSwapFromY libm 100 dy o

/-- The recorded factor. -/
def factor : F64 := sub one (lit 1 (10^8))

/-- `a` printed as a decimal with `d` digits after the point. -/
def d (a k : Nat) : F64 := lit a (10^k)

-- hmm 3, 12: the deposit.
#guard (eth zero zero).x = d 19984356160534436 16
#guard (eth zero zero).y = d 3998319535406821 12
#guard (eth zero zero).rp = d 4471951496148113 14
#guard (eth zero zero).tick = 76012
#guard (eth zero zero).liq = ofNat 487
#guard (eth zero zero).ticks.map (fun e => (e.1, e.2.net, e.2.gross)) =
  [(71955, ofNat 487, ofNat 487), (80067, (ofNat 487).neg, ofNat 487)]
#guard (eth zero zero).positions.map (·.1) = [⟨1, 71955, 80067⟩]
#guard (eth zero zero).positions.map (·.2.liq) = [Num.int 487]

-- hmm 5: a sale that empties the range.
def sold : Pool.Output := result (eth zero zero) (swapX (ofNat 3) none)
def soldPool : Pool := left (eth zero zero) (swapX (ofNat 3) none)
#guard sold.recv = d 24489254304363857 16
#guard sold.adj = zero
#guard sold.fee = zero
#guard sold.endPrice = d 13329372555720715 13
#guard soldPool.x = d 444736104648983 14
#guard soldPool.rp = d 36509413246066714 15
#guard soldPool.tick = 71954
#guard soldPool.liq = zero
#guard mul (dyFromLDrp (ofNat 487) (eth zero zero).rp soldPool.rp) factor = (d 39983194954236255 13).neg
#guard div (d 39983194954236255 13) sold.recv = d 1632683235565546 12

-- hmm 7: and back.
def bought : Pool.Output := result soldPool (swapY (ofNat 3955) none)
def boughtPool : Pool := left soldPool (swapY (ofNat 3955) none)
#guard bought.recv = ofNat 3955
#guard bought.endPrice = d 19918871664967744 13

-- hmm 14, 16: with fees.
def feePool : Pool := left (eth zero (d 3 3)) (swapX (ofNat 3) none)
def feeOut : Pool.Output := result (eth zero (d 3 3)) (swapX (ofNat 3) none)
#guard feeOut.recv = d 2456294313376515 15
#guard feeOut.fee = d 7368882940129546 18
#guard feePool.tick = 71954
#guard feePool.fees.fx = d 15131176468438493 21
#guard (mapGet 71955 feePool.ticks).map (·.fees.fx) = some (d 15131176468438493 21)
#guard feePool.xFee = d 7368882940129546 18
def feePool2 : Pool := left feePool (swapY (ofNat 3955) none)
def feeOut2 : Pool.Output := result feePool (swapY (ofNat 3955) none)
#guard feeOut2.fee = d 11865000000000236 15
#guard feePool2.rp = d 4460619969370532 14
#guard feePool2.tick = 75961
#guard feePool2.liq = ofNat 487
#guard feePool2.fees.fy = d 2436344969199227 17

-- hmm 16: everything is withdrawn.
def feeBack : Flt.Pool.Receipt := result feePool2 (Pool.withdraw libm 1 (.int 487) (rt 1333) (rt 3000))
#guard feeBack.totalX = d 20336082991834896 16
#guard feeBack.totalY = d 3954723122129936 12
#guard (left feePool2 (Pool.withdraw libm 1 (.int 487) (rt 1333) (rt 3000))).liq = zero
-- The reserve that is left is negative: the payment is priced at the tick's price, not at the pool's.
#guard lt (left feePool2 (Pool.withdraw libm 1 (.int 487) (rt 1333) (rt 3000))).x zero
#guard (left feePool2 (Pool.withdraw libm 1 (.int 487) (rt 1333) (rt 3000))).positions = []

-- hmm 6, 8: the adjusted amounts.
#guard
  let s := (eth zero zero).rp
  let amm := dyFromLDrp (ofNat 487) s soldPool.rp
  let dy := ((left (eth (d 15 1) zero) (pure ())).doneDyX libm s soldPool.rp (ofNat 487) (some (rt 1500)) amm).toOption
  dy.map (fun y => (mul y factor, sub (mul y factor) (mul amm factor))) =
    some ((d 36984036409671066 13).neg, d 2999158544565189 13)
#guard
  let s := soldPool.rp
  let q := eth (d 15 1) zero
  let e := boughtPool.rp
  let r := do
    let start ← tickToRp libm 71955
    let amm ← dxFromLDrp (ofNat 487) start e
    let dx ← q.doneDxY libm start e (ofNat 487) (some (rt 1700)) amm
    return (mul dx factor, sub (mul dx factor) (mul amm factor), s)
  r.toOption.map (fun r => (r.1, r.2.1)) = some ((d 2293405862075104 15).neg, d 13381481652093008 17)

-- pool 26-29: positions set directly.
def sp : Pool := after (Pool.new libm (rt 4000) 100 zero zero) (do
  let _ ← Pool.setPosition 123 80000 90000 (.int 300)
  let _ ← Pool.setPosition 888 90000 95000 (.int 200)
  let _ ← Pool.setPosition 888 70000 95000 (.int 400)
  let _ ← Pool.setPosition 888 90000 95000 (.int (-200)))
#guard sp.liq = ofNat 700
#guard sp.ticks.map (fun e => (e.1, e.2.net, e.2.gross)) =
  [(70000, ofNat 400, ofNat 400), (80000, ofNat 300, ofNat 300), (90000, (ofNat 300).neg, ofNat 300),
    (95000, (ofNat 400).neg, ofNat 400)]
#guard sp.positions.map (fun e => (e.1, e.2.liq)) = [(⟨123, 80000, 90000⟩, .int 300), (⟨888, 70000, 95000⟩, .int 400)]

-- hmm 19, 20: two providers.
def two : Pool := left (eth zero (d 3 3)) (Pool.deposit libm 2 zero (ofNat 4000) (rt 1333) (rt 2000))
#guard two.y = d 7996639070813642 12
#guard two.liq = ofNat 487
#guard two.ticks.map (fun e => (e.1, e.2.net, e.2.gross)) =
  [(71955, ofNat 974, ofNat 974), (76012, (ofNat 487).neg, ofNat 487), (80067, (ofNat 487).neg, ofNat 487)]
def twoPool : Pool := left two (swapX (ofNat 3) none)
def twoOut : Pool.Output := result two (swapX (ofNat 3) none)
#guard twoOut.recv = ofNat 3
#guard twoOut.fee = d 8999999999999897 18
#guard twoPool.x = d 4989435616053443 15
#guard twoPool.liq = ofNat 974
#guard twoPool.rp = d 3931985459757468 14
#guard twoPool.tick = 73438
#guard twoPool.fees.fx = d 9240246406570737 21

-- pool 6, 21, 23, 25: constructors and ticks.
#guard (Pool.new libm (rt 4000) 1 zero zero).toOption.map (fun p => (p.tick, p.rp)) = some (82944, d 6324351886516985 14)
#guard (Pool.new libm (rt 4000) 30 zero zero).toOption.map (fun p => (p.tick, p.rp)) = some (82920, d 6316767594946435 14)
#guard (Pool.new libm (rt 4000) 100 zero zero).toOption.map (fun p => (p.tick, p.rp)) = some (82900, d 631045430018443 13)

-- pool 9, 10: formulas.
#guard (liqXOnly (ofNat 2) (rt 2000) (rt 2500)).toOption = some (d 8472135954999583 13)

end Hmm.Proto.Sample
