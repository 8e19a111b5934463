import Verif.Tests.FloatSample

/-
The unit tests `programs/hmmcl-sandbox/tests/float_cpmm_cl_test.rs` ("cpmm") and `float_hmm_fees_test.rs`
("hmm") replayed on the model with the sample math library.  Doubles are compared exactly, as the
Rust tests do.  Tests, not proofs.
-/

namespace Hmm.Flt.Sample

open F64

-- cpmm 10-20, problem1
#guard liqXOnly (ofNat 2) (rt 2000) (rt 2500) = lit 8472135954999583 (10 ^ 13)
#guard yFromLRpRng (liqXOnly (ofNat 2) (rt 2000) (rt 2500)) (rt 2000) (rt 1500) (rt 2500) = lit 5076102359479882 (10 ^ 12)

-- cpmm 22-39, problem2
#guard (let r := rpaFromXYRpRpb (ofNat 2) (ofNat 4000) (rt 2000) (rt 3000); mul r r) = lit 13333333333333333 (10 ^ 13)
#guard (let r := rpaFromLRpY (liqXOnly (ofNat 2) (rt 2000) (rt 3000)) (rt 2000) (ofNat 4000); mul r r)
  = lit 13333333333333337 (10 ^ 13)

-- cpmm 41-62, problem3
def l3 : F64 := liqFromXYRpRng (ofNat 2) (ofNat 4000) (rt 2000) (div (ofNat 4000) (ofNat 3)).sqrt (rt 3000)
#guard xFromLRpRng l3 (rt 2500) (div (ofNat 4000) (ofNat 3)).sqrt (rt 3000) = lit 8493641204744679 (10 ^ 16)
#guard yFromLRpRng l3 (rt 2500) (div (ofNat 4000) (ofNat 3)).sqrt (rt 3000) = lit 65729000439693455 (10 ^ 13)
#guard add (ofNat 2) (dxFromLDrp l3 (rt 2000) (rt 2500)) = lit 8493641204744686 (10 ^ 16)
#guard add (ofNat 4000) (dyFromLDrp l3 (rt 2000) (rt 2500)) = lit 6572900043969346 (10 ^ 12)

-- cpmm 64-76, tick_is_under_rp
#guard rpToTick libm (rt 4000) false = 82944
#guard rpToPossibleTk libm (rt 4000) 30 false = 82920
#guard rpToPossibleTk libm (rt 4000) 30 true = 82950

-- cpmm 102-124, test_deposit
#guard (get (eth zero zero)).x = lit 19984356160643284 (10 ^ 16)
#guard (get (eth zero zero)).y = lit 39983195353714877 (10 ^ 13)

-- cpmm 126-155, test_single_x_swap_no_fees (that the pots stay empty)
def sx : R (Pool × SwapOutput) := do (← eth zero zero).executeSwapFromX libm 100 (ofNat 3) zero
#guard (get sx).1.xAdj = zero && (get sx).1.xFee = zero && (get sx).1.yAdj = zero && (get sx).1.yFee = zero

-- cpmm 157-195, test_breaking_trades_x
def sx3 : R Pool := do
  let p ← eth zero zero
  let (p, _) ← p.executeSwapFromX libm 100 (ofNat 1) zero
  let (p, _) ← p.executeSwapFromX libm 100 (ofNat 1) zero
  return (← p.executeSwapFromX libm 100 (ofNat 1) zero).1
#guard le (get sx).1.x (get sx3).x && le (get sx).1.y (get sx3).y
#guard F64.eq (get sx).1.gs.liq zero && F64.eq (get sx3).gs.liq zero
#guard F64.eq (get ((get sx).1.executeSwapFromX libm 100 (lit 3 4) zero)).2.recv zero
#guard F64.eq (get ((get sx3).executeSwapFromX libm 100 (lit 3 4) zero)).2.send zero

-- cpmm 197-223, test_pool_starts_w_no_liq_in_range_x
def sol : R Pool := do
  let p ← Pool.new libm (rt 150) 1 zero zero
  return (← p.deposit libm 1 (ofNat 4) (ofNat 600) (rt 100) (rt 140)).1
#guard F64.eq (get sol).x zero && lt zero (get sol).y && F64.eq (get sol).gs.liq zero
def solX : R (Pool × SwapOutput) := do (← sol).executeSwapFromX libm 100 (ofNat 2) zero
#guard lt zero (get solX).2.recv && lt (get solX).2.send zero && (get solX).1.gs.liq = ofNat 327
#guard lt (ofNat 100) (mul (get solX).1.gs.rp (get solX).1.gs.rp) && lt (mul (get solX).1.gs.rp (get solX).1.gs.rp) (ofNat 150)

-- cpmm 225-239, test_liquidity_gap_on_the_way_down (the part of it shown)
def gapDown : R (Pool × SwapOutput) := do
  let p ← Pool.new libm (rt 200) 1 zero zero
  let (p, _) ← p.deposit libm 1 (ofNat 4) (ofNat 600) (rt 175) (rt 250)
  let (p, _) ← p.deposit libm 2 zero (ofNat 400) (rt 120) (rt 150)
  p.executeSwapFromX libm 100 (ofNat 7) zero
#guard lt (ofNat 4) (get gapDown).2.recv && lt (get gapDown).2.recv (ofNat 7)

-- cpmm 234-260, test_single_y_swap_no_fees
def sy : R (Pool × SwapOutput) := do (← eth zero zero).executeSwapFromY libm 100 (ofNat 6000) zero
#guard (get sy).2.send = (lit 19984356160623287 (10 ^ 16)).neg
#guard (get sy).2.recv = lit 4894779514837586 (10 ^ 12)
#guard (get sy).1.x = add (lit 19984356160643284 (10 ^ 16)) (get sy).2.send
#guard (get sy).1.y = add (lit 39983195353714877 (10 ^ 13)) (get sy).2.recv

-- cpmm 262-301, test_breaking_trades_y
def sy3 : R Pool := do
  let p ← eth zero zero
  let (p, _) ← p.executeSwapFromY libm 100 (ofNat 2000) zero
  let (p, _) ← p.executeSwapFromY libm 100 (ofNat 2000) zero
  return (← p.executeSwapFromY libm 100 (ofNat 2000) zero).1
#guard le (get sy).1.x (get sy3).x && le (get sy).1.y (get sy3).y
#guard F64.eq (get sy).1.gs.liq zero && F64.eq (get sy3).gs.liq zero
#guard F64.eq (get ((get sy).1.executeSwapFromY libm 100 (ofNat 500) zero)).2.send zero

-- cpmm 303-331, test_pool_starts_w_no_liq_in_range_y
def solY : R (Pool × SwapOutput) := do
  let p ← Pool.new libm (rt 150) 1 zero zero
  let (p, _) ← p.deposit libm 1 (ofNat 4) (ofNat 600) (rt 180) (rt 230)
  p.executeSwapFromY libm 100 (ofNat 200) zero
#guard (get solY).1.gs.liq = ofNat 465 && lt zero (get solY).2.recv && lt (get solY).2.send zero

-- cpmm 333-349, test_liquidity_gap_on_the_way_up
def gapUp : R (Pool × SwapOutput) := do
  let p ← Pool.new libm (rt 175) 1 zero zero
  let (p, _) ← p.deposit libm 1 (ofNat 2) (ofNat 600) (rt 150) (rt 190)
  let (p, _) ← p.deposit libm 2 (ofNat 3) zero (rt 210) (rt 250)
  p.executeSwapFromY libm 100 (ofNat 1500) zero
#guard lt (ofNat 600) (get gapUp).2.recv && lt (get gapUp).2.recv (ofNat 1500)
#guard lt (get gapUp).2.endPrice (ofNat 250) && lt (ofNat 210) (get gapUp).2.endPrice

-- cpmm 350-371, test_withdraw
def wd : R Pool := do
  let p ← Pool.new libm (rt 200) 1 zero zero
  let (p, _) ← p.deposit libm 1 (ofNat 4) (ofNat 600) (rt 174) (rt 250)
  let (p, _) ← p.executeSwapFromX libm 100 (ofNat 20) zero
  return (← p.withdraw libm 1 (ofNat 535) (rt 174) (rt 250)).1
#guard (get wd).positions.length = 0 && (get wd).ticks.length = 0 && F64.eq (get wd).gs.liq zero
#guard lt zero (get wd).x && lt zero (get wd).y

-- hmm 9-91, test_hmm_no_fees
def h1 : R (Pool × SwapOutput) := do (← eth (lit 3 2) zero).executeSwapFromX libm 100 (ofNat 3) (rt 1500)
def a1 : R (Pool × SwapOutput) := do (← eth zero zero).executeSwapFromX libm 100 (ofNat 3) (rt 1500)
#guard (get h1).1.yAdj = lit 2999158574252024 (10 ^ 13)
#guard (get h1).1.gs.rp = (lit 1332937255554048 (10 ^ 12)).sqrt
#guard (get h1).2.avgPrice = lit 15102149015882912 (10 ^ 13)
#guard (get h1).2.recv = (get a1).2.recv && (get h1).1.x = (get a1).1.x && (get h1).1.y = (get a1).1.y
#guard (get h1).2.sendHmmAdj = sub (get a1).2.send.neg (get h1).2.send.neg
def h2 : R (Pool × SwapOutput) := do (← h1).1.executeSwapFromY libm 100 (ofNat 3955) (rt 1700)
#guard (get h2).1.xAdj = lit 13381481787398464 (10 ^ 17)
#guard (get h2).1.yAdj = lit 2999158574252024 (10 ^ 13)
#guard (get h2).1.gs.rp = (lit 19918871664747417 (10 ^ 13)).sqrt
#guard (get h2).2.avgPrice = lit 17245093970632417 (10 ^ 13)

-- hmm 93-165, test_fees (the end of it)
def fe : R (Pool × SwapOutput) := do (← eth (lit 3 2) (lit 3 1000)).executeSwapFromX libm 100 (ofNat 3) (rt 1500)
#guard (get fe).1.xFee = (get fe).2.recvFee && lt zero (get fe).1.xFee
def fw : R Pool := do return (← (← fe).1.withdraw libm 1 (get (eth (lit 3 2) (lit 3 1000))).gs.liq (rt 1333) (rt 3000)).1
#guard F64.eq (add (get fw).xFee (get fw).yAdj) zero && (get fw).positions.length = 0

-- hmm 167-191, test_no_infinite_loop
def single : R (Pool × SwapOutput) := do (← eth zero (lit 3 1000)).executeSwapFromX libm 100 (ofNat 3) (rt 1500)
def split : R (Pool × SwapOutput) := do
  let p ← Pool.new libm (rt 2000) 1 zero (lit 3 1000)
  let (p, _) ← p.deposit libm 1 zero (ofNat 4000) (rt 1333) (rt 2000)
  let (p, _) ← p.deposit libm 2 (ofNat 2) zero (rt 2000) (rt 3000)
  p.executeSwapFromX libm 100 (ofNat 3) (rt 1500)
#guard (get single).2 = (get split).2 && lt zero (get single).2.recv

-- hmm 193-213, test_small_trades
def hys : R Pool := do
  let p ← Pool.new libm (rt 10000) 1 zero (lit 3 1000)
  return (← p.deposit libm 1 (ofNat 1000) (ofNat 10000000) (rt 8000) (rt 12500)).1
def tiny : R (Pool × SwapOutput) := do (← hys).executeSwapFromX libm 100 (lit 1 (10 ^ 11)) zero
#guard lt zero (get tiny).2.recv && lt (get tiny).2.send zero
#guard lt (mul (get tiny).1.gs.rp (get tiny).1.gs.rp) (mul (get hys).gs.rp (get hys).gs.rp)

end Hmm.Flt.Sample
