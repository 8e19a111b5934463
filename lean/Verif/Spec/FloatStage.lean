import Verif.Spec.FloatAmounts

/-
A swap of the floating-point pool as a sequence of price moves within a range of constant liquidity.
-/

namespace Hmm.Flt

open F64

/-- One move: liquidity, root price before and after, amount that goes to the reserve, swap fee, amount
paid out (as a negative number) and the part of the constant-product amount that is held back. -/
structure Stage where
  liq : F64
  start : F64
  stop : F64
  recv : F64
  fee : F64
  send : F64
  adj : F64

/-- The doubles of the stage are numbers of moderate size. -/
structure Stage.Usual (t : Stage) (L a b R F : ℚ) : Prop where
  il : t.liq.Is L
  ia : t.start.Is a
  ib : t.stop.Is b
  ir : t.recv.Is R
  ifee : t.fee.Is F
  ra : t.start.Rep
  rb : t.stop.Rep
  sl : Sized 200 L
  sa : Sized 100 a
  sb : Sized 100 b
  sr : Tame 300 R
  sf : Tame 300 F
  fs : t.send.Finite

/-- The fee is the fraction `f` of what the trader pays. -/
def FeePart (f R F : ℚ) : Prop := |F * (1 - f) - R * f| ≤ (R + F) / 2 ^ 49

/-- The constant-product curve with liquidity `L`, down from the root price `a` to `b`: X comes in, Y goes
out, less one part in 10^12. -/
def Stage.MoveX (t : Stage) (f L a b R F : ℚ) : Prop :=
  b ≤ a ∧ |R - L * (1 / b - 1 / a)| ≤ L * (1 / a + 1 / b) / 2 ^ 49 ∧
  (∃ q, (sub t.send t.adj).Is q ∧ |-q - L * (a - b) * (1 - 1 / 10 ^ 12)| ≤ L * (a - b) / 2 ^ 49) ∧
  FeePart f R F

/-- The same upwards: Y comes in, X goes out. -/
def Stage.MoveY (t : Stage) (f L a b R F : ℚ) : Prop :=
  a ≤ b ∧ |R - L * (b - a)| ≤ L * (a + b) / 2 ^ 49 ∧
  (∃ q, (sub t.send t.adj).Is q ∧
    |-q - L * (1 / a - 1 / b) * (1 - 1 / 10 ^ 12)| ≤ L * (1 / a + 1 / b) / 2 ^ 49) ∧
  FeePart f R F

/-- Adding up doubles, one after the other. -/
def total (f : Stage → F64) (z : F64) (ts : List Stage) : F64 := ts.foldl (fun s t => add s (f t)) z

/-- Each move starts where the price was, or at the root price of an initialised tick. -/
def Follows (m : LibM) (keys : List Nat) : F64 → List Stage → F64 → Prop
  | rp, [], rp' => rp' = rp ∨ ∃ k ∈ keys, rp' = tickToRp m k
  | rp, t :: ts, rp' => (t.start = rp ∨ ∃ k ∈ keys, t.start = tickToRp m k) ∧ Follows m keys t.stop ts rp'

/-- The books of a sale of X: what the trader is told, the reserves, the pots and the fee growth are sums over the
moves. -/
structure BookedX (m : LibM) (p p' : Pool) (out : SwapOutput) (ts : List Stage) : Prop where
  recv : out.recv = total (fun t => add t.recv t.fee) F64.zero ts
  fee : out.recvFee = total (·.fee) F64.zero ts
  send : out.send = total (·.send) F64.zero ts
  adj : out.sendHmmAdj = total (·.adj) F64.zero ts
  x : p'.x = total (·.recv) p.x ts
  y : p'.y = total (fun t => sub t.send t.adj) p.y ts
  xFee : p'.xFee = total (·.fee) p.xFee ts
  yAdj : p'.yAdj = total (·.adj) p.yAdj ts
  yFee : p'.yFee = p.yFee
  xAdj : p'.xAdj = p.xAdj
  growth : p'.gs.fees = { p.gs.fees with
    fx := total (fun t => div t.fee t.liq) p.gs.fees.fx ts, hy := total (fun t => div t.adj t.liq) p.gs.fees.hy ts }
  price : Follows m (p.ticks.map (·.1)) p.gs.rp ts p'.gs.rp
  endPrice : out.endPrice = mul p'.gs.rp p'.gs.rp
  positive : ∀ t ∈ ts, lt F64.zero t.liq = true

/-- The books of a sale of Y. -/
structure BookedY (m : LibM) (p p' : Pool) (out : SwapOutput) (ts : List Stage) : Prop where
  recv : out.recv = total (fun t => add t.recv t.fee) F64.zero ts
  fee : out.recvFee = total (·.fee) F64.zero ts
  send : out.send = total (·.send) F64.zero ts
  adj : out.sendHmmAdj = total (·.adj) F64.zero ts
  y : p'.y = total (·.recv) p.y ts
  x : p'.x = total (fun t => sub t.send t.adj) p.x ts
  yFee : p'.yFee = total (·.fee) p.yFee ts
  xAdj : p'.xAdj = total (·.adj) p.xAdj ts
  xFee : p'.xFee = p.xFee
  yAdj : p'.yAdj = p.yAdj
  growth : p'.gs.fees = { p.gs.fees with
    fy := total (fun t => div t.fee t.liq) p.gs.fees.fy ts, hx := total (fun t => div t.adj t.liq) p.gs.fees.hx ts }
  price : Follows m (p.ticks.map (·.1)) p.gs.rp ts p'.gs.rp
  endPrice : out.endPrice = mul p'.gs.rp p'.gs.rp
  positive : ∀ t ∈ ts, lt F64.zero t.liq = true

end Hmm.Flt
