import Verif.Spec.Leave

/-
Deposits and withdrawals made one after the other, and pools with the same records.
-/

namespace Hmm.Pool

/-- What somebody offers to deposit: who, up to which amounts of X and Y, and between which prices. -/
structure Offer where
  user : Nat
  x : Decimal
  y : Decimal
  rpa : Decimal
  rpb : Decimal
  deriving DecidableEq

/-- The offers are taken up one after the other, each with the receipt beside it. -/
inductive Deposits : Pool → List (Offer × Receipt) → Pool → Prop
  | nil {p : Pool} : Deposits p [] p
  | cons {p p1 p' : Pool} {o : Offer} {r : Receipt} {os : List (Offer × Receipt)} :
      p.deposit o.user o.x o.y o.rpa o.rpb = .ok (p1, r) → Deposits p1 os p' → Deposits p ((o, r) :: os) p'

/-- The offer is for this position. -/
def Offer.For (p : Pool) (o : Offer) (key : PositionKey) : Prop := key.user = o.user ∧ Names p key o.rpa o.rpb

/-- The two offers are for different positions. -/
def Apart (p : Pool) (o o' : Offer) : Prop := ∀ key, ¬ (o.For p key ∧ o'.For p key)

/-- What somebody asks to withdraw: who, how much liquidity, and between which prices. -/
structure Request where
  user : Nat
  liq : Decimal
  rpa : Decimal
  rpb : Decimal
  deriving DecidableEq

/-- The requests are met one after the other, each with the receipt beside it. -/
inductive Withdrawals : Pool → List (Request × Receipt) → Pool → Prop
  | nil {p : Pool} : Withdrawals p [] p
  | cons {p p1 p' : Pool} {o : Request} {r : Receipt} {os : List (Request × Receipt)} :
      p.withdraw o.user o.liq o.rpa o.rpb = .ok (p1, r) → Withdrawals p1 os p' → Withdrawals p ((o, r) :: os) p'

/-- The request is for this position. -/
def Request.For (p : Pool) (o : Request) (key : PositionKey) : Prop := key.user = o.user ∧ Names p key o.rpa o.rpb

/-- The two requests are for different positions. -/
def Request.Apart (p : Pool) (o o' : Request) : Prop := ∀ key, ¬ (o.For p key ∧ o'.For p key)

/-- The position the request is for holds liquidity. -/
def Request.Held (p : Pool) (o : Request) : Prop :=
  ∀ key, o.For p key → ∃ s, mapGet key p.positions = some s ∧ 0 < s.liq.toRat

/-- What a pool records at a tick: the net liquidity as a number, the gross liquidity and the fees. -/
def atTick (p : Pool) (t : Nat) : Option (ℚ × Decimal × Fees) :=
  (mapGet t p.ticks).map fun ts => (ts.liqNet.toRat, ts.liqGross, ts.fees)

/-- Two pools with the same records: only the order of the position table, and the sign of a net liquidity of
zero, may differ. -/
structure SameRecords (p q : Pool) : Prop where
  spacing : q.spacing = p.spacing
  gs : q.gs = p.gs
  ticks : ∀ t, q.atTick t = p.atTick t
  positions : ∀ key, mapGet key q.positions = mapGet key p.positions
  x : q.x = p.x
  y : q.y = p.y
  xAdj : q.xAdj = p.xAdj
  yAdj : q.yAdj = p.yAdj
  xFee : q.xFee = p.xFee
  yFee : q.yFee = p.yFee
  c : q.c = p.c
  feeRate : q.feeRate = p.feeRate

end Hmm.Pool
