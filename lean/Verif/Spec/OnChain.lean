import Verif.Model.OnChain
import Verif.Spec.Decimal
import Verif.Spec.Bitmap

/-
What the accounts of the Anchor program mean, and the sums over positions that its books should agree
with.
-/

namespace Hmm.OnChain

/-- The liquidity stored in a position account. -/
def Position.amount (p : Position) : ℚ := (p.liq : ℚ) / 10 ^ p.liqScale

/-- The net liquidity stored in a tick account. -/
def Tick.netAmount (t : Tick) : ℚ := (if t.netNeg = 0 then 1 else -1) * ((t.net : ℚ) / 10 ^ t.netScale)

/-- The gross liquidity stored in a tick account. -/
def Tick.grossAmount (t : Tick) : ℚ := (t.gross : ℚ) / 10 ^ t.grossScale

/-- The liquidity stored in the pool account. -/
def Global.amount (g : Global) : ℚ := (g.liq : ℚ) / 10 ^ g.liqScale

/-- Every accumulator of a fee record is zero. -/
def Fee.isZero (f : Fee) : Prop := f.fx = 0 ∧ f.fy = 0 ∧ f.hx = 0 ∧ f.hy = 0

/-- Sum over the positions of their liquidity, each weighted by its key. -/
def Chain.sumPos (s : Chain) (w : PosKey → ℚ) : ℚ := (s.positions.map fun e => w e.1 * e.2.amount).sum

/-- Liquidity of the positions that begin at a tick. -/
def Chain.startingAt (s : Chain) (t : Nat) : ℚ := s.sumPos fun k => if k.lower = t then 1 else 0

/-- Liquidity of the positions that end at a tick. -/
def Chain.endingAt (s : Chain) (t : Nat) : ℚ := s.sumPos fun k => if k.upper = t then 1 else 0

/-- Liquidity of the positions whose range `[lower, upper)` contains a tick. -/
def Chain.inRange (s : Chain) (t : Nat) : ℚ :=
  s.sumPos fun k => if k.lower ≤ t ∧ t < k.upper then 1 else 0

/-- Liquidity of all positions. -/
def Chain.totalLiquidity (s : Chain) : ℚ := s.sumPos fun _ => 1

/-- Owner of a token account, if it exists. -/
def ownerOf (m : List (Nat × TokAcc)) (acc : Nat) : Option Nat := (mapGet acc m).map (·.owner)

/-- Balance of a token account, zero if there is none. -/
def balanceOf (m : List (Nat × TokAcc)) (acc : Nat) : Nat := (mapGet acc m).elim 0 (·.amount)

/-- A tick is set in the pool's bitmap. -/
def Chain.bitSet (s : Chain) (t : Int) : Prop := ∃ b, s.bitmap = some b ∧ b.Active t

/-- What a group of users has paid in, in how many deposits, and taken out over a history. -/
structure Account where
  deposits : Nat
  paidX : Nat
  paidY : Nat
  takenX : Nat
  takenY : Nat
  deriving DecidableEq, Repr

/-- Histories, together with the account of the group `who`. -/
inductive Tracked (supply0 : Nat) (who : Nat → Bool) : Chain → Account → Prop where
  | init {s : Chain} (tick : Nat) : initializePool tick supply0 = .ok s → Tracked supply0 who s ⟨0, 0, 0, 0, 0⟩
  | deposit {s t : Chain} {a : Account} {c : Caller} {lower upper current x y : Nat} {m : Moved} :
      Tracked supply0 who s a → deposit s c lower upper current x y = .ok (t, m) →
      Tracked supply0 who t (if who c.user then
        { a with deposits := a.deposits + 1, paidX := a.paidX + m.x, paidY := a.paidY + m.y } else a)
  | withdraw {s t : Chain} {a : Account} {c : Caller} {lower upper current n : Nat} {m : Moved} :
      Tracked supply0 who s a → withdraw s c lower upper current n = .ok (t, m) →
      Tracked supply0 who t (if who c.user then
        { a with takenX := a.takenX + m.x, takenY := a.takenY + m.y } else a)
  | initializeBitmap {s t : Chain} {a : Account} :
      Tracked supply0 who s a → initializeBitmap s = .ok t → Tracked supply0 who t a
  | initializeTick {s t : Chain} {a : Account} {tick : Nat} :
      Tracked supply0 who s a → initializeTick s tick = .ok t → Tracked supply0 who t a
  | createPosition {s t : Chain} {a : Account} {u lower upper : Nat} :
      Tracked supply0 who s a → createPosition s u lower upper = .ok t → Tracked supply0 who t a
  | external {s t : Chain} {a : Account} :
      Tracked supply0 who s a → External s t → Tracked supply0 who t a

/-- The price `p` moved into the range from `a` to `b`. -/
def clampAt (p a b : Nat) : Nat := max (min p b) a

/-- X per unit of liquidity of a range, for the pool at price `p`: the difference of the range's upper
price and the clamped price, over their product, which the pool rounds down. -/
def rateX (p : Nat) (k : PosKey) : ℚ :=
  match PoolMath.tickToRp k.lower, PoolMath.tickToRp k.upper with
  | .ok a, .ok b => ((b.value - clampAt p a.value b.value : Nat) : ℚ) /
      (clampAt p a.value b.value * b.value / 10 ^ 12 : Nat)
  | _, _ => 0

/-- Y per unit of liquidity of a range, for the pool at price `p`. -/
def rateY (p : Nat) (k : PosKey) : ℚ :=
  match PoolMath.tickToRp k.lower, PoolMath.tickToRp k.upper with
  | .ok a, .ok b => ((clampAt p a.value b.value - a.value : Nat) : ℚ) / 10 ^ 12
  | _, _ => 0

/-- Worth of the positions of a group, in X and Y. -/
def worthX (who : Nat → Bool) (s : Chain) : ℚ := s.sumPos fun k => if who k.user then rateX s.gs.rp k else 0
@[inherit_doc worthX]
def worthY (who : Nat → Bool) (s : Chain) : ℚ := s.sumPos fun k => if who k.user then rateY s.gs.rp k else 0

end Hmm.OnChain
