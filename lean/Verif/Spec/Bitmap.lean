import Verif.Model.Bitmap

/-
Specification of the tick bitmap: a set of ticks between 0 and 79999.
-/

namespace Hmm.Bitmap

/-- The ticks the bitmap can hold. -/
def Valid (t : Int) : Prop := 0 ≤ t ∧ t < 80000

/-- Tick `t` is in the set: it is valid and reported active. -/
def Active (b : Bitmap) (t : Int) : Prop := b.tickIsActive t = .ok true

/-- The operations of a history. -/
inductive Op where
  | activate (t : Int)
  | unset (t : Int)
  deriving DecidableEq

/-- The tick of an operation. -/
def Op.tick : Op → Int
  | activate t => t
  | unset t => t

/-- Whether an operation is an activation. -/
def Op.isActivate : Op → Bool
  | activate _ => true
  | unset _ => false

/-- Apply an operation; one that panics leaves the bitmap as it was (the transaction is rolled back). -/
def apply (b : Bitmap) (o : Op) : Bitmap :=
  match (match o with | .activate t => b.activateTick t | .unset t => b.unsetTick t) with
  | .ok b' => b'
  | .error _ => b

/-- The bitmap after a history, oldest operation first. -/
def after (ops : List Op) : Bitmap := ops.foldl apply empty

/-- Whether the last operation of a history on tick `t` was an activation. -/
def lastActivated (ops : List Op) (t : Int) : Bool :=
  match ops.reverse.find? (fun o => o.tick == t) with
  | some o => o.isActivate
  | none => false

end Hmm.Bitmap
