import Verif.Spec.Order

/-
A deposit and a withdrawal made one after the other.
-/

namespace Hmm.Pool

/-- The offer and the request are for different positions. -/
def Clear (p : Pool) (o : Offer) (w : Request) : Prop := ∀ key, ¬ (o.For p key ∧ w.For p key)

/-- The ends of the offer's range that are in use in one pool are in use in another. -/
def KeepsEnds (p p' : Pool) (o : Offer) : Prop := ∀ key, o.For p key →
  ((mapGet key.lower p.ticks).isSome → (mapGet key.lower p'.ticks).isSome) ∧
    ((mapGet key.upper p.ticks).isSome → (mapGet key.upper p'.ticks).isSome)

end Hmm.Pool
