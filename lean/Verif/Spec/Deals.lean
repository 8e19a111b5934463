import Verif.Spec.Order

/-
Whatever can be done with a pool, and what comes of it.
-/

namespace Hmm.Pool

/-- Something to be done with a pool. -/
inductive Deal where
  | deposit (o : Offer)
  | withdraw (o : Request)
  | sellX (fl : FloatEnv) (dx oracle : Decimal)
  | sellY (fl : FloatEnv) (dy oracle : Decimal)

/-- It is a deposit or a withdrawal. -/
def Deal.Quiet : Deal → Prop
  | .deposit _ => True
  | .withdraw _ => True
  | .sellX _ _ _ => False
  | .sellY _ _ _ => False

/-- What the one who did it gets told. -/
inductive Bill where
  | receipt (r : Receipt)
  | output (r : SwapOutput)

/-- Doing it. -/
inductive Does (p : Pool) : Deal → Bill → Pool → Prop
  | deposit {o : Offer} {r : Receipt} {p' : Pool} :
      p.deposit o.user o.x o.y o.rpa o.rpb = .ok (p', r) → Does p (.deposit o) (.receipt r) p'
  | withdraw {o : Request} {r : Receipt} {p' : Pool} :
      p.withdraw o.user o.liq o.rpa o.rpb = .ok (p', r) → Does p (.withdraw o) (.receipt r) p'
  | sellX {fl : FloatEnv} {dx oracle : Decimal} {r : SwapOutput} {p' : Pool} :
      p.executeSwapFromX fl dx oracle = .ok (p', r) → Does p (.sellX fl dx oracle) (.output r) p'
  | sellY {fl : FloatEnv} {dy oracle : Decimal} {r : SwapOutput} {p' : Pool} :
      p.executeSwapFromY fl dy oracle = .ok (p', r) → Does p (.sellY fl dy oracle) (.output r) p'

/-- One thing done after the other, each with its bill beside it. -/
inductive Deals : Pool → List (Deal × Bill) → Pool → Prop
  | nil {p : Pool} : Deals p [] p
  | cons {p p1 p' : Pool} {d : Deal} {b : Bill} {ds : List (Deal × Bill)} :
      Does p d b p1 → Deals p1 ds p' → Deals p ((d, b) :: ds) p'

end Hmm.Pool
