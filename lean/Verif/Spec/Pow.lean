import Verif.Spec.Decimal

/-
Repeated squaring at a fixed scale.
-/

namespace Hmm

/-- The `2^k`-th power by squaring `k` times, each square rounded down to the scale; in units of the last place. -/
def squared (v scale : Nat) : Nat → Nat
  | 0 => v
  | k + 1 => squared (v * v / 10 ^ scale) scale k

end Hmm
