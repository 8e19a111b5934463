import Verif.Spec.FloatStage
import Mathlib.Analysis.SpecialFunctions.Integrals.Basic

/-
What a swap pays under an oracle price, as an integral over the price move.
-/

namespace Hmm.Flt

open F64

/-- Y paid for a fall of the root price from `a` to `b` with liquidity `L`: at every root price `s` what the constant-product
curve pays, `L ds`, times `(o/s)^c` if `s` is above the oracle's root price `o`. -/
noncomputable def oracleY (L a b o c : ℝ) : ℝ := L * ∫ s in b..a, (min 1 (o / s)) ^ c

/-- X paid for a rise from `a` to `b`: `L ds / s^2`, times `(s/o)^c` if `s` is below `o`. -/
noncomputable def oracleX (L a b o c : ℝ) : ℝ := L * ∫ s in a..b, (min 1 (s / o)) ^ c / s ^ 2

/-- Liquidity and root prices of a stage are numbers of moderate size. -/
structure Stage.Priced (t : Stage) (L a b : ℚ) : Prop where
  il : t.liq.Is L
  ia : t.start.Is a
  ib : t.stop.Is b
  ra : t.start.Rep
  rb : t.stop.Rep
  sl : Sized 90 L
  sa : Sized 50 a
  sb : Sized 50 b

/-- The stage pays `T` and holds back the rest of the constant-product amount `C`, both less one part in 10^12, up to an
error of `E / 2^42`. -/
def Stage.Pays (t : Stage) (T C E : ℝ) : Prop :=
  ∃ s h : ℚ, t.send.Is (-s) ∧ t.adj.Is h ∧ |s - T * (1 - 1 / 10 ^ 12)| ≤ E / 2 ^ 42 ∧
    |h - (C - T) * (1 - 1 / 10 ^ 12)| ≤ E / 2 ^ 42

end Hmm.Flt
