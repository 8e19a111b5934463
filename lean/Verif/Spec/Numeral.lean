import Verif.Spec.Text
import Mathlib.Data.Rat.Defs

/-
Which texts are numerals (C77), and the two further shapes that the parser takes.  Nothing here
mentions the parser.
-/

namespace Hmm

/-- A sign that may be there. -/
def sign (b : Bool) (c : Char) : List Char := if b then [c] else []

/-- `Unsigned u ds k`: the text `u` is an optional plus, the digits `ds`, at least one, and perhaps a
point with `k` of the digits after it. -/
inductive Unsigned : List Char → List Nat → Nat → Prop
  | whole (plus : Bool) (ds : List Nat) (h : AllDigits ds) (h0 : ds ≠ []) :
      Unsigned (sign plus '+' ++ digitText ds) ds 0
  | point (plus : Bool) (a b : List Nat) (h : AllDigits (a ++ b)) (h0 : a ++ b ≠ []) :
      Unsigned (sign plus '+' ++ digitText a ++ '.' :: digitText b) (a ++ b) b.length

/-- No numeral: a point, a plus and then the digits. -/
def LatePlus (u : List Char) (ds : List Nat) : Prop :=
  u = '.' :: '+' :: digitText ds ∧ AllDigits ds ∧ ds ≠ []

/-- What follows the exponent mark. -/
inductive Exponent : List Char → Int → Prop
  | plain (plus : Bool) (e : List Nat) (h : AllDigits e) (h0 : e ≠ []) :
      Exponent (sign plus '+' ++ digitText e) (decValue e)
  | minus (e : List Nat) (h : AllDigits e) (h0 : e ≠ []) :
      Exponent ('-' :: digitText e) (-(decValue e : Int))

/-- `Parts s b x`: the text `s` is `b` without exponent (then `x = 0`) or `b` with the exponent `x`,
which fits in 64 bits. -/
def Parts (s b : List Char) (x : Int) : Prop :=
  (∀ c ∈ b, c ≠ 'e' ∧ c ≠ 'E') ∧
    ((s = b ∧ x = 0) ∨ ∃ c t, (c = 'e' ∨ c = 'E') ∧ s = b ++ c :: t ∧ Exponent t x ∧ -2 ^ 63 ≤ x ∧ x < 2 ^ 63)

/-- `Numeral s q`: the text `s` is a numeral and denotes `q`. -/
def Numeral (s : List Char) (q : ℚ) : Prop :=
  ∃ b x neg u ds k, Parts s b x ∧ b = sign neg '-' ++ u ∧ Unsigned u ds k ∧
    q = (if neg then -1 else 1) * (decValue ds : ℚ) / 10 ^ k * (10 : ℚ) ^ x

/-- The unsigned part of the texts that are accepted: `k` characters follow the point. -/
def Taken (u : List Char) (ds : List Nat) (k : Nat) : Prop :=
  Unsigned u ds k ∨ (LatePlus u ds ∧ k = ds.length + 1)

/-- The digits of a mantissa with `k` characters after the point moved to `e` places. -/
def shifted (n k e : Nat) : Nat := if e < k then n / 10 ^ (k - e) else n * 10 ^ (e - k)

end Hmm
