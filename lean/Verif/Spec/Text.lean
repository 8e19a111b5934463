/-
What a list of decimal digits denotes, and the texts the properties about parsing speak of.
-/

namespace Hmm

/-- The number denoted by a list of decimal digits, most significant first. -/
def decValue (ds : List Nat) : Nat := ds.foldl (fun a d => a * 10 + d) 0

/-- All entries are decimal digits. -/
def AllDigits (ds : List Nat) : Prop := ∀ d ∈ ds, d < 10

/-- The characters of a list of digits. -/
def digitText (ds : List Nat) : List Char :=
  ds.map fun d => (['0', '1', '2', '3', '4', '5', '6', '7', '8', '9'].getD d '0')

/-- A mantissa text: optional sign, digits, optional fraction. -/
def mantissa (neg : Bool) (lead : List Nat) (frac : Option (List Nat)) : List Char :=
  (if neg then ['-'] else []) ++ digitText lead ++
    (match frac with | none => [] | some f => '.' :: digitText f)

/-- The fraction length of a mantissa. -/
def fracLen (frac : Option (List Nat)) : Nat := match frac with | none => 0 | some f => f.length

/-- All digits of a mantissa. -/
def allOf (lead : List Nat) (frac : Option (List Nat)) : List Nat :=
  match frac with | none => lead | some f => lead ++ f

end Hmm
