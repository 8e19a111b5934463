import Verif.Model.Decimal

/-
Model of the text conversions of `programs/hmmcl-sandbox/src/decimal.rs`: `Display` (690-718) and
`FromStr` (191-273, 681-688).  A Rust string is a list of characters.
-/

namespace Hmm

/-- The character of a decimal digit. -/
def digitChar (d : Nat) : Char := Char.ofNat (48 + d)

/-- The value of a decimal digit character (`char::to_digit(10)`). -/
def digitVal (c : Char) : Option Nat :=
  if 48 ≤ c.toNat ∧ c.toNat ≤ 57 then some (c.toNat - 48) else none

/-- Auxiliary to `natText`: `fuel` bounds the number of digits. -/
def natTextAux : Nat → Nat → List Char → List Char
  | 0, _, acc => acc
  | fuel + 1, n, acc =>
    if n < 10 then digitChar n :: acc
    else natTextAux fuel (n / 10) (digitChar (n % 10) :: acc)

/-- `u128::to_string` (Rust standard library): decimal digits, most significant first, no leading
zeros, `"0"` for zero. -/
def natText (n : Nat) : List Char := natTextAux (n + 1) n []

/-- Accumulates decimal digits; `none` on a character that is not a digit. -/
def readDigits : List Char → Nat → Option Nat
  | [], acc => some acc
  | c :: cs, acc =>
    match digitVal c with
    | none => none
    | some d => readDigits cs (acc * 10 + d)

/-- The text after an optional `+`. -/
def stripPlus (s : List Char) : List Char :=
  if s.head? = some '+' then s.tail else s

/-- `u128::from_str_radix(s, 10).unwrap()` (Rust standard library): an optional `+`, then at least
one digit; anything else, or a value that does not fit, is an error and so a panic here. -/
def parseU128 (s : List Char) : R Nat :=
  if stripPlus s = [] then rpanic
  else match readDigits (stripPlus s) 0 with
    | none => rpanic
    | some n => u128 n

/-- `i64::from_str(s).unwrap()` (Rust standard library): an optional sign, then at least one digit,
in range. -/
def parseI64 (s : List Char) : R Int :=
  if s.head? = some '-' then
    if s.tail = [] then rpanic
    else match readDigits s.tail 0 with
      | none => rpanic
      | some n => if n ≤ 2 ^ 63 then .ok (-(n : Int)) else rpanic
  else
    if stripPlus s = [] then rpanic
    else match readDigits (stripPlus s) 0 with
      | none => rpanic
      | some n => if n < 2 ^ 63 then .ok (n : Int) else rpanic

/-- `s.find(p)` followed by slicing around the found character: the part before the first character
satisfying `p` and the part after it. -/
def splitAtChar (p : Char → Bool) : List Char → Option (List Char × List Char)
  | [] => none
  | c :: cs =>
    if p c then some ([], cs)
    else match splitAtChar p cs with
      | none => none
      | some (a, b) => some (c :: a, b)

namespace Decimal

/-- `impl Display for Decimal`, 690-718, with the default format options, for which
`pad_integral` prints `-` for negatives and then the digits.  `to_string` of a `u128` is never
empty, so line 712 is unreachable and omitted. -/
def display (d : Decimal) : List Char :=
  let rep := natText d.value
  let len := rep.length
  let rep :=
    if d.scale > 0 then
      if d.scale > len then ['0', '.'] ++ List.replicate (d.scale - len) '0' ++ rep
      else if d.scale = len then '0' :: '.' :: rep
      else rep.take (len - d.scale) ++ '.' :: rep.drop (len - d.scale)
    else rep
  if d.negative then '-' :: rep else rep

/-- The sign of a mantissa, 219-230: text before a `-` is an error. -/
def splitSign (base : List Char) : R (List Char × Bool) :=
  match splitAtChar (fun c => c == '-') base with
  | none => .ok (base, false)
  | some (a, b) => if a = [] then .ok (b, true) else rerr .parseError

/-- The digits of an unsigned mantissa and the number of digits after the point, 232-241. -/
def splitPoint (base : List Char) : List Char × Nat :=
  match splitAtChar (fun c => c == '.') base with
  | none => (base, 0)
  | some (lead, trail) => (lead ++ trail, trail.length)

/-- `Decimal::from_str_radix(s, 10)` after the exponent has been split off, 214-273; `rec` stands for
the recursive call of line 257. `trail.len()` counts bytes in Rust and characters here; they agree on
every text that does not panic, since non-ASCII characters are no digits.  `as u8` keeps the low
eight bits. -/
def fromStrBody (rec : List Char → R Decimal) (base : List Char) (exp : Int) : R Decimal :=
  if base = [] then rerr .parseErrorEmpty
  else do
    let sg ← splitSign base
    let pt := splitPoint sg.1
    let diff : Int := (pt.2 : Int) - exp
    if diff ≥ 2 ^ 63 then rpanic
    else
      let scale := diff.natAbs % 256
      if exp > 0 then
        let inner ← unwrap (rec sg.1)
        let v ← inner.toScale (exp.natAbs % 256)
        (new v.value 0 sg.2).toScale (exp.natAbs % 256)
      else
        let v ← parseU128 pt.1
        return new v scale sg.2

/-- `Decimal::from_str_radix(s, 10)`, 196-273: the exponent split, 203-212. -/
def fromStrWith (rec : List Char → R Decimal) (s : List Char) : R Decimal :=
  match splitAtChar (fun c => c == 'e' || c == 'E') s with
  | none => fromStrBody rec s 0
  | some (b, e) => do
    let x ← parseI64 e
    fromStrBody rec b x

/-- `impl FromStr for Decimal`, 681-688.  The recursive call of `from_str_radix` gets a text without
exponent, so it never recurses again. -/
def fromStr (s : List Char) : R Decimal := fromStrWith (fromStrWith (fun _ => rpanic)) s

end Decimal

end Hmm
