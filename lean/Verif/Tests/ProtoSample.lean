import Verif.Spec.Proto
import Verif.Tests.FloatSample

/-
A math library for comparing the prototype with the Rust twin, and the pool of the notebooks in both.
-/

namespace Hmm.Proto.Sample

open F64
open Flt.Sample (libm rt get)

/-- The sample library, with its square root of the tick base put to the double that `sqrt` gives, and with powers of the tick
base and logarithms forced into the range where they belong.  (They are there already; this saves proving it.) -/
def safe : LibM where
  powf a b :=
    if a = Flt.tickBase ∧ b = div (ofNat 1) (ofNat 2) then Flt.tickBase.sqrt
    else if a = Flt.tickBase ∧ le one (libm.powf a b) = false then one
    else libm.powf a b
  ln x :=
    if x = nan then nan
    else if x = Flt.tickBase.sqrt then libm.ln Flt.tickBase.sqrt
    else if le zero (libm.ln x) && (le (libm.ln x) (ofNat 710) || decide (libm.ln x = inf false)) then libm.ln x
    else if le one x then zero
    else libm.ln x

/-- The library of the Rust code. -/
def table : LibM := tabled safe

/-- The pool after a call; that of `default` if it raises. -/
def kept {α : Type} (p : Pool) (f : Py α) : Pool :=
  match f p with
  | .ok _ q => q
  | .error _ _ => default

/-- What a call returns; `default` if it raises. -/
def told {α : Type} [Inhabited α] (p : Pool) (f : Py α) : α :=
  match f p with
  | .ok a _ => a
  | .error _ _ => default

/-- Whether a call returns. -/
def fine {α : Type} (p : Pool) (f : Py α) : Bool :=
  match f p with
  | .ok _ _ => true
  | .error _ _ => false

/-- The notebook's pool in the prototype. -/
def pyEth (c fee : F64) : Pool :=
  kept (get (Pool.new safe (rt 2000) 1 c fee)) (Pool.deposit safe 1 (ofNat 2) (ofNat 4000) (rt 1333) (rt 3000))

/-- And in the Rust code. -/
def rsEth (c fee : F64) : Flt.Pool :=
  get (do
    let p ← Flt.Pool.new table (rt 2000) 1 c fee
    return (← p.deposit table 1 (ofNat 2) (ofNat 4000) (rt 1333) (rt 3000)).1)

end Hmm.Proto.Sample
