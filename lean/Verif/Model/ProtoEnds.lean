import Verif.Model.Proto

/-
The prototype's remaining helpers, `cl_python/v3_pool.py` 186-241 ("py"): amounts from ticks, and the ends of a range from its
amounts.
-/

namespace Hmm.Proto

open F64

/-- `_liq_from_x_y_rP_rng`, py 186-191. -/
def liqFromXYTickRng (m : LibM) (x y : F64) (t ta tb : Int) : R F64 := do
  let rp ← tickToRp m t
  let rpa ← tickToRp m ta
  let rpb ← tickToRp m tb
  liqFromXYRpRng x y rp rpa rpb

/-- `_x_from_L_rP_rng`, py 200-205. -/
def xFromLTickRng (m : LibM) (l : F64) (t ta tb : Int) : R F64 := do
  let rp ← tickToRp m t
  let rpa ← tickToRp m ta
  let rpb ← tickToRp m tb
  xFromLRpRng l rp rpa rpb

/-- `_y_from_L_rP_rng`, py 214-219. -/
def yFromLTickRng (m : LibM) (l : F64) (t ta tb : Int) : R F64 := do
  let rp ← tickToRp m t
  let rpa ← tickToRp m ta
  let rpb ← tickToRp m tb
  return yFromLRpRng l rp rpa rpb

/-- `rPa_from_L_rP_y`, py 222-225. -/
def rpaFromLRpY (l rp y : F64) : R F64 := do return sub rp (← fdiv y l)

/-- `rPb_from_L_rP_x`, py 227-230. -/
def rpbFromLRpX (l rp x : F64) : R F64 := fdiv (mul l rp) (sub l (mul rp x))

/-- `rPa_from_x_y_rP_rPb`, py 233-236. -/
def rpaFromXYRpRpb (x y rp rpb : F64) : R F64 := do
  let a ← fdiv y (mul rpb x)
  let b ← fdiv y (mul rp x)
  return sub (F64.add a rp) b

/-- `rPb_from_x_y_rP_rPa`, py 238-241. -/
def rpbFromXYRpRpa (x y rp rpa : F64) : R F64 :=
  fdiv (mul rp y) (F64.add (mul (mul (sub rpa rp) rp) x) y)

end Hmm.Proto
