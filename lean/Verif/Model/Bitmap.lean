import Verif.Model.Prim

/-
Model of `programs/hmmcl-sandbox/src/state/tick_bitmap.rs`.  Line numbers refer to that file.

Ticks are `i32`; the model uses unbounded integers.  The additions of `TICK_BITMAP_SIZE` that could
overflow an `i32` happen only for ticks far beyond the array, where the array access panics anyway.
`println!` is omitted.
-/

namespace Hmm

/-- `TICK_BITMAP_SIZE`, 3. -/
def bitmapSize : Nat := 10000

/-- `PoolTickBitmap`, 18-22, without the bump: `tick_map: [u8; TICK_BITMAP_SIZE]`, as a function of the
index.  Only indices below `bitmapSize` are ever read or written (`byteAt`, `setByte`). -/
structure Bitmap where
  byte : Nat → Nat

namespace Bitmap

/-- `PoolTickBitmap::default`, 24-31; also the zeroed account made by `initialize_bitmap`. -/
def empty : Bitmap := ⟨fun _ => 0⟩

/-- The byte index of a tick, 37: `(tick >> 3) + TICKS_OFFSET` with `TICKS_OFFSET = 0`. -/
def keyOf (tick : Int) : Int := tick / 8

/-- The bit index of a tick, 40: `(tick + TICK_BITMAP_SIZE) % 8` with Rust's truncated remainder. -/
def ixOf (tick : Int) : Int := Int.tmod (tick + bitmapSize) 8

/-- `key as usize` used as an index: panics when out of bounds; a negative `i32` becomes a huge
`usize` and is out of bounds too. -/
def index (key : Int) : R Nat :=
  if 0 ≤ key ∧ key < bitmapSize then .ok key.toNat else rpanic

/-- `1 << ix` for a `u8`, panicking outside `0..8` (overflow checks on). -/
def bit (ix : Int) : R Nat := if 0 ≤ ix ∧ ix < 8 then .ok (1 <<< ix.toNat) else rpanic

/-- Array write. -/
def setByte (b : Bitmap) (k v : Nat) : Bitmap := ⟨fun i => if i = k then v else b.byte i⟩

/-- `activate_tick`, 34-42. -/
def activateTick (b : Bitmap) (tick : Int) : R Bitmap := do
  let k ← index (keyOf tick)
  let m ← bit (ixOf tick)
  return b.setByte k (b.byte k ||| m)

/-- `unset_tick`, 44-49; `!m` on a `u8` is `255 ^ m`. -/
def unsetTick (b : Bitmap) (tick : Int) : R Bitmap := do
  let k ← index (keyOf tick)
  let m ← bit (ixOf tick)
  return b.setByte k (b.byte k &&& (255 ^^^ m))

/-- `tick_is_active`, 51-56. -/
def tickIsActive (b : Bitmap) (tick : Int) : R Bool := do
  let k ← index (keyOf tick)
  let _ ← bit (ixOf tick)
  return (b.byte k >>> (ixOf tick).toNat) &&& 1 != 0

/-- `byte_get_next_tick`, 116-153.  `find?` over the range is the `for .. break` loop. -/
def byteNext (byte direction ix : Nat) (isContain : Bool) : Option Nat :=
  if byte = 0 then none
  else
    let start := if !isContain then (if direction = 0 then 8 else 0)
      else (if direction = 1 then ix + 1 else 8)
    let stop := if !isContain then (if direction = 0 then 8 else 0)
      else (if direction = 1 then 0 else ix)
    if direction = 0 then
      ((List.range stop).map (fun i => stop - i - 1)).find? (fun seq => (byte >>> seq) &&& 1 == 1)
    else
      ((List.range (8 - start)).map (start + ·)).find? (fun i => (byte >>> i) &&& 1 == 1)

/-- The leftward word loop, 85-96: words `n-1, n-2, .., 0`. -/
def scanLeft (b : Bitmap) (direction ix : Nat) : Nat → Option Int
  | 0 => none
  | n + 1 =>
    if b.byte n > 0 then
      match byteNext (b.byte n) direction ix false with
      | some r => some ((n : Int) * 8 + r)
      | none => scanLeft b direction ix n
    else scanLeft b direction ix n

/-- The rightward word loop, 98-110: the next `n` words starting at `k`. -/
def scanRight (b : Bitmap) (direction ix : Nat) : Nat → Nat → Option Int
  | 0, _ => none
  | n + 1, k =>
    if b.byte k > 0 then
      match byteNext (b.byte k) direction ix false with
      | some r => some ((k : Int) * 8 + r)
      | none => scanRight b direction ix n (k + 1)
    else scanRight b direction ix n (k + 1)

/-- `get_next_tick`, 58-113; `direction : u8`, 0 means left.  `<< 3` is multiplication by 8. -/
def getNextTick (b : Bitmap) (current : Int) (direction : Nat) : R (Option Int) := do
  let k ← index (keyOf current)
  let ix := (ixOf current).toNat
  match byteNext (b.byte k) direction ix true with
  | some r => return some ((k : Int) * 8 + r)
  | none =>
    if direction = 0 then return b.scanLeft direction ix k
    else return b.scanRight direction ix (bitmapSize - (k + 1)) (k + 1)

end Bitmap

end Hmm
