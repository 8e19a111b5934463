import Verif.Proofs.ReleaseFloat
import Verif.Spec.ReleaseFloat
import Verif.Tests.FloatSample
import Verif.Props.FloatTicks

/-
C141: the floating-point pool in a build without overflow checks does what it does in a build with them, except
that a sale of X can go past tick 0.
-/

namespace Hmm.Flt.Unchecked

open F64 Sample

/-- C141 for sales of X, in every state and for every offer: both builds give the same result, or tick 0 is in use
and the build with checks panics. -/
theorem C141_sellX (m : LibM) (fuel : Nat) (p : Pool) (dx o : F64) :
    executeSwapFromX m fuel p dx o = p.executeSwapFromX m fuel dx o ∨
      (AtBottom p ∧ p.executeSwapFromX m fuel dx o = .error .panic) := by
  unfold executeSwapFromX Pool.executeSwapFromX
  split
  · exact .inl rfl
  · exact loopX_same (Z := AtBottom p) fuel id

/-- In particular they agree when tick 0 is not in use. -/
theorem C141_sellX_above (m : LibM) (fuel : Nat) {p : Pool} (h : ¬ AtBottom p) (dx o : F64) :
    executeSwapFromX m fuel p dx o = p.executeSwapFromX m fuel dx o :=
  (C141_sellX m fuel p dx o).elim id fun e => absurd e.1 h

/-- Going past tick 0 where the build with checks panics, the other one is afterwards at the last tick of the grid. -/
theorem C141_wraps {p q : Pool} (hs : 0 < p.spacing) (hs' : p.spacing < 2 ^ 32) (h : crossTick p 0 false = .ok q) :
    (p.spacing ∣ q.gs.tick ∧ q.gs.tick < 2 ^ 32 ∧ 2 ^ 32 ≤ q.gs.tick + p.spacing) ∧
      p.crossTick 0 false = .error .panic := by
  unfold crossTick at h
  unfold Pool.crossTick
  split at h
  · cases h
  rename_i h0
  rw [if_neg h0]
  dsimp only at h ⊢
  cases ht : mapGet 0 p.ticks with
  | none => rw [ht] at h; cases h
  | some ts =>
    rw [ht] at h
    dsimp only at h ⊢
    constructor
    · suffices e : q.gs.tick = p.tickToPossibleTick (2 ^ 32 - 1) false by
        obtain ⟨a, b, c⟩ := snap_down (t := 2 ^ 32 - 1) (s := p.spacing) (by norm_num) hs hs'
        rw [e]
        unfold Pool.tickToPossibleTick
        exact ⟨a, by omega, by omega⟩
      unfold Pool.addGlblLiq at h
      rw [bind_ok] at h; obtain ⟨g, h1, h⟩ := h
      rw [pure_ok] at h
      rw [← h]
      unfold GlobalState.addLiq at h1
      simp only [Bool.false_eq_true, if_false] at h1
      split at h1
      · cases h1
      · injection h1 with h1
        rw [← h1]
        simp only [Pool.setTick, Pool.tickToPossibleTick, pred32, if_true]
    · rfl

/-- C141 for sales of Y: both builds give the same result. -/
theorem C141_sellY (m : LibM) (fuel : Nat) (p : Pool) (dy o : F64) :
    executeSwapFromY m fuel p dy o = p.executeSwapFromY m fuel dy o := by
  unfold executeSwapFromY Pool.executeSwapFromY
  rw [loopY_eq]

/-- C141 for histories: a history without overflow checks in which X is sold only while tick 0 is not in use
is a history with overflow checks. -/
theorem C141_history {m : LibM} {p : Pool} (h : Reach m (fun q => ¬ AtBottom q) p) : Flt.Reach m p := by
  induction h with
  | new h => exact .new h
  | deposit _ h ih => exact .deposit ih h
  | withdraw _ h ih => exact .withdraw ih h
  | swapX _ hg h ih => exact .swapX ih (by rw [← C141_sellX_above m _ hg]; exact h)
  | swapY _ h ih => exact .swapY ih (by rw [← C141_sellY]; exact h)

/-- Conversely every history with overflow checks is one without them. -/
theorem C141_history_back {m : LibM} {p : Pool} (h : Flt.Reach m p) : Reach m (fun _ => True) p := by
  induction h with
  | new h => exact .new h
  | deposit _ h ih => exact .deposit ih h
  | withdraw _ h ih => exact .withdraw ih h
  | @swapX p p' o fuel dx oracle _ h ih =>
    refine .swapX ih trivial (fuel := fuel) (dx := dx) (oracle := oracle) (o := o) ?_
    rcases C141_sellX m fuel p dx oracle with e | ⟨_, e⟩
    · rw [e]; exact h
    · rw [e] at h; cases h
  | swapY _ h ih => exact .swapY ih (by rw [C141_sellY]; exact h)

/-! ### Past tick 0 -/

/-- A pool without fees at a root price of 1.001005 in which user 1 has offered 1000 of each token between the root
prices 1 and 1.0015, that is between the ticks 0 and 29. -/
def low : R Pool := do
  let p ← Pool.new libm (lit 1001005 1000000) 1 F64.zero F64.zero
  return (← p.deposit libm 1 (ofNat 1000) (ofNat 1000) one (lit 10015 10000)).1

def lowPool : Pool := get low

/-- An offer larger by half a billionth than what the pool can take down to tick 0. -/
def offer : F64 := lit 9990004673279 10000000000

/-- What the build without checks makes of it. -/
def past : R (Pool × SwapOutput) := executeSwapFromX libm 5 lowPool offer F64.zero

def pastPool : Pool := (get past).1

/-- The withdrawal of the whole position afterwards. -/
def leave : R (Pool × Pool.Receipt) := pastPool.withdraw libm 1 lowPool.gs.liq one (lit 10015 10000)

theorem lowPool_reach : Flt.Reach libm lowPool := by
  have h : low = .ok lowPool := by
    have : low.isOk = true := by decide +kernel
    cases e : low with
    | error e' => rw [e] at this; cases this
    | ok a => unfold lowPool; rw [e]; rfl
  unfold low at h
  rw [bind_ok] at h; obtain ⟨p0, h0, h⟩ := h
  rw [bind_ok] at h; obtain ⟨⟨p1, r1⟩, h1, h⟩ := h
  rw [pure_ok] at h
  rw [← h]
  exact .deposit (.new h0) h1

/-- The two builds differ where tick 0 is in use: an offer of X slightly larger than what the pool can take makes the
build with checks panic; the build without them takes it all, gives the seller the Y of the pool but a billionth, and
leaves the price above where it was, at the top of the range.  The owner of the liquidity, withdrawing all of it, is
then paid more than 1449 Y, which drives the reserve of Y below zero, and less than one X of the more than 1448. -/
theorem C141_past_bottom : Flt.Reach libm lowPool ∧ lowPool.gs.tick = 20 ∧ AtBottom lowPool ∧
    lowPool.executeSwapFromX libm 5 offer F64.zero = .error .panic ∧
    (∃ out, past = .ok (pastPool, out) ∧ F64.eq out.recv offer = true ∧
      lt (sub lowPool.y (lit 1 1000000000)) out.send.neg = true) ∧
    lt lowPool.gs.rp pastPool.gs.rp = true ∧ pastPool.gs.tick = 28 ∧ lt (ofNat 1448) pastPool.x = true ∧
    (∃ q r, leave = .ok (q, r) ∧ lt (ofNat 1449) r.totalY = true ∧ lt r.totalX one = true ∧
      lt q.y (ofNat 1449).neg = true ∧ q.positions = []) := by
  refine ⟨lowPool_reach, by decide +kernel, ?_, by decide +kernel,
    ⟨(get past).2, by decide +kernel, by decide +kernel, by decide +kernel⟩, by decide +kernel, by decide +kernel,
    by decide +kernel,
    ⟨(get leave).1, (get leave).2, by decide +kernel, by decide +kernel, by decide +kernel, by decide +kernel,
      by decide +kernel⟩⟩
  unfold AtBottom
  decide +kernel

/-- A pool at tick 0 goes past it. -/
example : ∃ q, crossTick (lowPool.setTick 0) 0 false = .ok q ∧ q.gs.tick = 2 ^ 32 - 1 :=
  ⟨get (crossTick (lowPool.setTick 0) 0 false), by decide +kernel, by decide +kernel⟩

/-- An offer that the pool can take gives the same in both builds there. -/
example : (executeSwapFromX libm 5 lowPool (ofNat 500) F64.zero).isOk = true ∧
    executeSwapFromX libm 5 lowPool (ofNat 500) F64.zero = lowPool.executeSwapFromX libm 5 (ofNat 500) F64.zero :=
  ⟨by decide +kernel, by decide +kernel⟩

/-- The pool of the unit tests does not use tick 0, and takes sales in both directions. -/
example : ¬ AtBottom (get (eth F64.zero F64.zero)) ∧
    (executeSwapFromX libm 5 (get (eth F64.zero F64.zero)) one F64.zero).isOk = true ∧
    (executeSwapFromY libm 5 (get (eth F64.zero F64.zero)) (ofNat 100) F64.zero).isOk = true := by
  refine ⟨?_, by decide +kernel, by decide +kernel⟩
  unfold AtBottom
  decide +kernel

end Hmm.Flt.Unchecked
