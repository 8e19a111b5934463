import Verif.Proofs.Active
import Verif.Props.History
import Verif.Tests.Sample

/-
C39: the active liquidity against the positions in range.
-/

namespace Hmm.Pool

open Decimal PoolMath Sample

/-- Deciding `Away` for a concrete pool: it is enough to look at two neighbouring ticks. -/
theorem away_of {p : Pool} {t : Nat} {a b : Decimal} (ha : tickToRp t = .ok a) (hb : tickToRp (t + 1) = .ok b)
    (h1 : 2 * a.toRat < (p.gs.rp.toRat - a.toRat) * 10 ^ 6) (h2 : 2 * b.toRat < (b.toRat - p.gs.rp.toRat) * 10 ^ 6) :
    Away p := by
  intro g q _ hq
  have hp := (tickToRp_pos hq).2
  rcases Nat.lt_or_ge t g with h | h
  · have h3 := price_mono h hb hq
    rw [abs_sub_comm]
    have := le_abs_self (q.toRat - p.gs.rp.toRat)
    linarith
  · have h3 := price_mono h hq ha
    have := le_abs_self (p.gs.rp.toRat - q.toRat)
    linarith

/-! ### C39 -/

/-- The active liquidity is that of the positions containing the current tick. -/
def ActiveRight (p : Pool) : Prop := p.gs.liq.toRat = p.inRange p.gs.tick

/-- One position [10, 30), no fee, current tick 20. -/
def single : R Pool := do
  let p ← Pool.new (mid 20) 1 PoolMath.zero PoolMath.zero
  let (p, _) ← p.deposit 1 (D 10) (D 10) (mid 10) (mid 30)
  return p

/-- Just enough X is sold to bring the price to the lower end of the position. -/
def toEdge : R Pool := do
  let p ← single
  let dx ← dxFromLDrp p.gs.liq p.gs.rp (← tickToRp 10)
  let (p, _) ← p.executeSwapFromX fl dx PoolMath.zero
  return p

/-- Then one Y is sold. -/
def backIn : R Pool := do
  let p ← toEdge
  let (p, _) ← p.executeSwapFromY fl (D 1) PoolMath.zero
  return p

theorem toEdge_reachable {p : Pool} (h : toEdge = .ok p) : Reachable p := by
  unfold toEdge single at h
  rw [bind_ok] at h; obtain ⟨p1, h1, h⟩ := h
  rw [bind_ok] at h1; obtain ⟨p0, h0, h1⟩ := h1
  rw [bind_ok] at h1; obtain ⟨⟨p2, _⟩, h2, h1⟩ := h1
  cases h1
  rw [bind_ok] at h; obtain ⟨q, _, h⟩ := h
  rw [bind_ok] at h; obtain ⟨dx, _, h⟩ := h
  rw [bind_ok] at h; obtain ⟨⟨p3, _⟩, h3, h⟩ := h
  cases h
  exact .step (.step (.new h0) (.deposit h2)) (.sellX h3)

theorem backIn_reachable {p : Pool} (h : backIn = .ok p) : Reachable p := by
  unfold backIn at h
  rw [bind_ok] at h; obtain ⟨p1, h1, h⟩ := h
  rw [bind_ok] at h; obtain ⟨⟨p2, _⟩, h2, h⟩ := h
  cases h
  exact .step (toEdge_reachable h1) (.sellY h2)

/-- C39 is false: a sale of X that ends exactly on the lower bound of the only position records the tick
below it, where the position is not in range, but keeps its liquidity active. -/
theorem C39_false : ∃ p, Reachable p ∧ ¬ ActiveRight p := by
  refine ⟨get toEdge, toEdge_reachable (by decide +kernel), ?_⟩
  unfold ActiveRight inRange
  rw [show (get toEdge).gs.tick = 9 by decide +kernel,
    show (get toEdge).gs.liq = ⟨19986005718851637, 12, false⟩ by decide +kernel,
    show (get toEdge).positions = [(⟨1, 10, 30⟩, ⟨⟨19986005718851637, 12, false⟩, Fees.zero⟩)] by decide +kernel]
  simp only [sumPos, List.map_cons, List.map_nil, List.sum_cons, List.sum_nil]
  norm_num [toRat]

/-- And the next sale of Y adds the same liquidity again: the pool then prices with twice the liquidity
that all positions together have. -/
theorem C39_double : ∃ p, Reachable p ∧ p.gs.liq.toRat = 2 * p.inRange p.gs.tick ∧
    p.gs.liq.toRat = 2 * sumPos (fun _ => 1) p.positions ∧ 0 < p.gs.liq.toRat := by
  refine ⟨get backIn, backIn_reachable (by decide +kernel), ?_⟩
  unfold inRange
  rw [show (get backIn).gs.tick = 10 by decide +kernel,
    show (get backIn).gs.liq = ⟨39972011437703274, 12, false⟩ by decide +kernel,
    show (get backIn).positions = [(⟨1, 10, 30⟩, ⟨⟨19986005718851637, 12, false⟩, Fees.zero⟩)] by decide +kernel]
  simp only [sumPos, List.map_cons, List.map_nil, List.sum_cons, List.sum_nil]
  norm_num [toRat]

/-- C39 (partial): the active liquidity is right after every history in which no swap that used up its
whole offer ended within two millionths of a tick of the grid.  Missing: swaps ending there. -/
theorem C39_partial {p : Pool} (h : ClearReachable p) : ActiveRight p :=
  (Sound.clearReachable h).active

/-- A sale of 17.5 X from the two-position pool, crossing tick 15. -/
def down : Pool × SwapOutput := get (pool.executeSwapFromX fl ⟨17500000000000, 12, false⟩ PoolMath.zero)

/-- Then a sale of 20 Y, crossing it back. -/
def up : Pool × SwapOutput := get (down.1.executeSwapFromY fl (D 20) PoolMath.zero)

theorem pool_clear : ClearReachable pool := by
  have h := pool_ok.1
  generalize pool = p at h
  unfold Sample.two at h
  rw [bind_ok] at h; obtain ⟨p0, h0, h⟩ := h
  rw [bind_ok] at h; obtain ⟨⟨p1, _⟩, h1, h⟩ := h
  rw [bind_ok] at h; obtain ⟨⟨p2, _⟩, h2, h⟩ := h
  cases h
  exact .step (.step (.new h0) (.deposit h1)) (.deposit h2)

theorem down_clear : ClearReachable down.1 := by
  have h1 : pool.executeSwapFromX fl ⟨17500000000000, 12, false⟩ PoolMath.zero = .ok (down.1, down.2) := by
    decide +kernel
  refine .step pool_clear (.sellX h1 fun _ => ?_)
  refine away_of (t := 12) (a := ⟨1000600150009, 12, false⟩) (b := ⟨1000650178766, 12, false⟩) (by decide +kernel)
    (by decide +kernel) ?_ ?_
  all_goals rw [show down.1.gs.rp = ⟨1000626331707, 12, false⟩ by decide +kernel]; norm_num [toRat]

theorem up_clear : ClearReachable up.1 := by
  have h2 : down.1.executeSwapFromY fl (D 20) PoolMath.zero = .ok (up.1, up.2) := by decide +kernel
  refine .step down_clear (.sellY h2 fun _ => ?_)
  refine away_of (t := 20) (a := ⟨1001000450103, 12, false⟩) (b := ⟨1001050498874, 12, false⟩) (by decide +kernel)
    (by decide +kernel) ?_ ?_
  all_goals rw [show up.1.gs.rp = ⟨1001041530060, 12, false⟩ by decide +kernel]; norm_num [toRat]

example : ClearReachable up.1 ∧ down.1.gs.tick = 12 ∧ up.1.gs.tick = 20 ∧ up.1.positions.length = 2 :=
  ⟨up_clear, by decide +kernel, by decide +kernel, by decide +kernel⟩

end Hmm.Pool
