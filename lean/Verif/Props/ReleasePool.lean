import Verif.Proofs.ReleasePool
import Verif.Spec.ReleasePool
import Verif.Props.Swap
import Verif.Props.Active
import Verif.Tests.Sample

/-
C140: the in-memory pool in a build without overflow checks does what it does in a build with them, except
that a sale of X can go past tick 0.
-/

namespace Hmm.Release.InMemory

open Sample

/-- C140 for creating a pool: both builds give the same result, pool or panic. -/
theorem C140_new {rp : Decimal} {spacing : Nat} {c fee : Decimal} (hc : c.scale ≤ 50) :
    new rp spacing c fee = Pool.new rp spacing c fee := new_eq hc

/-- C140 for deposits: in every state of a history, both builds give the same result for every argument. -/
theorem C140_deposit {p : Pool} (h : Pool.Reachable p) (user : Nat) (x y rpa rpb : Decimal) :
    deposit p user x y rpa rpb = p.deposit user x y rpa rpb := deposit_eq (Kept.reachable h) user x y rpa rpb

/-- C140 for withdrawals. -/
theorem C140_withdraw {p : Pool} (h : Pool.Reachable p) (user : Nat) (liq rpa rpb : Decimal) :
    withdraw p user liq rpa rpb = p.withdraw user liq rpa rpb := withdraw_eq (Kept.reachable h) user liq rpa rpb

/-- C140 for sales of Y, whatever bound above the number of ticks is put on the number of rounds. -/
theorem C140_sellY {fl : FloatEnv} {p : Pool} (h : Pool.Reachable p) (hs : p.spacing < 2 ^ 128) {n : Nat}
    (hn : p.swapFuel ≤ n) (dy o : Decimal) : executeSwapFromY fl n p dy o = p.executeSwapFromY fl dy o := by
  have hf := Flat.reachable h hs
  unfold executeSwapFromY Pool.executeSwapFromY
  cases hd : dy.isPositive with
  | false => rfl
  | true =>
    simp only [Bool.not_true, Bool.false_eq_true, if_false]
    rw [loopY_eq n hf (acc0_level hf.rp)]
    have hle : (p.ticks.map (·.1)).countP (fun t => decide (p.gs.tick < t)) ≤ p.ticks.length := by
      refine le_trans List.countP_le_length ?_
      rw [List.length_map]
    obtain ⟨_, res, _, _, h3⟩ := Pool.runs_y (fl := fl) (o := o) hd p.ticks.length (a := p.acc0) hle
    unfold Pool.swapFuel at hn ⊢
    rw [h3 n hn, h3 _ le_rfl]

/-- Going past tick 0 where the build with checks panics, the other one is afterwards at the last tick of the grid. -/
theorem C140_wraps {p q : Pool} (h : crossTick p 0 false = .ok q) :
    (p.spacing ∣ q.gs.tick ∧ q.gs.tick < 2 ^ 128 ∧ 2 ^ 128 ≤ q.gs.tick + p.spacing) ∧
      p.crossTick 0 false = .error .panic := by
  unfold crossTick at h
  unfold Pool.crossTick
  split at h
  · cases h
  rename_i h0
  rw [if_neg h0]
  dsimp only at h ⊢
  cases ht : mapGet 0 p.ticks with
  | none => rw [ht] at h; cases h
  | some ts =>
    rw [ht] at h
    dsimp only at h ⊢
    simp only [Bool.false_eq_true, if_false] at h
    rw [bind_ok] at h; obtain ⟨fx, e1, h⟩ := h
    rw [bind_ok] at h; obtain ⟨fy, e2, h⟩ := h
    rw [bind_ok] at h; obtain ⟨hx, e3, h⟩ := h
    rw [bind_ok] at h; obtain ⟨hy, e4, h⟩ := h
    rw [bind_ok] at h; obtain ⟨t, e5, h⟩ := h
    rw [e1, e2, e3, e4]
    refine ⟨?_, rfl⟩
    suffices e : tickToPossibleTick p (2 ^ 128 - 1) false = .ok q.gs.tick by
      unfold tickToPossibleTick at e
      rw [tkToPossibleTk_eq] at e
      obtain ⟨h0, e⟩ := PoolMath.tkDown e
      rw [e]
      have h1 := Nat.div_add_mod (2 ^ 128 - 1) p.spacing
      have h2 := Nat.mod_lt (2 ^ 128 - 1) (Nat.pos_of_ne_zero h0)
      rw [mul_comm] at h1
      exact ⟨⟨_, mul_comm _ _⟩, by omega, by omega⟩
    unfold Pool.addGlblLiq at h
    rw [bind_ok] at h; obtain ⟨g, h1, h⟩ := h
    rw [pure_ok] at h
    rw [← h]
    unfold GlobalState.addLiq at h1
    rw [bind_ok] at h1; obtain ⟨n, h2, h1⟩ := h1
    split at h1
    · cases h1
    · rw [pure_ok] at h1
      rw [← h1]
      simp only [tickToPossibleTick, wrapSub, u128Size] at e5 ⊢
      exact e5

/-- C140 for sales of X: both builds give the same result, or tick 0 is in use and the build with checks
panics. -/
theorem C140_sellX {fl : FloatEnv} {p : Pool} (h : Pool.Reachable p) (hs : p.spacing < 2 ^ 128) {n : Nat}
    (hn : p.swapFuel ≤ n) (dx o : Decimal) :
    executeSwapFromX fl n p dx o = p.executeSwapFromX fl dx o ∨
      (AtBottom p ∧ p.executeSwapFromX fl dx o = .error .panic) := by
  have hf := Flat.reachable h hs
  unfold executeSwapFromX Pool.executeSwapFromX
  cases hd : dx.isPositive with
  | false => exact .inl rfl
  | true =>
    simp only [Bool.not_true, Bool.false_eq_true, if_false]
    have hle : (p.ticks.map (·.1)).countP (fun t => decide (t ≤ p.gs.tick)) ≤ p.ticks.length := by
      refine le_trans List.countP_le_length ?_
      rw [List.length_map]
    obtain ⟨_, res, _, _, h3⟩ := Pool.runs_x (fl := fl) (o := o) hd p.ticks.length (a := p.acc0) hle
    unfold Pool.swapFuel at hn ⊢
    have := loopX_same (fl := fl) (d := dx) (o := o) n hf (acc0_level hf.rp)
    rw [h3 n hn] at this
    rw [h3 _ le_rfl]
    exact this

/-- In particular they agree when tick 0 is not in use. -/
theorem C140_sellX_above {fl : FloatEnv} {p : Pool} (h : Pool.Reachable p) (hs : p.spacing < 2 ^ 128) (h0 : ¬ AtBottom p)
    {n : Nat} (hn : p.swapFuel ≤ n) (dx o : Decimal) : executeSwapFromX fl n p dx o = p.executeSwapFromX fl dx o := by
  rcases C140_sellX (fl := fl) h hs hn dx o with h | h
  · exact h
  · exact absurd h.1 h0

/-- C140 for histories: a history without overflow checks in which X is sold only while tick 0 is not in use
is a history with overflow checks, so what holds after every one of those holds after it. -/
theorem C140_history {p : Pool} (h : Reachable (fun q => ¬ AtBottom q) p) : Pool.Reachable p ∧ p.spacing < 2 ^ 128 := by
  induction h with
  | @new rp spacing c fee p hs hc h =>
    rw [new_eq hc] at h
    refine ⟨.new h, ?_⟩
    obtain ⟨_, _, _, _, _, _, _, e⟩ := Pool.new_ok h
    rw [e]; exact hs
  | @step p p' _ h ih =>
    obtain ⟨hr, hs⟩ := ih
    have hf := Flat.reachable hr hs
    have key : ∀ {q}, Pool.Step _ q → Pool.Reachable q ∧ q.spacing < 2 ^ 128 := fun h =>
      ⟨.step hr h, by rw [(Fixed.step h).2]; exact hs⟩
    cases h with
    | deposit h => exact key (.deposit (by rw [← C140_deposit hr]; exact h))
    | withdraw h => exact key (.withdraw (by rw [← C140_withdraw hr]; exact h))
    | @sellX fl n _ _ dx o r h0 h =>
      refine key (.sellX (fl := fl) (dx := dx) (o := o) (r := r) ?_)
      rw [← C140_sellX_above hr hs h0 (le_max_right n _)]
      unfold executeSwapFromX at h ⊢
      split at h
      · simp [rpanic] at h
      next hd =>
        rw [if_neg hd]
        have e : ∀ m, loopX fl dx o m p p.acc0 = Pool.loopX fl dx o m p p.acc0 := fun m =>
          (loopX_same m hf (acc0_level hf.rp)).elim id fun h => absurd h.1 h0
        rw [e] at h ⊢
        exact loopX_more n h _ (le_max_left _ _)
    | @sellY fl n _ _ dx o r h =>
      refine key (.sellY (fl := fl) (dy := dx) (o := o) (r := r) ?_)
      rw [← C140_sellY hr hs (le_max_right n _)]
      unfold executeSwapFromY at h ⊢
      split at h
      · simp [rpanic] at h
      next hd =>
        rw [if_neg hd]
        rw [loopY_eq _ hf (acc0_level hf.rp)] at h ⊢
        exact loopY_more n h _ (le_max_left _ _)

/-- Conversely every history with overflow checks is one without them. -/
theorem C140_history_back {p : Pool} (h : Pool.Reachable p) (hs : p.spacing < 2 ^ 128) : Reachable (fun _ => True) p := by
  induction h with
  | @new rp spacing c fee p h =>
    have hc := c_places (.new h)
    obtain ⟨_, _, _, _, _, _, _, e⟩ := Pool.new_ok h
    rw [e] at hc hs
    exact .new hs hc (by rw [new_eq hc]; exact h)
  | @step p p' hr h ih =>
    have hs' := hs
    rw [(Fixed.step h).2] at hs'
    refine .step (ih hs') ?_
    cases h with
    | deposit h => exact .deposit (by rw [C140_deposit hr]; exact h)
    | withdraw h => exact .withdraw (by rw [C140_withdraw hr]; exact h)
    | @sellX fl _ _ dx o r h =>
      refine .sellX (fl := fl) (n := p.swapFuel) (dx := dx) (o := o) (r := r) trivial ?_
      rcases C140_sellX (fl := fl) hr hs' le_rfl dx o with e | ⟨_, e⟩
      · rw [e]; exact h
      · rw [e] at h; cases h
    | sellY h => exact .sellY (by rw [C140_sellY hr hs' le_rfl]; exact h)

/-! ### Past tick 0 -/

/-- An amount in the smallest unit. -/
def tiny (n : Nat) : Decimal := ⟨n, 12, false⟩

/-- The price of tick 0. -/
def bottom : Decimal := ⟨10 ^ 12, 12, false⟩

/-- A pool at tick 20 in which user 1 owns [0,30) and user 2 owns [10,30), after two sales of X. -/
def low : R Pool := do
  let p ← Pool.new (mid 20) 1 PoolMath.zero PoolMath.zero
  let (p, _) ← p.deposit 1 (tiny 100000000) (tiny 100000000) bottom (mid 30)
  let (p, _) ← p.deposit 2 (tiny 50000000) (tiny 50000000) (mid 10) (mid 30)
  let (p, _) ← p.executeSwapFromX fl (tiny 1000003) PoolMath.zero
  let (p, _) ← p.executeSwapFromX fl (tiny 1000010) PoolMath.zero
  return p

def lowPool : Pool := get low

/-- What the build without checks makes of an offer of one unit more than the pool can take. -/
def past : R (Pool × SwapOutput) := executeSwapFromX fl 10 lowPool (tiny 147825100) PoolMath.zero

def pastPool : Pool := (get past).1

theorem lowPool_reachable : Pool.Reachable lowPool := by
  have h : low = .ok lowPool := by
    have : low.isOk = true := by decide +kernel
    obtain ⟨a, ha⟩ := exists_ok this
    unfold lowPool
    rw [ha]; rfl
  unfold low at h
  rw [bind_ok] at h; obtain ⟨p0, h0, h⟩ := h
  rw [bind_ok] at h; obtain ⟨⟨p1, r1⟩, h1, h⟩ := h
  simp only at h
  rw [bind_ok] at h; obtain ⟨⟨p2, r2⟩, h2, h⟩ := h
  simp only at h
  rw [bind_ok] at h; obtain ⟨⟨p3, r3⟩, h3, h⟩ := h
  simp only at h
  rw [bind_ok] at h; obtain ⟨⟨p4, r4⟩, h4, h⟩ := h
  simp only [pure_ok] at h
  rw [← h]
  exact .step (.step (.step (.step (.new h0) (.deposit h1)) (.deposit h2)) (.sellX h3)) (.sellX h4)

/-- The two builds differ where tick 0 is in use: an offer of X by one smallest unit larger than the pool can take
makes the build with checks panic; the build without them gives the seller all Y of the pool, and leaves the price
above where it was, at the top of the ranges.  Neither owner can then take out their liquidity. -/
theorem C140_past_bottom : Pool.Reachable lowPool ∧ lowPool.gs.tick = 19 ∧
    lowPool.executeSwapFromX fl (tiny 147825100) PoolMath.zero = .error .panic ∧
    (∃ o, past = .ok (pastPool, o) ∧ o.recv = tiny 147825100 ∧ o.send.neg = lowPool.y) ∧
    pastPool.y.isZero = true ∧ lowPool.gs.rp.value < pastPool.gs.rp.value ∧ pastPool.gs.tick = 29 ∧
    (∃ l, (mapGet ⟨1, 0, 30⟩ pastPool.positions).map (·.liq) = some l ∧
      withdraw pastPool 1 l bottom (mid 30) = .error .panic) ∧
    (∃ l, (mapGet ⟨2, 10, 30⟩ pastPool.positions).map (·.liq) = some l ∧
      withdraw pastPool 2 l (mid 10) (mid 30) = .error .panic) := by
  refine ⟨lowPool_reachable, by decide +kernel, by decide +kernel,
    ⟨(get past).2, by decide +kernel, by decide +kernel, by decide +kernel⟩, by decide +kernel, by decide +kernel,
    by decide +kernel, ⟨tiny 99955009950, by decide +kernel, by decide +kernel⟩,
    ⟨tiny 99930028594, by decide +kernel, by decide +kernel⟩⟩

/-- A pool at tick 0 goes past it. -/
example : ∃ q, crossTick (lowPool.setTick 0) 0 false = .ok q ∧ q.gs.tick = 2 ^ 128 - 1 :=
  ⟨get (crossTick (lowPool.setTick 0) 0 false), by decide +kernel, by decide +kernel⟩

/-- An offer that the pool can take gives the same in both builds there. -/
example : executeSwapFromX fl 10 lowPool (tiny 1000017) PoolMath.zero =
      lowPool.executeSwapFromX fl (tiny 1000017) PoolMath.zero ∧
    (lowPool.executeSwapFromX fl (tiny 1000017) PoolMath.zero).isOk = true ∧ AtBottom lowPool := by
  refine ⟨by decide +kernel, by decide +kernel, ?_⟩
  unfold AtBottom
  decide +kernel

/-- The hypotheses of the theorems are met by the pool of the samples, where tick 0 is not in use and sales run in
both directions. -/
example : Pool.Reachable pool ∧ pool.spacing < 2 ^ 128 ∧ ¬ AtBottom pool ∧
    (executeSwapFromX fl pool.swapFuel pool (D 3) PoolMath.zero).isOk = true ∧
    (executeSwapFromY fl pool.swapFuel pool (D 3) PoolMath.zero).isOk = true := by
  refine ⟨Pool.pool_clear.reachable, by decide +kernel, ?_, by decide +kernel, by decide +kernel⟩
  unfold AtBottom
  decide +kernel

end Hmm.Release.InMemory
