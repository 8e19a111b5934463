import Verif.Spec.Split
import Verif.Props.Trades
import Verif.Props.Price
import Verif.Props.SwapOutcome

/-
C135: a sale in one go and the same sale in parts.
-/

namespace Hmm.Pool

open Decimal PoolMath
open Hmm.Sample hiding get

/-- The rounding of `n` swaps, each of at most `t + 1` steps, against a liquidity of at most `l`. -/
def dust (n t : Nat) (l : ℚ) : ℚ := n * ((t + 1) * ((l + 2) * ulp 12))

/-- The rounding of their fees. -/
def feeDust (n t : Nat) : ℚ := n * (2 * (t + 1) * ulp 12)

/-- What is kept track of along the parts of a sale. -/
structure Sold (p q : Pool) (n : Nat) (inn out dIn dOut owedIn owedOut : ℚ) : Prop where
  positions : q.positions = p.positions
  keys : q.ticks.map (·.1) = p.ticks.map (·.1)
  fee : q.feeRate = p.feeRate
  /-- What is left of the amount taken after the fees. -/
  net : |dIn - (1 - p.feeRate.toRat) * inn| ≤ feeDust n p.ticks.length
  paid : dOut = -out
  spareIn : |dIn - owedIn| ≤ dust n p.ticks.length p.totalLiq
  spareOut : |dOut - owedOut| ≤ dust n p.ticks.length p.totalLiq

theorem dust_succ (n t : Nat) (l : ℚ) : dust (n + 1) t l = dust n t l + (t + 1) * (l + 2) / 10 ^ 12 := by
  unfold dust ulp; push_cast; ring

theorem feeDust_succ (n t : Nat) : feeDust (n + 1) t = feeDust n t + 2 * (t + 1) / 10 ^ 12 := by
  unfold feeDust ulp; push_cast; ring

theorem abs_step {a b c d e f : ℚ} (h1 : |a - b| ≤ e) (h2 : |c - d| ≤ f) : |(a + c) - (b + d)| ≤ e + f := by
  rw [abs_le] at *; constructor <;> linarith [h1.1, h1.2, h2.1, h2.2]

theorem sold_x {p q : Pool} {n : Nat} {x y : ℚ} (h : SalesX p n q x y) :
    Sold p q n x y (q.x.toRat - p.x.toRat) (q.y.toRat - p.y.toRat) (q.owedX - p.owedX) (q.owedY - p.owedY) ∧
      q.gs.rp.toRat ≤ p.gs.rp.toRat ∧ (Reachable p → Reachable q) := by
  induction h with
  | none => exact ⟨⟨rfl, rfl, rfl, by simp [feeDust], by simp, by simp [dust], by simp [dust]⟩, le_rfl, id⟩
  | @sell n fl q q' x y dx o r _ hq h ih =>
    obtain ⟨ih, hle, hre⟩ := ih
    have hb := booksX h
    obtain ⟨c1, c2, c3, c4, _⟩ := C34_from_x h
    obtain ⟨d1, d2⟩ := C70_from_x_partial hq h
    have hf := C68_reachable hq.reachable (.inl h)
    have hl : q.ticks.length = p.ticks.length := by simpa using congrArg List.length ih.keys
    rw [totalLiq_congr ih.positions, hl] at d1 d2
    rw [ih.fee, hl] at hf
    refine ⟨⟨hb.positions.trans ih.positions, hb.keys.trans ih.keys, hb.feeRate.trans ih.fee, ?_, ?_, ?_, ?_⟩,
      (C75_sell_x hq h).1.trans hle, fun hp => .step (hre hp) (.sellX h)⟩
    · rw [feeDust_succ]
      have := abs_step ih.net (show |(q'.x.toRat - q.x.toRat) - (1 - p.feeRate.toRat) * r.recv.toRat|
        ≤ 2 * (p.ticks.length + 1) / 10 ^ 12 by
          rw [show (q'.x.toRat - q.x.toRat) - (1 - p.feeRate.toRat) * r.recv.toRat =
            -(r.recvFee.toRat - p.feeRate.toRat * r.recv.toRat) by linarith, abs_neg]
          exact hf)
      convert this using 2
      ring
    · have := ih.paid; linarith
    · rw [dust_succ]
      convert abs_step ih.spareIn d1 using 2; ring
    · rw [dust_succ]
      convert abs_step ih.spareOut d2 using 2; ring

theorem sold_y {p q : Pool} {n : Nat} {x y : ℚ} (h : SalesY p n q y x) :
    Sold p q n y x (q.y.toRat - p.y.toRat) (q.x.toRat - p.x.toRat) (q.owedY - p.owedY) (q.owedX - p.owedX) ∧
      (Reachable p → Reachable q) := by
  induction h with
  | none => exact ⟨⟨rfl, rfl, rfl, by simp [feeDust], by simp, by simp [dust], by simp [dust]⟩, id⟩
  | @sell n fl q q' x y dx o r _ hq h ih =>
    obtain ⟨ih, hre⟩ := ih
    have hb := booksY h
    obtain ⟨c1, c2, c3, c4, _⟩ := C34_from_y h
    obtain ⟨d2, d1⟩ := C70_from_y_partial hq h
    have hf := C68_reachable hq.reachable (.inr h)
    have hl : q.ticks.length = p.ticks.length := by simpa using congrArg List.length ih.keys
    rw [totalLiq_congr ih.positions, hl] at d1 d2
    rw [ih.fee, hl] at hf
    refine ⟨⟨hb.positions.trans ih.positions, hb.keys.trans ih.keys, hb.feeRate.trans ih.fee, ?_, ?_, ?_, ?_⟩,
      fun hp => .step (hre hp) (.sellY h)⟩
    · rw [feeDust_succ]
      have := abs_step ih.net (show |(q'.y.toRat - q.y.toRat) - (1 - p.feeRate.toRat) * r.recv.toRat|
        ≤ 2 * (p.ticks.length + 1) / 10 ^ 12 by
          rw [show (q'.y.toRat - q.y.toRat) - (1 - p.feeRate.toRat) * r.recv.toRat =
            -(r.recvFee.toRat - p.feeRate.toRat * r.recv.toRat) by linarith, abs_neg]
          exact hf)
      convert this using 2
      ring
    · have := ih.paid; linarith
    · rw [dust_succ]
      convert abs_step ih.spareIn d1 using 2; ring
    · rw [dust_succ]
      convert abs_step ih.spareOut d2 using 2; ring

/-- One half of `C135_sell_x_partial`: the second way pays no more than the first, but for dust. -/
theorem no_more_x {p q r : Pool} {n m : Nat} {x y z : ℚ} (hp : ClearReachable p)
    (h1 : SalesX p n q x y) (h2 : SalesX p m r x z) :
    z - y ≤ (n + m) * (p.ticks.length + 1) * ((p.totalLiq + 4) * p.gs.rp.toRat ^ 2 + p.totalLiq + 2) / 10 ^ 12 := by
  obtain ⟨s1, hle, hre⟩ := sold_x h1
  obtain ⟨s2, _, _⟩ := sold_x h2
  have hs := Sound.clearReachable hp
  have hq1 := C75_floor (hre hp.reachable)
  have hv := owed_value_at hs s2.positions s1.positions (by linarith)
  have ht := hs.total_nonneg
  obtain ⟨_, _, _, n1, a1, i1, o1⟩ := s1
  obtain ⟨_, _, _, n2, a2, i2, o2⟩ := s2
  rw [abs_le] at n1 i1 o1 n2 i2 o2
  set P := q.gs.rp.toRat ^ 2 with hP
  have hPp : P ≤ p.gs.rp.toRat ^ 2 := pow_le_pow_left₀ (by linarith) hle 2
  have hP1 : 0 ≤ P := sq_nonneg _
  have hX : r.owedX - q.owedX ≤ feeDust n p.ticks.length + feeDust m p.ticks.length
      + (dust n p.ticks.length p.totalLiq + dust m p.ticks.length p.totalLiq) := by linarith
  have hY : r.owedY - q.owedY ≤ y - z + (dust n p.ticks.length p.totalLiq + dust m p.ticks.length p.totalLiq) := by
    linarith
  have e1 : feeDust n p.ticks.length + feeDust m p.ticks.length
      + (dust n p.ticks.length p.totalLiq + dust m p.ticks.length p.totalLiq)
      = (n + m) * (p.ticks.length + 1) * (p.totalLiq + 4) / 10 ^ 12 := by unfold feeDust dust ulp; ring
  have e2 : dust n p.ticks.length p.totalLiq + dust m p.ticks.length p.totalLiq
      = (n + m) * (p.ticks.length + 1) * (p.totalLiq + 2) / 10 ^ 12 := by unfold dust ulp; ring
  rw [e1] at hX
  rw [e2] at hY
  have h3 := mul_le_mul_of_nonneg_left hX hP1
  have h4 : P * ((n + m) * (p.ticks.length + 1) * (p.totalLiq + 4) / 10 ^ 12) ≤
      p.gs.rp.toRat ^ 2 * ((n + m) * (p.ticks.length + 1) * (p.totalLiq + 4) / 10 ^ 12) :=
    mul_le_mul_of_nonneg_right hPp (by positivity)
  have e3 : (n + m : ℚ) * (p.ticks.length + 1) * ((p.totalLiq + 4) * p.gs.rp.toRat ^ 2 + p.totalLiq + 2) / 10 ^ 12 =
      p.gs.rp.toRat ^ 2 * ((n + m) * (p.ticks.length + 1) * (p.totalLiq + 4) / 10 ^ 12) +
      (n + m) * (p.ticks.length + 1) * (p.totalLiq + 2) / 10 ^ 12 := by ring
  linarith

theorem no_more_y {p q r : Pool} {n m : Nat} {x y z : ℚ} (hp : ClearReachable p)
    (h1 : SalesY p n q x y) (h2 : SalesY p m r x z) :
    z - y ≤ (n + m) * (p.ticks.length + 1) * (2 * p.totalLiq + 6) / 10 ^ 12 := by
  obtain ⟨s1, hre⟩ := sold_y h1
  obtain ⟨s2, _⟩ := sold_y h2
  have hs := Sound.clearReachable hp
  have hq1 := C75_floor (hre hp.reachable)
  have hv := owed_value_at hs s2.positions s1.positions (by linarith)
  have ht := hs.total_nonneg
  obtain ⟨_, _, _, n1, a1, i1, o1⟩ := s1
  obtain ⟨_, _, _, n2, a2, i2, o2⟩ := s2
  rw [abs_le] at n1 i1 o1 n2 i2 o2
  have hP1 : 1 ≤ q.gs.rp.toRat ^ 2 := one_le_pow₀ hq1
  set P := q.gs.rp.toRat ^ 2 with hP
  have hY : r.owedY - q.owedY ≤ feeDust n p.ticks.length + feeDust m p.ticks.length
      + (dust n p.ticks.length p.totalLiq + dust m p.ticks.length p.totalLiq) := by linarith
  have hX : r.owedX - q.owedX ≤ y - z + (dust n p.ticks.length p.totalLiq + dust m p.ticks.length p.totalLiq) := by
    linarith
  have e1 : feeDust n p.ticks.length + feeDust m p.ticks.length
      + (dust n p.ticks.length p.totalLiq + dust m p.ticks.length p.totalLiq)
      = (n + m) * (p.ticks.length + 1) * (p.totalLiq + 4) / 10 ^ 12 := by unfold feeDust dust ulp; ring
  have e2 : dust n p.ticks.length p.totalLiq + dust m p.ticks.length p.totalLiq
      = (n + m) * (p.ticks.length + 1) * (p.totalLiq + 2) / 10 ^ 12 := by unfold dust ulp; ring
  rw [e1] at hY
  rw [e2] at hX
  have e3 : (n + m : ℚ) * (p.ticks.length + 1) * (2 * p.totalLiq + 6) / 10 ^ 12 =
      (n + m) * (p.ticks.length + 1) * (p.totalLiq + 4) / 10 ^ 12 +
      (n + m) * (p.ticks.length + 1) * (p.totalLiq + 2) / 10 ^ 12 := by ring
  have hF : (0 : ℚ) ≤ (n + m) * (p.ticks.length + 1) * (p.totalLiq + 4) / 10 ^ 12 := by positivity
  rw [e3]
  set F : ℚ := (n + m) * (p.ticks.length + 1) * (p.totalLiq + 4) / 10 ^ 12
  set G : ℚ := (n + m) * (p.ticks.length + 1) * (p.totalLiq + 2) / 10 ^ 12
  by_contra hc
  have hneg : r.owedX - q.owedX < -F := by linarith
  nlinarith

/-- C135 (partial): whether an amount of X is sold in `n` parts or in `m`, the Y paid and withheld for it is the same, but
for `(n + m)·(ticks + 1)·((L + 4)·P + L + 2)` units of the twelfth place, where `L` is the liquidity of all positions and
`P` the price before.  Missing: parts that end exactly on a tick, after which the active liquidity may be wrong (C39,
`C135_false`). -/
theorem C135_sell_x_partial {p q r : Pool} {n m : Nat} {x y z : ℚ} (hp : ClearReachable p)
    (h1 : SalesX p n q x y) (h2 : SalesX p m r x z) :
    |y - z| ≤ (n + m) * (p.ticks.length + 1) * ((p.totalLiq + 4) * p.gs.rp.toRat ^ 2 + p.totalLiq + 2) / 10 ^ 12 := by
  rw [abs_le]
  have a := no_more_x hp h1 h2
  have b := no_more_x hp h2 h1
  rw [add_comm (m : ℚ)] at b
  constructor <;> linarith

/-- C135 (partial), for sales of Y. -/
theorem C135_sell_y_partial {p q r : Pool} {n m : Nat} {x y z : ℚ} (hp : ClearReachable p)
    (h1 : SalesY p n q y x) (h2 : SalesY p m r y z) :
    |x - z| ≤ (n + m) * (p.ticks.length + 1) * (2 * p.totalLiq + 6) / 10 ^ 12 := by
  rw [abs_le]
  have a := no_more_y hp h1 h2
  have b := no_more_y hp h2 h1
  rw [add_comm (m : ℚ)] at b
  constructor <;> linarith

/-- C135 (partial): without HMM, what a trader is paid for a sale of X is what they are paid for the two halves of it, but
for dust.  (Amounts paid out are negative.) -/
theorem C135_two_partial {fl fl1 fl2 : FloatEnv} {p q p1 p2 : Pool} {d d1 d2 o o1 o2 : Decimal} {r r1 r2 : SwapOutput}
    (hp : ClearReachable p) (hp1 : ClearReachable p1) (hc : p.c.toRat = 0)
    (h : p.executeSwapFromX fl d o = .ok (q, r)) (h1 : p.executeSwapFromX fl1 d1 o1 = .ok (p1, r1))
    (h2 : p1.executeSwapFromX fl2 d2 o2 = .ok (p2, r2)) (hs : r1.recv.toRat + r2.recv.toRat = r.recv.toRat) :
    |r.send.toRat - (r1.send.toRat + r2.send.toRat)| ≤
      3 * (p.ticks.length + 1) * ((p.totalLiq + 4) * p.gs.rp.toRat ^ 2 + p.totalLiq + 2) / 10 ^ 12 := by
  have hc1 : p1.c.toRat = 0 := by rw [(booksX h1).c]; exact hc
  have z := (adj_sellX h).2 (.inl hc)
  have z1 := (adj_sellX h1).2 (.inl hc)
  have z2 := (adj_sellX h2).2 (.inl hc1)
  have a : SalesX p 1 q r.recv.toRat (0 + (r.sendHmmAdj.toRat - r.send.toRat)) := by
    have := SalesX.sell .none hp h
    simpa using this
  have b : SalesX p 2 p2 r.recv.toRat (0 + (r1.sendHmmAdj.toRat - r1.send.toRat) + (r2.sendHmmAdj.toRat - r2.send.toRat)) := by
    have := SalesX.sell (.sell .none hp h1) hp1 h2
    rwa [zero_add (r1.recv.toRat), hs] at this
  have := C135_sell_x_partial hp a b
  rw [z, z1, z2] at this
  rw [abs_le] at this ⊢
  norm_num at this
  constructor <;> linarith [this.1, this.2]

/-- Two positions with a gap between them, no fee. -/
def gap : R Pool := do
  let p ← Pool.new (mid 20) 1 zero zero
  let (p, _) ← p.deposit 1 (D 10) (D 10) (mid 10) (mid 30)
  let (p, _) ← p.deposit 2 (D 10) (D 10) (mid 3) (mid 5)
  return p

/-- The X that takes the price exactly to the lower end of the first position. -/
def edgeX : Decimal := ⟨9985011993462, 12, false⟩

@[inherit_doc gap] def gapPart : Pool × SwapOutput := Sample.get ((Sample.get gap).executeSwapFromX fl edgeX zero)
@[inherit_doc gap] def gapRest : Pool × SwapOutput := Sample.get (gapPart.1.executeSwapFromX fl (D 1) zero)
@[inherit_doc gap] def gapWhole : Pool × SwapOutput :=
  Sample.get ((Sample.get gap).executeSwapFromX fl ⟨10985011993462, 12, false⟩ zero)

/-- C135 is false, by more than dust: a sale of X in two parts, the first of which ends exactly on the lower end of a
position, pays 0.00046 Y more than the same sale in one go. -/
theorem C135_false : ∃ p p1 p2 q r r1 r2, Reachable p ∧ p.c.toRat = 0 ∧
    p.executeSwapFromX fl ⟨10985011993462, 12, false⟩ zero = .ok (q, r) ∧
    p.executeSwapFromX fl edgeX zero = .ok (p1, r1) ∧ p1.executeSwapFromX fl (D 1) zero = .ok (p2, r2) ∧
    r1.recv.toRat + r2.recv.toRat = r.recv.toRat ∧
    3 * (p.ticks.length + 1) * ((p.totalLiq + 4) * p.gs.rp.toRat ^ 2 + p.totalLiq + 2) / 10 ^ 12 < 4 / 10 ^ 6 ∧
    460 / 10 ^ 6 < r.send.toRat - (r1.send.toRat + r2.send.toRat) := by
  have h0 : Reachable (Sample.get gap) := by
    have h : gap = .ok (Sample.get gap) := by decide +kernel
    revert h
    generalize Sample.get gap = p
    intro h
    unfold gap at h
    rw [bind_ok] at h; obtain ⟨p0, h0, h⟩ := h
    rw [bind_ok] at h; obtain ⟨⟨p1, _⟩, h1, h⟩ := h
    rw [bind_ok] at h; obtain ⟨⟨p2, _⟩, h2, h⟩ := h
    cases h
    exact .step (.step (.new h0) (.deposit h1)) (.deposit h2)
  refine ⟨Sample.get gap, gapPart.1, gapRest.1, gapWhole.1, gapWhole.2, gapPart.2, gapRest.2, h0, ?_, ?_, ?_, ?_, ?_, ?_, ?_⟩
  · decide +kernel
  · decide +kernel
  · decide +kernel
  · decide +kernel
  · decide +kernel
  · decide +kernel
  · decide +kernel

/-- The second part of the sale of 17.5 X that leads to `down`, and the sale of both parts at once. -/
def downMore : Pool × SwapOutput := Sample.get (down.1.executeSwapFromX fl (D 1) zero)
@[inherit_doc downMore] def downAll : Pool × SwapOutput :=
  Sample.get (pool.executeSwapFromX fl ⟨18500000000000, 12, false⟩ zero)

/-- A sale of 18.5 X across a tick, with a fee, and the same in two parts, as C135 asks for. -/
example : ClearReachable pool ∧ SalesX pool 1 downAll.1 (37 / 2) (0 + (downAll.2.sendHmmAdj.toRat - downAll.2.send.toRat)) ∧
    (∃ y, SalesX pool 2 downMore.1 (37 / 2) y) ∧ 0 < downAll.2.recvFee.toRat ∧
    downAll.2.send.toRat ≠ down.2.send.toRat + downMore.2.send.toRat := by
  have h1 : pool.executeSwapFromX fl ⟨17500000000000, 12, false⟩ zero = .ok (down.1, down.2) := by decide +kernel
  have h2 : down.1.executeSwapFromX fl (D 1) zero = .ok (downMore.1, downMore.2) := by decide +kernel
  have h3 : pool.executeSwapFromX fl ⟨18500000000000, 12, false⟩ zero = .ok (downAll.1, downAll.2) := by decide +kernel
  have e1 : (0 : ℚ) + downAll.2.recv.toRat = 37 / 2 := by decide +kernel
  have e2 : (0 : ℚ) + down.2.recv.toRat + downMore.2.recv.toRat = 37 / 2 := by decide +kernel
  have s1 := SalesX.sell .none pool_clear h3
  have s2 := SalesX.sell (.sell .none pool_clear h1) down_clear h2
  rw [e1] at s1
  rw [e2] at s2
  exact ⟨pool_clear, s1, ⟨_, s2⟩, by decide +kernel, by decide +kernel⟩

/-- A sale of 20 Y and then of 1 Y from `down`, and the sale of 21 Y. -/
def upMore : Pool × SwapOutput := Sample.get (up.1.executeSwapFromY fl (D 1) zero)
@[inherit_doc upMore] def upAll : Pool × SwapOutput := Sample.get (down.1.executeSwapFromY fl (D 21) zero)

example : ClearReachable down.1 ∧ (∃ x, SalesY down.1 1 upAll.1 21 x) ∧ (∃ x, SalesY down.1 2 upMore.1 21 x) := by
  have h1 : down.1.executeSwapFromY fl (D 20) zero = .ok (up.1, up.2) := by decide +kernel
  have h2 : up.1.executeSwapFromY fl (D 1) zero = .ok (upMore.1, upMore.2) := by decide +kernel
  have h3 : down.1.executeSwapFromY fl (D 21) zero = .ok (upAll.1, upAll.2) := by decide +kernel
  have e1 : (0 : ℚ) + upAll.2.recv.toRat = 21 := by decide +kernel
  have e2 : (0 : ℚ) + up.2.recv.toRat + upMore.2.recv.toRat = 21 := by decide +kernel
  have s1 := SalesY.sell .none down_clear h3
  have s2 := SalesY.sell (.sell .none down_clear h1) up_clear h2
  rw [e1] at s1
  rw [e2] at s2
  exact ⟨down_clear, ⟨_, s1⟩, ⟨_, s2⟩⟩

end Hmm.Pool
