import Verif.Proofs.Outcome
import Verif.Proofs.Twin
import Verif.Proofs.Charge
import Verif.Props.Active

/-
C65 to C68: how a swap ends, what HMM changes and what a swap charges.
-/

namespace Hmm.Pool

open Decimal PoolMath
open Sample hiding get

/-! ### C65: a swap is filled or runs out of ticks -/

/-- C65 for a sale of X: in any reachable state a sale that returns has taken the whole offer, or has
brought the pool to the left of every initialised tick. -/
theorem C65_from_x {fl : FloatEnv} {p p' : Pool} {dx o : Decimal} {r : SwapOutput} (hp : Reachable p)
    (h : p.executeSwapFromX fl dx o = .ok (p', r)) :
    r.recv.toRat = dx.toRat ∨ ∀ t ∈ p'.ticks.map (·.1), p'.gs.tick < t := by
  rcases outcomeX (Booked.reachable hp) h with h1 | h1
  · exact .inl (le_antisymm (C35_from_x h).2.1 h1)
  · exact .inr h1

/-- C65 for a sale of Y: filled, or no initialised tick is left to the right. -/
theorem C65_from_y {fl : FloatEnv} {p p' : Pool} {dy o : Decimal} {r : SwapOutput}
    (h : p.executeSwapFromY fl dy o = .ok (p', r)) :
    r.recv.toRat = dy.toRat ∨ ∀ t ∈ p'.ticks.map (·.1), t ≤ p'.gs.tick := by
  rcases outcomeY h with h1 | h1
  · exact .inl (le_antisymm (C35_from_y h).2.1 h1)
  · exact .inr h1

/-- Outside all initialised ticks no position with liquidity is in range. -/
theorem dry {p : Pool} (hb : Booked p) (h : (∀ t ∈ p.ticks.map (·.1), p.gs.tick < t) ∨
    ∀ t ∈ p.ticks.map (·.1), t ≤ p.gs.tick) : p.inRange p.gs.tick = 0 := by
  refine sumPos_zero fun k s hm => ?_
  by_cases h0 : s.liq.toRat = 0
  · rw [h0, mul_zero]
  obtain ⟨h1, h2⟩ := hb.initialised hm h0
  rw [if_neg, zero_mul]
  rintro ⟨c1, c2⟩
  rcases h with h | h
  · have := h _ h1; omega
  · have := h _ h2; omega

/-- C65, what "running out" means: after a history covered by C39 a sale that is not filled has used up
the liquidity, none is active any more. -/
theorem C65_dry_x {fl : FloatEnv} {p p' : Pool} {dx o : Decimal} {r : SwapOutput} (hp : ClearReachable p)
    (h : p.executeSwapFromX fl dx o = .ok (p', r)) (hne : r.recv.toRat ≠ dx.toRat) : p'.gs.liq.toRat = 0 := by
  have hs := Sound.clearReachable (.step hp (.sellX h fun he => absurd he hne))
  rw [hs.active]
  refine dry hs.booked ?_
  rcases outcomeX (Sound.clearReachable hp).booked h with h1 | h1
  · exact absurd (le_antisymm (C35_from_x h).2.1 h1) hne
  · exact .inl h1

/-- C65, the same for a sale of Y. -/
theorem C65_dry_y {fl : FloatEnv} {p p' : Pool} {dy o : Decimal} {r : SwapOutput} (hp : ClearReachable p)
    (h : p.executeSwapFromY fl dy o = .ok (p', r)) (hne : r.recv.toRat ≠ dy.toRat) : p'.gs.liq.toRat = 0 := by
  have hs := Sound.clearReachable (.step hp (.sellY h fun he => absurd he hne))
  rw [hs.active]
  refine dry hs.booked ?_
  rcases outcomeY h with h1 | h1
  · exact absurd (le_antisymm (C35_from_y h).2.1 h1) hne
  · exact .inr h1

/-- Three positions, two of them side by side and one apart, at fee rate 0.3 %. -/
def three : R Pool := do
  let p ← Pool.new (mid 20) 1 zero ⟨3000000000, 12, false⟩
  let (p, _) ← p.deposit 1 (D 10) (D 10) (mid 10) (mid 30)
  let (p, _) ← p.deposit 2 (D 10) (D 10) (mid 3) (mid 5)
  let (p, _) ← p.deposit 2 (D 10) (D 10) (mid 5) (mid 7)
  return p

theorem three_reachable {p : Pool} (h : three = .ok p) : Reachable p ∧ ClearReachable p := by
  unfold three at h
  rw [bind_ok] at h; obtain ⟨p0, h0, h⟩ := h
  rw [bind_ok] at h; obtain ⟨⟨p1, _⟩, h1, h⟩ := h
  rw [bind_ok] at h; obtain ⟨⟨p2, _⟩, h2, h⟩ := h
  rw [bind_ok] at h; obtain ⟨⟨p3, _⟩, h3, h⟩ := h
  cases h
  exact ⟨.step (.step (.step (.new h0) (.deposit h1)) (.deposit h2)) (.deposit h3),
    .step (.step (.step (.new h0) (.deposit h1)) (.deposit h2)) (.deposit h3)⟩

/-- A sale of 100 X exceeds what the positions can take: it crosses the gap between them and stops left
of tick 3 with some 70 X unsold.  A sale of 17 X is filled. -/
example : three = .ok (Sample.get three) ∧
    (∃ p' r, (Sample.get three).executeSwapFromX fl (D 100) zero = .ok (p', r) ∧ p'.gs.tick = 2 ∧
      r.recv.value = 30065210725022 ∧ p'.gs.liq.value = 0) ∧
    ∃ p' r, (Sample.get three).executeSwapFromX fl (D 17) zero = .ok (p', r) ∧ r.recv = D 17 :=
  ⟨by decide +kernel,
    ⟨(Sample.get ((Sample.get three).executeSwapFromX fl (D 100) zero)).1,
      (Sample.get ((Sample.get three).executeSwapFromX fl (D 100) zero)).2, by decide +kernel⟩,
    ⟨(Sample.get ((Sample.get three).executeSwapFromX fl (D 17) zero)).1,
      (Sample.get ((Sample.get three).executeSwapFromX fl (D 17) zero)).2, by decide +kernel⟩⟩

/-! ### C66: HMM only withholds part of the payment -/

/-- C66: two pools created alike and operated alike, with any HMM parameters and any oracle prices, are
the same market: same price, tick, active liquidity, reserves, fee pots, ticks and positions. -/
theorem C66_market {p q : Pool} (h : Twins p q) : SameMarket p q := SameMarket.twins h

/-- C66 for a sale of X: both pools take the same amount and fee and reach the same price, and pay the
same amount up to what each withholds. -/
theorem C66_from_x {p q p' q' : Pool} {fl fl' : FloatEnv} {dx o o' : Decimal} {r s : SwapOutput} (h : Twins p q)
    (hp : p.executeSwapFromX fl dx o = .ok (p', r)) (hq : q.executeSwapFromX fl' dx o' = .ok (q', s)) :
    r.recv = s.recv ∧ r.recvFee = s.recvFee ∧ r.endPrice = s.endPrice ∧
    r.send.toRat - r.sendHmmAdj.toRat = s.send.toRat - s.sendHmmAdj.toRat :=
  let k := ((SameMarket.twins h).sellX hp hq).2
  ⟨k.recv, k.fee, k.endPrice, k.net⟩

/-- C66 for a sale of Y. -/
theorem C66_from_y {p q p' q' : Pool} {fl fl' : FloatEnv} {dy o o' : Decimal} {r s : SwapOutput} (h : Twins p q)
    (hp : p.executeSwapFromY fl dy o = .ok (p', r)) (hq : q.executeSwapFromY fl' dy o' = .ok (q', s)) :
    r.recv = s.recv ∧ r.recvFee = s.recvFee ∧ r.endPrice = s.endPrice ∧
    r.send.toRat - r.sendHmmAdj.toRat = s.send.toRat - s.sendHmmAdj.toRat :=
  let k := ((SameMarket.twins h).sellY hp hq).2
  ⟨k.recv, k.fee, k.endPrice, k.net⟩

/-- C66: a seller of X is never paid more than a pool without HMM (parameter zero, or no oracle price)
would pay, and less by exactly the reported adjustment.  (Amounts paid out are negative.) -/
theorem C66_cost_x {p q p' q' : Pool} {fl fl' : FloatEnv} {dx o o' : Decimal} {r s : SwapOutput} (h : Twins p q)
    (hz : q.c.toRat = 0 ∨ o'.toRat = 0) (hp : p.executeSwapFromX fl dx o = .ok (p', r))
    (hq : q.executeSwapFromX fl' dx o' = .ok (q', s)) :
    s.send.toRat ≤ r.send.toRat ∧ r.send.toRat - s.send.toRat = r.sendHmmAdj.toRat := by
  have h1 := (C66_from_x h hp hq).2.2.2
  have h2 := (adj_sellX hp).1
  have h3 := (adj_sellX hq).2 hz
  constructor <;> linarith

/-- C66, the same for sellers of Y. -/
theorem C66_cost_y {p q p' q' : Pool} {fl fl' : FloatEnv} {dy o o' : Decimal} {r s : SwapOutput} (h : Twins p q)
    (hz : q.c.toRat = 0 ∨ o'.toRat = 0) (hp : p.executeSwapFromY fl dy o = .ok (p', r))
    (hq : q.executeSwapFromY fl' dy o' = .ok (q', s)) :
    s.send.toRat ≤ r.send.toRat ∧ r.send.toRat - s.send.toRat = r.sendHmmAdj.toRat := by
  have h1 := (C66_from_y h hp hq).2.2.2
  have h2 := (adj_sellY hp).1
  have h3 := (adj_sellY hq).2 hz
  constructor <;> linarith

/-- C66: deposits take, and withdrawals pay, the same amounts and the same swap fees in both pools. -/
theorem C66_deposit {p q p' q' : Pool} {user : Nat} {x y rpa rpb : Decimal} {r s : Receipt} (h : Twins p q)
    (hp : p.deposit user x y rpa rpb = .ok (p', r)) (hq : q.deposit user x y rpa rpb = .ok (q', s)) :
    r.x = s.x ∧ r.y = s.y ∧ r.fees.fx = s.fees.fx ∧ r.fees.fy = s.fees.fy := by
  obtain ⟨_, h1, h2, h3⟩ := (SameMarket.twins h).deposit hp hq
  simp only [Fees.plain, Fees.mk.injEq, and_true] at h3
  exact ⟨h1, h2, h3.1, h3.2⟩

theorem C66_withdraw {p q p' q' : Pool} {user : Nat} {liq rpa rpb : Decimal} {r s : Receipt} (h : Twins p q)
    (hp : p.withdraw user liq rpa rpb = .ok (p', r)) (hq : q.withdraw user liq rpa rpb = .ok (q', s)) :
    r.x = s.x ∧ r.y = s.y ∧ r.fees.fx = s.fees.fx ∧ r.fees.fy = s.fees.fy := by
  obtain ⟨_, h1, h2, h3⟩ := (SameMarket.twins h).withdraw hp hq
  simp only [Fees.plain, Fees.mk.injEq, and_true] at h3
  exact ⟨h1, h2, h3.1, h3.2⟩

/-- The two-position pool with an HMM parameter. -/
def hmmTwo (c : Decimal) : R Pool := do
  let p ← Pool.new (mid 20) 1 c ⟨3000000000, 12, false⟩
  let (p, _) ← p.deposit 1 (D 10) (D 10) (mid 10) (mid 30)
  let (p, _) ← p.deposit 2 (D 10) (D 10) (mid 15) (mid 25)
  return p

theorem hmm_twins {c c' : Decimal} {p q : Pool} (hp : hmmTwo c = .ok p) (hq : hmmTwo c' = .ok q) : Twins p q := by
  unfold hmmTwo at hp hq
  rw [bind_ok] at hp hq; obtain ⟨p0, h0, hp⟩ := hp; obtain ⟨q0, g0, hq⟩ := hq
  rw [bind_ok] at hp hq; obtain ⟨⟨p1, _⟩, h1, hp⟩ := hp; obtain ⟨⟨q1, _⟩, g1, hq⟩ := hq
  rw [bind_ok] at hp hq; obtain ⟨⟨p2, _⟩, h2, hp⟩ := hp; obtain ⟨⟨q2, _⟩, g2, hq⟩ := hq
  cases hp; cases hq
  exact .deposit (.deposit (.new h0 g0) h1 g1) h2 g2

/-- Twin pools, one with parameter 2 and an oracle price inside the path of a sale crossing a tick, one
without HMM: both sales succeed and the first withholds something. -/
example : ∃ p q p' q' r s, Twins p q ∧ p.executeSwapFromX fl (D 17) (mid 19) = .ok (p', r) ∧
    q.executeSwapFromX fl (D 17) zero = .ok (q', s) ∧ 0 < r.sendHmmAdj.value ∧ q.c = zero := by
  refine ⟨Sample.get (hmmTwo (D 2)), Sample.get (hmmTwo zero), (Sample.get ((Sample.get (hmmTwo (D 2))).executeSwapFromX fl (D 17) (mid 19))).1,
    (Sample.get ((Sample.get (hmmTwo zero)).executeSwapFromX fl (D 17) zero)).1, (Sample.get ((Sample.get (hmmTwo (D 2))).executeSwapFromX fl (D 17) (mid 19))).2,
    (Sample.get ((Sample.get (hmmTwo zero)).executeSwapFromX fl (D 17) zero)).2, ?_, ?_⟩
  · exact hmm_twins (c := D 2) (c' := zero) (by decide +kernel) (by decide +kernel)
  · decide +kernel

/-! ### C67 and C68: the fee of a whole swap -/

theorem run_of_sellX {fl : FloatEnv} {p p' : Pool} {dx o : Decimal} {r : SwapOutput}
    (h : p.executeSwapFromX fl dx o = .ok (p', r)) :
    ∃ k, k ≤ p.ticks.length + 1 ∧ RunX fl dx o p p.acc0 k (.ok (p', r)) := by
  have hd : dx.isPositive = true := by
    unfold executeSwapFromX at h
    rw [ite_ok] at h
    rcases h with ⟨_, h⟩ | ⟨h0, _⟩
    · simp [rpanic] at h
    · simpa using h0
  obtain ⟨k, hk, hr⟩ := C37_from_x (fl := fl) (p := p) (o := o) hd
  rw [h] at hr
  exact ⟨k, hk, hr⟩

theorem run_of_sellY {fl : FloatEnv} {p p' : Pool} {dy o : Decimal} {r : SwapOutput}
    (h : p.executeSwapFromY fl dy o = .ok (p', r)) :
    ∃ k, k ≤ p.ticks.length + 1 ∧ RunY fl dy o p p.acc0 k (.ok (p', r)) := by
  have hd : dy.isPositive = true := by
    unfold executeSwapFromY at h
    rw [ite_ok] at h
    rcases h with ⟨_, h⟩ | ⟨h0, _⟩
    · simp [rpanic] at h
    · simpa using h0
  obtain ⟨k, hk, hr⟩ := C37_from_y (fl := fl) (p := p) (o := o) hd
  rw [h] at hr
  exact ⟨k, hk, hr⟩

theorem acc0_scale (p : Pool) : p.acc0.recv.scale = 12 := by
  have : PoolMath.zero.scale = 12 := by decide
  exact this

/-- C67: a pool with fee rate zero charges nothing. -/
theorem C67_from_x {fl : FloatEnv} {p p' : Pool} {dx o : Decimal} {r : SwapOutput} (hz : p.feeRate.toRat = 0)
    (h : p.executeSwapFromX fl dx o = .ok (p', r)) : r.recvFee.toRat = 0 := by
  obtain ⟨k, _, hr⟩ := run_of_sellX h
  rw [(share_runX hr rfl hz.ge (acc0_scale p)).2 hz]
  exact zero_toRat

theorem C67_from_y {fl : FloatEnv} {p p' : Pool} {dy o : Decimal} {r : SwapOutput} (hz : p.feeRate.toRat = 0)
    (h : p.executeSwapFromY fl dy o = .ok (p', r)) : r.recvFee.toRat = 0 := by
  obtain ⟨k, _, hr⟩ := run_of_sellY h
  rw [(share_runY hr rfl hz.ge (acc0_scale p)).2 hz]
  exact zero_toRat

/-- The two-position pool with fee rate zero takes 17 X across a tick and charges nothing. -/
example : (Sample.get (two zero)).feeRate.toRat = 0 ∧
    ∃ p' r, (Sample.get (two zero)).executeSwapFromX fl (D 17) zero = .ok (p', r) ∧ r.recv = D 17 ∧ p'.gs.tick < 15 := by
  refine ⟨by rw [show (Sample.get (two zero)).feeRate = zero from by decide +kernel]; exact zero_toRat, ?_⟩
  refine ⟨(Sample.get ((Sample.get (two zero)).executeSwapFromX fl (D 17) zero)).1,
    (Sample.get ((Sample.get (two zero)).executeSwapFromX fl (D 17) zero)).2, by decide +kernel, by decide +kernel, by decide +kernel⟩

/-- C68 for a sale of X: the fee of a whole swap, across any number of ticks, is the fee rate times the
amount taken, up to two units of the twelfth place for each step, of which there is at most one more than
there are initialised ticks. -/
theorem C68_from_x {fl : FloatEnv} {p p' : Pool} {dx o : Decimal} {r : SwapOutput} (h0 : 0 ≤ p.feeRate.toRat)
    (h : p.executeSwapFromX fl dx o = .ok (p', r)) :
    |r.recvFee.toRat - p.feeRate.toRat * r.recv.toRat| ≤ 2 * (p.ticks.length + 1) / 10 ^ 12 := by
  obtain ⟨k, hk, hr⟩ := run_of_sellX h
  have h1 := (share_runX hr rfl h0 (acc0_scale p)).1
  rw [show p.acc0.fee.toRat = 0 from zero_toRat, show p.acc0.recv.toRat = 0 from zero_toRat, sub_zero, sub_zero] at h1
  refine h1.trans ?_
  have : (k : ℚ) ≤ p.ticks.length + 1 := by exact_mod_cast hk
  unfold ulp
  rw [mul_one_div]
  gcongr

/-- C68 for a sale of Y. -/
theorem C68_from_y {fl : FloatEnv} {p p' : Pool} {dy o : Decimal} {r : SwapOutput} (h0 : 0 ≤ p.feeRate.toRat)
    (h : p.executeSwapFromY fl dy o = .ok (p', r)) :
    |r.recvFee.toRat - p.feeRate.toRat * r.recv.toRat| ≤ 2 * (p.ticks.length + 1) / 10 ^ 12 := by
  obtain ⟨k, hk, hr⟩ := run_of_sellY h
  have h1 := (share_runY hr rfl h0 (acc0_scale p)).1
  rw [show p.acc0.fee.toRat = 0 from zero_toRat, show p.acc0.recv.toRat = 0 from zero_toRat, sub_zero, sub_zero] at h1
  refine h1.trans ?_
  have : (k : ℚ) ≤ p.ticks.length + 1 := by exact_mod_cast hk
  unfold ulp
  rw [mul_one_div]
  gcongr

/-- The parameters of a pool are those it was created with; the fee rate is never negative. -/
theorem feeRate_reachable {p : Pool} (h : Reachable p) : 0 ≤ p.feeRate.toRat := by
  induction h with
  | new h =>
    unfold Pool.new at h
    rw [ite_ok] at h; rcases h with ⟨_, h⟩ | ⟨_, h⟩; · simp [rpanic] at h
    rw [ite_ok] at h; rcases h with ⟨_, h⟩ | ⟨_, h⟩; · simp [rpanic] at h
    rw [bind_ok] at h; obtain ⟨_, _, h⟩ := h
    rw [bind_ok] at h; obtain ⟨_, _, h⟩ := h
    rw [ite_ok] at h; rcases h with ⟨_, h⟩ | ⟨_, h⟩; · simp [rpanic] at h
    rw [ite_ok] at h; rcases h with ⟨_, h⟩ | ⟨hf, h⟩; · simp [rpanic] at h
    rw [bind_ok] at h; obtain ⟨_, _, h⟩ := h
    rw [bind_ok] at h; obtain ⟨_, _, h⟩ := h
    rw [bind_ok] at h; obtain ⟨_, _, h⟩ := h
    cases h
    exact not_isNegative.1 (by simpa using hf)
  | step _ hs ih =>
    cases hs with
    | deposit h =>
      obtain ⟨lower, upper, a, b, liq, p1, p2, px, py, _, _, _, _, h1, h2, _, h4, h5, h6, _, h8, _, h9, _, h10, _, _, h11,
        h12, h13, rfl⟩ := deposit_ok h
      obtain ⟨xf, xa, yf, ya, _, _, _, _, _, _, _, _, rfl⟩ := payFees_ok h13
      rw [setPosition_frame h10]
      exact ih
    | withdraw h =>
      obtain ⟨lower, upper, a, b, p1, p2, x0, y0, adj, px, py, _, h1, h2, _, h4, h5, h6, h7, h8, h9, h10, h11, _, _, _, _,
        h12, h13, h14, rfl⟩ := withdraw_ok h
      obtain ⟨xf, xa, yf, ya, _, _, _, _, _, _, _, _, rfl⟩ := payFees_ok h14
      rw [setPosition_frame h6]
      exact ih
    | sellX h => rw [(booksX h).feeRate]; exact ih
    | sellY h => rw [(booksY h).feeRate]; exact ih

/-- C68 in a reachable state. -/
theorem C68_reachable {fl : FloatEnv} {p p' : Pool} {d o : Decimal} {r : SwapOutput} (hp : Reachable p)
    (h : p.executeSwapFromX fl d o = .ok (p', r) ∨ p.executeSwapFromY fl d o = .ok (p', r)) :
    |r.recvFee.toRat - p.feeRate.toRat * r.recv.toRat| ≤ 2 * (p.ticks.length + 1) / 10 ^ 12 := by
  rcases h with h | h
  · exact C68_from_x (feeRate_reachable hp) h
  · exact C68_from_y (feeRate_reachable hp) h

/-- A sale across five ticks whose fee, 0.090195632173 X, is not exactly the share of the amount taken. -/
example : ∃ p' r, (Sample.get three).executeSwapFromX fl (D 100) zero = .ok (p', r) ∧
    r.recvFee.value = 90195632173 ∧ r.recvFee.value * 10 ^ 12 ≠ 3000000000 * r.recv.value :=
  ⟨(Sample.get ((Sample.get three).executeSwapFromX fl (D 100) zero)).1,
    (Sample.get ((Sample.get three).executeSwapFromX fl (D 100) zero)).2, by decide +kernel⟩

end Hmm.Pool
