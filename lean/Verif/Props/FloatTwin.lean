import Verif.Proofs.FloatTwin
import Verif.Tests.FloatSample

/-
C89: in the floating-point pool too, HMM only withholds part of what a swap pays.
-/

namespace Hmm.Flt.Pool

open F64 Sample

section

attribute [local irreducible] unit limit

/-- C89: two pools created alike and operated alike, with any HMM parameters and any oracle prices, have the same
price, tick, active liquidity, fee growth and fee pots, and the same ticks and positions but for the records of
HMM adjustments. -/
theorem twins_market {m : LibM} {p q : Pool} (h : Twins m p q) :
    p.gs.liq = q.gs.liq ∧ p.gs.rp = q.gs.rp ∧ p.gs.tick = q.gs.tick ∧ p.gs.fees.fx = q.gs.fees.fx ∧
    p.gs.fees.fy = q.gs.fees.fy ∧ p.xFee = q.xFee ∧ p.yFee = q.yFee ∧
    (∀ t, (mapGet t p.ticks).map TickState.plain = (mapGet t q.ticks).map TickState.plain) ∧
    (∀ k, (mapGet k p.positions).map PositionState.plain = (mapGet k q.positions).map PositionState.plain) := by
  obtain ⟨g1, g2, g3, g4, g5, g6, g7, g8, g9, g10⟩ := plain_add (twins_plain h)
  simp only [Fees.plain, Fees.mk.injEq, and_true] at g5
  exact ⟨g1, g2, g3, g5.1, g5.2, g6, g7, fun t => by rw [← mapGet_vals, g9, mapGet_vals],
    fun k => by rw [← mapGet_vals, g10, mapGet_vals]⟩

/-- C89 for swaps: both pools take the same amount and fee and reach the same price. -/
theorem twins_swapX {m : LibM} {p q p' q' : Pool} {n n' : Nat} {dx o o' : F64} {r s : SwapOutput} (h : Twins m p q)
    (hp : p.executeSwapFromX m n dx o = .ok (p', r)) (hq : q.executeSwapFromX m n' dx o' = .ok (q', s)) :
    r.recv = s.recv ∧ r.recvFee = s.recvFee ∧ r.endPrice = s.endPrice :=
  let k := (swapX_alike (twins_plain h) hp hq).2.1
  ⟨k.recv, k.fee, k.endPrice⟩

theorem twins_swapY {m : LibM} {p q p' q' : Pool} {n n' : Nat} {dy o o' : F64} {r s : SwapOutput} (h : Twins m p q)
    (hp : p.executeSwapFromY m n dy o = .ok (p', r)) (hq : q.executeSwapFromY m n' dy o' = .ok (q', s)) :
    r.recv = s.recv ∧ r.recvFee = s.recvFee ∧ r.endPrice = s.endPrice :=
  let k := (swapY_alike (twins_plain h) hp hq).2.1
  ⟨k.recv, k.fee, k.endPrice⟩

/-- C89: a seller of X is never paid more than by the pool with parameter zero.  (Amounts paid out are negative.) -/
theorem twins_costX {m : LibM} {p q p' q' : Pool} {n n' : Nat} {dx o o' : F64} {r s : SwapOutput} {a b : ℚ}
    (h : Twins m p q) (hz : q.c.Is 0) (hp : p.executeSwapFromX m n dx o = .ok (p', r))
    (hq : q.executeSwapFromX m n' dx o' = .ok (q', s)) (ha : r.send.Is a) (hb : s.send.Is b) : b ≤ a :=
  (swapX_alike (twins_plain h) hp hq).2.2 ((eq_is hz zero_is).2 rfl) a b ha hb

theorem twins_costY {m : LibM} {p q p' q' : Pool} {n n' : Nat} {dy o o' : F64} {r s : SwapOutput} {a b : ℚ}
    (h : Twins m p q) (hz : q.c.Is 0) (hp : p.executeSwapFromY m n dy o = .ok (p', r))
    (hq : q.executeSwapFromY m n' dy o' = .ok (q', s)) (ha : r.send.Is a) (hb : s.send.Is b) : b ≤ a :=
  (swapY_alike (twins_plain h) hp hq).2.2 ((eq_is hz zero_is).2 rfl) a b ha hb

/-- C89: deposits take, and withdrawals pay, the same amounts and the same swap fees in both pools. -/
theorem twins_deposit {m : LibM} {p q p' q' : Pool} {user : Nat} {x y rpa rpb : F64} {r s : Receipt} (h : Twins m p q)
    (hp : p.deposit m user x y rpa rpb = .ok (p', r)) (hq : q.deposit m user x y rpa rpb = .ok (q', s)) :
    r.x = s.x ∧ r.y = s.y ∧ r.fees.fx = s.fees.fx ∧ r.fees.fy = s.fees.fy := by
  obtain ⟨_, h1, h2, h3⟩ := deposit_alike (twins_plain h) hp hq
  simp only [Fees.plain, Fees.mk.injEq, and_true] at h3
  exact ⟨h1, h2, h3.1, h3.2⟩

theorem twins_withdraw {m : LibM} {p q p' q' : Pool} {user : Nat} {liq rpa rpb : F64} {r s : Receipt} (h : Twins m p q)
    (hp : p.withdraw m user liq rpa rpb = .ok (p', r)) (hq : q.withdraw m user liq rpa rpb = .ok (q', s)) :
    r.x = s.x ∧ r.y = s.y ∧ r.fees.fx = s.fees.fx ∧ r.fees.fy = s.fees.fy := by
  obtain ⟨_, h1, h2, h3⟩ := withdraw_alike (twins_plain h) hp hq
  simp only [Fees.plain, Fees.mk.injEq, and_true] at h3
  exact ⟨h1, h2, h3.1, h3.2⟩

end

/-- A case: the pool of the tests with HMM exponent 1.5 and without; 1 X sold at an oracle price of 1500.  The
first pays less. -/
theorem twins_case : ∃ p q p' q' r s, eth (lit 3 2) (lit 3 1000) = .ok p ∧ eth F64.zero (lit 3 1000) = .ok q ∧
    Twins libm p q ∧ p.executeSwapFromX libm 9 (ofNat 1) (rt 1500) = .ok (p', r) ∧
    q.executeSwapFromX libm 9 (ofNat 1) (rt 1500) = .ok (q', s) ∧ q.c.Is 0 ∧ r.send.Finite ∧ lt s.send r.send = true := by
  have h : (match eth (lit 3 2) (lit 3 1000), eth F64.zero (lit 3 1000) with
    | .ok p, .ok q =>
      (match p.executeSwapFromX libm 9 (ofNat 1) (rt 1500), q.executeSwapFromX libm 9 (ofNat 1) (rt 1500) with
      | .ok (_, r), .ok (_, s) => lt s.send r.send && lt r.send F64.zero && decide (q.c = F64.zero)
      | _, _ => false)
    | _, _ => false) = true := by decide +kernel
  split at h
  · rename_i p q hp hq
    split at h
    · rename_i p' r q' s h1 h2
      rw [Bool.and_eq_true, Bool.and_eq_true, decide_eq_true_eq] at h
      obtain ⟨⟨h3, h4⟩, h5⟩ := h
      refine ⟨p, q, p', q', r, s, hp, hq, ?_, h1, h2, ?_, ?_, h3⟩
      · unfold eth at hp hq
        rw [bind_ok] at hp hq
        obtain ⟨p0, hp0, hp⟩ := hp
        obtain ⟨q0, hq0, hq⟩ := hq
        rw [bind_ok] at hp hq
        obtain ⟨⟨p1, r1⟩, hp1, hp⟩ := hp
        obtain ⟨⟨q1, s1⟩, hq1, hq⟩ := hq
        rw [pure_ok] at hp hq
        subst hp; subst hq
        exact .deposit (.new hp0 hq0) hp1 hq1
      · rw [h5]; exact zero_is
      · cases hr : r.send with
        | nan => rw [hr] at h3; revert h3; cases s.send <;> exact fun h => absurd h (by simp [lt])
        | inf w =>
          rw [hr] at h3 h4
          cases w
          · revert h4; exact fun h => absurd h (by decide)
          · revert h3; cases s.send <;> exact fun h => absurd h (by simp [lt])
        | fin w k => exact finite_fin _ _
    · cases h
  · cases h

end Hmm.Flt.Pool
