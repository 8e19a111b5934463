import Verif.Proofs.WorldWhen
import Verif.Tests.WorldSample

/-
Exactly when a withdrawal succeeds, and what it pays.
-/

namespace Hmm.OnChain.World

open Decimal PoolMath World.Sample

/-! ### C111: a withdrawal succeeds exactly when it should -/

/-- A withdrawal of some LP tokens succeeds and pays `x` and `y` exactly when they can be redeemed for `x` and `y`. -/
theorem C111_when {w : World} (hw : Reachable w) {lp : Nat} {p : PoolAcc} (hp : mapGet lp w.pools = some p)
    {c : Accounts} {lower upper current n x y : Nat} (h0 : 0 < n) :
    (∃ v, w.withdraw lp c lower upper current n = .ok (v, ⟨x, y, n⟩)) ↔
      Redeemable w lp p c lower upper current n x y :=
  ⟨fun ⟨_, h⟩ => (withdraw_redeemable hw hp h0 h).2, withdraw_when hw hp h0⟩

/-- Any withdrawal that succeeds is of this form. -/
theorem C111_only {w v : World} (hw : Reachable w) {lp : Nat} {p : PoolAcc} (hp : mapGet lp w.pools = some p)
    {c : Accounts} {lower upper current n : Nat} {m : Moved} (h0 : 0 < n)
    (h : w.withdraw lp c lower upper current n = .ok (v, m)) :
    m.lp = n ∧ Redeemable w lp p c lower upper current n m.x m.y := withdraw_redeemable hw hp h0 h

/-- A position that can be redeemed can be redeemed in part: of any smaller amount, for no more. -/
theorem C111_part {w v : World} (hw : Reachable w) {lp : Nat} {p : PoolAcc} (hp : mapGet lp w.pools = some p)
    {c : Accounts} {lower upper current n k : Nat} {m : Moved} (h0 : 0 < k) (hk : k ≤ n)
    (h : w.withdraw lp c lower upper current n = .ok (v, m)) :
    ∃ v' m', w.withdraw lp c lower upper current k = .ok (v', m') ∧ m'.x ≤ m.x ∧ m'.y ≤ m.y := by
  obtain ⟨_, r⟩ := withdraw_redeemable hw hp (by omega) h
  obtain ⟨rp, a, b, w1, w2, w3, w4, w5, w6, w7⟩ := r.worth
  have m1 : k * (b - clampAt rp a b) * 10 ^ 12 / (clampAt rp a b * b / 10 ^ 12) / 10 ^ 12 ≤ m.x := by
    rw [w6]
    exact Nat.div_le_div_right (Nat.div_le_div_right (Nat.mul_le_mul_right _ (Nat.mul_le_mul_right _ hk)))
  have m2 : k * (clampAt rp a b - a) / 10 ^ 12 ≤ m.y := by
    rw [w7]
    exact Nat.div_le_div_right (Nat.mul_le_mul_right _ hk)
  obtain ⟨q, q1, q2⟩ := r.position
  obtain ⟨vx, v1, v2, v3⟩ := r.vaultX
  obtain ⟨vy, v4, v5, v6⟩ := r.vaultY
  obtain ⟨t, t1, t2, t3, t4, t5⟩ := r.lpTokens
  obtain ⟨v', h'⟩ := withdraw_when hw hp h0 (c := c) (lower := lower) (upper := upper) (current := current)
    ⟨r.atTick, r.starts, r.ends, ⟨q, q1, le_trans (by exact_mod_cast hk) q2⟩,
      ⟨rp, a, b, w1, w2, w3, lt_of_le_of_lt (Nat.mul_le_mul_right _ (Nat.mul_le_mul_right _ hk)) w4,
        lt_of_le_of_lt (Nat.mul_le_mul_right _ (Nat.mul_le_mul_right _ hk)) w5, rfl, rfl⟩,
      r.tokenX, r.tokenY, ⟨vx, v1, v2, m1.trans v3⟩, ⟨vy, v4, v5, m2.trans v6⟩,
      ⟨t, t1, t2, t3, hk.trans t4, t5.imp id fun ⟨j, j1, j2⟩ => ⟨j, j1, hk.trans j2⟩⟩⟩
  exact ⟨v', _, h', m1, m2⟩

/-- User 1 deposits and can redeem everything; it is worth one less of each token than was deposited. -/
example : ∃ w, Reachable w ∧ ∃ p, mapGet 100 w.pools = some p ∧
    Redeemable w 100 p (user 1 1 2 3) 10 30 20 199860 99 99 := by
  obtain ⟨w, h, e⟩ := holds_reachable (as := start ++ [.program (.deposit 100 (user 1 1 2 3) 10 30 20 100 100)]) (p := fun w => (mapGet 100 w.pools).isSome &&
    match w.withdraw 100 (user 1 1 2 3) 10 30 20 199860 with
      | .ok (_, m) => decide (m = ⟨99, 99, 199860⟩)
      | .error _ => false) (by decide +kernel)
  rw [Bool.and_eq_true] at e
  obtain ⟨e1, e2⟩ := e
  obtain ⟨p, hp⟩ := Option.isSome_iff_exists.1 e1
  split at e2
  · next r m hw =>
    rw [of_decide_eq_true e2] at hw
    exact ⟨w, h, p, hp, (C111_when h hp (by norm_num)).1 ⟨r, hw⟩⟩
  · cases e2

end Hmm.OnChain.World
