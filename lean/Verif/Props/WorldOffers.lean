import Verif.Proofs.WorldOffers
import Verif.Tests.WorldSample

/-
An offer on the ledger in one go or in parts.
-/

namespace Hmm.OnChain.World

open World.Sample

/-! ### C145: an offer made in parts gets no more and pays no more -/

/-- Take a deposit that is accepted, and deposits into the same range of ticks that are accepted one after the other, by
whomever, and together offer no more.  Then together they get no more LP tokens, pay no more X and pay no more Y. -/
theorem C145_not_more {w v u : World} (hw : Reachable w) {lp : Nat} {c : Accounts} {lower upper current x y : Nat}
    {m : Moved} (h : w.deposit lp c lower upper current x y = .ok (v, m)) {rs : List (Purchase × Moved)}
    (g : Purchases lp w rs u) (hr : ∀ r ∈ rs, r.1.lower = lower ∧ r.1.upper = upper)
    (hx : (rs.map fun r => r.1.x).sum ≤ x) (hy : (rs.map fun r => r.1.y).sum ≤ y) :
    (rs.map fun r => r.2.lp).sum ≤ m.lp ∧ (rs.map fun r => r.2.x).sum ≤ m.x ∧ (rs.map fun r => r.2.y).sum ≤ m.y := by
  obtain ⟨p, hp⟩ := deposit_pool h
  obtain ⟨l, X, Y, q, h1, _, h3, h4, h5, _, _⟩ := deposit_both (r := ⟨c, lower, upper, current, x, y⟩) hw hp h
  obtain ⟨k1, k2, k3⟩ := offers_sum h1 (g.quotes hw hp hr) hx hy
  rw [h3, h4, h5]
  exact ⟨k3, k1, k2⟩

/-- The price of parts: user 2 would pay 5 X for 20028 LP tokens, or for 5 offers of one X pays nothing at all, gets 20025
LP tokens, and redeems them for 4 X that user 1 paid in. -/
theorem C145_unpaid : ∃ w v u z m ms k, ∃ c : Accounts, Reachable w ∧
    w.deposit 100 c 25 30 20 5 0 = .ok (v, m) ∧ m.x = 5 ∧ m.lp = 20028 ∧
    Purchases 100 w (List.map (fun m => (⟨c, 25, 30, 20, 1, 0⟩, m)) ms) u ∧ ms = List.replicate 5 ⟨0, 0, 4005⟩ ∧
    u.withdraw 100 c 25 30 20 20025 = .ok (z, k) ∧ k.x = 4 := by
  obtain ⟨w, h, e⟩ := holds_reachable (as := start ++ [.program (.deposit 100 (user 1 1 2 3) 10 30 20 100 100)])
    (p := fun w =>
    match w.deposit 100 (user 2 1 2 3) 25 30 20 5 0 with
    | .error _ => false
    | .ok (_, m) =>
      match w.deposit 100 (user 2 1 2 3) 25 30 20 1 0 with
      | .error _ => false
      | .ok (v1, m1) =>
        match v1.deposit 100 (user 2 1 2 3) 25 30 20 1 0 with
        | .error _ => false
        | .ok (v2, m2) =>
          match v2.deposit 100 (user 2 1 2 3) 25 30 20 1 0 with
          | .error _ => false
          | .ok (v3, m3) =>
            match v3.deposit 100 (user 2 1 2 3) 25 30 20 1 0 with
            | .error _ => false
            | .ok (v4, m4) =>
              match v4.deposit 100 (user 2 1 2 3) 25 30 20 1 0 with
              | .error _ => false
              | .ok (v5, m5) =>
                match v5.withdraw 100 (user 2 1 2 3) 25 30 20 20025 with
                | .error _ => false
                | .ok (_, k) => decide (m.x = 5 ∧ m.lp = 20028 ∧ [m1, m2, m3, m4, m5] = List.replicate 5 ⟨0, 0, 4005⟩ ∧ k.x = 4))
    (by decide +kernel)
  simp only at e
  split at e
  · cases e
  next v m h0 =>
  split at e
  · cases e
  next v1 m1 h1 =>
  split at e
  · cases e
  next v2 m2 h2 =>
  split at e
  · cases e
  next v3 m3 h3 =>
  split at e
  · cases e
  next v4 m4 h4 =>
  split at e
  · cases e
  next v5 m5 h5 =>
  split at e
  · cases e
  next z k h6 =>
  obtain ⟨e1, e2, e3, e4⟩ := of_decide_eq_true e
  exact ⟨w, v, v5, z, m, [m1, m2, m3, m4, m5], k, user 2 1 2 3, h, h0, e1, e2,
    .cons h1 (.cons h2 (.cons h3 (.cons h4 (.cons h5 .nil)))), e3, h6, e4⟩

end Hmm.OnChain.World
