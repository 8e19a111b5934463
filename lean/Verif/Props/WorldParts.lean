import Verif.Proofs.WorldParts
import Verif.Tests.WorldSample

/-
A withdrawal on the ledger in one go or in parts.
-/

namespace Hmm.OnChain.World

open World.Sample

/-! ### C144: a withdrawal on the ledger can be made in parts, at a cost of less than a token of each kind per part -/

/-- If `n` LP tokens can be redeemed, then they can be redeemed in any parts, one after the other.  The parts are paid no more
than the whole, and the whole is paid less than one X and one Y more for each part.  In the end everything is the same,
except that the vaults hold what the user did not get. -/
theorem C144_in_parts {w v : World} (hw : Reachable w) {lp : Nat} {p : PoolAcc} (hp : mapGet lp w.pools = some p)
    {c : Accounts} {lower upper current n : Nat} {m : Moved} (h : w.withdraw lp c lower upper current n = .ok (v, m))
    {ns : List Nat} (h0 : ∀ k ∈ ns, 0 < k) (hne : ns ≠ []) (hs : ns.sum = n) :
    ∃ ms : List Moved, ∃ u, ms.map Moved.lp = ns ∧ Redemptions lp w (ms.map fun k => (⟨c, lower, upper, current, k.lp⟩, k)) u ∧
      (ms.map Moved.x).sum ≤ m.x ∧ m.x < (ms.map Moved.x).sum + ns.length ∧
      (ms.map Moved.y).sum ≤ m.y ∧ m.y < (ms.map Moved.y).sum + ns.length ∧
      Owing lp p c (m.x - (ms.map Moved.x).sum) (m.y - (ms.map Moved.y).sum) v u := by
  subst hs
  have hn : 0 < ns.sum := by
    cases ns with
    | nil => exact absurd rfl hne
    | cons k ks =>
      have := h0 k (List.mem_cons_self ..)
      rw [List.sum_cons]; omega
  have tx : ∀ ms : List Moved, (total ms).x = (ms.map Moved.x).sum := by
    intro ms
    induction ms with
    | nil => rfl
    | cons m ms ih => simp [total, ih]
  have ty : ∀ ms : List Moved, (total ms).y = (ms.map Moved.y).sum := by
    intro ms
    induction ms with
    | nil => rfl
    | cons m ms ih => simp [total, ih]
  obtain ⟨_, red⟩ := withdraw_redeemable hw hp hn h
  obtain ⟨q, l⟩ := withdraw_less hw hp (r := ⟨c, lower, upper, current, ns.sum⟩) hn h
  obtain ⟨ms, u, o, m1, m2, m3, m4, m5, m6, m7⟩ := in_parts hw hp hne h0 red
  rw [tx] at m4 m5
  rw [ty] at m6 m7
  refine ⟨ms, u, m1, m2, m4, m5, m6, m7, ?_⟩
  have := l.owing m3 (by rw [tx]; exact m4) (by rw [ty]; exact m6)
  rw [tx, ty] at this
  exact this

/-- User 1 redeems 100000 LP tokens of the first pool for some X and Y. -/
example : ∃ w v p m, ∃ c : Accounts, Reachable w ∧ mapGet 100 w.pools = some p ∧ w.withdraw 100 c 10 30 20 100000 = .ok (v, m) ∧
    0 < m.x ∧ 0 < m.y ∧ [30000, 30000, 40000].sum = 100000 := by
  obtain ⟨w, h, e⟩ := holds_reachable (as := start ++ [.program (.deposit 100 (user 1 1 2 3) 10 30 20 100 100)])
    (p := fun w =>
    match mapGet 100 w.pools with
    | none => false
    | some _ =>
      match w.withdraw 100 (user 1 1 2 3) 10 30 20 100000 with
      | .error _ => false
      | .ok (_, m) => decide (0 < m.x ∧ 0 < m.y)) (by decide +kernel)
  split at e
  · cases e
  · next p hp =>
    split at e
    · cases e
    · next v m h1 =>
      obtain ⟨e1, e2⟩ := of_decide_eq_true e
      exact ⟨w, v, p, m, user 1 1 2 3, h, hp, h1, e1, e2, rfl⟩

/-- Parts can be paid less: 2010 LP tokens are paid one X and one Y, in two parts of 1005 they are paid nothing. -/
theorem C144_less : ∃ w v u m k l, ∃ c : Accounts, Reachable w ∧ w.withdraw 100 c 10 30 20 2010 = .ok (v, m) ∧
    m.x = 1 ∧ m.y = 1 ∧ Redemptions 100 w [(⟨c, 10, 30, 20, 1005⟩, k), (⟨c, 10, 30, 20, 1005⟩, l)] u ∧
    k.x + l.x = 0 ∧ k.y + l.y = 0 := by
  obtain ⟨w, h, e⟩ := holds_reachable (as := start ++ [.program (.deposit 100 (user 1 1 2 3) 10 30 20 100 100)])
    (p := fun w =>
    match w.withdraw 100 (user 1 1 2 3) 10 30 20 2010 with
    | .error _ => false
    | .ok (_, m) =>
      match w.withdraw 100 (user 1 1 2 3) 10 30 20 1005 with
      | .error _ => false
      | .ok (z, k) =>
        match z.withdraw 100 (user 1 1 2 3) 10 30 20 1005 with
        | .error _ => false
        | .ok (_, l) => decide (m.x = 1 ∧ m.y = 1 ∧ k.x + l.x = 0 ∧ k.y + l.y = 0)) (by decide +kernel)
  simp only at e
  split at e
  · cases e
  · next v m h1 =>
    split at e
    · cases e
    · next z k h2 =>
      split at e
      · cases e
      · next u l h3 =>
        obtain ⟨e1, e2, e3, e4⟩ := of_decide_eq_true e
        exact ⟨w, v, u, m, k, l, user 1 1 2 3, h, h1, e1, e2, .cons h2 (.cons h3 .nil), e3, e4⟩

end Hmm.OnChain.World
