import Verif.Proofs.WorldOrder
import Verif.Tests.WorldSample

/-
Withdrawals of different users can be made in any order.
-/

namespace Hmm.OnChain.World

open World.Sample

/-! ### C138: nobody has to be first to leave a pool on the ledger -/

/-- If different users withdraw from a pool one after the other, none of them nothing, and the pool does not trade its own
LP tokens, then they can do so in any other order, each is paid the same, and the ledger holds the same in the end. -/
theorem C138_any_order {w v : World} (hw : Reachable w) {lp : Nat} {p : PoolAcc} (hp : mapGet lp w.pools = some p)
    (hx : p.xMint ≠ lp) (hy : p.yMint ≠ lp) {rs rs' : List (Redemption × Moved)} (h0 : ∀ r ∈ rs, 0 < r.1.n)
    (hu : rs.Pairwise fun a b => a.1.c.user ≠ b.1.c.user) (h : Redemptions lp w rs v) (hs : rs.Perm rs') :
    ∃ v', Redemptions lp w rs' v' ∧ SameLedger lp v v' :=
  Redemptions.perm hs hw (fun q hq => by rw [hp] at hq; cases hq; exact ⟨hx, hy⟩) h0 hu h

/-- Any of them could have been the first, and would have been paid the same. -/
theorem C138_first {w v : World} (hw : Reachable w) {lp : Nat} {p : PoolAcc} (hp : mapGet lp w.pools = some p)
    (hx : p.xMint ≠ lp) (hy : p.yMint ≠ lp) {rs : List (Redemption × Moved)} (h0 : ∀ r ∈ rs, 0 < r.1.n)
    (hu : rs.Pairwise fun a b => a.1.c.user ≠ b.1.c.user) (h : Redemptions lp w rs v) {r : Redemption} {m : Moved}
    (hr : (r, m) ∈ rs) : ∃ v', w.withdraw lp r.c r.lower r.upper r.current r.n = .ok (v', m) := by
  obtain ⟨a, b, rfl⟩ := List.append_of_mem hr
  obtain ⟨v', h', _⟩ := C138_any_order hw hp hx hy h0 hu h List.perm_middle
  cases h' with
  | cons h1 _ => exact ⟨_, h1⟩

/-- Users 1 and 2 deposit into the first pool and leave it one after the other. -/
example : ∃ w v p r s, ∃ m l : Moved, Reachable w ∧ mapGet 100 w.pools = some p ∧ p.xMint ≠ 100 ∧ p.yMint ≠ 100 ∧
    r.c.user ≠ s.c.user ∧ 0 < r.n ∧ 0 < s.n ∧ 0 < m.x ∧ 0 < l.x ∧ Redemptions 100 w [(r, m), (s, l)] v := by
  obtain ⟨w, h, e⟩ := holds_reachable (as := start ++ [.program (.deposit 100 (user 1 1 2 3) 10 30 20 100 100),
      .program (.deposit 100 (user 2 1 2 3) 25 30 20 5 0)]) (p := fun w =>
    match mapGet 100 w.pools with
    | none => false
    | some p =>
      match w.withdraw 100 (user 1 1 2 3) 10 30 20 100000 with
      | .error _ => false
      | .ok (v, m) =>
        match v.withdraw 100 (user 2 1 2 3) 25 30 20 20028 with
        | .error _ => false
        | .ok (_, l) => decide (p.xMint ≠ 100 ∧ p.yMint ≠ 100 ∧ 0 < m.x ∧ 0 < l.x)) (by decide +kernel)
  simp only at e
  split at e
  · cases e
  · next p hp =>
    split at e
    · cases e
    · next v m h1 =>
      split at e
      · cases e
      · next u l h2 =>
        obtain ⟨e1, e2, e3, e4⟩ := of_decide_eq_true e
        exact ⟨w, u, p, ⟨user 1 1 2 3, 10, 30, 20, 100000⟩, ⟨user 2 1 2 3, 25, 30, 20, 20028⟩, m, l, h, hp, e1, e2,
          by decide, by decide, by decide, e3, e4, .cons h1 (.cons h2 .nil)⟩

/-- One user's withdrawals cannot always be exchanged: an owner who approved themselves for 100 LP tokens can withdraw 100
and then 1000, but not 1000 and then 100. -/
theorem C138_same_user : ∃ w v r s m l, Reachable w ∧ Redemptions 100 w [(r, m), (s, l)] v ∧
    r.c = s.c ∧ ¬ ∃ v' m' l', Redemptions 100 w [(s, l'), (r, m')] v' := by
  obtain ⟨w, h, e⟩ := holds_reachable (as := start ++ [.program (.deposit 100 (user 1 1 2 3) 10 30 20 100 100),
      .token 1 (.approve (.key 13) (.user 1) 100)]) (p := fun w =>
    match w.withdraw 100 (user 1 1 2 3) 10 30 20 100 with
    | .error _ => false
    | .ok (v, _) =>
      match v.withdraw 100 (user 1 1 2 3) 10 30 20 1000 with
      | .error _ => false
      | .ok _ =>
        match w.withdraw 100 (user 1 1 2 3) 10 30 20 1000 with
        | .error _ => true
        | .ok _ => false) (by decide +kernel)
  simp only at e
  split at e
  · cases e
  · next v m h1 =>
    split at e
    · cases e
    · next u h2 =>
      split at e
      · next h3 =>
        refine ⟨w, u.1, ⟨user 1 1 2 3, 10, 30, 20, 100⟩, ⟨user 1 1 2 3, 10, 30, 20, 1000⟩, m, u.2, h, .cons h1 (.cons h2 .nil),
          rfl, ?_⟩
        rintro ⟨_, _, _, g⟩
        cases g with
        | cons g _ => rw [h3] at g; cases g
      · cases e

end Hmm.OnChain.World
