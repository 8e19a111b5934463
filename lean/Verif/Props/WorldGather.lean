import Verif.Proofs.WorldGather
import Verif.Tests.WorldSample

/-
Deposits of different users can be made in any order.
-/

namespace Hmm.OnChain.World

open World.Sample

/-! ### C139: nobody has to be first to join a pool on the ledger -/

/-- If different users deposit into a pool one after the other, and the pool does not trade its own LP tokens, then they can
do so in any other order, each pays and gets the same, and the ledger holds the same in the end, up to the pool's bitmap. -/
theorem C139_any_order {w v : World} (hw : Reachable w) {lp : Nat} {p : PoolAcc} (hp : mapGet lp w.pools = some p)
    (hx : p.xMint ≠ lp) (hy : p.yMint ≠ lp) {rs rs' : List (Purchase × Moved)}
    (h0 : ∀ r ∈ rs, r.1.x < 2 ^ 64 ∧ r.1.y < 2 ^ 64)
    (hu : rs.Pairwise fun a b => a.1.c.user ≠ b.1.c.user) (h : Purchases lp w rs v) (hs : rs.Perm rs') :
    ∃ v', Purchases lp w rs' v' ∧ Alike lp v v' :=
  Purchases.perm hs hw (fun q hq => by rw [hp] at hq; cases hq; exact ⟨hx, hy⟩) h0 hu h

/-- Any of them could have been the first, paying and getting the same. -/
theorem C139_first {w v : World} (hw : Reachable w) {lp : Nat} {p : PoolAcc} (hp : mapGet lp w.pools = some p)
    (hx : p.xMint ≠ lp) (hy : p.yMint ≠ lp) {rs : List (Purchase × Moved)}
    (h0 : ∀ r ∈ rs, r.1.x < 2 ^ 64 ∧ r.1.y < 2 ^ 64)
    (hu : rs.Pairwise fun a b => a.1.c.user ≠ b.1.c.user) (h : Purchases lp w rs v) {r : Purchase} {m : Moved}
    (hr : (r, m) ∈ rs) : ∃ v', w.deposit lp r.c r.lower r.upper r.current r.x r.y = .ok (v', m) := by
  obtain ⟨a, b, rfl⟩ := List.append_of_mem hr
  obtain ⟨v', h', _⟩ := C139_any_order hw hp hx hy h0 hu h List.perm_middle
  cases h' with
  | cons h1 _ => exact ⟨_, h1⟩

/-- Users 1 and 2 deposit into the first pool, with ranges that end at the same tick. -/
example : ∃ w v p r s, ∃ m l : Moved, Reachable w ∧ mapGet 100 w.pools = some p ∧ p.xMint ≠ 100 ∧ p.yMint ≠ 100 ∧
    r.c.user ≠ s.c.user ∧ r.upper = s.upper ∧ 0 < m.lp ∧ 0 < l.lp ∧ Purchases 100 w [(r, m), (s, l)] v := by
  obtain ⟨w, h, e⟩ := holds_reachable (as := start) (p := fun w =>
    match mapGet 100 w.pools with
    | none => false
    | some p =>
      match w.deposit 100 (user 1 1 2 3) 10 30 20 100 100 with
      | .error _ => false
      | .ok (v, m) =>
        match v.deposit 100 (user 2 1 2 3) 25 30 20 5 0 with
        | .error _ => false
        | .ok (_, l) => decide (p.xMint ≠ 100 ∧ p.yMint ≠ 100 ∧ 0 < m.lp ∧ 0 < l.lp)) (by decide +kernel)
  simp only at e
  split at e
  · cases e
  · next p hp =>
    split at e
    · cases e
    · next v m h1 =>
      split at e
      · cases e
      · next u l h2 =>
        obtain ⟨e1, e2, e3, e4⟩ := of_decide_eq_true e
        exact ⟨w, u, p, ⟨user 1 1 2 3, 10, 30, 20, 100, 100⟩, ⟨user 2 1 2 3, 25, 30, 20, 5, 0⟩, m, l, h, hp, e1, e2,
          by decide, rfl, e3, e4, .cons h1 (.cons h2 .nil)⟩

/-- The bitmap does depend on the order.  A tick that is new marks one bit as the end of a range and another as the beginning
of a range, and only the first of two deposits finds it new. -/
theorem C139_bitmap : ∃ w v v' p p' r s m l, Reachable w ∧ Purchases 100 w [(r, m), (s, l)] v ∧
    Purchases 100 w [(s, l), (r, m)] v' ∧ r.c.user ≠ s.c.user ∧ mapGet 100 v.pools = some p ∧
    mapGet 100 v'.pools = some p' ∧ p.bitmap ≠ p'.bitmap := by
  obtain ⟨w, h, e⟩ := holds_reachable (as := start ++ [.program (.createPosition 100 1 10 25),
      .program (.deposit 100 (user 1 1 2 3) 10 30 20 100 100),
      .program (.withdraw 100 (user 1 1 2 3) 10 30 20 10)]) (p := fun w =>
    match w.deposit 100 (user 1 1 2 3) 10 25 20 100 100, w.deposit 100 (user 2 1 2 3) 25 30 20 5 0 with
    | .ok (v1, m), .ok (v1', l) =>
      match v1.deposit 100 (user 2 1 2 3) 25 30 20 5 0, v1'.deposit 100 (user 1 1 2 3) 10 25 20 100 100 with
      | .ok (v2, l'), .ok (v2', m') =>
        match mapGet 100 v2.pools, mapGet 100 v2'.pools with
        | some p, some p' => decide (m' = m ∧ l' = l ∧ p.bitmap.map (·.byte 0) ≠ p'.bitmap.map (·.byte 0))
        | _, _ => false
      | _, _ => false
    | _, _ => false) (by decide +kernel)
  simp only at e
  split at e
  · next v1 m v1' l h1 h2 =>
    split at e
    · next v2 l' v2' m' h3 h4 =>
      split at e
      · next p p' h5 h6 =>
        obtain ⟨rfl, rfl, e3⟩ := of_decide_eq_true e
        exact ⟨w, v2, v2', p, p', ⟨user 1 1 2 3, 10, 25, 20, 100, 100⟩, ⟨user 2 1 2 3, 25, 30, 20, 5, 0⟩, _, _, h,
          .cons h1 (.cons h3 .nil), .cons h2 (.cons h4 .nil), by decide, h5, h6, fun e => e3 (by rw [e])⟩
      · cases e
    · cases e
  · cases e

/-- One user's deposits cannot always be exchanged: an owner who approved themselves for 99 X can deposit 99 and then more, but
not more and then 99. -/
theorem C139_same_user : ∃ w v r s m l, Reachable w ∧ Purchases 100 w [(r, m), (s, l)] v ∧
    r.c = s.c ∧ ¬ ∃ v' m' l', Purchases 100 w [(s, l'), (r, m')] v' := by
  obtain ⟨w, h, e⟩ := holds_reachable (as := start ++ [.token 1 (.approve (.key 11) (.user 1) 99)]) (p := fun w =>
    match w.deposit 100 (user 1 1 2 3) 10 30 20 100 100 with
    | .error _ => false
    | .ok (v, _) =>
      match v.deposit 100 (user 1 1 2 3) 10 30 20 200 200 with
      | .error _ => false
      | .ok _ =>
        match w.deposit 100 (user 1 1 2 3) 10 30 20 200 200 with
        | .error _ => true
        | .ok _ => false) (by decide +kernel)
  simp only at e
  split at e
  · cases e
  · next v m h1 =>
    split at e
    · cases e
    · next u h2 =>
      split at e
      · next h3 =>
        refine ⟨w, u.1, ⟨user 1 1 2 3, 10, 30, 20, 100, 100⟩, ⟨user 1 1 2 3, 10, 30, 20, 200, 200⟩, m, u.2, h,
          .cons h1 (.cons h2 .nil), rfl, ?_⟩
        rintro ⟨_, _, _, g⟩
        cases g with
        | cons g _ => rw [h3] at g; cases g
      · cases e

end Hmm.OnChain.World
