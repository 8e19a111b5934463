import Verif.Props.World

/-
C105: LP tokens burned on approval.
-/

namespace Hmm.OnChain.World

open World.Sample

theorem spend_used {a a' : Token} {who : Party} {n : Nat} (h : spend a who n = .ok a') (ho : a.owner ≠ who) :
    ∃ k, a.delegate = some (who, k) ∧ n ≤ k ∧ a' = { a with delegate := if k = n then none else some (who, k - n) } := by
  unfold spend at h
  split at h
  · rename_i d k hd
    split at h
    · rename_i hw
      subst hw
      split at h
      · simp [rerr] at h
      · cases h
        exact ⟨k, hd, by omega, rfl⟩
    · simp [rerr] at h
  · simp [rerr, ho] at h

theorem transfer_other {w v : World} {src dst a : Addr} {who : Party} {n : Nat} (h : w.transfer src dst who n = .ok v)
    (hs : a ≠ src) (hd : a ≠ dst) : mapGet a v.tokens = mapGet a w.tokens := by
  obtain ⟨_, _, _, _, _, _, _, _, _, _, h | ⟨_, _, h⟩⟩ := transfer_ok h
  · rw [h.2]
  · rw [h]
    simp only
    rw [mapGet_set_other hd, mapGet_set_other hs]

/-- C105: a withdrawal that burns LP tokens of somebody else's account burns no more than the owner has approved, and uses
the approval up by as much. -/
theorem C105_approved {w v : World} (hr : Reachable w) {lp : Nat} {c : Accounts} {lower upper current n : Nat} {m : Moved}
    (h : w.withdraw lp c lower upper current n = .ok (v, m)) {t : Token} (ht : mapGet c.lp w.tokens = some t)
    (ho : t.owner ≠ .user c.user) :
    ∃ k t', t.delegate = some (.user c.user, k) ∧ n ≤ k ∧ mapGet c.lp v.tokens = some t' ∧ t'.amount + n = t.amount ∧
      t'.owner = t.owner ∧ t'.delegate = if k = n then none else some (.user c.user, k - n) := by
  obtain ⟨p, s, w1, w2, w3, hp, hpass, _, hb, hx, hy, rfl, _⟩ := withdraw_ok h
  obtain ⟨_, a, a', _, ha, _, hle, _, hsp, _, rfl⟩ := burn_ok hb
  rw [ht] at ha; cases ha
  obtain ⟨k, h1, h2, rfl⟩ := spend_used hsp ho
  obtain ⟨tx, x1, _, x3⟩ := hpass.tokenX
  obtain ⟨ty, y1, _, y3⟩ := hpass.tokenY
  obtain ⟨hg, _⟩ := hr.guarded hp
  obtain ⟨vx, vx1, _, _, vx4⟩ := hg.vaultX
  obtain ⟨vy, vy1, _, _, vy4⟩ := hg.vaultY
  have n1 : c.lp ≠ c.tokenX := by
    intro e; rw [e, x1] at ht; cases ht; exact ho x3
  have n2 : c.lp ≠ c.tokenY := by
    intro e; rw [e, y1] at ht; cases ht; exact ho y3
  have n3 : c.lp ≠ .vault p.xMint lp := by
    intro e; rw [e, vx1] at ht; cases ht; rw [vx4] at h1; cases h1
  have n4 : c.lp ≠ .vault p.yMint lp := by
    intro e; rw [e, vy1] at ht; cases ht; rw [vy4] at h1; cases h1
  refine ⟨k, ⟨t.mint, t.owner, t.amount - n, if k = n then none else some (.user c.user, k - n), t.frozen⟩, h1, h2, ?_, ?_, ?_, ?_⟩
  · show mapGet c.lp w3.tokens = _
    rw [transfer_other hy n4 n2, transfer_other hx n3 n1]
    exact mapGet_set_same _ _ _
  · show t.amount - n + n = t.amount
    omega
  · rfl
  · rfl

/-- User 1 moves their LP tokens to user 2 and is approved for 150000 of them; their withdrawal of 100000 leaves 50000 approved. -/
example : ∃ w, Reachable w ∧ ∃ t v m t', mapGet (.key 23) w.tokens = some t ∧ t.owner = .user 2 ∧
    t.delegate = some (.user 1, 150000) ∧
    w.withdraw 100 ⟨1, .key 11, .key 12, .key 23⟩ 10 30 20 100000 = .ok (v, m) ∧ mapGet (.key 23) v.tokens = some t' ∧
    t'.delegate = some (.user 1, 50000) ∧ t'.amount = 99860 := by
  obtain ⟨w, h, e⟩ := holds_reachable (as := start ++ [.program (.deposit 100 (user 1 1 2 3) 10 30 20 100 100),
      .token 1 (.transfer (.key 13) (.key 23) 199860), .token 2 (.approve (.key 23) (.user 1) 150000)])
    (p := fun w => match mapGet (.key 23) w.tokens with
      | some t => decide (t.owner = .user 2 ∧ t.delegate = some (.user 1, 150000)) &&
        (match w.withdraw 100 ⟨1, .key 11, .key 12, .key 23⟩ 10 30 20 100000 with
        | .ok (v, _) => match mapGet (.key 23) v.tokens with
          | some t' => decide (t'.delegate = some (.user 1, 50000) ∧ t'.amount = 99860)
          | none => false
        | .error _ => false)
      | none => false) (by decide +kernel)
  split at e
  · next t ht =>
    rw [Bool.and_eq_true, decide_eq_true_eq] at e
    obtain ⟨⟨e1, e2⟩, e⟩ := e
    split at e
    · next v m hv =>
      split at e
      · next t' ht' => exact ⟨w, h, t, v, m, t', ht, e1, e2, hv, ht', of_decide_eq_true e⟩
      · cases e
    · cases e
  · cases e

end Hmm.OnChain.World
