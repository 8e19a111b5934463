import Verif.Tests.WorldSample
import Verif.Props.OnChain

/-
The Anchor program with many pools on one ledger.
-/

namespace Hmm.OnChain.World

open Decimal PoolMath World.Sample

/-! ### C104: every pool behaves like a pool alone on the ledger -/

/-- Whatever happens on the ledger after a pool has been made, with other pools, shared mints, delegates and freezing, the
pool keeps its authority and mints, and its accounts, LP supply and vaults are those of a history of the single pool,
with the same account of what any group of users has paid in and taken out. -/
theorem C104_history {w0 w v : World} {authority lp x y tick : Nat} {who : Nat → Bool} {a : Account} (h0 : Reachable w0)
    (hi : w0.initializePool authority lp x y tick = .ok w) (h : History lp who w v a) :
    ∃ p s, mapGet lp v.pools = some p ∧ p.authority = authority ∧ p.xMint = x ∧ p.yMint = y ∧
      Tracked (w0.supply lp) who s a ∧ Shows v lp p s := by
  obtain ⟨p, s, h1, h2, h3, h4, h5, h6, _⟩ := h.tracked h0.small hi
  exact ⟨p, s, h1, h2, h3, h4, h5, h6⟩

/-- Every pool on every ledger is in a state of the single pool. -/
theorem C104_state {v : World} (h : Reachable v) {lp : Nat} {p : PoolAcc} (hp : mapGet lp v.pools = some p) :
    ∃ supply0 s, OnChain.Reachable supply0 s ∧ Shows v lp p s := by
  obtain ⟨w0, w, a, x, y, tick, h0, hi, hs⟩ := h.origin hp
  obtain ⟨acc, hh⟩ := hs.history lp (fun _ => true)
  obtain ⟨p', s, h1, _, _, _, h5, h6⟩ := C104_history h0 hi hh
  rw [hp] at h1; cases h1
  exact ⟨_, s, h5.reachable, h6⟩

/-- So on every ledger the liquidity of each pool is that of its positions in range, ... -/
theorem C104_active {v : World} (h : Reachable v) {lp : Nat} {p : PoolAcc} (hp : mapGet lp v.pools = some p) :
    p.gs.amount = (p.positions.map fun e =>
      (if e.1.lower ≤ p.gs.tick ∧ p.gs.tick < e.1.upper then 1 else 0) * e.2.amount).sum := by
  obtain ⟨supply0, s, h1, h2⟩ := C104_state h hp
  have := C54_active h1
  unfold Chain.inRange Chain.sumPos at this
  rw [h2.gs, h2.positions] at this
  exact this

/-- ... the LP tokens it has issued are at most the liquidity of its positions, ... -/
theorem C104_backed {w0 w v : World} {authority lp x y tick : Nat} (h0 : Reachable w0)
    (hi : w0.initializePool authority lp x y tick = .ok w) (h : Steps w v) :
    ∃ p, mapGet lp v.pools = some p ∧ (v.supply lp : ℚ) - w0.supply lp ≤ (p.positions.map fun e => e.2.amount).sum := by
  obtain ⟨a, hh⟩ := h.history lp (fun _ => true)
  obtain ⟨p, s, h1, _, _, _, h5, h6⟩ := C104_history h0 hi hh
  have := C57_backed h5.reachable
  unfold Chain.totalLiquidity Chain.sumPos at this
  rw [h6.supply, h6.positions] at this
  simp only [one_mul] at this
  exact ⟨p, h1, this⟩

/-- ... and no group of users takes out more of a pool than it paid in and one X and one Y per deposit. -/
theorem C104_takes {w0 w v : World} {authority lp x y tick : Nat} {who : Nat → Bool} {a : Account} (h0 : Reachable w0)
    (hi : w0.initializePool authority lp x y tick = .ok w) (h : History lp who w v a) (hd : a.deposits < 10 ^ 12) :
    a.takenX ≤ a.paidX + a.deposits ∧ a.takenY ≤ a.paidY + a.deposits := by
  obtain ⟨p, s, _, _, _, _, h5, _⟩ := C104_history h0 hi h
  exact C59_whole_partial h5 hd

/-- A user deposits into a pool, and its LP tokens into a second pool. -/
def twice : List Act := start ++ [.program (.deposit 100 (user 1 1 2 3) 10 30 20 100 100),
  .program (.deposit 200 (user 1 3 2 4) 10 30 20 100 100)]

example : ∃ v, Reachable v ∧ v.balance (.vault 1 100) = 99 ∧ v.balance (.vault 100 200) = 99 ∧
    v.balance (.key 13) = 199761 ∧ v.supply 100 = 199860 ∧ v.supply 200 = 199860 ∧
    v.pools.map (fun e => (e.1, e.2.gs.liq)) = [(100, 199860057188516372), (200, 199860057188516372), (300, 0)] := by
  obtain ⟨v, h, e⟩ := holds_reachable (as := twice) (p := fun v => decide (v.balance (.vault 1 100) = 99 ∧
    v.balance (.vault 100 200) = 99 ∧ v.balance (.key 13) = 199761 ∧ v.supply 100 = 199860 ∧ v.supply 200 = 199860 ∧
    v.pools.map (fun e => (e.1, e.2.gs.liq)) = [(100, 199860057188516372), (200, 199860057188516372), (300, 0)]))
    (by decide +kernel)
  exact ⟨v, h, of_decide_eq_true e⟩

/-! ### C105: pools do not touch each other -/

/-- An instruction changes nothing of the other pools: not their accounts, not the mints, except its own pool's LP mint,
and no vault of another pool loses anything. -/
theorem C105_pools {w v : World} (hr : Reachable w) {i : Instr} (h : w.exec i = .ok v) {q : Nat} (hq : q ≠ i.lp) :
    mapGet q v.pools = mapGet q w.pools ∧ mapGet q v.mints = mapGet q w.mints ∧
    ∀ p, mapGet q w.pools = some p → w.balance (.vault p.xMint q) ≤ v.balance (.vault p.xMint q) ∧
      w.balance (.vault p.yMint q) ≤ v.balance (.vault p.yMint q) ∧ w.balance (.lpVault q) ≤ v.balance (.lpVault q) := by
  have hg : ∀ p, mapGet q w.pools = some p → Guarded w q p.xMint p.yMint := fun _ hp => (hr.guarded hp).1
  have key : ∀ {E : Addr → Prop}, Secure E w v → (∀ m, ¬ E (.vault m q)) → ¬ E (.lpVault q) → ∀ p, mapGet q w.pools = some p →
      w.balance (.vault p.xMint q) ≤ v.balance (.vault p.xMint q) ∧
      w.balance (.vault p.yMint q) ≤ v.balance (.vault p.yMint q) ∧ w.balance (.lpVault q) ≤ v.balance (.lpVault q) := by
    intro E hs hE hE' p hp
    obtain ⟨⟨a, a1, _, a3, a4⟩, ⟨b, b1, _, b3, b4⟩, ⟨c, c1, _, c3, c4⟩, _, _⟩ := hg p hp
    obtain ⟨a', k1, _, _, _, k2⟩ := hs _ _ _ (hE _) a1 a3 a4
    obtain ⟨b', l1, _, _, _, l2⟩ := hs _ _ _ (hE _) b1 b3 b4
    obtain ⟨c', n1, _, _, _, n2⟩ := hs _ _ _ hE' c1 c3 c4
    rw [balance_some a1, balance_some k1, balance_some b1, balance_some l1, balance_some c1, balance_some n1]
    exact ⟨k2, l2, n2⟩
  cases i with
  | initializePool a lp x y t =>
    obtain ⟨h1, h2⟩ := initializePool_secure (E := fun _ => False) h
    obtain ⟨mt, s, _, _, _, _, _, _, _, _, _, _, e⟩ := initializePool_ok h
    exact ⟨by rw [e]; exact mapGet_set_other hq _ _, by rw [h2], key h1 (fun _ h => h) (fun h => h)⟩
  | initializeBitmap lp =>
    obtain ⟨p, _, _, e⟩ := initializeBitmap_ok h
    exact ⟨by rw [e]; exact mapGet_set_other hq _ _, by rw [e],
      key (E := fun _ => False) (secure_of_tokens (by rw [e])) (fun _ h => h) (fun h => h)⟩
  | initializeTick lp t =>
    obtain ⟨p, _, _, e⟩ := initializeTick_ok h
    exact ⟨by rw [e]; exact mapGet_set_other hq _ _, by rw [e],
      key (E := fun _ => False) (secure_of_tokens (by rw [e])) (fun _ h => h) (fun h => h)⟩
  | createPosition lp u l k =>
    obtain ⟨p, _, _, _, e⟩ := createPosition_ok h
    exact ⟨by rw [e]; exact mapGet_set_other hq _ _, by rw [e],
      key (E := fun _ => False) (secure_of_tokens (by rw [e])) (fun _ h => h) (fun h => h)⟩
  | deposit lp c l k cur x y =>
    simp only [exec, bind_ok, pure_ok] at h
    obtain ⟨⟨v', m⟩, h, rfl⟩ := h
    obtain ⟨p, s, mt, _, _, h1, _, _, _, h2, _⟩ := deposit_effect h
    exact ⟨by rw [h1]; exact mapGet_set_other hq _ _, by rw [h2]; exact mapGet_set_other hq _ _,
      key (E := fun _ => False) (deposit_secure h) (fun _ h => h) (fun h => h)⟩
  | withdraw lp c l k cur n =>
    simp only [exec, bind_ok, pure_ok] at h
    obtain ⟨⟨v', m⟩, h, rfl⟩ := h
    obtain ⟨p, s, mt, h0, _, h1, _, _, _, h2, _⟩ := withdraw_effect h
    have hq' : q ≠ lp := hq
    exact ⟨by rw [h1]; exact mapGet_set_other hq _ _, by rw [h2]; exact mapGet_set_other hq _ _,
      key (withdraw_secure h0 h) (by simp [hq']) (by simp)⟩

/-- An instruction lowers the balance of a token account only if it is a deposit and the account belongs to its signer,
or a withdrawal and the account belongs to its signer, has them as its delegate, or is a vault of the pool withdrawn
from. -/
theorem C105_loss {w v : World} {i : Instr} (h : w.exec i = .ok v) {a : Addr} (hl : v.balance a < w.balance a) :
    ∃ t, mapGet a w.tokens = some t ∧
      ((∃ lp c l k cur x y, i = .deposit lp c l k cur x y ∧ t.owner = .user c.user) ∨
       (∃ lp c l k cur n p, i = .withdraw lp c l k cur n ∧ mapGet lp w.pools = some p ∧
        (t.owner = .user c.user ∨ (∃ n, t.delegate = some (.user c.user, n)) ∨ a = .vault p.xMint lp ∨
          a = .vault p.yMint lp))) := by
  have nope : v.tokens = w.tokens → False := by
    intro e
    unfold balance at hl
    rw [e] at hl
    exact lt_irrefl _ hl
  cases i with
  | initializePool b lp x y t =>
    exfalso
    obtain ⟨mt, s, _, _, _, _, _, h1, h2, h3, h4, _, e⟩ := initializePool_ok h
    rw [e] at hl
    simp only [balance] at hl
    by_cases e1 : a = .lpVault lp
    · subst e1; rw [mapGet_set_same, h3] at hl; simp at hl
    rw [mapGet_set_other e1] at hl
    by_cases e2 : a = .vault y lp
    · subst e2; rw [mapGet_set_same, h2] at hl; simp at hl
    rw [mapGet_set_other e2] at hl
    by_cases e3 : a = .vault x lp
    · subst e3; rw [mapGet_set_same, h1] at hl; simp at hl
    rw [mapGet_set_other e3] at hl
    exact lt_irrefl _ hl
  | initializeBitmap lp =>
    obtain ⟨p, _, _, e⟩ := initializeBitmap_ok h
    exact (nope (by rw [e])).elim
  | initializeTick lp t =>
    obtain ⟨p, _, _, e⟩ := initializeTick_ok h
    exact (nope (by rw [e])).elim
  | createPosition lp u l k =>
    obtain ⟨p, _, _, _, e⟩ := createPosition_ok h
    exact (nope (by rw [e])).elim
  | deposit lp c l k cur x y =>
    simp only [exec, bind_ok, pure_ok] at h
    obtain ⟨⟨v', m⟩, h, rfl⟩ := h
    obtain ⟨p, s, mt, _, hp, _, _, _, _, _, hm, _⟩ := deposit_effect h
    have hb := hm.balance a
    obtain ⟨tx, x1, _, x3⟩ := hp.tokenX
    obtain ⟨ty, y1, _, y3⟩ := hp.tokenY
    by_cases e1 : a = c.tokenX
    · exact ⟨tx, by rw [e1]; exact x1, .inl ⟨lp, c, l, k, cur, x, y, rfl, x3⟩⟩
    by_cases e2 : a = c.tokenY
    · exact ⟨ty, by rw [e2]; exact y1, .inl ⟨lp, c, l, k, cur, x, y, rfl, y3⟩⟩
    exfalso
    simp only [at_, if_neg e1, if_neg e2] at hb
    simp only at hl
    split at hb <;> split at hb <;> split at hb <;> omega
  | withdraw lp c l k cur n =>
    simp only [exec, bind_ok, pure_ok] at h
    obtain ⟨⟨v', m⟩, h, rfl⟩ := h
    obtain ⟨p, s, mt, h0, hp, _, _, _, _, _, hm, _⟩ := withdraw_effect h
    have hb := hm.balance a
    obtain ⟨tx, x1⟩ := hp.vaultX
    obtain ⟨ty, y1⟩ := hp.vaultY
    by_cases e1 : a = .vault p.xMint lp
    · exact ⟨tx, by rw [e1]; exact x1, .inr ⟨lp, c, l, k, cur, n, p, rfl, h0, .inr (.inr (.inl e1))⟩⟩
    by_cases e2 : a = .vault p.yMint lp
    · exact ⟨ty, by rw [e2]; exact y1, .inr ⟨lp, c, l, k, cur, n, p, rfl, h0, .inr (.inr (.inr e2))⟩⟩
    by_cases e3 : a = c.lp
    · obtain ⟨_, _, w1, _, _, _, _, _, hb, _⟩ := withdraw_ok h
      obtain ⟨_, ta, ta', _, g2, _, _, _, g4, _⟩ := burn_ok hb
      refine ⟨ta, by rw [e3]; exact g2, .inr ⟨lp, c, l, k, cur, n, p, rfl, h0, ?_⟩⟩
      rcases (spend_ok g4).2 with g | ⟨j, g, _⟩
      · exact .inl g
      · exact .inr (.inl ⟨j, g⟩)
    exfalso
    simp only [at_, if_neg e1, if_neg e2, if_neg e3] at hb
    simp only at hl
    split at hb <;> split at hb <;> omega

/-- The token program, signed by anybody, changes no pool, takes nothing from the vaults, and issues no LP tokens. -/
theorem C105_token {w v : World} (hr : Reachable w) {who : Nat} {i : TokenInstr} (h : w.tokenExec who i = .ok v) :
    v.pools = w.pools ∧ ∀ lp p, mapGet lp w.pools = some p → v.supply lp ≤ w.supply lp ∧
      w.balance (.vault p.xMint lp) ≤ v.balance (.vault p.xMint lp) ∧
      w.balance (.vault p.yMint lp) ≤ v.balance (.vault p.yMint lp) := by
  refine ⟨(tokenExec_secure (E := fun _ => False) h).2, fun lp p hp => ?_⟩
  obtain ⟨w0, w1, a, x, y, tick, h0, hi, hs⟩ := hr.origin hp
  obtain ⟨acc, hh⟩ := hs.history lp (fun _ => true)
  obtain ⟨p', s, h1, _, rfl, rfl, h5, h6, h7, _⟩ := hh.tracked h0.small hi
  rw [hp] at h1; cases h1
  obtain ⟨s', k1, k2⟩ := h6.token h7 h
  refine ⟨?_, ?_, ?_⟩
  · rw [← k2.supply, ← h6.supply]; exact k1.supply
  · rw [← k2.vaultX, ← h6.vaultX]; exact k1.vaultX
  · rw [← k2.vaultY, ← h6.vaultY]; exact k1.vaultY

/-- The second deposit of `twice` takes 99 of the first pool's LP tokens from the signer and nothing from its vaults. -/
example : ∃ w, Reachable w ∧ ∃ v, w.exec (.deposit 200 (user 1 3 2 4) 10 30 20 100 100) = .ok v ∧
    w.balance (.key 13) = 199860 ∧ v.balance (.key 13) = 199761 ∧ v.balance (.vault 1 100) = 99 := by
  obtain ⟨w, h, e⟩ := holds_reachable (as := start ++ [.program (.deposit 100 (user 1 1 2 3) 10 30 20 100 100)])
    (p := fun w => match w.exec (.deposit 200 (user 1 3 2 4) 10 30 20 100 100) with
      | .ok v => decide (w.balance (.key 13) = 199860 ∧ v.balance (.key 13) = 199761 ∧ v.balance (.vault 1 100) = 99)
      | .error _ => false) (by decide +kernel)
  split at e
  · next v hv => exact ⟨w, h, v, hv, of_decide_eq_true e⟩
  · cases e

/-! ### C106: exactly who pays and who receives -/

/-- A deposit changes the balances of all token accounts on the ledger exactly so: the LP account receives the LP tokens,
the vaults receive X and Y, at most what was offered, and the signer's accounts pay them. -/
theorem C106_deposit {w v : World} (hr : Reachable w) {lp : Nat} {p : PoolAcc} (hp : mapGet lp w.pools = some p)
    {c : Accounts} {lower upper current x y : Nat} {m : Moved}
    (h : w.deposit lp c lower upper current x y = .ok (v, m)) :
    m.x ≤ x ∧ m.y ≤ y ∧ v.supply lp = w.supply lp + m.lp ∧
    (∀ a, (v.balance a : ℤ) = w.balance a + (if a = c.lp then (m.lp : ℤ) else 0) +
      (if a = .vault p.xMint lp then (m.x : ℤ) else 0) - (if a = c.tokenX then (m.x : ℤ) else 0) +
      (if a = .vault p.yMint lp then (m.y : ℤ) else 0) - (if a = c.tokenY then (m.y : ℤ) else 0)) ∧
    (∀ a, (mapGet a v.tokens).map (fun t => (t.mint, t.owner, t.frozen)) =
      (mapGet a w.tokens).map (fun t => (t.mint, t.owner, t.frozen))) ∧
    ∀ q, q ≠ lp → mapGet q v.mints = mapGet q w.mints := by
  obtain ⟨p', s, mt, h0, _, _, h1, _, _, h2, hm, _⟩ := deposit_effect h
  rw [hp] at h0; cases h0
  obtain ⟨w0, w1, a, x', y', tick, g0, hi, hs⟩ := hr.origin hp
  obtain ⟨acc, hh⟩ := hs.history lp (fun _ => true)
  obtain ⟨p', s', g1, _, rfl, rfl, g5, g6, g7, g8⟩ := hh.tracked g0.small hi
  rw [hp] at g1; cases g1
  obtain ⟨_, s1, s2, _, c', _, _, _, _, k5, k6, k7, _⟩ := g6.deposit hp g7 g8 h
  have hd := C58_debit (g5.external k5).reachable k7
  refine ⟨hd.1, hd.2.1, ?_, fun a => ?_, fun a => ?_, fun q hq => by rw [h2, mapGet_set_other hq]⟩
  · rw [supply_set h2, if_pos rfl, supply_some h1]
  · rw [hm.balance a]
    simp only [at_]
    ring
  · cases ha : mapGet a w.tokens with
    | none => rw [(hm.absent ha).1]
    | some t =>
      obtain ⟨n, k, e1, _⟩ := hm.present ha
      rw [e1]; rfl

/-- A withdrawal: the LP account pays the LP tokens, the vaults pay X and Y, and the signer's accounts receive them. -/
theorem C106_withdraw {w v : World} {lp : Nat} {p : PoolAcc} (hp : mapGet lp w.pools = some p) {c : Accounts}
    {lower upper current n : Nat} {m : Moved} (h : w.withdraw lp c lower upper current n = .ok (v, m)) :
    m.lp = n ∧ v.supply lp + n = w.supply lp ∧
    (∀ a, (v.balance a : ℤ) = w.balance a - (if a = c.lp then (n : ℤ) else 0) -
      (if a = .vault p.xMint lp then (m.x : ℤ) else 0) + (if a = c.tokenX then (m.x : ℤ) else 0) -
      (if a = .vault p.yMint lp then (m.y : ℤ) else 0) + (if a = c.tokenY then (m.y : ℤ) else 0)) ∧
    (∀ a, (mapGet a v.tokens).map (fun t => (t.mint, t.owner, t.frozen)) =
      (mapGet a w.tokens).map (fun t => (t.mint, t.owner, t.frozen))) ∧
    ∀ q, q ≠ lp → mapGet q v.mints = mapGet q w.mints := by
  obtain ⟨p', s, mt, h0, _, _, hn, h1, h3, h2, hm, _⟩ := withdraw_effect h
  rw [hp] at h0; cases h0
  refine ⟨hn, ?_, fun a => ?_, fun a => ?_, fun q hq => by rw [h2, mapGet_set_other hq]⟩
  · rw [supply_set h2, if_pos rfl, supply_some h1]
    exact Nat.sub_add_cancel h3
  · rw [hm.balance a]
    simp only [at_]
    ring
  · cases ha : mapGet a w.tokens with
    | none => rw [(hm.absent ha).1]
    | some t =>
      obtain ⟨n, k, e1, _⟩ := hm.present ha
      rw [e1]; rfl

example : ∃ w, Reachable w ∧ ∃ v m, w.withdraw 100 (user 1 1 2 3) 10 30 20 100000 = .ok (v, m) ∧ m = ⟨49, 50, 100000⟩ ∧
    v.balance (.key 13) = 99860 ∧ v.balance (.key 11) = 950 ∧ v.balance (.vault 1 100) = 50 := by
  obtain ⟨w, h, e⟩ := holds_reachable (as := start ++ [.program (.deposit 100 (user 1 1 2 3) 10 30 20 100 100)])
    (p := fun w => match w.withdraw 100 (user 1 1 2 3) 10 30 20 100000 with
      | .ok (v, m) => decide (m = ⟨49, 50, 100000⟩ ∧ v.balance (.key 13) = 99860 ∧ v.balance (.key 11) = 950 ∧
        v.balance (.vault 1 100) = 50)
      | .error _ => false) (by decide +kernel)
  split at e
  · next v m hv => exact ⟨w, h, v, m, hv, of_decide_eq_true e⟩
  · cases e

/-! ### C107: no token appears or disappears -/

/-- On every ledger the balances of all accounts of a mint add up to its supply, and each is a 64-bit number. -/
theorem C107_conserved {w : World} (h : Reachable w) (m : Nat) :
    w.held m = w.supply m ∧ ∀ a, w.balance a < u64Size := by
  refine ⟨h.booked.sums m, fun a => ?_⟩
  unfold balance
  cases ha : mapGet a w.tokens with
  | none => simp [u64Size]
  | some t => exact h.small a t ha

/-- A deposit adds its LP tokens to those in existence, and nothing else. -/
theorem C107_mint {w v : World} (h : Reachable w) {lp : Nat} {c : Accounts} {lower upper current x y : Nat} {mv : Moved}
    (hd : w.deposit lp c lower upper current x y = .ok (v, mv)) (m : Nat) :
    v.held m = w.held m + if m = lp then (mv.lp : ℚ) else 0 := by
  have hv : Reachable v := h.step (.program (.deposit lp c lower upper current x y) (by simp only [exec, hd, bind_eq]; rfl))
  obtain ⟨p, s, mt, _, _, _, h1, _, _, h2, _⟩ := deposit_effect hd
  rw [hv.booked.sums, h.booked.sums, supply_set h2]
  split
  · rename_i e; subst e; rw [supply_some h1]; push_cast; rfl
  · ring

example : ∃ v, Reachable v ∧ v.held 1 = 2000 ∧ v.held 100 = 199860 := by
  obtain ⟨v, h, e⟩ := holds_reachable (as := twice) (p := fun v => decide (v.supply 1 = 2000 ∧ v.supply 100 = 199860))
    (by decide +kernel)
  obtain ⟨e1, e2⟩ := of_decide_eq_true e
  refine ⟨v, h, ?_, ?_⟩
  · rw [(C107_conserved h 1).1, e1]; norm_num
  · rw [(C107_conserved h 100).1, e2]; norm_num

/-! ### C108: a pool's identity -/

/-- Once made, a pool keeps its authority, mints and vaults through all later steps, it stays the only one to issue its LP
mint, and no second pool can be made for that mint. -/
theorem C108_forever {w0 w v : World} {authority lp x y tick : Nat} (h0 : Reachable w0)
    (hi : w0.initializePool authority lp x y tick = .ok w) (h : Steps w v) :
    ∃ p mt tx ty, mapGet lp v.pools = some p ∧ p.authority = authority ∧ p.xMint = x ∧ p.yMint = y ∧ p.gs.tick = tick ∧
      mapGet lp v.mints = some mt ∧ mt.authority = some (.pool lp) ∧
      mapGet (.vault x lp) v.tokens = some tx ∧ tx.mint = x ∧ tx.owner = .pool lp ∧ tx.delegate = none ∧
      mapGet (.vault y lp) v.tokens = some ty ∧ ty.mint = y ∧ ty.owner = .pool lp ∧ ty.delegate = none ∧ x ≠ y ∧
      ∀ a x' y' t u, v.initializePool a lp x' y' t ≠ .ok u := by
  have htick : ∀ {v}, Steps w v → ∀ p, mapGet lp v.pools = some p → p.gs.tick = tick := by
    intro v h p hp
    obtain ⟨acc, hh⟩ := h.history lp (fun _ => true)
    clear h
    induction hh generalizing p with
    | refl =>
      obtain ⟨mt, s, _, _, _, _, _, _, _, _, _, e1, e⟩ := initializePool_ok hi
      rw [e, mapGet_set_same] at hp; cases hp
      exact (initPool_ok e1).2.1
    | @deposit v u a c lower upper current xa ya m hh hd ih =>
      obtain ⟨p0, s, h1, _, rfl, rfl, h5, h6, h7, h8⟩ := hh.tracked h0.small hi
      obtain ⟨p', s1, s2, s3, c', k1, k2, k3, k4, k5, k6, k7, k8, k9⟩ := h6.deposit h1 h7 h8 hd
      rw [hp] at k1; cases k1
      obtain ⟨d, _, _, _, _, z⟩ := (Good.reachable (h5.external k5).reachable).deposit k7
      rw [← k9.gs, k8.gs, show s2.gs = d.g by rw [z.raw.result]; rfl, z.gTick, k5.gs, h6.gs]
      exact ih _ h1
    | @withdraw v u a c lower upper current n m hh hd ih =>
      obtain ⟨p0, s, h1, _, rfl, rfl, h5, h6, h7, h8⟩ := hh.tracked h0.small hi
      obtain ⟨p', s1, s2, c', k1, k2, k3, k4, k5, k6, k7, k9⟩ := h6.withdraw h1 h7 h8 hd
      rw [hp] at k1; cases k1
      obtain ⟨d, _, _, _, z⟩ := (Good.reachable (h5.external k5).reachable).withdraw k7
      rw [← k9.gs, show s2.gs = d.g by rw [z.raw.result]; rfl, z.gTick, k5.gs, h6.gs]
      exact ih _ h1
    | @program v u a i hn hh he ih =>
      obtain ⟨p0, s, h1, _, rfl, rfl, h5, h6, h7, h8⟩ := hh.tracked h0.small hi
      obtain ⟨p', s', k1, _, k5, k6⟩ := h6.program h1 h7 hn he
      rw [hp] at k1; cases k1
      have : s'.gs = s.gs := by
        clear k6 h5 h6
        induction k5 with
        | refl => rfl
        | external _ e ih => rw [e.gs, ih]
        | bitmap _ e ih => obtain ⟨_, rfl⟩ := OnChain.initializeBitmap_ok.1 e; exact ih
        | tick _ e ih => obtain ⟨_, rfl⟩ := OnChain.initializeTick_ok.1 e; exact ih
        | position _ e ih => obtain ⟨_, _, _, _, rfl⟩ := OnChain.createPosition_ok e; exact ih
      rw [← k6.gs, this, h6.gs]
      exact ih _ h1
    | @token v u a signer i hh he ih =>
      rw [(tokenExec_secure (E := fun _ => False) he).2] at hp
      exact ih _ hp
  obtain ⟨acc, hh⟩ := h.history lp (fun _ => true)
  obtain ⟨p, s, h1, h2, h3, h4, h5, h6, ⟨⟨tx, a1, a2, a3, a4⟩, ⟨ty, b1, b2, b3, b4⟩, _, ⟨mt, m1, m2⟩, hne⟩, _⟩ :=
    hh.tracked h0.small hi
  refine ⟨p, mt, tx, ty, h1, h2, h3, h4, htick h p h1, m1, m2, a1, a2, a3, a4, b1, b2, b3, b4, hne, ?_⟩
  intro a x' y' t u hu
  obtain ⟨_, _, e, _⟩ := initializePool_ok hu
  rw [h1] at e; cases e

/-- How the LP supply of a pool changes in one step: a deposit into the pool adds what it mints, a withdrawal from it
takes away what it burns, every other instruction of the program leaves it, and the token program can only burn. -/
theorem C108_supply {w v : World} (hr : Reachable w) {lp : Nat} {p : PoolAcc} (hp : mapGet lp w.pools = some p)
    (h : Step w v) :
    (∃ c lower upper current x y m, w.deposit lp c lower upper current x y = .ok (v, m) ∧
      v.supply lp = w.supply lp + m.lp) ∨
    (∃ c lower upper current n m, w.withdraw lp c lower upper current n = .ok (v, m) ∧ v.supply lp + n = w.supply lp) ∨
    (∃ i, w.exec i = .ok v ∧ v.supply lp = w.supply lp) ∨
    (∃ who i, w.tokenExec who i = .ok v ∧ v.supply lp ≤ w.supply lp) := by
  cases h with
  | token who i h => exact .inr (.inr (.inr ⟨who, i, h, ((C105_token hr h).2 lp p hp).1⟩))
  | program i h =>
    by_cases hq : lp = i.lp
    · subst hq
      cases i with
      | initializePool a lp x y t =>
        obtain ⟨_, h2⟩ := initializePool_secure (E := fun _ => False) h
        exact .inr (.inr (.inl ⟨_, h, by unfold supply; rw [h2]⟩))
      | initializeBitmap lp =>
        obtain ⟨p, _, _, e⟩ := initializeBitmap_ok h
        exact .inr (.inr (.inl ⟨_, h, by unfold supply; rw [e]⟩))
      | initializeTick lp t =>
        obtain ⟨p, _, _, e⟩ := initializeTick_ok h
        exact .inr (.inr (.inl ⟨_, h, by unfold supply; rw [e]⟩))
      | createPosition lp u l k =>
        obtain ⟨p, _, _, _, e⟩ := createPosition_ok h
        exact .inr (.inr (.inl ⟨_, h, by unfold supply; rw [e]⟩))
      | deposit lp c l k cur x y =>
        simp only [exec, bind_ok, pure_ok] at h
        obtain ⟨⟨v', m⟩, h, rfl⟩ := h
        exact .inl ⟨c, l, k, cur, x, y, m, h, (C106_deposit hr hp h).2.2.1⟩
      | withdraw lp c l k cur n =>
        simp only [exec, bind_ok, pure_ok] at h
        obtain ⟨⟨v', m⟩, h, rfl⟩ := h
        exact .inr (.inl ⟨c, l, k, cur, n, m, h, (C106_withdraw hp h).2.1⟩)
    · exact .inr (.inr (.inl ⟨i, h, by unfold supply; rw [(C105_pools hr h hq).2.1]⟩))

/-- A second `initialize_pool` for the LP mint 100 fails; so does one by a user who names the same mint for X and Y. -/
example : holds start (fun w => decide ((w.initializePool 7 100 1 2 20).isOk = false)) = true := by decide +kernel
example : holds base (fun w => decide ((w.initializePool 7 100 1 1 20).isOk = false) &&
    (w.initializePool 7 100 1 2 20).isOk) = true := by decide +kernel

/-! ### C109: a deposit is paid with what the depositor has -/

/-- The full claim. -/
def C109_statement : Prop := ∀ w, Reachable w → ∀ lp c lower upper current x y v m,
  w.deposit lp c lower upper current x y = .ok (v, m) → m.x ≤ w.balance c.tokenX ∧ m.y ≤ w.balance c.tokenY

/-- The pool 300 was made with its own LP mint as X.  User 1, with no such token, deposits 99 of them: the LP tokens are
minted before the transfers, and pay for the deposit. -/
theorem C109_false : ¬ C109_statement := by
  intro hc
  obtain ⟨w, h, e⟩ := holds_reachable (as := start)
    (p := fun w => match w.deposit 300 (user 1 5 2 5) 10 30 20 100 100 with
      | .ok (v, m) => decide (m.x = 99 ∧ w.balance (.key 15) = 0 ∧ v.balance (.key 15) = 199761)
      | .error _ => false) (by decide +kernel)
  split at e
  · next v m hv =>
    obtain ⟨e1, e2, _⟩ := of_decide_eq_true e
    have := (hc w h _ _ _ _ _ _ _ v m hv).1
    have e3 : w.balance (user 1 5 2 5).tokenX = 0 := e2
    omega
  · cases e

/-- Missing for the full claim: pools whose X or Y mint is their own LP mint. -/
theorem C109_partial {w v : World} (hr : Reachable w) {lp : Nat} {p : PoolAcc} (hp : mapGet lp w.pools = some p)
    (hx : p.xMint ≠ lp) (hy : p.yMint ≠ lp) {c : Accounts} {lower upper current x y : Nat} {m : Moved}
    (h : w.deposit lp c lower upper current x y = .ok (v, m)) :
    m.x ≤ w.balance c.tokenX ∧ m.y ≤ w.balance c.tokenY := by
  have hxy := (hr.guarded hp).1.ne
  obtain ⟨p', s, w1, w2, w3, h0, hps, h1, h2, h3, hv, hs⟩ := deposit_ok h
  rw [hp] at h0; cases h0
  obtain ⟨tx, x1, x2, _⟩ := hps.tokenX
  obtain ⟨ty, y1, y2, _⟩ := hps.tokenY
  obtain ⟨_, _, m1⟩ := mintTo_moves h1
  obtain ⟨_, _, m2⟩ := transfer_moves h2
  obtain ⟨mt, bl, _, l1, _, l2, _⟩ := mintTo_ok h1
  obtain ⟨a, b, a', g1, g2, _, _, g3, g4, _⟩ := transfer_ok h2
  obtain ⟨a3, b3, a3', f1, f2, _, _, f3, f4, _⟩ := transfer_ok h3
  have n1 : c.tokenX ≠ c.lp := by
    intro e; rw [e, l1] at x1; cases x1; exact hx (x2.symm.trans l2)
  have n2 : c.tokenY ≠ c.lp := by
    intro e; rw [e, l1] at y1; cases y1; exact hy (y2.symm.trans l2)
  have n3 : c.tokenY ≠ c.tokenX := by
    intro e; rw [e, x1] at y1; cases y1; exact hxy (x2.symm.trans y2)
  have b1 := m1.balance c.tokenX
  have b2 := (m1.trans m2).balance c.tokenY
  rw [if_neg n1, balance_some g1] at b1
  constructor
  · omega
  · have n4 : c.tokenY ≠ .vault p.xMint lp := by
      intro e
      obtain ⟨n, k, e1, _⟩ := m1.present y1
      rw [e, g2] at e1
      have e5 : b.mint = ty.mint := by cases e1; rfl
      obtain ⟨n', k', e2, _⟩ := m1.present x1
      rw [g1] at e2
      have e6 : a.mint = tx.mint := by cases e2; rfl
      exact hxy (by rw [← x2, ← e6, g4, e5, y2])
    simp only [if_neg n2, if_neg n3, if_neg n4, balance_some f1] at b2
    omega

example : ∃ w, Reachable w ∧ ∃ p v m, mapGet 200 w.pools = some p ∧ p.xMint ≠ 200 ∧ p.yMint ≠ 200 ∧
    w.deposit 200 (user 1 3 2 4) 10 30 20 100 100 = .ok (v, m) ∧ m.x = 99 ∧ m.y = 99 := by
  obtain ⟨w, h, e⟩ := holds_reachable (as := start ++ [.program (.deposit 100 (user 1 1 2 3) 10 30 20 100 100)])
    (p := fun w => decide ((mapGet 200 w.pools).map (fun p => (p.xMint, p.yMint)) = some (100, 2)) &&
      match w.deposit 200 (user 1 3 2 4) 10 30 20 100 100 with
      | .ok (_, m) => decide (m.x = 99 ∧ m.y = 99)
      | .error _ => false) (by decide +kernel)
  rw [Bool.and_eq_true, decide_eq_true_eq] at e
  obtain ⟨e1, e⟩ := e
  obtain ⟨p, e1, e2⟩ := Option.map_eq_some_iff.1 e1
  rw [Prod.mk.injEq] at e2
  split at e
  · next v m hv =>
    exact ⟨w, h, p, v, m, e1, by omega, by omega, hv, of_decide_eq_true e⟩
  · cases e

end Hmm.OnChain.World
