import Verif.Spec.World
import Verif.Proofs.OnChain

/-
Inversion of the token program and of the handlers on a ledger with many pools.
-/

namespace Hmm.OnChain.World

open Decimal PoolMath

theorem spend_ok {a a' : Token} {who : Party} {n : Nat} (h : spend a who n = .ok a') :
    a' = { a with delegate := a'.delegate } ∧ (a.owner = who ∨ ∃ k, a.delegate = some (who, k) ∧ n ≤ k) := by
  unfold spend at h
  split at h
  · rename_i d k hd
    split at h
    · rename_i hw
      subst hw
      split at h
      · simp [rerr] at h
      · cases h
        exact ⟨rfl, .inr ⟨k, hd, by omega⟩⟩
    · split at h
      · cases h; exact ⟨rfl, .inl ‹_›⟩
      · simp [rerr] at h
  · split at h
    · cases h; exact ⟨rfl, .inl ‹_›⟩
    · simp [rerr] at h

/-- An account without delegate can be spent from by its owner only. -/
theorem spend_owner {a a' : Token} {who : Party} {n : Nat} (h : spend a who n = .ok a') (hd : a.delegate = none) :
    a.owner = who ∧ a' = a := by
  unfold spend at h
  rw [hd] at h
  simp only at h
  split at h
  · cases h; exact ⟨‹_›, rfl⟩
  · simp [rerr] at h

theorem transfer_ok {w v : World} {src dst : Addr} {who : Party} {n : Nat} (h : w.transfer src dst who n = .ok v) :
    ∃ a b a', mapGet src w.tokens = some a ∧ mapGet dst w.tokens = some b ∧ a.frozen = false ∧ b.frozen = false ∧
      n ≤ a.amount ∧ a.mint = b.mint ∧ spend a who n = .ok a' ∧
      ((src = dst ∧ v = w) ∨ (src ≠ dst ∧ b.amount + n < u64Size ∧
        v = World.mk w.pools w.mints (mapSet dst { b with amount := b.amount + n }
                (mapSet src { a' with amount := a.amount - n } w.tokens)))) := by
  unfold transfer at h
  rw [bind_ok] at h; obtain ⟨a, h1, h⟩ := h
  rw [bind_ok] at h; obtain ⟨b, h2, h⟩ := h
  rw [load_ok] at h1 h2
  rw [ite_ok] at h; rcases h with ⟨_, h⟩ | ⟨h3, h⟩; · simp [rerr] at h
  rw [ite_ok] at h; rcases h with ⟨_, h⟩ | ⟨h4, h⟩; · simp [rerr] at h
  rw [ite_ok] at h; rcases h with ⟨_, h⟩ | ⟨h5, h⟩; · simp [rerr] at h
  rw [bind_ok] at h; obtain ⟨a', h6, h⟩ := h
  simp only [Bool.or_eq_true, not_or, Bool.not_eq_true] at h3
  refine ⟨a, b, a', h1, h2, h3.1, h3.2, by omega, by simpa using h5, h6, ?_⟩
  rw [ite_ok] at h; rcases h with ⟨h7, h⟩ | ⟨h7, h⟩
  · rw [pure_ok] at h; exact .inl ⟨h7, h.symm⟩
  · rw [ite_ok] at h; rcases h with ⟨h8, h⟩ | ⟨_, h⟩
    · rw [pure_ok] at h; exact .inr ⟨h7, h8, h.symm⟩
    · simp [rerr] at h

theorem mintTo_ok {w v : World} {mint : Nat} {dst : Addr} {who : Party} {n : Nat} (h : w.mintTo mint dst who n = .ok v) :
    ∃ m b, mapGet mint w.mints = some m ∧ mapGet dst w.tokens = some b ∧ b.frozen = false ∧ b.mint = mint ∧
      m.authority = some who ∧ b.amount + n < u64Size ∧ m.supply + n < u64Size ∧
      v = { w with mints := mapSet mint { m with supply := m.supply + n } w.mints,
                   tokens := mapSet dst { b with amount := b.amount + n } w.tokens } := by
  unfold mintTo at h
  rw [bind_ok] at h; obtain ⟨m, h1, h⟩ := h
  rw [bind_ok] at h; obtain ⟨b, h2, h⟩ := h
  rw [load_ok] at h1 h2
  rw [ite_ok] at h; rcases h with ⟨_, h⟩ | ⟨h3, h⟩; · simp [rerr] at h
  rw [ite_ok] at h; rcases h with ⟨_, h⟩ | ⟨h4, h⟩; · simp [rerr] at h
  rw [ite_ok] at h; rcases h with ⟨_, h⟩ | ⟨h5, h⟩; · simp [rerr] at h
  rw [ite_ok] at h; rcases h with ⟨h6, h⟩ | ⟨_, h⟩
  · rw [pure_ok] at h
    exact ⟨m, b, h1, h2, by simpa using h3, by simpa using h4, by simpa using h5, h6.1, h6.2, h.symm⟩
  · simp [rerr] at h

theorem burn_ok {w v : World} {mint : Nat} {src : Addr} {who : Party} {n : Nat} (h : w.burn mint src who n = .ok v) :
    ∃ m a a', mapGet mint w.mints = some m ∧ mapGet src w.tokens = some a ∧ a.frozen = false ∧ n ≤ a.amount ∧
      a.mint = mint ∧ spend a who n = .ok a' ∧ n ≤ m.supply ∧
      v = { w with mints := mapSet mint { m with supply := m.supply - n } w.mints,
                   tokens := mapSet src { a' with amount := a.amount - n } w.tokens } := by
  unfold burn at h
  rw [bind_ok] at h; obtain ⟨m, h1, h⟩ := h
  rw [bind_ok] at h; obtain ⟨a, h2, h⟩ := h
  rw [load_ok] at h1 h2
  rw [ite_ok] at h; rcases h with ⟨_, h⟩ | ⟨h3, h⟩; · simp [rerr] at h
  rw [ite_ok] at h; rcases h with ⟨_, h⟩ | ⟨h4, h⟩; · simp [rerr] at h
  rw [ite_ok] at h; rcases h with ⟨_, h⟩ | ⟨h5, h⟩; · simp [rerr] at h
  rw [bind_ok] at h; obtain ⟨a', h6, h⟩ := h
  rw [ite_ok] at h; rcases h with ⟨h7, h⟩ | ⟨_, h⟩
  · rw [pure_ok] at h
    exact ⟨m, a, a', h1, h2, by simpa using h3, by omega, by simpa using h5, h6, h7, h.symm⟩
  · simp [rerr] at h

/-! ### The effect of the token program on accounts -/

/-- The token accounts of `v` are those of `w`, with the same mints, owners and frozen marks, and balances changed by
`d`. -/
def Moves (w v : World) (d : Addr → ℤ) : Prop :=
  ∀ a, match mapGet a w.tokens with
    | none => mapGet a v.tokens = none ∧ d a = 0
    | some t => ∃ n k, mapGet a v.tokens = some { t with amount := n, delegate := k } ∧ (n : ℤ) = t.amount + d a ∧
        (t.delegate = none → k = none)

theorem Moves.absent {w v : World} {d : Addr → ℤ} (h : Moves w v d) {a : Addr} (ha : mapGet a w.tokens = none) :
    mapGet a v.tokens = none ∧ d a = 0 := by
  have := h a; rw [ha] at this; exact this

theorem Moves.present {w v : World} {d : Addr → ℤ} (h : Moves w v d) {a : Addr} {t : Token} (ha : mapGet a w.tokens = some t) :
    ∃ n k, mapGet a v.tokens = some { t with amount := n, delegate := k } ∧ (n : ℤ) = t.amount + d a ∧
        (t.delegate = none → k = none) := by
  have := h a; rw [ha] at this; exact this

theorem Moves.refl {w v : World} (e : v.tokens = w.tokens) : Moves w v fun _ => 0 := by
  intro a
  rw [e]
  cases mapGet a w.tokens with
  | none => exact ⟨rfl, rfl⟩
  | some t => exact ⟨t.amount, t.delegate, rfl, by simp, fun h => h⟩

theorem Moves.trans {w v u : World} {d e : Addr → ℤ} (h : Moves w v d) (g : Moves v u e) :
    Moves w u fun a => d a + e a := by
  intro a
  cases ha : mapGet a w.tokens with
  | none =>
    obtain ⟨h1, h2⟩ := h.absent ha
    obtain ⟨h3, h4⟩ := g.absent h1
    exact ⟨h3, by simp only; rw [h2, h4]; rfl⟩
  | some t =>
    obtain ⟨n, k, h1, h2, h3⟩ := h.present ha
    obtain ⟨n', k', h4, h5, h6⟩ := g.present h1
    exact ⟨n', k', h4, by simp only at h5 ⊢; rw [h5, h2]; ring, fun e => h6 (h3 e)⟩

theorem Moves.congr {w v : World} {d e : Addr → ℤ} (h : Moves w v d) (he : ∀ a, e a = d a) : Moves w v e := by
  rw [show e = d from funext he]; exact h

theorem Moves.balance {w v : World} {d : Addr → ℤ} (h : Moves w v d) (a : Addr) :
    (v.balance a : ℤ) = w.balance a + d a := by
  unfold World.balance
  cases ha : mapGet a w.tokens with
  | none =>
    obtain ⟨h1, h2⟩ := h.absent ha
    rw [h1, h2]; rfl
  | some t =>
    obtain ⟨n, k, h1, h2, _⟩ := h.present ha
    rw [h1]; exact h2

/-- One account changed. -/
theorem moves_set {w v : World} {a : Addr} {t : Token} {n : Nat} {k : Option (Party × Nat)}
    (ha : mapGet a w.tokens = some t) (hk : t.delegate = none → k = none)
    (e : v.tokens = mapSet a { t with amount := n, delegate := k } w.tokens) :
    Moves w v fun b => if b = a then (n : ℤ) - t.amount else 0 := by
  intro b
  rw [e]
  by_cases hb : b = a
  · subst hb
    rw [ha, mapGet_set_same]
    exact ⟨n, k, rfl, by simp, hk⟩
  · simp only
    rw [mapGet_set_other hb, if_neg hb]
    cases mapGet b w.tokens with
    | none => exact ⟨rfl, rfl⟩
    | some t' => exact ⟨t'.amount, t'.delegate, rfl, by simp, fun h => h⟩

theorem spend_moves {a a' : Token} {who : Party} {n : Nat} (h : spend a who n = .ok a') :
    ∃ k, a' = { a with delegate := k } ∧ (a.delegate = none → k = none) := by
  refine ⟨a'.delegate, (spend_ok h).1, fun hd => ?_⟩
  rw [(spend_owner h hd).2, hd]

theorem transfer_moves {w v : World} {src dst : Addr} {who : Party} {n : Nat} (h : w.transfer src dst who n = .ok v) :
    v.mints = w.mints ∧ v.pools = w.pools ∧
      Moves w v fun a => (if a = dst then (n : ℤ) else 0) - if a = src then (n : ℤ) else 0 := by
  obtain ⟨a, b, a', h1, h2, _, _, h3, _, h4, h5⟩ := transfer_ok h
  rcases h5 with ⟨rfl, rfl⟩ | ⟨hne, _, rfl⟩
  · exact ⟨rfl, rfl, (Moves.refl rfl).congr fun a => by ring⟩
  · refine ⟨rfl, rfl, ?_⟩
    obtain ⟨k, rfl, hk⟩ := spend_moves h4
    have m1 := moves_set (v := { w with tokens := mapSet src { a with amount := a.amount - n, delegate := k } w.tokens })
      h1 hk rfl
    have m2 := moves_set (w := { w with tokens := mapSet src { a with amount := a.amount - n, delegate := k } w.tokens })
      (v := World.mk w.pools w.mints (mapSet dst { b with amount := b.amount + n }
        (mapSet src { a with amount := a.amount - n, delegate := k } w.tokens))) (a := dst) (t := b) (n := b.amount + n)
      (k := b.delegate) (by simp only; rw [mapGet_set_other (Ne.symm hne)]; exact h2) (fun h => h) rfl
    refine (m1.trans m2).congr fun c => ?_
    by_cases hc : c = src
    · subst hc
      rw [if_neg hne, if_pos rfl, if_pos rfl, if_neg hne]
      push_cast [h3]; ring
    · rw [if_neg hc, if_neg hc]
      split <;> simp

theorem mintTo_moves {w v : World} {mint : Nat} {dst : Addr} {who : Party} {n : Nat} (h : w.mintTo mint dst who n = .ok v) :
    v.pools = w.pools ∧ (∃ m, mapGet mint w.mints = some m ∧ m.authority = some who ∧
      v.mints = mapSet mint { m with supply := m.supply + n } w.mints) ∧
      Moves w v fun a => if a = dst then (n : ℤ) else 0 := by
  obtain ⟨m, b, h1, h2, _, _, h3, _, _, rfl⟩ := mintTo_ok h
  refine ⟨rfl, ⟨m, h1, h3, rfl⟩, (moves_set h2 (n := b.amount + n) (k := b.delegate) (fun h => h) rfl).congr fun a => ?_⟩
  split <;> simp

theorem burn_moves {w v : World} {mint : Nat} {src : Addr} {who : Party} {n : Nat} (h : w.burn mint src who n = .ok v) :
    v.pools = w.pools ∧ (∃ m, mapGet mint w.mints = some m ∧ n ≤ m.supply ∧
      v.mints = mapSet mint { m with supply := m.supply - n } w.mints) ∧
      Moves w v fun a => - if a = src then (n : ℤ) else 0 := by
  obtain ⟨m, a, a', h1, h2, _, h3, _, h4, h5, rfl⟩ := burn_ok h
  obtain ⟨k, rfl, hk⟩ := spend_moves h4
  refine ⟨rfl, ⟨m, h1, h5, rfl⟩, (moves_set h2 (n := a.amount - n) hk rfl).congr fun b => ?_⟩
  split
  · push_cast [h3]; ring
  · simp

/-! ### Inversion of the handlers -/

/-- The part of the account constraints that concerns the token program. -/
structure Passed (w : World) (lp : Nat) (p : PoolAcc) (c : Accounts) : Prop where
  mint : ∃ m, mapGet lp w.mints = some m
  tokenX : ∃ t, mapGet c.tokenX w.tokens = some t ∧ t.mint = p.xMint ∧ t.owner = .user c.user
  tokenY : ∃ t, mapGet c.tokenY w.tokens = some t ∧ t.mint = p.yMint ∧ t.owner = .user c.user
  vaultX : ∃ t, mapGet (.vault p.xMint lp) w.tokens = some t
  vaultY : ∃ t, mapGet (.vault p.yMint lp) w.tokens = some t
  lpVault : ∃ t, mapGet (.lpVault lp) w.tokens = some t
  lp : ∃ t, mapGet c.lp w.tokens = some t ∧ t.mint = lp

/-- The single pool of a record, with given LP supply, vaults, and balances of its one user's three accounts. -/
def PoolAcc.chain (p : PoolAcc) (user supply vaultX vaultY lp x y : Nat) : Chain :=
  ⟨p.gs, p.bitmap, p.ticks, p.positions, supply, [(0, ⟨user, lp⟩)], [(0, ⟨user, x⟩)], [(0, ⟨user, y⟩)], vaultX, vaultY⟩

/-- The record with the accounts of a single pool. -/
def PoolAcc.update (p : PoolAcc) (s : Chain) : PoolAcc :=
  { p with gs := s.gs, bitmap := s.bitmap, ticks := s.ticks, positions := s.positions }

theorem loadAccounts_ok {w : World} {lp : Nat} {p : PoolAcc} {c : Accounts} {lower upper current : Nat} {a : Loaded} :
    loadAccounts w lp p c lower upper current = .ok a ↔ Passed w lp p c ∧
      ∀ S A B l x y, OnChain.loadAccounts (PoolAcc.chain p c.user S A B l x y) ⟨c.user, 0, 0, 0⟩ lower upper current = .ok a := by
  simp only [OnChain.loadAccounts_ok]
  unfold loadAccounts
  simp only [bind_ok, load_ok, constraint_ok, pure_ok, decide_eq_true_eq, Bool.and_eq_true]
  constructor
  · rintro ⟨b, h1, ps, h2, _, h3, l, h4, _, h5, u, h6, _, h7, k, h8, _, h9, _, h10, m, h11, ux, h12, _, h13, uy, h14, _,
      h15, vx, h16, vy, h17, lv, h18, ul, h19, _, h20, rfl⟩
    exact ⟨⟨⟨m, h11⟩, ⟨ux, h12, h13⟩, ⟨uy, h14, h15⟩, ⟨vx, h16⟩, ⟨vy, h17⟩, ⟨lv, h18⟩, ⟨ul, h19, h20⟩⟩,
      fun _ _ _ _ _ _ => ⟨h1, h2, h3, h4, h5, h6, h7, h8, h9, h10, rfl, rfl, rfl⟩⟩
  · rintro ⟨⟨⟨m, h11⟩, ⟨ux, h12, h13⟩, ⟨uy, h14, h15⟩, ⟨vx, h16⟩, ⟨vy, h17⟩, ⟨lv, h18⟩, ⟨ul, h19, h20⟩⟩, h⟩
    obtain ⟨h1, h2, h3, h4, h5, h6, h7, h8, h9, h10, _⟩ := h 0 0 0 0 0 0
    exact ⟨_, h1, _, h2, (), h3, _, h4, (), h5, _, h6, (), h7, _, h8, (), h9, (), h10, m, h11, ux, h12, (), h13, uy, h14,
      (), h15, vx, h16, vy, h17, lv, h18, ul, h19, (), h20, rfl⟩

theorem deposit_ok {w v : World} {lp : Nat} {c : Accounts} {lower upper current xa ya : Nat} {m : Moved}
    (h : w.deposit lp c lower upper current xa ya = .ok (v, m)) :
    ∃ p s w1 w2 w3, mapGet lp w.pools = some p ∧ Passed w lp p c ∧ w.mintTo lp c.lp (.pool lp) m.lp = .ok w1 ∧
      w1.transfer c.tokenX (.vault p.xMint lp) (.user c.user) m.x = .ok w2 ∧
      w2.transfer c.tokenY (.vault p.yMint lp) (.user c.user) m.y = .ok w3 ∧
      v = { w3 with pools := mapSet lp (PoolAcc.update p s) w3.pools } ∧
      ∀ S A B, S + m.lp < u64Size → A + m.x < u64Size → B + m.y < u64Size →
        ∃ t, OnChain.deposit (PoolAcc.chain p c.user S A B 0 m.x m.y) ⟨c.user, 0, 0, 0⟩ lower upper current xa ya = .ok (t, m) ∧
          t.gs = s.gs ∧ t.bitmap = s.bitmap ∧ t.ticks = s.ticks ∧ t.positions = s.positions ∧
          t.lpSupply = S + m.lp ∧ t.vaultX = A + m.x ∧ t.vaultY = B + m.y := by
  unfold deposit at h
  rw [bind_ok] at h; obtain ⟨p, h0, h⟩ := h
  rw [load_ok] at h0
  rw [bind_ok] at h; obtain ⟨a, h1, h⟩ := h
  rw [bind_ok] at h; obtain ⟨x, h2, h⟩ := h
  rw [bind_ok] at h; obtain ⟨y, h3, h⟩ := h
  rw [bind_ok] at h; obtain ⟨rpa, h4, h⟩ := h
  rw [bind_ok] at h; obtain ⟨rpb, h5, h⟩ := h
  rw [bind_ok] at h; obtain ⟨rp, h6, h⟩ := h
  rw [bind_ok] at h; obtain ⟨delta, h7, h⟩ := h
  rw [ite_ok] at h; rcases h with ⟨_, h⟩ | ⟨h8, h⟩; · simp [rerr] at h
  rw [bind_ok] at h; obtain ⟨b1, h9, h⟩ := h
  rw [bind_ok] at h; obtain ⟨b, h10, h⟩ := h
  rw [bind_ok] at h; obtain ⟨xIn, h11, h⟩ := h
  rw [bind_ok] at h; obtain ⟨yIn, h12, h⟩ := h
  rw [bind_ok] at h; obtain ⟨fee, h13, h⟩ := h
  rw [bind_ok] at h; obtain ⟨⟨pos, lwr, upr⟩, h14, h⟩ := h
  rw [bind_ok] at h; obtain ⟨g, h15, h⟩ := h
  rw [bind_ok] at h; obtain ⟨fx, h16, h⟩ := h
  rw [bind_ok] at h; obtain ⟨xDeb, h17, h⟩ := h
  rw [bind_ok] at h; obtain ⟨fy, h18, h⟩ := h
  rw [bind_ok] at h; obtain ⟨yDeb, h19, h⟩ := h
  rw [bind_ok] at h; obtain ⟨gx, h20, h⟩ := h
  rw [ite_ok] at h; rcases h with ⟨_, h⟩ | ⟨e1, h⟩; · simp [rerr] at h
  rw [bind_ok] at h; obtain ⟨gy, h21, h⟩ := h
  rw [ite_ok] at h; rcases h with ⟨_, h⟩ | ⟨e2, h⟩; · simp [rerr] at h
  rw [bind_ok] at h; obtain ⟨minted, h22, h⟩ := h
  rw [bind_ok] at h; obtain ⟨w1, h23, h⟩ := h
  rw [bind_ok] at h; obtain ⟨dx, h24, h⟩ := h
  rw [bind_ok] at h; obtain ⟨w2, h25, h⟩ := h
  rw [bind_ok] at h; obtain ⟨dy, h26, h⟩ := h
  rw [bind_ok] at h; obtain ⟨w3, h27, h⟩ := h
  rw [pure_ok, Prod.mk.injEq] at h
  obtain ⟨rfl, rfl⟩ := h
  rw [unwrap_ok] at h14 h17 h19 h20 h21
  rw [Bool.not_eq_true] at h8 e1 e2
  subst e1 e2
  obtain ⟨k1, k2⟩ := loadAccounts_ok.1 h1
  refine ⟨p, OnChain.writeBack (PoolAcc.chain p c.user 0 0 0 0 0 0) g c.user lower upper current ⟨b, pos, lwr, upr, a.cur⟩,
    w1, w2, w3, h0, k1, h23, h25, h27, rfl, fun S A B hS hA hB => ?_⟩
  refine ⟨⟨g, some b, mapSet current a.cur (mapSet upper upr (mapSet lower lwr p.ticks)),
      mapSet ⟨c.user, lower, upper⟩ pos p.positions, S + minted, [(0, ⟨c.user, 0 + minted⟩)], [(0, ⟨c.user, dx - dx⟩)],
      [(0, ⟨c.user, dy - dy⟩)], A + dx, B + dy⟩,
    OnChain.deposit_ok.2 ⟨⟨a, x, y, rpa, rpb, rp, delta, b1, b, xIn, yIn, fee, pos, lwr, upr, g, fx, xDeb, fy, yDeb⟩,
      ⟨k2 _ _ _ _ _ _, h2, h3, h4, h5, h6, h7, h8, h9, h10, h11, h12, h13, h14, h15, h16, h17, h18, h19, h20, h21, h22,
        hS, credit_ok.2 ⟨_, rfl, by simp only at hS ⊢; omega, rfl⟩, h24, debit_ok.2 ⟨_, rfl, rfl, le_rfl, rfl⟩, hA, h26,
        debit_ok.2 ⟨_, rfl, rfl, le_rfl, rfl⟩, hB, rfl⟩⟩, rfl, rfl, rfl, rfl, rfl, rfl, rfl⟩

theorem withdraw_ok {w v : World} {lp : Nat} {c : Accounts} {lower upper current n : Nat} {m : Moved}
    (h : w.withdraw lp c lower upper current n = .ok (v, m)) :
    ∃ p s w1 w2 w3, mapGet lp w.pools = some p ∧ Passed w lp p c ∧ m.lp = n ∧ w.burn lp c.lp (.user c.user) n = .ok w1 ∧
      w1.transfer (.vault p.xMint lp) c.tokenX (.pool lp) m.x = .ok w2 ∧
      w2.transfer (.vault p.yMint lp) c.tokenY (.pool lp) m.y = .ok w3 ∧
      v = { w3 with pools := mapSet lp (PoolAcc.update p s) w3.pools } ∧
      ∀ S A B, n ≤ S → m.x ≤ A → A < u64Size → m.y ≤ B → B < u64Size →
        ∃ t, OnChain.withdraw (PoolAcc.chain p c.user S A B n 0 0) ⟨c.user, 0, 0, 0⟩ lower upper current n = .ok (t, m) ∧
          t.gs = s.gs ∧ t.bitmap = s.bitmap ∧ t.ticks = s.ticks ∧ t.positions = s.positions ∧
          t.lpSupply = S - n ∧ t.vaultX = A - m.x ∧ t.vaultY = B - m.y := by
  unfold withdraw at h
  rw [bind_ok] at h; obtain ⟨p, h0, h⟩ := h
  rw [load_ok] at h0
  rw [bind_ok] at h; obtain ⟨a, h1, h⟩ := h
  rw [bind_ok] at h; obtain ⟨amt, h2, h⟩ := h
  rw [bind_ok] at h; obtain ⟨rpa, h4, h⟩ := h
  rw [bind_ok] at h; obtain ⟨rpb, h5, h⟩ := h
  rw [bind_ok] at h; obtain ⟨rp, h6, h⟩ := h
  rw [bind_ok] at h; obtain ⟨fee, h13, h⟩ := h
  rw [bind_ok] at h; obtain ⟨⟨pos, lwr, upr⟩, h14, h⟩ := h
  rw [bind_ok] at h; obtain ⟨b1, h9, h⟩ := h
  rw [bind_ok] at h; obtain ⟨b, h10, h⟩ := h
  rw [bind_ok] at h; obtain ⟨g, h15, h⟩ := h
  rw [bind_ok] at h; obtain ⟨xOut, h11, h⟩ := h
  rw [bind_ok] at h; obtain ⟨yOut, h12, h⟩ := h
  rw [bind_ok] at h; obtain ⟨fx, h16, h⟩ := h
  rw [bind_ok] at h; obtain ⟨xCred, h17, h⟩ := h
  rw [bind_ok] at h; obtain ⟨fy, h18, h⟩ := h
  rw [bind_ok] at h; obtain ⟨yCred, h19, h⟩ := h
  rw [bind_ok] at h; obtain ⟨w1, h23, h⟩ := h
  rw [bind_ok] at h; obtain ⟨dx, h24, h⟩ := h
  rw [bind_ok] at h; obtain ⟨w2, h25, h⟩ := h
  rw [bind_ok] at h; obtain ⟨dy, h26, h⟩ := h
  rw [bind_ok] at h; obtain ⟨w3, h27, h⟩ := h
  rw [pure_ok, Prod.mk.injEq] at h
  obtain ⟨rfl, rfl⟩ := h
  rw [unwrap_ok] at h14 h17 h19
  obtain ⟨k1, k2⟩ := loadAccounts_ok.1 h1
  refine ⟨p, OnChain.writeBack (PoolAcc.chain p c.user 0 0 0 0 0 0) g c.user lower upper current ⟨b, pos, lwr, upr, a.cur⟩,
    w1, w2, w3, h0, k1, rfl, h23, h25, h27, rfl, fun S A B hS hA hA' hB hB' => ?_⟩
  refine ⟨⟨g, some b, mapSet current a.cur (mapSet upper upr (mapSet lower lwr p.ticks)),
      mapSet ⟨c.user, lower, upper⟩ pos p.positions, S - n, [(0, ⟨c.user, n - n⟩)], [(0, ⟨c.user, 0 + dx⟩)],
      [(0, ⟨c.user, 0 + dy⟩)], A - dx, B - dy⟩,
    OnChain.withdraw_ok.2 ⟨⟨a, amt, rpa, rpb, rp, fee, pos, lwr, upr, b1, b, g, xOut, yOut, fx, xCred, fy, yCred⟩,
      ⟨k2 _ _ _ _ _ _, h2, h4, h5, h6, h13, h14, h9, h10, h15, h11, h12, h16, h17, h18, h19,
        debit_ok.2 ⟨_, rfl, rfl, le_rfl, rfl⟩, hS, h24, hA, credit_ok.2 ⟨_, rfl, by simp only at hA ⊢; omega, rfl⟩, h26, hB,
        credit_ok.2 ⟨_, rfl, by simp only at hB ⊢; omega, rfl⟩, rfl, rfl⟩⟩, rfl, rfl, rfl, rfl, rfl, rfl, rfl⟩

end Hmm.OnChain.World
