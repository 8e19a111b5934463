import Verif.Proofs.WorldKept
import Verif.Proofs.OnChainFlow

/-
Every pool of a ledger with many pools goes through states that the model of a single pool can go through.
-/

namespace Hmm.OnChain.World

open Decimal PoolMath

/-! ### The accounts of a pool -/

/-- The vaults of the pool `lp` with mints `x`, `y` are its own, without delegates, and it alone can issue its LP mint. -/
structure Guarded (w : World) (lp x y : Nat) : Prop where
  vaultX : ∃ t, mapGet (.vault x lp) w.tokens = some t ∧ t.mint = x ∧ t.owner = .pool lp ∧ t.delegate = none
  vaultY : ∃ t, mapGet (.vault y lp) w.tokens = some t ∧ t.mint = y ∧ t.owner = .pool lp ∧ t.delegate = none
  lpVault : ∃ t, mapGet (.lpVault lp) w.tokens = some t ∧ t.mint = lp ∧ t.owner = .pool lp ∧ t.delegate = none
  mint : ∃ m, mapGet lp w.mints = some m ∧ m.authority = some (.pool lp)
  ne : x ≠ y

/-- Accounts and mints of pools stay theirs. -/
structure Lasts (w v : World) : Prop where
  token : ∀ a t lp, mapGet a w.tokens = some t → t.owner = .pool lp → t.delegate = none →
    ∃ t', mapGet a v.tokens = some t' ∧ t'.mint = t.mint ∧ t'.owner = .pool lp ∧ t'.delegate = none
  mint : ∀ m t lp, mapGet m w.mints = some t → t.authority = some (.pool lp) →
    ∃ t', mapGet m v.mints = some t' ∧ t'.authority = some (.pool lp)

theorem Guarded.lasts {w v : World} {lp x y : Nat} (h : Guarded w lp x y) (hl : Lasts w v) : Guarded v lp x y := by
  obtain ⟨⟨a, a1, a2, a3, a4⟩, ⟨b, b1, b2, b3, b4⟩, ⟨c, c1, c2, c3, c4⟩, ⟨m, m1, m2⟩, hne⟩ := h
  obtain ⟨a', k1, k2, k3, k4⟩ := hl.token _ _ _ a1 a3 a4
  obtain ⟨b', l1, l2, l3, l4⟩ := hl.token _ _ _ b1 b3 b4
  obtain ⟨c', n1, n2, n3, n4⟩ := hl.token _ _ _ c1 c3 c4
  exact ⟨⟨a', k1, k2.trans a2, k3, k4⟩, ⟨b', l1, l2.trans b2, l3, l4⟩, ⟨c', n1, n2.trans c2, n3, n4⟩,
    hl.mint _ _ _ m1 m2, hne⟩

theorem lasts_of {w v : World} (h1 : Secure (fun _ => False) w v) (h2 : ∀ m lp, Capped w v m lp) : Lasts w v where
  token a t lp k1 k2 k3 := by
    obtain ⟨t', l1, l2, l3, l4, _⟩ := h1 a t lp (fun h => h) k1 k2 k3
    exact ⟨t', l1, l2, l3, l4⟩
  mint m t lp k1 k2 := by
    obtain ⟨t', l1, l2, _⟩ := h2 m lp t k1 k2
    exact ⟨t', l1, l2⟩

theorem lasts_moves {w v : World} {d : Addr → ℤ} {q n : Nat} {mt : Mint} (h : Moves w v d) (h1 : mapGet q w.mints = some mt)
    (h2 : v.mints = mapSet q { mt with supply := n } w.mints) : Lasts w v where
  token a t lp k1 k2 k3 := by
    obtain ⟨n, k, e1, _, e3⟩ := h.present k1
    exact ⟨_, e1, rfl, k2, e3 k3⟩
  mint m t lp k1 k2 := by
    rw [h2]
    by_cases hm : m = q
    · subst hm
      rw [h1] at k1; cases k1
      exact ⟨_, mapGet_set_same .., k2⟩
    · exact ⟨t, by rw [mapGet_set_other hm]; exact k1, k2⟩

theorem lasts_same {w v : World} (h1 : v.tokens = w.tokens) (h2 : v.mints = w.mints) : Lasts w v :=
  lasts_of (secure_of_tokens h1) fun _ _ => capped_of (by rw [h2])

theorem initializePool_secure {E : Addr → Prop} {w v : World} {authority lp x y tick : Nat}
    (h : w.initializePool authority lp x y tick = .ok v) : Secure E w v ∧ v.mints = w.mints := by
  obtain ⟨mt, s, h0, _, _, h1, h2, h3, h4, h5, h6, h7, rfl⟩ := initializePool_ok h
  refine ⟨fun a t q _ k1 k2 k3 => ⟨t, ?_, rfl, k2, k3, le_rfl⟩, rfl⟩
  have n1 : a ≠ .lpVault lp := by rintro rfl; rw [k1] at h5; cases h5
  have n2 : a ≠ .vault y lp := by rintro rfl; rw [k1] at h4; cases h4
  have n3 : a ≠ .vault x lp := by rintro rfl; rw [k1] at h3; cases h3
  simp only
  rw [mapGet_set_other n1, mapGet_set_other n2, mapGet_set_other n3]
  exact k1

theorem initializeBitmap_ok {w v : World} {lp : Nat} (h : w.initializeBitmap lp = .ok v) :
    ∃ p, mapGet lp w.pools = some p ∧ p.bitmap = none ∧
      v = World.mk (mapSet lp { p with bitmap := some Bitmap.empty } w.pools) w.mints w.tokens := by
  simp only [initializeBitmap, bind_ok, pure_ok, constraint_ok, load_ok, Option.isNone_iff_eq_none] at h
  obtain ⟨p, h1, _, h2, h3⟩ := h
  exact ⟨p, h1, h2, h3.symm⟩

/-- The state of a tick just made. -/
def newTick (tick : Nat) : Tick := ⟨0, liquidityScale, 0, 0, liquidityScale, tick, Fee.zero⟩

theorem initializeTick_ok {w v : World} {lp tick : Nat} (h : w.initializeTick lp tick = .ok v) :
    ∃ p, mapGet lp w.pools = some p ∧ mapGet tick p.ticks = none ∧
      v = World.mk (mapSet lp { p with ticks := mapSet tick (newTick tick) p.ticks } w.pools) w.mints w.tokens := by
  simp only [initializeTick, bind_ok, pure_ok, constraint_ok, load_ok, Option.isNone_iff_eq_none] at h
  obtain ⟨p, h1, _, h2, h3⟩ := h
  exact ⟨p, h1, h2, h3.symm⟩

theorem createPosition_ok {w v : World} {lp user lower upper : Nat} (h : w.createPosition lp user lower upper = .ok v) :
    ∃ p t, mapGet lp w.pools = some p ∧
      (∀ S A B l x y, ∃ s, OnChain.createPosition (PoolAcc.chain p user S A B l x y) user lower upper = .ok s ∧
        s = { PoolAcc.chain p user S A B l x y with positions := t }) ∧
      v = World.mk (mapSet lp { p with positions := t } w.pools) w.mints w.tokens := by
  simp only [createPosition, bind_ok, pure_ok, constraint_ok, load_ok, Option.isNone_iff_eq_none, decide_eq_true_eq] at h
  obtain ⟨p, h1, _, h2, _, h3, t1, h4, t2, h5, h6⟩ := h
  refine ⟨p, _, h1, fun S A B l x y => ⟨_, ?_, rfl⟩, h6.symm⟩
  simp only [OnChain.createPosition, bind_ok, pure_ok, constraint_ok, load_ok, Option.isNone_iff_eq_none, decide_eq_true_eq]
  exact ⟨(), h2, (), h3, t1, h4, t2, h5, rfl⟩

theorem exec_lasts {w v : World} {i : Instr} (h : w.exec i = .ok v) : Lasts w v := by
  cases i with
  | initializePool a lp x y t =>
    obtain ⟨h1, h2⟩ := initializePool_secure h
    exact lasts_of h1 fun _ _ => capped_of (by rw [h2])
  | initializeBitmap lp =>
    obtain ⟨p, _, _, rfl⟩ := initializeBitmap_ok h
    exact lasts_same rfl rfl
  | initializeTick lp t =>
    obtain ⟨p, _, _, rfl⟩ := initializeTick_ok h
    exact lasts_same rfl rfl
  | createPosition lp u l k =>
    obtain ⟨p, _, _, _, rfl⟩ := createPosition_ok h
    exact lasts_same rfl rfl
  | deposit lp c l k cur x y =>
    simp only [exec, bind_ok, pure_ok] at h
    obtain ⟨⟨v', m⟩, h, rfl⟩ := h
    obtain ⟨p, s, mt, _, _, _, h1, _, _, h2, h3, _⟩ := deposit_effect h
    exact lasts_moves h3 h1 h2
  | withdraw lp c l k cur n =>
    simp only [exec, bind_ok, pure_ok] at h
    obtain ⟨⟨v', m⟩, h, rfl⟩ := h
    obtain ⟨p, s, mt, _, _, _, _, h1, _, h2, h3, _⟩ := withdraw_effect h
    exact lasts_moves h3 h1 h2

theorem exec_small {w v : World} {i : Instr} (hw : Small w) (h : w.exec i = .ok v) : Small v := by
  cases i with
  | initializePool a lp x y t =>
    obtain ⟨mt, s, h0, _, _, h1, h2, h3, h4, h5, h6, h7, rfl⟩ := initializePool_ok h
    have hz : 0 < u64Size := by norm_num [u64Size]
    have s1 : Small (World.mk w.pools w.mints (mapSet (.vault x lp) ⟨x, .pool lp, 0, none, false⟩ w.tokens)) :=
      hw.set (t := ⟨x, .pool lp, 0, none, false⟩) hz rfl
    have s2 : Small (World.mk w.pools w.mints (mapSet (.vault y lp) ⟨y, .pool lp, 0, none, false⟩
        (mapSet (.vault x lp) ⟨x, .pool lp, 0, none, false⟩ w.tokens))) :=
      s1.set (t := ⟨y, .pool lp, 0, none, false⟩) hz rfl
    exact s2.set (t := ⟨lp, .pool lp, 0, none, false⟩) hz rfl
  | initializeBitmap lp =>
    obtain ⟨p, _, _, rfl⟩ := initializeBitmap_ok h
    exact hw.same rfl
  | initializeTick lp t =>
    obtain ⟨p, _, _, rfl⟩ := initializeTick_ok h
    exact hw.same rfl
  | createPosition lp u l k =>
    obtain ⟨p, _, _, _, rfl⟩ := createPosition_ok h
    exact hw.same rfl
  | deposit lp c l k cur x y =>
    simp only [exec, bind_ok, pure_ok] at h
    obtain ⟨⟨v', m⟩, h, rfl⟩ := h
    exact deposit_small hw h
  | withdraw lp c l k cur n =>
    simp only [exec, bind_ok, pure_ok] at h
    obtain ⟨⟨v', m⟩, h, rfl⟩ := h
    exact withdraw_small hw h

theorem Step.small {w v : World} (hw : Small w) (h : Step w v) : Small v := by
  cases h with
  | program i h => exact exec_small hw h
  | token who i h => exact tokenExec_small hw h

theorem Step.lasts {w v : World} (h : Step w v) : Lasts w v := by
  cases h with
  | program i h => exact exec_lasts h
  | token who i h => exact lasts_of (tokenExec_secure h).1 fun _ _ => tokenExec_capped h

theorem Reachable.small {w : World} (h : Reachable w) : Small w := by
  induction h with
  | empty => intro a t ha; cases ha
  | step _ hs ih => exact hs.small ih

/-! ### A pool's part of the ledger -/

theorem balance_some {w : World} {a : Addr} {t : Token} (h : mapGet a w.tokens = some t) : w.balance a = t.amount := by
  unfold balance; rw [h]; rfl

theorem supply_some {w : World} {m : Nat} {t : Mint} (h : mapGet m w.mints = some t) : w.supply m = t.supply := by
  unfold supply; rw [h]; rfl

/-- What does not concern the pool is external to it. -/
theorem Shows.external {w v : World} {lp : Nat} {p : PoolAcc} {s : Chain} (h : Shows w lp p s)
    (h1 : w.balance (.vault p.xMint lp) ≤ v.balance (.vault p.xMint lp))
    (h2 : w.balance (.vault p.yMint lp) ≤ v.balance (.vault p.yMint lp)) (h3 : v.supply lp ≤ w.supply lp) :
    ∃ t, External s t ∧ Shows v lp p t := by
  refine ⟨{ s with lpSupply := v.supply lp, vaultX := v.balance (.vault p.xMint lp), vaultY := v.balance (.vault p.yMint lp) },
    ⟨rfl, rfl, rfl, rfl, ?_, ?_, ?_⟩, ⟨h.gs, h.bitmap, h.ticks, h.positions, rfl, rfl, rfl⟩⟩
  · simp only; rw [h.supply]; exact h3
  · simp only; rw [h.vaultX]; exact h1
  · simp only; rw [h.vaultY]; exact h2

theorem Shows.secure {w v : World} {lp : Nat} {p : PoolAcc} {s : Chain} {E : Addr → Prop} (h : Shows w lp p s)
    (hg : Guarded w lp p.xMint p.yMint) (hs : Secure E w v) (hx : ¬ E (.vault p.xMint lp)) (hy : ¬ E (.vault p.yMint lp))
    (hc : Capped w v lp lp) : ∃ t, External s t ∧ Shows v lp p t := by
  obtain ⟨a, a1, a2, a3, a4⟩ := hg.vaultX
  obtain ⟨b, b1, b2, b3, b4⟩ := hg.vaultY
  obtain ⟨m, m1, m2⟩ := hg.mint
  obtain ⟨a', k1, _, _, _, k2⟩ := hs _ _ _ hx a1 a3 a4
  obtain ⟨b', l1, _, _, _, l2⟩ := hs _ _ _ hy b1 b3 b4
  obtain ⟨m', n1, _, n2⟩ := hc _ m1 m2
  refine h.external ?_ ?_ ?_
  · rw [balance_some a1, balance_some k1]; exact k2
  · rw [balance_some b1, balance_some l1]; exact l2
  · rw [supply_some m1, supply_some n1]; exact n2

/-- The single pool shown by a record, whatever the accounts of its users. -/
theorem Shows.chain {w : World} {lp : Nat} {p : PoolAcc} {s : Chain} (h : Shows w lp p s) (user l x y : Nat) :
    External s (PoolAcc.chain p user (w.supply lp) (w.balance (.vault p.xMint lp)) (w.balance (.vault p.yMint lp)) l x y) ∧
    Shows w lp p (PoolAcc.chain p user (w.supply lp) (w.balance (.vault p.xMint lp)) (w.balance (.vault p.yMint lp)) l x y) :=
  ⟨⟨h.gs.symm, h.bitmap.symm, h.ticks.symm, h.positions.symm, h.supply.ge, h.vaultX.le, h.vaultY.le⟩,
    ⟨rfl, rfl, rfl, rfl, rfl, rfl, rfl⟩⟩

theorem Shows.deposit {w v : World} {lp : Nat} {p : PoolAcc} {s : Chain} {c : Accounts} {lower upper current xa ya : Nat}
    {m : Moved} (h : Shows w lp p s) (hp : mapGet lp w.pools = some p) (hg : Guarded w lp p.xMint p.yMint) (hw : Small w)
    (hd : w.deposit lp c lower upper current xa ya = .ok (v, m)) :
    ∃ p' s1 s2 s3 c', mapGet lp v.pools = some p' ∧ p'.authority = p.authority ∧ p'.xMint = p.xMint ∧ p'.yMint = p.yMint ∧
      External s s1 ∧ c'.user = c.user ∧ OnChain.deposit s1 c' lower upper current xa ya = .ok (s2, m) ∧ External s2 s3 ∧
      Shows v lp p' s3 := by
  have hv := deposit_small hw hd
  obtain ⟨p0, t, mt, h0, hps, h1, h2, h3, h4, h5, h6, h7⟩ := deposit_effect hd
  rw [hp] at h0; cases h0
  obtain ⟨a, a1, a2, a3, a4⟩ := hg.vaultX
  obtain ⟨b, b1, b2, b3, b4⟩ := hg.vaultY
  obtain ⟨tx, x1, x2, x3⟩ := hps.tokenX
  obtain ⟨ty, y1, y2, y3⟩ := hps.tokenY
  have hne : ∀ (u z : Addr) (tu tz : Token), mapGet u w.tokens = some tu → mapGet z w.tokens = some tz →
      tu.owner = .pool lp → tz.owner = .user c.user → u ≠ z := by
    rintro u z tu tz e1 e2 o1 o2 rfl
    rw [e1] at e2; cases e2
    rw [o1] at o2; cases o2
  have nxx := hne _ _ _ _ a1 x1 a3 x3
  have nxy := hne _ _ _ _ a1 y1 a3 y3
  have nyx := hne _ _ _ _ b1 x1 b3 x3
  have nyy := hne _ _ _ _ b1 y1 b3 y3
  have nv : Addr.vault p.xMint lp ≠ .vault p.yMint lp := fun e => hg.ne (Addr.vault.inj e).1
  have bx := h6.balance (.vault p.xMint lp)
  have by' := h6.balance (.vault p.yMint lp)
  simp only [at_, if_neg nxx, if_neg nxy, if_neg nv, if_true, sub_zero, add_zero] at bx
  simp only [at_, if_neg nyx, if_neg nyy, if_neg nv.symm, if_true, sub_zero, add_zero] at by'
  have gx : w.balance (.vault p.xMint lp) + m.x ≤ v.balance (.vault p.xMint lp) := by
    split at bx <;> omega
  have gy : w.balance (.vault p.yMint lp) + m.y ≤ v.balance (.vault p.yMint lp) := by
    split at by' <;> omega
  have sx : v.balance (.vault p.xMint lp) < u64Size := by
    obtain ⟨n, k, e1, _⟩ := h6.present a1
    rw [balance_some e1]; exact hv _ _ e1
  have sy : v.balance (.vault p.yMint lp) < u64Size := by
    obtain ⟨n, k, e1, _⟩ := h6.present b1
    rw [balance_some e1]; exact hv _ _ e1
  have es : w.supply lp = mt.supply := supply_some h2
  have ev : v.supply lp = mt.supply + m.lp := by
    rw [supply_some (t := { mt with supply := mt.supply + m.lp })]
    rw [h5, mapGet_set_same]
  obtain ⟨t', k0, k1, k2, k3, k4, k5, k6, k7⟩ := h7 (w.supply lp) (w.balance (.vault p.xMint lp)) (w.balance (.vault p.yMint lp))
    (by rw [es]; exact h4) (lt_of_le_of_lt gx sx) (lt_of_le_of_lt gy sy)
  obtain ⟨c1, c2⟩ := h.chain c.user 0 m.x m.y
  refine ⟨PoolAcc.update p t, _, t', { t' with vaultX := v.balance (.vault p.xMint lp), vaultY := v.balance (.vault p.yMint lp) },
    ⟨c.user, 0, 0, 0⟩, by rw [h1, mapGet_set_same], rfl, rfl, rfl, c1, rfl, k0, ⟨rfl, rfl, rfl, rfl, le_rfl, ?_, ?_⟩,
    ⟨k1, k2, k3, k4, ?_, rfl, rfl⟩⟩
  · simp only; rw [k6]; exact gx
  · simp only; rw [k7]; exact gy
  · simp only; rw [k5, es, ev]

theorem Shows.withdraw {w v : World} {lp : Nat} {p : PoolAcc} {s : Chain} {c : Accounts} {lower upper current n : Nat}
    {m : Moved} (h : Shows w lp p s) (hp : mapGet lp w.pools = some p) (hg : Guarded w lp p.xMint p.yMint) (hw : Small w)
    (hd : w.withdraw lp c lower upper current n = .ok (v, m)) :
    ∃ p' s1 s2 c', mapGet lp v.pools = some p' ∧ p'.authority = p.authority ∧ p'.xMint = p.xMint ∧ p'.yMint = p.yMint ∧
      External s s1 ∧ c'.user = c.user ∧ OnChain.withdraw s1 c' lower upper current n = .ok (s2, m) ∧ Shows v lp p' s2 := by
  obtain ⟨p0, t, mt, h0, hps, h1, hm, h2, h4, h5, h6, h7⟩ := withdraw_effect hd
  rw [hp] at h0; cases h0
  obtain ⟨a, a1, a2, a3, a4⟩ := hg.vaultX
  obtain ⟨b, b1, b2, b3, b4⟩ := hg.vaultY
  obtain ⟨tx, x1, x2, x3⟩ := hps.tokenX
  obtain ⟨ty, y1, y2, y3⟩ := hps.tokenY
  have hne : ∀ (u z : Addr) (tu tz : Token), mapGet u w.tokens = some tu → mapGet z w.tokens = some tz →
      tu.owner = .pool lp → tz.owner = .user c.user → u ≠ z := by
    rintro u z tu tz e1 e2 o1 o2 rfl
    rw [e1] at e2; cases e2
    rw [o1] at o2; cases o2
  have hlp : ∀ (u : Addr) (tu : Token), mapGet u w.tokens = some tu → tu.owner = .pool lp → tu.delegate = none → u ≠ c.lp := by
    rintro u tu e1 o1 o2 rfl
    obtain ⟨_, _, w1, _, _, _, _, _, hb, _⟩ := withdraw_ok hd
    obtain ⟨_, ta, ta', _, g2, _, _, _, g4, _⟩ := burn_ok hb
    rw [e1] at g2; cases g2
    have := (spend_owner g4 o2).1
    rw [o1] at this; cases this
  have nxx := hne _ _ _ _ a1 x1 a3 x3
  have nxy := hne _ _ _ _ a1 y1 a3 y3
  have nyx := hne _ _ _ _ b1 x1 b3 x3
  have nyy := hne _ _ _ _ b1 y1 b3 y3
  have nxl := hlp _ _ a1 a3 a4
  have nyl := hlp _ _ b1 b3 b4
  have nv : Addr.vault p.xMint lp ≠ .vault p.yMint lp := fun e => hg.ne (Addr.vault.inj e).1
  have bx := h6.balance (.vault p.xMint lp)
  have by' := h6.balance (.vault p.yMint lp)
  simp only [at_, if_neg nxx, if_neg nxy, if_neg nxl, if_neg nv, if_true, sub_zero, add_zero, neg_zero, zero_add, zero_sub] at bx
  simp only [at_, if_neg nyx, if_neg nyy, if_neg nyl, if_neg nv.symm, if_true, sub_zero, add_zero, neg_zero, zero_add,
    zero_sub] at by'
  have sx : w.balance (.vault p.xMint lp) < u64Size := by
    rw [balance_some a1]; exact hw _ _ a1
  have sy : w.balance (.vault p.yMint lp) < u64Size := by
    rw [balance_some b1]; exact hw _ _ b1
  have es : w.supply lp = mt.supply := supply_some h2
  have ev : v.supply lp = mt.supply - n := by
    rw [supply_some (t := { mt with supply := mt.supply - n })]
    rw [h5, mapGet_set_same]
  obtain ⟨t', k0, k1, k2, k3, k4, k5, k6, k7⟩ := h7 (w.supply lp) (w.balance (.vault p.xMint lp)) (w.balance (.vault p.yMint lp))
    (by rw [es]; exact h4) (by omega) sx (by omega) sy
  obtain ⟨c1, c2⟩ := h.chain c.user n 0 0
  refine ⟨PoolAcc.update p t, _, t', ⟨c.user, 0, 0, 0⟩, by rw [h1, mapGet_set_same], rfl, rfl, rfl, c1, rfl, k0,
    ⟨k1, k2, k3, k4, ?_, ?_, ?_⟩⟩
  · rw [k5, es, ev]
  · rw [k6]
    show w.balance (.vault p.xMint lp) - m.x = v.balance (.vault p.xMint lp)
    omega
  · rw [k7]
    show w.balance (.vault p.yMint lp) - m.y = v.balance (.vault p.yMint lp)
    omega

/-- The pool's record has the same authority and mints. -/
def SamePool (p p' : PoolAcc) : Prop := p'.authority = p.authority ∧ p'.xMint = p.xMint ∧ p'.yMint = p.yMint

/-- Steps of a single pool that move no tokens by its own instructions. -/
inductive Quiet : Chain → Chain → Prop where
  | refl {s : Chain} : Quiet s s
  | external {s t u : Chain} : Quiet s t → External t u → Quiet s u
  | bitmap {s t u : Chain} : Quiet s t → OnChain.initializeBitmap t = .ok u → Quiet s u
  | tick {s t u : Chain} {k : Nat} : Quiet s t → OnChain.initializeTick t k = .ok u → Quiet s u
  | position {s t u : Chain} {user lower upper : Nat} : Quiet s t → OnChain.createPosition t user lower upper = .ok u →
      Quiet s u

theorem Quiet.tracked {supply0 : Nat} {who : Nat → Bool} {s t : Chain} {a : Account} (h : Quiet s t)
    (hs : Tracked supply0 who s a) : Tracked supply0 who t a := by
  induction h with
  | refl => exact hs
  | external _ h ih => exact .external ih h
  | bitmap _ h ih => exact .initializeBitmap ih h
  | tick _ h ih => exact .initializeTick ih h
  | position _ h ih => exact .createPosition ih h

theorem Shows.program {w v : World} {lp : Nat} {p : PoolAcc} {s : Chain} {i : Instr} (h : Shows w lp p s)
    (hp : mapGet lp w.pools = some p) (hg : Guarded w lp p.xMint p.yMint) (hi : ¬ i.pays lp) (he : w.exec i = .ok v) :
    ∃ p' s', mapGet lp v.pools = some p' ∧ SamePool p p' ∧ Quiet s s' ∧ Shows v lp p' s' := by
  cases i with
  | initializePool a q x y t =>
    obtain ⟨h1, h2⟩ := initializePool_secure (E := fun _ => False) he
    obtain ⟨s', k1, k2⟩ := h.secure hg h1 (fun h => h) (fun h => h) (capped_of (by rw [h2]))
    obtain ⟨mt, s0, h0, _, _, _, _, _, _, _, _, _, rfl⟩ := initializePool_ok he
    have : lp ≠ q := by rintro rfl; rw [hp] at h0; cases h0
    exact ⟨p, s', by simp only; rw [mapGet_set_other this]; exact hp, ⟨rfl, rfl, rfl⟩, .external .refl k1, k2⟩
  | initializeBitmap q =>
    obtain ⟨p0, h0, h1, rfl⟩ := initializeBitmap_ok he
    by_cases hq : lp = q
    · subst hq
      rw [hp] at h0; cases h0
      refine ⟨_, { s with bitmap := some Bitmap.empty }, mapGet_set_same .., ⟨rfl, rfl, rfl⟩, .bitmap .refl ?_,
        ⟨h.gs, rfl, h.ticks, h.positions, h.supply, h.vaultX, h.vaultY⟩⟩
      simp only [OnChain.initializeBitmap, bind_ok, pure_ok, constraint_ok, Option.isNone_iff_eq_none]
      exact ⟨(), h.bitmap.trans h1, trivial⟩
    · exact ⟨p, s, by simp only; rw [mapGet_set_other hq]; exact hp, ⟨rfl, rfl, rfl⟩, .refl,
        ⟨h.gs, h.bitmap, h.ticks, h.positions, h.supply, h.vaultX, h.vaultY⟩⟩
  | initializeTick q t =>
    obtain ⟨p0, h0, h1, rfl⟩ := initializeTick_ok he
    by_cases hq : lp = q
    · subst hq
      rw [hp] at h0; cases h0
      refine ⟨_, { s with ticks := mapSet t (newTick t) s.ticks }, mapGet_set_same .., ⟨rfl, rfl, rfl⟩,
        .tick (k := t) .refl ?_, ⟨h.gs, h.bitmap, ?_, h.positions, h.supply, h.vaultX, h.vaultY⟩⟩
      · simp only [OnChain.initializeTick, bind_ok, pure_ok, constraint_ok, Option.isNone_iff_eq_none]
        exact ⟨(), by rw [h.ticks]; exact h1, rfl⟩
      · simp only; rw [h.ticks]
    · exact ⟨p, s, by simp only; rw [mapGet_set_other hq]; exact hp, ⟨rfl, rfl, rfl⟩, .refl,
        ⟨h.gs, h.bitmap, h.ticks, h.positions, h.supply, h.vaultX, h.vaultY⟩⟩
  | createPosition q u l k =>
    obtain ⟨p0, ps, h0, h1, rfl⟩ := createPosition_ok he
    by_cases hq : lp = q
    · subst hq
      rw [hp] at h0; cases h0
      obtain ⟨s', k1, rfl⟩ := h1 (w.supply lp) (w.balance (.vault p.xMint lp)) (w.balance (.vault p.yMint lp)) 0 0 0
      exact ⟨_, _, mapGet_set_same .., ⟨rfl, rfl, rfl⟩, .position (.external .refl (h.chain u 0 0 0).1) k1,
        ⟨rfl, rfl, rfl, rfl, rfl, rfl, rfl⟩⟩
    · exact ⟨p, s, by simp only; rw [mapGet_set_other hq]; exact hp, ⟨rfl, rfl, rfl⟩, .refl,
        ⟨h.gs, h.bitmap, h.ticks, h.positions, h.supply, h.vaultX, h.vaultY⟩⟩
  | deposit q c l k cur x y =>
    simp only [exec, bind_ok, pure_ok] at he
    obtain ⟨⟨v', m⟩, he, rfl⟩ := he
    have hq : lp ≠ q := fun e => hi e.symm
    obtain ⟨p0, s0, mt, h0, _, h1, h2, _, _, h3, _⟩ := deposit_effect he
    obtain ⟨s', k1, k2⟩ := h.secure hg (deposit_secure (E := fun _ => False) he) (fun h => h) (fun h => h)
      (capped_of (by rw [h3, mapGet_set_other hq]))
    exact ⟨p, s', by simp only; rw [h1, mapGet_set_other hq]; exact hp, ⟨rfl, rfl, rfl⟩, .external .refl k1, k2⟩
  | withdraw q c l k cur n =>
    simp only [exec, bind_ok, pure_ok] at he
    obtain ⟨⟨v', m⟩, he, rfl⟩ := he
    have hq : lp ≠ q := fun e => hi e.symm
    obtain ⟨p0, s0, mt, h0, _, h1, _, h2, _, h3, _⟩ := withdraw_effect he
    obtain ⟨s', k1, k2⟩ := h.secure hg (withdraw_secure h0 he) (by simp [hq]) (by simp [hq])
      (capped_of (by rw [h3, mapGet_set_other hq]))
    exact ⟨p, s', by simp only; rw [h1, mapGet_set_other hq]; exact hp, ⟨rfl, rfl, rfl⟩, .external .refl k1, k2⟩

theorem Shows.token {w v : World} {lp : Nat} {p : PoolAcc} {s : Chain} {signer : Nat} {i : TokenInstr} (h : Shows w lp p s)
    (hg : Guarded w lp p.xMint p.yMint) (he : w.tokenExec signer i = .ok v) :
    ∃ s', External s s' ∧ Shows v lp p s' :=
  h.secure (E := fun _ => False) hg (tokenExec_secure he).1 (fun h => h) (fun h => h) (tokenExec_capped he)

/-- A pool just made. -/
theorem Shows.init {w v : World} {authority lp x y tick : Nat} (h : w.initializePool authority lp x y tick = .ok v) :
    ∃ p s, mapGet lp v.pools = some p ∧ p.authority = authority ∧ p.xMint = x ∧ p.yMint = y ∧
      OnChain.initializePool tick (w.supply lp) = .ok s ∧ Shows v lp p s ∧ Guarded v lp x y := by
  obtain ⟨mt, s, h0, _, _, h1, h2, h3, h4, h5, h6, h7, rfl⟩ := initializePool_ok h
  have e := supply_some h1
  have hv : Addr.vault x lp ≠ .vault y lp := fun e => h6 (Addr.vault.inj e).1
  have hs : s = ⟨s.gs, none, [], [], mt.supply, [], [], [], 0, 0⟩ := by
    have := h7
    unfold OnChain.initializePool at this
    rw [bind_ok] at this; obtain ⟨_, _, this⟩ := this
    rw [bind_ok] at this; obtain ⟨_, _, this⟩ := this
    rw [pure_ok] at this
    rw [← this]
  refine ⟨_, s, mapGet_set_same .., rfl, rfl, rfl, by rw [e]; exact h7, ?_, ?_⟩
  · rw [hs]
    refine ⟨rfl, rfl, rfl, rfl, ?_, ?_, ?_⟩
    · exact (supply_some (w := World.mk _ w.mints _) h1).symm
    · simp only [balance]
      rw [mapGet_set_other (by simp), mapGet_set_other hv, mapGet_set_same]; rfl
    · simp only [balance]
      rw [mapGet_set_other (by simp), mapGet_set_same]; rfl
  · refine ⟨⟨⟨x, .pool lp, 0, none, false⟩, ?_, rfl, rfl, rfl⟩, ⟨⟨y, .pool lp, 0, none, false⟩, ?_, rfl, rfl, rfl⟩,
      ⟨⟨lp, .pool lp, 0, none, false⟩, mapGet_set_same .., rfl, rfl, rfl⟩, ⟨mt, h1, h2⟩, h6⟩
    · simp only
      rw [mapGet_set_other (by simp), mapGet_set_other hv, mapGet_set_same]
    · simp only
      rw [mapGet_set_other (by simp), mapGet_set_same]

/-- The history of a pool on a ledger is a history of the single pool. -/
theorem History.tracked {w0 w v : World} {authority lp x y tick : Nat} {who : Nat → Bool} {a : Account} (hw : Small w0)
    (hi : w0.initializePool authority lp x y tick = .ok w) (h : History lp who w v a) :
    ∃ p s, mapGet lp v.pools = some p ∧ p.authority = authority ∧ p.xMint = x ∧ p.yMint = y ∧
      Tracked (w0.supply lp) who s a ∧ Shows v lp p s ∧ Guarded v lp x y ∧ Small v := by
  induction h with
  | refl =>
    obtain ⟨p, s, h1, h2, h3, h4, h5, h6, h7⟩ := Shows.init hi
    exact ⟨p, s, h1, h2, h3, h4, .init tick h5, h6, h7, exec_small (i := .initializePool authority lp x y tick) hw hi⟩
  | @deposit v u a c lower upper current xa ya m _ hd ih =>
    obtain ⟨p, s, h1, h2, rfl, rfl, h5, h6, h7, h8⟩ := ih
    obtain ⟨p', s1, s2, s3, c', k1, k2, k3, k4, k5, k6, k7, k8, k9⟩ := h6.deposit h1 h7 h8 hd
    have hl : Lasts v u := exec_lasts (i := .deposit lp c lower upper current xa ya) (by simp only [exec, hd, bind_eq]; rfl)
    refine ⟨p', s3, k1, k2.trans h2, k3, k4, ?_, k9, h7.lasts hl, deposit_small h8 hd⟩
    have := Tracked.deposit (h5.external k5) k7
    rw [k6] at this
    exact this.external k8
  | @withdraw v u a c lower upper current n m _ hd ih =>
    obtain ⟨p, s, h1, h2, rfl, rfl, h5, h6, h7, h8⟩ := ih
    obtain ⟨p', s1, s2, c', k1, k2, k3, k4, k5, k6, k7, k9⟩ := h6.withdraw h1 h7 h8 hd
    have hl : Lasts v u := exec_lasts (i := .withdraw lp c lower upper current n) (by simp only [exec, hd, bind_eq]; rfl)
    refine ⟨p', s2, k1, k2.trans h2, k3, k4, ?_, k9, h7.lasts hl, withdraw_small h8 hd⟩
    have := Tracked.withdraw (h5.external k5) k7
    rw [k6] at this
    exact this
  | program i hn _ he ih =>
    obtain ⟨p, s, h1, h2, rfl, rfl, h5, h6, h7, h8⟩ := ih
    obtain ⟨p', s', k1, ⟨k2, k3, k4⟩, k5, k6⟩ := h6.program h1 h7 hn he
    exact ⟨p', s', k1, k2.trans h2, k3, k4, k5.tracked h5, k6, h7.lasts (exec_lasts he), exec_small h8 he⟩
  | token signer i _ he ih =>
    obtain ⟨p, s, h1, h2, rfl, rfl, h5, h6, h7, h8⟩ := ih
    obtain ⟨s', k1, k2⟩ := h6.token h7 he
    exact ⟨p, s', by rw [(tokenExec_secure (E := fun _ => False) he).2]; exact h1, h2, rfl, rfl, h5.external k1, k2,
      h7.lasts (Step.token signer i he).lasts, tokenExec_small h8 he⟩

/-- Any steps are a history of any pool. -/
theorem Steps.history {w v : World} (h : Steps w v) (lp : Nat) (who : Nat → Bool) : ∃ a, History lp who w v a := by
  induction h with
  | refl => exact ⟨_, .refl⟩
  | tail _ hs ih =>
    obtain ⟨a, ih⟩ := ih
    cases hs with
    | token who i h => exact ⟨a, .token who i ih h⟩
    | program i h =>
      by_cases hi : i.pays lp
      · cases i with
        | deposit q c l k cur x y =>
          simp only [exec, bind_ok, pure_ok] at h
          obtain ⟨⟨v', m⟩, h, rfl⟩ := h
          have : q = lp := hi
          subst this
          exact ⟨_, .deposit ih h⟩
        | withdraw q c l k cur n =>
          simp only [exec, bind_ok, pure_ok] at h
          obtain ⟨⟨v', m⟩, h, rfl⟩ := h
          have : q = lp := hi
          subst this
          exact ⟨_, .withdraw ih h⟩
        | _ => exact hi.elim
      · exact ⟨a, .program i hi ih h⟩

/-- Every pool on a ledger was made once, and what followed is its history. -/
theorem Reachable.origin {v : World} {lp : Nat} {p : PoolAcc} (h : Reachable v) (hp : mapGet lp v.pools = some p) :
    ∃ w0 w authority x y tick, Reachable w0 ∧ w0.initializePool authority lp x y tick = .ok w ∧ Steps w v := by
  induction h generalizing p with
  | empty => cases hp
  | @step w v hr hs ih =>
    cases hw : mapGet lp w.pools with
    | some p' =>
      obtain ⟨w0, w1, a, x, y, t, h1, h2, h3⟩ := ih hw
      exact ⟨w0, w1, a, x, y, t, h1, h2, h3.tail hs⟩
    | none =>
      have hset : ∀ (q : Nat) (r r' : PoolAcc), mapGet q w.pools = some r → v.pools = mapSet q r' w.pools → False := by
        intro q r r' e1 e2
        rw [e2] at hp
        by_cases hq : lp = q
        · subst hq
          rw [e1] at hw; cases hw
        · rw [mapGet_set_other hq, hw] at hp; cases hp
      cases hs with
      | token who i he =>
        rw [(tokenExec_secure (E := fun _ => False) he).2, hw] at hp; cases hp
      | program i he =>
        cases i with
        | initializePool a q x y t =>
          by_cases hq : lp = q
          · subst hq
            exact ⟨w, v, a, x, y, t, hr, he, .refl⟩
          · obtain ⟨mt, s, h0, _, _, h1, h2, h3, h4, h5, h6, h7, e⟩ := initializePool_ok he
            rw [e] at hp
            simp only at hp
            rw [mapGet_set_other hq, hw] at hp; cases hp
        | initializeBitmap q =>
          obtain ⟨r, h1, _, e⟩ := initializeBitmap_ok he
          exact (hset q r _ h1 (by rw [e])).elim
        | initializeTick q t =>
          obtain ⟨r, h1, _, e⟩ := initializeTick_ok he
          exact (hset q r _ h1 (by rw [e])).elim
        | createPosition q u l k =>
          obtain ⟨r, _, h1, _, e⟩ := createPosition_ok he
          exact (hset q r _ h1 (by rw [e])).elim
        | deposit q c l k cur x y =>
          simp only [exec, bind_ok, pure_ok] at he
          obtain ⟨⟨v', m⟩, he, rfl⟩ := he
          obtain ⟨r, s0, mt, h0, _, h1, _⟩ := deposit_effect he
          exact (hset q r _ h0 h1).elim
        | withdraw q c l k cur n =>
          simp only [exec, bind_ok, pure_ok] at he
          obtain ⟨⟨v', m⟩, he, rfl⟩ := he
          obtain ⟨r, s0, mt, h0, _, h1, _⟩ := withdraw_effect he
          exact (hset q r _ h0 h1).elim

/-- The accounts of every pool, and the state it shows. -/
theorem Reachable.guarded {w : World} (h : Reachable w) {lp : Nat} {p : PoolAcc} (hp : mapGet lp w.pools = some p) :
    Guarded w lp p.xMint p.yMint ∧ ∃ supply0 s, OnChain.Reachable supply0 s ∧ Shows w lp p s := by
  obtain ⟨w0, w1, a, x, y, tick, h0, hi, hs⟩ := h.origin hp
  obtain ⟨acc, hh⟩ := hs.history lp (fun _ => true)
  obtain ⟨p', s, h1, _, rfl, rfl, h5, h6, h7, _⟩ := hh.tracked h0.small hi
  rw [hp] at h1; cases h1
  exact ⟨h7, _, s, h5.reachable, h6⟩

end Hmm.OnChain.World
