import Verif.Proofs.WorldSums
import Verif.Spec.WorldOthers

/-
What other users can do to a withdrawal that would succeed.
-/

namespace Hmm.OnChain.World

open Decimal PoolMath

/-! ### Supplies fit in 64 bits, so transfers do not overflow -/

/-- Every supply fits in 64 bits. -/
def Capital (w : World) : Prop := ∀ m, w.supply m < u64Size

theorem Capital.same {w v : World} (h : Capital w) (e : v.mints = w.mints) : Capital v := by
  intro m; unfold supply; rw [e]; exact h m

theorem Capital.set {w v : World} {q : Nat} {mt : Mint} (h : Capital w) (hm : mt.supply < u64Size)
    (e : v.mints = mapSet q mt w.mints) : Capital v := by
  intro m
  rw [supply_set e]
  split
  · exact hm
  · exact h m

theorem transfer_capital {w v : World} {src dst : Addr} {who : Party} {n : Nat} (hw : Capital w)
    (h : w.transfer src dst who n = .ok v) : Capital v := hw.same (transfer_moves h).1

theorem mintTo_capital {w v : World} {mint : Nat} {dst : Addr} {who : Party} {n : Nat} (hw : Capital w)
    (h : w.mintTo mint dst who n = .ok v) : Capital v := by
  obtain ⟨m, b, h1, h2, _, _, h3, h4, h5, e⟩ := mintTo_ok h
  exact hw.set (mt := { m with supply := m.supply + n }) h5 (by rw [e])

theorem burn_capital {w v : World} {mint : Nat} {src : Addr} {who : Party} {n : Nat} (hw : Capital w)
    (h : w.burn mint src who n = .ok v) : Capital v := by
  obtain ⟨_, ⟨m, h1, h2, h3⟩, _⟩ := burn_moves h
  refine hw.set (mt := { m with supply := m.supply - n }) ?_ h3
  have := hw mint
  rw [supply_some h1] at this
  exact lt_of_le_of_lt (Nat.sub_le _ _) this

theorem tokenExec_capital {w v : World} {who : Nat} {i : TokenInstr} (hw : Capital w) (h : w.tokenExec who i = .ok v) :
    Capital v := by
  cases i with
  | createMint mint authority freezer =>
    simp only [tokenExec, bind_ok, pure_ok] at h
    obtain ⟨_, _, rfl⟩ := h
    exact hw.set (mt := ⟨0, authority, freezer⟩) (by norm_num [u64Size]) rfl
  | createToken acc mint owner =>
    simp only [tokenExec, bind_ok, pure_ok] at h
    obtain ⟨_, h1, _, _, rfl⟩ := h
    exact hw.same rfl
  | transfer src dst amount => exact transfer_capital hw h
  | mintTo mint dst amount => exact mintTo_capital hw h
  | burn mint src amount => exact burn_capital hw h
  | approve acc d amount =>
    simp only [tokenExec, bind_ok, pure_ok] at h
    obtain ⟨a, h1, _, h2, rfl⟩ := h
    exact hw.same rfl
  | revoke acc =>
    simp only [tokenExec, bind_ok, pure_ok] at h
    obtain ⟨a, h1, _, h2, rfl⟩ := h
    exact hw.same rfl
  | setOwner acc owner =>
    simp only [tokenExec, bind_ok, pure_ok] at h
    obtain ⟨a, h1, _, h2, rfl⟩ := h
    exact hw.same rfl
  | setAuthority mint authority =>
    simp only [tokenExec, bind_ok, pure_ok, load_ok] at h
    obtain ⟨t, h1, _, _, rfl⟩ := h
    have := hw mint
    rw [supply_some h1] at this
    exact hw.set (mt := { t with authority := authority }) this rfl
  | setFreezer mint freezer =>
    simp only [tokenExec, bind_ok, pure_ok, load_ok] at h
    obtain ⟨t, h1, _, _, rfl⟩ := h
    have := hw mint
    rw [supply_some h1] at this
    exact hw.set (mt := { t with freezer := freezer }) this rfl
  | freeze acc frozen =>
    simp only [tokenExec, bind_ok, pure_ok] at h
    obtain ⟨a, h1, m, h2, _, h3, rfl⟩ := h
    exact hw.same rfl
  | close acc =>
    simp only [tokenExec, bind_ok, pure_ok] at h
    obtain ⟨a, h1, _, h2, rfl⟩ := h
    exact hw.same rfl

theorem exec_capital {w v : World} {i : Instr} (hw : Capital w) (h : w.exec i = .ok v) : Capital v := by
  cases i with
  | initializePool a lp x y t =>
    exact hw.same (initializePool_secure (E := fun _ => False) h).2
  | initializeBitmap lp =>
    obtain ⟨p, _, _, rfl⟩ := initializeBitmap_ok h
    exact hw.same rfl
  | initializeTick lp t =>
    obtain ⟨p, _, _, rfl⟩ := initializeTick_ok h
    exact hw.same rfl
  | createPosition lp u l k =>
    obtain ⟨p, _, _, _, rfl⟩ := createPosition_ok h
    exact hw.same rfl
  | deposit lp c l k cur x y =>
    simp only [exec, bind_ok, pure_ok] at h
    obtain ⟨⟨v', m⟩, h, rfl⟩ := h
    obtain ⟨p, s, w1, w2, w3, h0, hp, h1, h2, h3, hv, hs⟩ := deposit_ok h
    exact (transfer_capital (transfer_capital (mintTo_capital hw h1) h2) h3).same (by rw [hv])
  | withdraw lp c l k cur n =>
    simp only [exec, bind_ok, pure_ok] at h
    obtain ⟨⟨v', m⟩, h, rfl⟩ := h
    obtain ⟨p, s, w1, w2, w3, h0, hp, _, h1, h2, h3, hv, hs⟩ := withdraw_ok h
    exact (transfer_capital (transfer_capital (burn_capital hw h1) h2) h3).same (by rw [hv])

theorem Reachable.capital {w : World} (h : Reachable w) : Capital w := by
  induction h with
  | empty => intro m; simp [supply, mapGet, u64Size]
  | step _ hs ih =>
    cases hs with
    | program i h => exact exec_capital ih h
    | token who i h => exact tokenExec_capital ih h

theorem held_nonneg (w : World) (m : Nat) : 0 ≤ w.held m := by
  refine List.sum_nonneg fun q hq => ?_
  obtain ⟨e, _, rfl⟩ := List.mem_map.1 hq
  split
  · positivity
  · exact le_rfl

/-- What one account holds is part of the supply. -/
theorem Booked.le {w : World} (h : Booked w) {a : Addr} {t : Token} (ha : mapGet a w.tokens = some t) :
    t.amount ≤ w.supply t.mint := by
  have e := mapSum_erase (fun _ (s : Token) => if s.mint = t.mint then (s.amount : ℚ) else 0) a h.uniq
  have n := held_nonneg (World.mk w.pools w.mints (mapErase a w.tokens)) t.mint
  have s := h.sums t.mint
  rw [ha] at e
  simp only [Option.elim, if_true] at e
  have e' : held (World.mk w.pools w.mints (mapErase a w.tokens)) t.mint = w.held t.mint - t.amount := e
  rw [e', s] at n
  have : (t.amount : ℚ) ≤ w.supply t.mint := by linarith
  exact_mod_cast this

/-- So are two accounts together. -/
theorem Booked.le_two {w : World} (h : Booked w) {a b : Addr} {t s : Token} (ha : mapGet a w.tokens = some t)
    (hb : mapGet b w.tokens = some s) (hab : a ≠ b) (hm : s.mint = t.mint) : t.amount + s.amount ≤ w.supply t.mint := by
  have e := mapSum_erase (fun _ (s : Token) => if s.mint = t.mint then (s.amount : ℚ) else 0) a h.uniq
  have e2 := mapSum_erase (fun _ (s : Token) => if s.mint = t.mint then (s.amount : ℚ) else 0) b (h.uniq.erase a)
  have n := held_nonneg (World.mk w.pools w.mints (mapErase b (mapErase a w.tokens))) t.mint
  have sm := h.sums t.mint
  rw [ha] at e
  rw [mapGet_erase_other (Ne.symm hab), hb, e] at e2
  simp only [Option.elim, if_true, hm] at e2
  have e' : held (World.mk w.pools w.mints (mapErase b (mapErase a w.tokens))) t.mint =
      w.held t.mint - t.amount - s.amount := e2
  rw [e', sm] at n
  have : (t.amount : ℚ) + s.amount ≤ w.supply t.mint := by linarith
  exact_mod_cast this

/-- A transfer needs two accounts of one mint, neither frozen, with enough in the first, and the right signer. -/
theorem transfer_intro {w : World} (hb : Booked w) (hc : Capital w) {src dst : Addr} {who : Party} {n : Nat} {a b a' : Token}
    (h1 : mapGet src w.tokens = some a) (h2 : mapGet dst w.tokens = some b) (f1 : a.frozen = false) (f2 : b.frozen = false)
    (h3 : n ≤ a.amount) (h4 : a.mint = b.mint) (h5 : spend a who n = .ok a') : ∃ v, w.transfer src dst who n = .ok v := by
  unfold transfer
  rw [h1, h2]
  simp only [load, bind_eq, f1, f2, Bool.or_self, Bool.false_eq_true, if_false, h4, ne_eq, not_true]
  rw [if_neg (by omega), h5]
  simp only [bind_eq]
  by_cases e : src = dst
  · exact ⟨w, by rw [if_pos e]; rfl⟩
  · rw [if_neg e]
    have := hb.le_two h1 h2 e h4.symm
    have hs := hc a.mint
    rw [if_pos (by omega)]
    exact ⟨_, rfl⟩

/-- A burn needs an account of the mint, not frozen, with enough in it, and the right signer. -/
theorem burn_intro {w : World} (hb : Booked w) {mint : Nat} {src : Addr} {who : Party} {n : Nat} {a a' : Token}
    (h1 : mapGet src w.tokens = some a) (f1 : a.frozen = false) (h3 : n ≤ a.amount) (h4 : a.mint = mint)
    (h5 : spend a who n = .ok a') : ∃ v, w.burn mint src who n = .ok v := by
  obtain ⟨mt, hm⟩ := hb.known _ _ h1
  have hle := hb.le h1
  rw [supply_some hm] at hle
  subst h4
  unfold burn
  rw [h1, hm]
  simp only [load, bind_eq, f1, Bool.false_eq_true, if_false, ne_eq, not_true]
  rw [if_neg (by omega), h5]
  simp only [bind_eq]
  rw [if_pos (by omega)]
  exact ⟨_, rfl⟩

/-! ### A withdrawal in a similar state -/

/-- What a withdrawal needs of the token accounts. -/
structure Ready (w : World) (lp : Nat) (p : PoolAcc) (c : Accounts) (m : Moved) : Prop where
  tokenX : ∃ t, mapGet c.tokenX w.tokens = some t ∧ t.mint = p.xMint ∧ t.owner = .user c.user ∧ t.frozen = false
  tokenY : ∃ t, mapGet c.tokenY w.tokens = some t ∧ t.mint = p.yMint ∧ t.owner = .user c.user ∧ t.frozen = false
  vaultX : ∃ t, mapGet (.vault p.xMint lp) w.tokens = some t ∧ t.frozen = false ∧ m.x ≤ t.amount
  vaultY : ∃ t, mapGet (.vault p.yMint lp) w.tokens = some t ∧ t.frozen = false ∧ m.y ≤ t.amount
  lp : ∃ t t', mapGet c.lp w.tokens = some t ∧ t.mint = lp ∧ t.frozen = false ∧ m.lp ≤ t.amount ∧
    spend t (.user c.user) m.lp = .ok t'

theorem Guarded.notUser {w : World} {lp x y : Nat} (hg : Guarded w lp x y) {c : Accounts} {p : PoolAcc} {m : Moved}
    (hr : Ready w lp p c m) : Addr.vault x lp ≠ c.lp ∧ Addr.vault y lp ≠ c.lp ∧
      Addr.vault x lp ≠ c.tokenX ∧ Addr.vault y lp ≠ c.tokenX := by
  obtain ⟨a, a1, a2, a3, a4⟩ := hg.vaultX
  obtain ⟨b, b1, b2, b3, b4⟩ := hg.vaultY
  obtain ⟨tx, x1, x2, x3, _⟩ := hr.tokenX
  obtain ⟨tl, tl', l1, _, _, _, l2⟩ := hr.lp
  have k1 : ∀ (u : Addr) (tu : Token), mapGet u w.tokens = some tu → tu.owner = .pool lp → tu.delegate = none → u ≠ c.lp := by
    rintro u tu e1 o1 o2 rfl
    rw [e1] at l1; cases l1
    have := (spend_owner l2 o2).1
    rw [o1] at this; cases this
  have k2 : ∀ (u : Addr) (tu : Token), mapGet u w.tokens = some tu → tu.owner = .pool lp → u ≠ c.tokenX := by
    rintro u tu e1 o1 rfl
    rw [e1] at x1; cases x1
    rw [o1] at x3; cases x3
  exact ⟨k1 _ _ a1 a3 a4, k1 _ _ b1 b3 b4, k2 _ _ a1 a3, k2 _ _ b1 b3⟩

/-- A withdrawal whose computations succeed and whose token accounts are in order succeeds. -/
theorem withdraw_intro {w : World} {lp : Nat} {p : PoolAcc} {c : Accounts} {lower upper current n : Nat} {m : Moved}
    {a : Loaded} {amt rpa rpb rp xOut yOut fx fy xCred yCred : Decimal} {fee : Fee} {pos : Position} {lwr upr : Tick}
    {b1 b : Bitmap} {g : Global}
    (hp : mapGet lp w.pools = some p) (hg : Guarded w lp p.xMint p.yMint) (hb : Booked w) (hc : Capital w)
    (hr : Ready w lp p c m) (hl : loadAccounts w lp p c lower upper current = .ok a)
    (h2 : (Decimal.fromInt n).toComputeScale = .ok amt) (h4 : tickToRp lower = .ok rpa) (h5 : tickToRp upper = .ok rpb)
    (h6 : tickToRp current = .ok rp)
    (h13 : computeLatestFee lower upper current p.gs.fee a.lwr.fee a.upr.fee a.pos.fee.scale = .ok fee)
    (h14 : unwrap (updatePosition a.pos a.lwr a.upr amt.neg lower upper fee) = .ok (pos, lwr, upr))
    (h9 : a.bitmap.unsetTick 0 = .ok b1) (h10 : b1.unsetTick 40000 = .ok b)
    (h15 : updateGlobal p.gs lower upper current amt.neg = .ok g)
    (h11 : xFromLRpRng amt.neg.neg rp rpa rpb = .ok xOut) (h12 : yFromLRpRng amt.neg.neg rp rpa rpb = .ok yOut)
    (h16 : feeTerm fee.fx fee.hx fee.scale xOut.scale = .ok fx) (h17 : unwrap (xOut.add fx) = .ok xCred)
    (h18 : feeTerm fee.fy fee.hy fee.scale yOut.scale = .ok fy) (h19 : unwrap (yOut.add fy) = .ok yCred)
    (h24 : xCred.abs = .ok m.x) (h26 : yCred.abs = .ok m.y) (hn : m.lp = n) :
    ∃ v, w.withdraw lp c lower upper current n = .ok (v, m) := by
  obtain ⟨dx, dy, l⟩ := m
  simp only at h24 h26 hn
  subst hn
  obtain ⟨nlx, nly, nxx, nyx⟩ := hg.notUser hr
  have nv : Addr.vault p.yMint lp ≠ .vault p.xMint lp := fun e => hg.ne (Addr.vault.inj e).1.symm
  obtain ⟨tx, x1, x2, x3, x4⟩ := hr.tokenX
  obtain ⟨ty, y1, y2, y3, y4⟩ := hr.tokenY
  obtain ⟨vx, vx1, vx2, vx3, vx4⟩ := hg.vaultX
  obtain ⟨vx', e, vx5, vx6⟩ := hr.vaultX
  rw [vx1] at e; cases e
  obtain ⟨vy, vy1, vy2, vy3, vy4⟩ := hg.vaultY
  obtain ⟨vy', e, vy5, vy6⟩ := hr.vaultY
  rw [vy1] at e; cases e
  obtain ⟨lv, lv1, _⟩ := hg.lpVault
  obtain ⟨tl, tl', l1, l2, l3, l4, l5⟩ := hr.lp
  obtain ⟨mt, m1, _⟩ := hg.mint
  -- the calls of the token program succeed
  obtain ⟨u1, g1⟩ := burn_intro hb l1 l3 l4 l2 l5
  obtain ⟨_, _, mv1⟩ := burn_moves g1
  have hb1 := burn_booked hb g1
  have hc1 := burn_capital hc g1
  obtain ⟨n1, k1, i1, i2, i3⟩ := mv1.present vx1
  obtain ⟨n2, k2, i4, i5, i6⟩ := mv1.present x1
  obtain ⟨n3, k3, i7, i8, i9⟩ := mv1.present vy1
  obtain ⟨n4, k4, i10, _, _⟩ := mv1.present y1
  rw [if_neg nlx] at i2
  rw [if_neg nly] at i8
  have hspend : ∀ (t : Token) (j : Nat), t.owner = .pool lp → t.delegate = none → spend t (.pool lp) j = .ok t := by
    intro t j e1 e2
    unfold spend
    rw [e2]
    simp [e1]
  obtain ⟨u2, g2⟩ := transfer_intro hb1 hc1 (src := .vault p.xMint lp) (dst := c.tokenX) (who := .pool lp) (n := dx) i1 i4 vx5 x4
    (by simp only at i2 vx6 ⊢; omega) (by simp only; rw [vx2, x2]) (hspend _ dx vx3 (i3 vx4))
  obtain ⟨_, _, mv2⟩ := transfer_moves g2
  have hb2 := transfer_booked hb1 g2
  have hc2 := transfer_capital hc1 g2
  obtain ⟨n5, k5, j1, j2, j3⟩ := mv2.present i7
  obtain ⟨n6, k6, j4, _, _⟩ := mv2.present i10
  simp only [if_neg nyx, if_neg nv] at j2
  obtain ⟨u3, g3⟩ := transfer_intro hb2 hc2 (src := .vault p.yMint lp) (dst := c.tokenY) (who := .pool lp) (n := dy) j1 j4 vy5 y4
    (by simp only at i8 vy6 ⊢; omega) (by simp only; rw [vy2, y2]) (hspend _ dy vy3 (j3 (i9 vy4)))
  refine ⟨World.mk (mapSet lp (writeBack p g c.user lower upper current ⟨b, pos, lwr, upr, a.cur⟩) u3.pools) u3.mints u3.tokens, ?_⟩
  unfold withdraw
  rw [hp, load, bind_eq, hl, bind_eq, h2, bind_eq, h4, bind_eq, h5, bind_eq, h6, bind_eq, h13, bind_eq, h14, bind_eq]
  simp only
  rw [h9, bind_eq, h10, bind_eq, h15, bind_eq, h11, bind_eq, h12, bind_eq, h16, bind_eq, h17, bind_eq, h18, bind_eq, h19,
    bind_eq, g1, bind_eq, h24, bind_eq, g2, bind_eq, h26, bind_eq, g3, bind_eq]
  rfl

/-- What a successful withdrawal had. -/
theorem withdraw_ready {w v : World} {lp : Nat} {p : PoolAcc} {c : Accounts} {lower upper current n : Nat} {m : Moved}
    (hp : mapGet lp w.pools = some p) (hg : Guarded w lp p.xMint p.yMint)
    (h : w.withdraw lp c lower upper current n = .ok (v, m)) : Ready w lp p c m := by
  obtain ⟨p', s, w1, w2, w3, h0, hps, hn, h1, h2, h3, hv, _⟩ := withdraw_ok h
  rw [hp] at h0; cases h0
  obtain ⟨tx, x1, x2, x3⟩ := hps.tokenX
  obtain ⟨ty, y1, y2, y3⟩ := hps.tokenY
  obtain ⟨vx, vx1, vx2, vx3, vx4⟩ := hg.vaultX
  obtain ⟨vy, vy1, vy2, vy3, vy4⟩ := hg.vaultY
  obtain ⟨mt, tl, tl', _, b2, b3, b4, b5, b6, _, _⟩ := burn_ok h1
  obtain ⟨_, _, mv1⟩ := burn_moves h1
  obtain ⟨_, _, mv2⟩ := transfer_moves h2
  obtain ⟨a, b, a', g1, g2, g3, g4, g5, g6, _⟩ := transfer_ok h2
  obtain ⟨a3, b3', a3', f1, f2, f3, f4, f5, f6, _⟩ := transfer_ok h3
  have k1 : ∀ (u : Addr) (tu : Token), mapGet u w.tokens = some tu → tu.owner = .pool lp → tu.delegate = none → u ≠ c.lp := by
    rintro u tu e1 o1 o2 rfl
    rw [e1] at b2; cases b2
    have := (spend_owner b6 o2).1
    rw [o1] at this; cases this
  have k2 : ∀ (u : Addr) (tu : Token), mapGet u w.tokens = some tu → tu.owner = .pool lp → u ≠ c.tokenX := by
    rintro u tu e1 o1 rfl
    rw [e1] at x1; cases x1
    rw [o1] at x3; cases x3
  have nv : Addr.vault p.yMint lp ≠ .vault p.xMint lp := fun e => hg.ne (Addr.vault.inj e).1.symm
  obtain ⟨n1, d1, i1, i2, _⟩ := mv1.present vx1
  obtain ⟨n2, d2, i4, i5, _⟩ := mv1.present x1
  obtain ⟨n3, d3, i7, i8, _⟩ := (mv1.trans mv2).present vy1
  obtain ⟨n4, d4, i10, i11, _⟩ := (mv1.trans mv2).present y1
  rw [g1] at i1
  rw [g2] at i4
  rw [f1] at i7
  rw [f2] at i10
  have ea := Option.some.inj i1
  have eb := Option.some.inj i4
  have ec := Option.some.inj i7
  have ed := Option.some.inj i10
  simp only [if_neg (k1 _ _ vx1 vx3 vx4)] at i2
  simp only [if_neg (k1 _ _ vy1 vy3 vy4), if_neg (k2 _ _ vy1 vy3), if_neg nv] at i8
  refine ⟨⟨tx, x1, x2, x3, ?_⟩, ⟨ty, y1, y2, y3, ?_⟩, ⟨vx, vx1, ?_, ?_⟩, ⟨vy, vy1, ?_, ?_⟩, ⟨tl, tl', b2, b5, b3, ?_, ?_⟩⟩
  · rw [eb] at g4; exact g4
  · rw [ed] at f4; exact f4
  · rw [ea] at g3; exact g3
  · rw [ea] at g5; simp only at g5; omega
  · rw [ec] at f3; exact f3
  · rw [ec] at f5; simp only at f5; omega
  · rw [hn]; exact b4
  · rw [hn]; exact b6

/-! ### Steps of others -/

/-- The mint cannot be frozen. -/
def Unfreezable (w : World) (m : Nat) : Prop := ∃ mt, mapGet m w.mints = some mt ∧ mt.freezer = none

/-- Accounts of `o` that nobody can freeze stay theirs and unfrozen, and lose nothing if they have no delegate. -/
structure Calm (o : Party) (w v : World) : Prop where
  token : ∀ a t, mapGet a w.tokens = some t → t.owner = o → t.frozen = false → Unfreezable w t.mint →
    ∃ t', mapGet a v.tokens = some t' ∧ t'.mint = t.mint ∧ t'.owner = o ∧ t'.frozen = false ∧
      (t.delegate = none → t'.delegate = none ∧ t.amount ≤ t'.amount)
  mint : ∀ m, Unfreezable w m → Unfreezable v m

theorem Calm.trans {o : Party} {w v u : World} (h : Calm o w v) (g : Calm o v u) : Calm o w u where
  token a t h1 h2 h3 h4 := by
    obtain ⟨t1, k1, k2, k3, k4, k5⟩ := h.token a t h1 h2 h3 h4
    obtain ⟨t2, l1, l2, l3, l4, l5⟩ := g.token a t1 k1 k3 k4 (k2 ▸ h.mint _ h4)
    exact ⟨t2, l1, l2.trans k2, l3, l4, fun hd => ⟨(l5 (k5 hd).1).1, (k5 hd).2.trans (l5 (k5 hd).1).2⟩⟩
  mint m hm := g.mint m (h.mint m hm)

theorem unfreezable_same {w v : World} (e : v.mints = w.mints) {m : Nat} (h : Unfreezable w m) : Unfreezable v m := by
  unfold Unfreezable; rw [e]; exact h

theorem unfreezable_set {w v : World} {q : Nat} {mt mt' : Mint} (hq : mapGet q w.mints = some mt)
    (hf : mt.freezer = none → mt'.freezer = none) (e : v.mints = mapSet q mt' w.mints) {m : Nat} (h : Unfreezable w m) :
    Unfreezable v m := by
  obtain ⟨t, h1, h2⟩ := h
  unfold Unfreezable
  rw [e]
  by_cases hm : m = q
  · subst hm
    rw [hq] at h1; cases h1
    exact ⟨mt', mapGet_set_same _ _ _, hf h2⟩
  · exact ⟨t, by rw [mapGet_set_other hm]; exact h1, h2⟩

theorem Moves.calm {o : Party} {w v : World} {d : Addr → ℤ} (h : Moves w v d)
    (hd : ∀ a t, mapGet a w.tokens = some t → t.owner = o → t.delegate = none → 0 ≤ d a)
    (hm : ∀ m, Unfreezable w m → Unfreezable v m) : Calm o w v where
  token a t h1 h2 h3 _ := by
    obtain ⟨n, k, e1, e2, e3⟩ := h.present h1
    refine ⟨_, e1, rfl, h2, h3, fun hn => ⟨e3 hn, ?_⟩⟩
    have := hd a t h1 h2 hn
    simp only
    omega
  mint := hm

theorem calm_same {o : Party} {w v : World} (h1 : v.tokens = w.tokens) (h2 : v.mints = w.mints) : Calm o w v :=
  (Moves.refl h1).calm (fun _ _ _ _ _ => le_rfl) fun _ => unfreezable_same h2

theorem transfer_calm {o who : Party} {w v : World} {src dst : Addr} {n : Nat} (hne : who ≠ o)
    (h : w.transfer src dst who n = .ok v) : Calm o w v := by
  obtain ⟨e, _, hm⟩ := transfer_moves h
  obtain ⟨a, b, a', h1, h2, _, _, h3, _, h4, _⟩ := transfer_ok h
  refine hm.calm (fun c t k1 k2 k3 => ?_) fun _ => unfreezable_same e
  have : c ≠ src := by
    rintro rfl
    rw [h1] at k1; cases k1
    exact hne ((spend_owner h4 k3).1.symm.trans k2)
  rw [if_neg this]
  split <;> simp

theorem mintTo_calm {o who : Party} {w v : World} {mint : Nat} {dst : Addr} {n : Nat}
    (h : w.mintTo mint dst who n = .ok v) : Calm o w v := by
  obtain ⟨_, ⟨m, h1, _, h3⟩, hm⟩ := mintTo_moves h
  refine hm.calm (fun c t _ _ _ => by split <;> simp) fun _ => unfreezable_set (mt' := { m with supply := m.supply + n }) h1
    (fun h => h) h3

theorem burn_calm {o who : Party} {w v : World} {mint : Nat} {src : Addr} {n : Nat} (hne : who ≠ o)
    (h : w.burn mint src who n = .ok v) : Calm o w v := by
  obtain ⟨_, ⟨m, h1, _, h3⟩, hm⟩ := burn_moves h
  obtain ⟨_, a, a', _, h2, _, _, _, h4, _⟩ := burn_ok h
  refine hm.calm (fun c t k1 k2 k3 => ?_) fun _ => unfreezable_set (mt' := { m with supply := m.supply - n }) h1 (fun h => h) h3
  have : c ≠ src := by
    rintro rfl
    rw [h2] at k1; cases k1
    exact hne ((spend_owner h4 k3).1.symm.trans k2)
  rw [if_neg this]
  simp

/-- A change of one account that is not an unfrozen one of `o` which nobody can freeze. -/
theorem calm_change {o : Party} {w v : World} {acc : Addr} {a : Token} (h : mapGet acc w.tokens = some a)
    (ha : a.owner ≠ o ∨ ¬ Unfreezable w a.mint) (e : ∀ b, b ≠ acc → mapGet b v.tokens = mapGet b w.tokens)
    (em : v.mints = w.mints) : Calm o w v where
  token b t h1 h2 h3 h4 := by
    have hb : b ≠ acc := by
      rintro rfl
      rw [h] at h1; cases h1
      rcases ha with ha | ha
      · exact ha h2
      · exact ha h4
    exact ⟨t, by rw [e b hb]; exact h1, rfl, h2, h3, fun hd => ⟨hd, le_rfl⟩⟩
  mint _ := unfreezable_same em

theorem tokenExec_calm {o : Party} {w v : World} {who : Nat} {i : TokenInstr} (hne : Party.user who ≠ o)
    (h : w.tokenExec who i = .ok v) : Calm o w v := by
  have ho : ∀ {p : Party}, p = .user who → p ≠ o := by rintro p rfl; exact hne
  cases i with
  | createMint mint authority freezer =>
    simp only [tokenExec, bind_ok, pure_ok, constraint_ok, Option.isNone_iff_eq_none] at h
    obtain ⟨_, h1, rfl⟩ := h
    refine ⟨fun a t k1 k2 k3 _ => ⟨t, k1, rfl, k2, k3, fun hd => ⟨hd, le_rfl⟩⟩, fun m hm => ?_⟩
    obtain ⟨t, k1, k2⟩ := hm
    have : m ≠ mint := by rintro rfl; rw [h1] at k1; cases k1
    exact ⟨t, by simp only; rw [mapGet_set_other this]; exact k1, k2⟩
  | createToken acc mint owner =>
    simp only [tokenExec, bind_ok, pure_ok, constraint_ok, Option.isNone_iff_eq_none] at h
    obtain ⟨_, h1, _, _, rfl⟩ := h
    refine ⟨fun a t k1 k2 k3 _ => ⟨t, ?_, rfl, k2, k3, fun hd => ⟨hd, le_rfl⟩⟩, fun m hm => hm⟩
    have : a ≠ .key acc := by rintro rfl; rw [h1] at k1; cases k1
    simp only
    rw [mapGet_set_other this]; exact k1
  | transfer src dst amount => exact transfer_calm hne h
  | mintTo mint dst amount => exact mintTo_calm h
  | burn mint src amount => exact burn_calm hne h
  | approve acc d amount =>
    simp only [tokenExec, bind_ok, pure_ok, constraint_ok, load_ok, Bool.and_eq_true, decide_eq_true_eq] at h
    obtain ⟨a, h1, _, h2, rfl⟩ := h
    exact calm_change h1 (.inl (ho h2.1)) (fun b hb => mapGet_set_other hb _ _) rfl
  | revoke acc =>
    simp only [tokenExec, bind_ok, pure_ok, constraint_ok, load_ok, Bool.and_eq_true, decide_eq_true_eq] at h
    obtain ⟨a, h1, _, h2, rfl⟩ := h
    exact calm_change h1 (.inl (ho h2.1)) (fun b hb => mapGet_set_other hb _ _) rfl
  | setOwner acc owner =>
    simp only [tokenExec, bind_ok, pure_ok, constraint_ok, load_ok, Bool.and_eq_true, decide_eq_true_eq] at h
    obtain ⟨a, h1, _, h2, rfl⟩ := h
    exact calm_change h1 (.inl (ho h2.1)) (fun b hb => mapGet_set_other hb _ _) rfl
  | setAuthority mint authority =>
    simp only [tokenExec, bind_ok, pure_ok, load_ok] at h
    obtain ⟨t, h1, _, _, rfl⟩ := h
    refine Moves.calm (d := fun _ => 0) (Moves.refl rfl) (fun _ _ _ _ _ => le_rfl) fun _ hm => ?_
    exact unfreezable_set (mt' := { t with authority := authority }) h1 (fun h => h) rfl hm
  | setFreezer mint freezer =>
    simp only [tokenExec, bind_ok, pure_ok, load_ok, constraint_ok, decide_eq_true_eq] at h
    obtain ⟨t, h1, _, h2, rfl⟩ := h
    refine Moves.calm (d := fun _ => 0) (Moves.refl rfl) (fun _ _ _ _ _ => le_rfl) fun _ hm => ?_
    exact unfreezable_set (mt' := { t with freezer := freezer }) h1 (fun h => by rw [h2] at h; cases h) rfl hm
  | freeze acc frozen =>
    simp only [tokenExec, bind_ok, pure_ok, load_ok, constraint_ok, Bool.and_eq_true, decide_eq_true_eq] at h
    obtain ⟨a, h1, m, h2, _, h3, rfl⟩ := h
    refine calm_change h1 (.inr ?_) (fun b hb => mapGet_set_other hb _ _) rfl
    rintro ⟨m', k1, k2⟩
    rw [h2] at k1; cases k1
    rw [h3.1] at k2; cases k2
  | close acc =>
    simp only [tokenExec, bind_ok, pure_ok, constraint_ok, load_ok, Bool.and_eq_true, decide_eq_true_eq] at h
    obtain ⟨a, h1, _, h2, rfl⟩ := h
    exact calm_change h1 (.inl (ho h2.1)) (fun b hb => mapGet_erase_other hb _) rfl

theorem exec_calm {o : Party} {w v : World} {i : Instr} (hu : ∀ u, i.payer = some u → Party.user u ≠ o)
    (hq : ∀ q, i.takes q → Party.pool q ≠ o) (h : w.exec i = .ok v) : Calm o w v := by
  cases i with
  | initializePool a lp x y t =>
    obtain ⟨mt, s, h0, _, _, h1, h2, h3, h4, h5, h6, h7, rfl⟩ := initializePool_ok h
    refine ⟨fun a t k1 k2 k3 _ => ⟨t, ?_, rfl, k2, k3, fun hd => ⟨hd, le_rfl⟩⟩, fun m hm => hm⟩
    have n1 : a ≠ .lpVault lp := by rintro rfl; rw [k1] at h5; cases h5
    have n2 : a ≠ .vault y lp := by rintro rfl; rw [k1] at h4; cases h4
    have n3 : a ≠ .vault x lp := by rintro rfl; rw [k1] at h3; cases h3
    simp only
    rw [mapGet_set_other n1, mapGet_set_other n2, mapGet_set_other n3]
    exact k1
  | initializeBitmap lp =>
    obtain ⟨p, _, _, rfl⟩ := initializeBitmap_ok h
    exact calm_same rfl rfl
  | initializeTick lp t =>
    obtain ⟨p, _, _, rfl⟩ := initializeTick_ok h
    exact calm_same rfl rfl
  | createPosition lp u l k =>
    obtain ⟨p, _, _, _, rfl⟩ := createPosition_ok h
    exact calm_same rfl rfl
  | deposit lp c l k cur x y =>
    simp only [exec, bind_ok, pure_ok] at h
    obtain ⟨⟨v', m⟩, h, rfl⟩ := h
    obtain ⟨p, s, w1, w2, w3, h0, hp, h1, h2, h3, hv, hs⟩ := deposit_ok h
    have hc := hu c.user rfl
    exact ((mintTo_calm h1).trans ((transfer_calm hc h2).trans (transfer_calm hc h3))).trans
      (calm_same (by rw [hv]) (by rw [hv]))
  | withdraw lp c l k cur n =>
    simp only [exec, bind_ok, pure_ok] at h
    obtain ⟨⟨v', m⟩, h, rfl⟩ := h
    obtain ⟨p, s, w1, w2, w3, h0, hp, _, h1, h2, h3, hv, hs⟩ := withdraw_ok h
    exact ((burn_calm (hu c.user rfl) h1).trans ((transfer_calm (hq lp rfl) h2).trans (transfer_calm (hq lp rfl) h3))).trans
      (calm_same (by rw [hv]) (by rw [hv]))

/-- A pool's record that differs in the positions of others only, and in what they change. -/
structure Keeps (u : Nat) (p p' : PoolAcc) : Prop where
  xMint : p'.xMint = p.xMint
  yMint : p'.yMint = p.yMint
  tick : p'.gs.tick = p.gs.tick
  pos : ∀ k q, k.user = u → mapGet k p.positions = some q → mapGet k p'.positions = some q

theorem Keeps.refl (u : Nat) (p : PoolAcc) : Keeps u p p := ⟨rfl, rfl, rfl, fun _ _ _ h => h⟩

theorem Keeps.trans {u : Nat} {p q r : PoolAcc} (h : Keeps u p q) (g : Keeps u q r) : Keeps u p r :=
  ⟨g.xMint.trans h.xMint, g.yMint.trans h.yMint, g.tick.trans h.tick, fun k s e e' => g.pos k s e (h.pos k s e e')⟩

theorem createPosition_new {w v : World} {lp user lower upper : Nat} (h : w.createPosition lp user lower upper = .ok v) :
    ∃ p k q, mapGet lp w.pools = some p ∧ mapGet k p.positions = none ∧
      v = World.mk (mapSet lp { p with positions := mapSet k q p.positions } w.pools) w.mints w.tokens := by
  simp only [createPosition, bind_ok, pure_ok, constraint_ok, load_ok, Option.isNone_iff_eq_none, decide_eq_true_eq] at h
  obtain ⟨p, h1, _, h2, _, h3, t1, h4, t2, h5, h6⟩ := h
  exact ⟨p, _, _, h1, h2, h6.symm⟩

theorem exec_keeps {w v : World} (hw : Reachable w) {u lp : Nat} {p : PoolAcc} {i : Instr} (hp : mapGet lp w.pools = some p)
    (hn : ¬ i.takes lp) (hu : i.payer ≠ some u) (h : w.exec i = .ok v) : ∃ p', mapGet lp v.pools = some p' ∧ Keeps u p p' := by
  have other : ∀ {q : Nat} {r : PoolAcc}, lp ≠ q → v.pools = mapSet q r w.pools →
      ∃ p', mapGet lp v.pools = some p' ∧ Keeps u p p' :=
    fun hq e => ⟨p, by rw [e, mapGet_set_other hq]; exact hp, Keeps.refl u p⟩
  have same : ∀ {r : PoolAcc}, v.pools = mapSet lp r w.pools → Keeps u p r → ∃ p', mapGet lp v.pools = some p' ∧ Keeps u p p' :=
    fun e hg => ⟨_, by rw [e]; exact mapGet_set_same _ _ _, hg⟩
  cases i with
  | initializePool a q x y t =>
    obtain ⟨mt, s, h0, _, _, _, _, _, _, _, _, _, e⟩ := initializePool_ok h
    exact other (q := q) (by rintro rfl; rw [hp] at h0; cases h0) (congrArg World.pools e)
  | initializeBitmap q =>
    obtain ⟨r, h1, h2, e⟩ := initializeBitmap_ok h
    by_cases hq : lp = q
    · subst hq
      rw [hp] at h1; cases h1
      exact same (congrArg World.pools e) ⟨rfl, rfl, rfl, fun _ _ _ h => h⟩
    · exact other hq (congrArg World.pools e)
  | initializeTick q t =>
    obtain ⟨r, h1, h2, e⟩ := initializeTick_ok h
    by_cases hq : lp = q
    · subst hq
      rw [hp] at h1; cases h1
      exact same (congrArg World.pools e) ⟨rfl, rfl, rfl, fun _ _ _ h => h⟩
    · exact other hq (congrArg World.pools e)
  | createPosition q u l k =>
    obtain ⟨r, key, ps, h1, h2, e⟩ := createPosition_new h
    by_cases hq : lp = q
    · subst hq
      rw [hp] at h1; cases h1
      refine same (congrArg World.pools e) ⟨rfl, rfl, rfl, fun t' ts _ ht => ?_⟩
      have : t' ≠ key := by rintro rfl; rw [h2] at ht; cases ht
      simp only
      rw [mapGet_set_other this]; exact ht
    · exact other hq (congrArg World.pools e)
  | deposit q c l k cur x y =>
    simp only [exec, bind_ok, pure_ok] at h
    obtain ⟨⟨v', m⟩, h, rfl⟩ := h
    by_cases hq : lp = q
    · subst hq
      obtain ⟨hg, supply0, s, hr, hs⟩ := hw.guarded hp
      obtain ⟨p', s1, s2, s3, c', k1, _, k2, k3, hext, hcu, hd, hext2, hs'⟩ := hs.deposit hp hg hw.small h
      obtain ⟨d, rp, a, b, z, view⟩ := (Good.reachable (hr.step (.external hext))).deposit hd
      refine ⟨p', k1, k2, k3, ?_, fun key r ht hr => ?_⟩
      · rw [← hs'.gs, hext2.gs, ← hs.gs, ← hext.gs, view.raw.result]; exact view.gTick
      · rw [← hs'.positions, hext2.positions, view.raw.result]
        rw [← hs.positions, ← hext.positions] at hr
        show mapGet key (mapSet _ _ _) = _
        rw [mapGet_set_other (by rintro rfl; exact hu (congrArg some (hcu.symm.trans ht)))]
        exact hr
    · obtain ⟨r, s, mt, _, _, e, _⟩ := deposit_effect h
      exact other hq e
  | withdraw q c l k cur n =>
    simp only [exec, bind_ok, pure_ok] at h
    obtain ⟨⟨v', m⟩, h, rfl⟩ := h
    obtain ⟨r, s, mt, _, _, e, _⟩ := withdraw_effect h
    exact other (fun hq => hn hq.symm) e

/-- What others leave alone. -/
theorem OthersSteps.keeps {u lp : Nat} {w v : World} (h : OthersSteps u lp w v) (hr : Reachable w) {p : PoolAcc}
    (hp : mapGet lp w.pools = some p) : Reachable v ∧ Calm (.user u) w v ∧ Calm (.pool lp) w v ∧
      ∃ p', mapGet lp v.pools = some p' ∧ Keeps u p p' := by
  induction h with
  | refl => exact ⟨hr, calm_same rfl rfl, calm_same rfl rfl, p, hp, Keeps.refl u p⟩
  | @program v x i h hn hs he ih =>
    obtain ⟨i1, i2, i3, p', i4, i5⟩ := ih
    obtain ⟨p'', j1, j2⟩ := exec_keeps i1 i4 hn hs he
    refine ⟨i1.step (.program i he), i2.trans ?_, i3.trans ?_, p'', j1, i5.trans j2⟩
    · exact exec_calm (fun s e => by intro e'; cases e'; exact hs e) (fun q _ e => by cases e) he
    · exact exec_calm (fun s _ e => by cases e) (fun q ht e => by cases e; exact hn ht) he
  | @token v x s i h hs he ih =>
    obtain ⟨i1, i2, i3, p', i4, i5⟩ := ih
    refine ⟨i1.step (.token s i he), i2.trans (tokenExec_calm (fun e => hs (Party.user.inj e)) he),
      i3.trans (tokenExec_calm (fun e => by cases e) he), p', ?_, i5⟩
    rw [(tokenExec_secure (E := fun _ => False) he).2]; exact i4

end Hmm.OnChain.World
