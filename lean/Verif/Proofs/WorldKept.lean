import Verif.Proofs.World

/-
What every ledger with pools keeps: vaults, LP mints, and the sums of balances.
-/

namespace Hmm.OnChain.World

open Decimal PoolMath

/-! ### Accounts only a pool can spend from -/

/-- Accounts of pools, other than those in `E`, keep their owner and mint, get no delegate, and lose nothing. -/
def Secure (E : Addr → Prop) (w v : World) : Prop :=
  ∀ a t lp, ¬ E a → mapGet a w.tokens = some t → t.owner = .pool lp → t.delegate = none →
    ∃ t', mapGet a v.tokens = some t' ∧ t'.mint = t.mint ∧ t'.owner = .pool lp ∧ t'.delegate = none ∧ t.amount ≤ t'.amount

theorem Secure.trans {E : Addr → Prop} {w v u : World} (h : Secure E w v) (g : Secure E v u) : Secure E w u := by
  intro a t lp ha h1 h2 h3
  obtain ⟨t1, k1, k2, k3, k4, k5⟩ := h a t lp ha h1 h2 h3
  obtain ⟨t2, l1, l2, l3, l4, l5⟩ := g a t1 lp ha k1 k3 k4
  exact ⟨t2, l1, l2.trans k2, l3, l4, k5.trans l5⟩

theorem Secure.mono {E F : Addr → Prop} {w v : World} (h : Secure E w v) (hf : ∀ a, E a → F a) : Secure F w v :=
  fun a t lp ha => h a t lp fun he => ha (hf a he)

theorem Moves.secure {E : Addr → Prop} {w v : World} {d : Addr → ℤ} (h : Moves w v d)
    (hd : ∀ a t lp, ¬ E a → mapGet a w.tokens = some t → t.owner = .pool lp → t.delegate = none → 0 ≤ d a) :
    Secure E w v := by
  intro a t lp ha h1 h2 h3
  obtain ⟨n, k, e1, e2, e3⟩ := h.present h1
  refine ⟨_, e1, rfl, h2, e3 h3, ?_⟩
  have := hd a t lp ha h1 h2 h3
  simp only
  omega

theorem secure_of_tokens {E : Addr → Prop} {w v : World} (e : v.tokens = w.tokens) : Secure E w v :=
  (Moves.refl e).secure fun _ _ _ _ _ _ _ => le_rfl

theorem transfer_secure {w v : World} {src dst : Addr} {who : Party} {n : Nat} (h : w.transfer src dst who n = .ok v) :
    Secure (fun a => a = src ∧ ∃ lp, who = .pool lp) w v := by
  obtain ⟨_, _, hm⟩ := transfer_moves h
  obtain ⟨a, b, a', h1, h2, _, _, h3, _, h4, h5⟩ := transfer_ok h
  refine hm.secure fun c t lp hc k1 k2 k3 => ?_
  have : c ≠ src := by
    rintro rfl
    rw [k1] at h1; cases h1
    exact hc ⟨rfl, lp, by rw [← (spend_owner h4 k3).1, k2]⟩
  rw [if_neg this]
  split <;> simp

theorem mintTo_secure {E : Addr → Prop} {w v : World} {mint : Nat} {dst : Addr} {who : Party} {n : Nat}
    (h : w.mintTo mint dst who n = .ok v) : Secure E w v := by
  obtain ⟨_, _, hm⟩ := mintTo_moves h
  refine hm.secure fun c t lp hc k1 k2 k3 => ?_
  split <;> simp

theorem burn_secure {E : Addr → Prop} {w v : World} {mint : Nat} {src : Addr} {who n : Nat}
    (h : w.burn mint src (.user who) n = .ok v) : Secure E w v := by
  obtain ⟨_, _, hm⟩ := burn_moves h
  obtain ⟨m, a, a', h1, h2, _, h3, _, h4, h5, _⟩ := burn_ok h
  refine hm.secure fun c t lp hc k1 k2 k3 => ?_
  have : c ≠ src := by
    rintro rfl
    rw [k1] at h2; cases h2
    have := (spend_owner h4 k3).1
    rw [k2] at this
    cases this
  rw [if_neg this]
  simp

/-- Changes of one account signed by its owner, or of its frozen mark. -/
theorem secure_set {E : Addr → Prop} {w v : World} {acc : Addr} {a a' : Token} (h : mapGet acc w.tokens = some a)
    (ha : (∃ u, a.owner = .user u) ∨ ∃ f, a' = { a with frozen := f }) (e : v.tokens = mapSet acc a' w.tokens) :
    Secure E w v := by
  intro b t lp _ h1 h2 h3
  by_cases hb : b = acc
  · subst hb
    rw [h] at h1; cases h1
    rcases ha with ⟨u, hu⟩ | ⟨f, rfl⟩
    · rw [hu] at h2; cases h2
    · exact ⟨{ a with frozen := f }, by rw [e, mapGet_set_same], rfl, h2, h3, le_rfl⟩
  · exact ⟨t, by rw [e, mapGet_set_other hb]; exact h1, rfl, h2, h3, le_rfl⟩

theorem tokenExec_secure {E : Addr → Prop} {w v : World} {who : Nat} {i : TokenInstr} (h : w.tokenExec who i = .ok v) :
    Secure E w v ∧ v.pools = w.pools := by
  cases i with
  | createMint mint authority freezer =>
    simp only [tokenExec, bind_ok, pure_ok] at h
    obtain ⟨_, _, rfl⟩ := h
    exact ⟨secure_of_tokens rfl, rfl⟩
  | createToken acc mint owner =>
    simp only [tokenExec, bind_ok, pure_ok, constraint_ok, load_ok] at h
    obtain ⟨_, h1, _, _, rfl⟩ := h
    refine ⟨fun a t lp _ k1 k2 k3 => ⟨t, ?_, rfl, k2, k3, le_rfl⟩, rfl⟩
    have : a ≠ .key acc := by
      rintro rfl
      rw [k1] at h1
      simp at h1
    simp only
    rw [mapGet_set_other this]; exact k1
  | transfer src dst amount =>
    refine ⟨(transfer_secure h).mono ?_, (transfer_moves h).2.1⟩
    rintro a ⟨_, lp, h⟩
    cases h
  | mintTo mint dst amount => exact ⟨mintTo_secure h, (mintTo_moves h).1⟩
  | burn mint src amount => exact ⟨burn_secure h, (burn_moves h).1⟩
  | approve acc d amount =>
    simp only [tokenExec, bind_ok, pure_ok, constraint_ok, load_ok, Bool.and_eq_true, decide_eq_true_eq] at h
    obtain ⟨a, h1, _, h2, rfl⟩ := h
    exact ⟨secure_set h1 (.inl ⟨_, h2.1⟩) rfl, rfl⟩
  | revoke acc =>
    simp only [tokenExec, bind_ok, pure_ok, constraint_ok, load_ok, Bool.and_eq_true, decide_eq_true_eq] at h
    obtain ⟨a, h1, _, h2, rfl⟩ := h
    exact ⟨secure_set h1 (.inl ⟨_, h2.1⟩) rfl, rfl⟩
  | setOwner acc owner =>
    simp only [tokenExec, bind_ok, pure_ok, constraint_ok, load_ok, Bool.and_eq_true, decide_eq_true_eq] at h
    obtain ⟨a, h1, _, h2, rfl⟩ := h
    exact ⟨secure_set h1 (.inl ⟨_, h2.1⟩) rfl, rfl⟩
  | setAuthority mint authority =>
    simp only [tokenExec, bind_ok, pure_ok] at h
    obtain ⟨_, _, _, _, rfl⟩ := h
    exact ⟨secure_of_tokens rfl, rfl⟩
  | setFreezer mint freezer =>
    simp only [tokenExec, bind_ok, pure_ok] at h
    obtain ⟨_, _, _, _, rfl⟩ := h
    exact ⟨secure_of_tokens rfl, rfl⟩
  | freeze acc frozen =>
    simp only [tokenExec, bind_ok, pure_ok, load_ok] at h
    obtain ⟨a, h1, m, h2, _, h3, rfl⟩ := h
    exact ⟨secure_set h1 (.inr ⟨frozen, rfl⟩) rfl, rfl⟩
  | close acc =>
    simp only [tokenExec, bind_ok, pure_ok, constraint_ok, load_ok, Bool.and_eq_true, decide_eq_true_eq] at h
    obtain ⟨a, h1, _, h2, rfl⟩ := h
    refine ⟨fun b t lp _ k1 k2 k3 => ⟨t, ?_, rfl, k2, k3, le_rfl⟩, rfl⟩
    have : b ≠ acc := by
      rintro rfl
      rw [k1] at h1; cases h1
      rw [k2] at h2; cases h2.1
    simp only
    rw [mapGet_erase_other this]; exact k1

/-! ### Mints only a pool can issue -/

/-- The mint `m`, if the pool `lp` issues it, stays so and its supply does not grow. -/
def Capped (w v : World) (m lp : Nat) : Prop :=
  ∀ t, mapGet m w.mints = some t → t.authority = some (.pool lp) →
    ∃ t', mapGet m v.mints = some t' ∧ t'.authority = some (.pool lp) ∧ t'.supply ≤ t.supply

theorem Capped.trans {w v u : World} {m lp : Nat} (h : Capped w v m lp) (g : Capped v u m lp) : Capped w u m lp := by
  intro t h1 h2
  obtain ⟨t1, k1, k2, k3⟩ := h t h1 h2
  obtain ⟨t2, l1, l2, l3⟩ := g t1 k1 k2
  exact ⟨t2, l1, l2, l3.trans k3⟩

theorem capped_of {w v : World} {m lp : Nat} (e : mapGet m v.mints = mapGet m w.mints) : Capped w v m lp :=
  fun t h1 h2 => ⟨t, e.trans h1, h2, le_rfl⟩

theorem capped_set {w v : World} {mint m lp : Nat} {t t' : Mint} (h : mapGet mint w.mints = some t)
    (hm : m = mint → t.authority = some (.pool lp) → t'.authority = some (.pool lp) ∧ t'.supply ≤ t.supply)
    (e : v.mints = mapSet mint t' w.mints) : Capped w v m lp := by
  intro s h1 h2
  by_cases hb : m = mint
  · subst hb
    rw [h] at h1; cases h1
    obtain ⟨k1, k2⟩ := hm rfl h2
    exact ⟨t', by rw [e, mapGet_set_same], k1, k2⟩
  · exact ⟨s, by rw [e, mapGet_set_other hb]; exact h1, h2, le_rfl⟩

theorem transfer_capped {w v : World} {src dst : Addr} {who : Party} {n m lp : Nat} (h : w.transfer src dst who n = .ok v) :
    Capped w v m lp := capped_of (by rw [(transfer_moves h).1])

theorem mintTo_capped {w v : World} {mint : Nat} {dst : Addr} {who : Party} {n m lp : Nat}
    (h : w.mintTo mint dst who n = .ok v) (hne : m ≠ mint ∨ who ≠ .pool lp) : Capped w v m lp := by
  obtain ⟨_, ⟨t, h1, h2, h3⟩, _⟩ := mintTo_moves h
  refine capped_set h1 (fun e ha => ?_) h3
  rw [h2] at ha
  rcases hne with hne | hne
  · exact absurd e hne
  · exact absurd (Option.some.inj ha) hne

theorem burn_capped {w v : World} {mint : Nat} {src : Addr} {who : Party} {n m lp : Nat}
    (h : w.burn mint src who n = .ok v) : Capped w v m lp := by
  obtain ⟨_, ⟨t, h1, h2, h3⟩, _⟩ := burn_moves h
  exact capped_set (t' := { t with supply := t.supply - n }) h1 (fun _ ha => ⟨ha, by simp⟩) h3

theorem tokenExec_capped {w v : World} {who m lp : Nat} {i : TokenInstr} (h : w.tokenExec who i = .ok v) :
    Capped w v m lp := by
  cases i with
  | createMint mint authority freezer =>
    simp only [tokenExec, bind_ok, pure_ok, constraint_ok] at h
    obtain ⟨_, h1, rfl⟩ := h
    intro t k1 k2
    have : m ≠ mint := by
      rintro rfl
      rw [k1] at h1; simp at h1
    exact ⟨t, by simp only; rw [mapGet_set_other this]; exact k1, k2, le_rfl⟩
  | createToken acc mint owner =>
    simp only [tokenExec, bind_ok, pure_ok, constraint_ok, load_ok] at h
    obtain ⟨_, h1, _, _, rfl⟩ := h
    exact capped_of rfl
  | transfer src dst amount => exact transfer_capped h
  | mintTo mint dst amount => exact mintTo_capped h (.inr (by simp))
  | burn mint src amount => exact burn_capped h
  | approve acc d amount =>
    simp only [tokenExec, bind_ok, pure_ok] at h
    obtain ⟨a, h1, _, h2, rfl⟩ := h
    exact capped_of rfl
  | revoke acc =>
    simp only [tokenExec, bind_ok, pure_ok] at h
    obtain ⟨a, h1, _, h2, rfl⟩ := h
    exact capped_of rfl
  | setOwner acc owner =>
    simp only [tokenExec, bind_ok, pure_ok] at h
    obtain ⟨a, h1, _, h2, rfl⟩ := h
    exact capped_of rfl
  | setAuthority mint authority =>
    simp only [tokenExec, bind_ok, pure_ok, load_ok, constraint_ok, decide_eq_true_eq] at h
    obtain ⟨t, h1, _, h2, rfl⟩ := h
    refine capped_set h1 (fun _ ha => ?_) rfl
    rw [h2] at ha; cases ha
  | setFreezer mint freezer =>
    simp only [tokenExec, bind_ok, pure_ok, load_ok] at h
    obtain ⟨t, h1, _, _, rfl⟩ := h
    exact capped_set (t' := { t with freezer := freezer }) h1 (fun _ ha => ⟨ha, le_rfl⟩) rfl
  | freeze acc frozen =>
    simp only [tokenExec, bind_ok, pure_ok] at h
    obtain ⟨a, h1, m, h2, _, h3, rfl⟩ := h
    exact capped_of rfl
  | close acc =>
    simp only [tokenExec, bind_ok, pure_ok] at h
    obtain ⟨a, h1, _, h2, rfl⟩ := h
    exact capped_of rfl

/-! ### Effect of deposits and withdrawals -/

/-- One more, or fewer, at one address. -/
def at_ (a b : Addr) (n : ℤ) : ℤ := if b = a then n else 0

theorem deposit_effect {w v : World} {lp : Nat} {c : Accounts} {lower upper current xa ya : Nat} {m : Moved}
    (h : w.deposit lp c lower upper current xa ya = .ok (v, m)) :
    ∃ p s mt, mapGet lp w.pools = some p ∧ Passed w lp p c ∧ v.pools = mapSet lp (PoolAcc.update p s) w.pools ∧
      mapGet lp w.mints = some mt ∧ mt.authority = some (.pool lp) ∧ mt.supply + m.lp < u64Size ∧
      v.mints = mapSet lp { mt with supply := mt.supply + m.lp } w.mints ∧
      Moves w v (fun b => at_ c.lp b m.lp + (at_ (.vault p.xMint lp) b m.x - at_ c.tokenX b m.x) +
        (at_ (.vault p.yMint lp) b m.y - at_ c.tokenY b m.y)) ∧
      ∀ S A B, S + m.lp < u64Size → A + m.x < u64Size → B + m.y < u64Size →
        ∃ t, OnChain.deposit (PoolAcc.chain p c.user S A B 0 m.x m.y) ⟨c.user, 0, 0, 0⟩ lower upper current xa ya = .ok (t, m) ∧
          t.gs = s.gs ∧ t.bitmap = s.bitmap ∧ t.ticks = s.ticks ∧ t.positions = s.positions ∧
          t.lpSupply = S + m.lp ∧ t.vaultX = A + m.x ∧ t.vaultY = B + m.y := by
  obtain ⟨p, s, w1, w2, w3, h0, hp, h1, h2, h3, hv, hs⟩ := deposit_ok h
  obtain ⟨mt, b, k1, _, _, _, k2, _, k3, _⟩ := mintTo_ok h1
  obtain ⟨p1, ⟨mt', l1, l2, l3⟩, m1⟩ := mintTo_moves h1
  obtain ⟨e2, p2, m2⟩ := transfer_moves h2
  obtain ⟨e3, p3, m3⟩ := transfer_moves h3
  rw [k1] at l1; cases l1
  refine ⟨p, s, mt, h0, hp, ?_, k1, k2, k3, ?_, ?_, hs⟩
  · rw [hv, ← p1, ← p2, ← p3]
  · rw [hv, ← l3, ← e2, ← e3]
  · have := (m1.trans m2).trans (m3.trans (Moves.refl (v := v) (by rw [hv])))
    refine this.congr fun b => ?_
    simp only [at_]
    ring

theorem withdraw_effect {w v : World} {lp : Nat} {c : Accounts} {lower upper current n : Nat} {m : Moved}
    (h : w.withdraw lp c lower upper current n = .ok (v, m)) :
    ∃ p s mt, mapGet lp w.pools = some p ∧ Passed w lp p c ∧ v.pools = mapSet lp (PoolAcc.update p s) w.pools ∧ m.lp = n ∧
      mapGet lp w.mints = some mt ∧ n ≤ mt.supply ∧
      v.mints = mapSet lp { mt with supply := mt.supply - n } w.mints ∧
      Moves w v (fun b => -at_ c.lp b n + (at_ c.tokenX b m.x - at_ (.vault p.xMint lp) b m.x) +
        (at_ c.tokenY b m.y - at_ (.vault p.yMint lp) b m.y)) ∧
      ∀ S A B, n ≤ S → m.x ≤ A → A < u64Size → m.y ≤ B → B < u64Size →
        ∃ t, OnChain.withdraw (PoolAcc.chain p c.user S A B n 0 0) ⟨c.user, 0, 0, 0⟩ lower upper current n = .ok (t, m) ∧
          t.gs = s.gs ∧ t.bitmap = s.bitmap ∧ t.ticks = s.ticks ∧ t.positions = s.positions ∧
          t.lpSupply = S - n ∧ t.vaultX = A - m.x ∧ t.vaultY = B - m.y := by
  obtain ⟨p, s, w1, w2, w3, h0, hp, hn, h1, h2, h3, hv, hs⟩ := withdraw_ok h
  obtain ⟨p1, ⟨mt, l1, l2, l3⟩, m1⟩ := burn_moves h1
  obtain ⟨e2, p2, m2⟩ := transfer_moves h2
  obtain ⟨e3, p3, m3⟩ := transfer_moves h3
  refine ⟨p, s, mt, h0, hp, ?_, hn, l1, l2, ?_, ?_, hs⟩
  · rw [hv, ← p1, ← p2, ← p3]
  · rw [hv, ← l3, ← e2, ← e3]
  · have := (m1.trans m2).trans (m3.trans (Moves.refl (v := v) (by rw [hv])))
    refine this.congr fun b => ?_
    simp only [at_]
    ring

theorem deposit_secure {w v : World} {lp : Nat} {c : Accounts} {lower upper current xa ya : Nat} {m : Moved} {E : Addr → Prop}
    (h : w.deposit lp c lower upper current xa ya = .ok (v, m)) : Secure E w v := by
  obtain ⟨p, s, w1, w2, w3, h0, hp, h1, h2, h3, hv, hs⟩ := deposit_ok h
  have hx : ∀ a : Addr, (a = c.tokenX ∧ ∃ q, Party.user c.user = .pool q) → E a := by rintro a ⟨_, q, h⟩; cases h
  have hy : ∀ a : Addr, (a = c.tokenY ∧ ∃ q, Party.user c.user = .pool q) → E a := by rintro a ⟨_, q, h⟩; cases h
  exact (mintTo_secure h1).trans (((transfer_secure h2).mono hx).trans (((transfer_secure h3).mono hy).trans
    (secure_of_tokens (by rw [hv]))))

theorem withdraw_secure {w v : World} {lp : Nat} {p : PoolAcc} {c : Accounts} {lower upper current n : Nat} {m : Moved}
    (hp : mapGet lp w.pools = some p) (h : w.withdraw lp c lower upper current n = .ok (v, m)) :
    Secure (fun a => a = .vault p.xMint lp ∨ a = .vault p.yMint lp) w v := by
  obtain ⟨p', s, w1, w2, w3, h0, _, hn, h1, h2, h3, hv, hs⟩ := withdraw_ok h
  rw [hp] at h0; cases h0
  exact (burn_secure h1).trans (((transfer_secure h2).mono fun a h => .inl h.1).trans
    (((transfer_secure h3).mono fun a h => .inr h.1).trans (secure_of_tokens (by rw [hv]))))

/-! ### Amounts fit in 64 bits -/

/-- Every balance fits in 64 bits. -/
def Small (w : World) : Prop := ∀ a t, mapGet a w.tokens = some t → t.amount < u64Size

theorem Small.set {w v : World} {a : Addr} {t : Token} (h : Small w) (ht : t.amount < u64Size)
    (e : v.tokens = mapSet a t w.tokens) : Small v := by
  intro b t' hb
  rw [e] at hb
  by_cases he : b = a
  · subst he
    rw [mapGet_set_same] at hb; cases hb
    exact ht
  · rw [mapGet_set_other he] at hb
    exact h b t' hb

theorem Small.same {w v : World} (h : Small w) (e : v.tokens = w.tokens) : Small v := by
  intro a t ha; rw [e] at ha; exact h a t ha

theorem transfer_small {w v : World} {src dst : Addr} {who : Party} {n : Nat} (hw : Small w)
    (h : w.transfer src dst who n = .ok v) : Small v := by
  obtain ⟨a, b, a', h1, h2, _, _, h3, _, h4, h5⟩ := transfer_ok h
  rcases h5 with ⟨rfl, rfl⟩ | ⟨hne, hb, rfl⟩
  · exact hw
  · have : Small (World.mk w.pools w.mints (mapSet src { a' with amount := a.amount - n } w.tokens)) :=
      hw.set (t := { a' with amount := a.amount - n }) (lt_of_le_of_lt (Nat.sub_le _ _) (hw _ _ h1)) rfl
    exact this.set (t := { b with amount := b.amount + n }) hb rfl

theorem mintTo_small {w v : World} {mint : Nat} {dst : Addr} {who : Party} {n : Nat} (hw : Small w)
    (h : w.mintTo mint dst who n = .ok v) : Small v := by
  obtain ⟨m, b, h1, h2, _, _, h3, h4, _, rfl⟩ := mintTo_ok h
  exact hw.set (t := { b with amount := b.amount + n }) h4 rfl

theorem burn_small {w v : World} {mint : Nat} {src : Addr} {who : Party} {n : Nat} (hw : Small w)
    (h : w.burn mint src who n = .ok v) : Small v := by
  obtain ⟨m, a, a', h1, h2, _, h3, _, h4, h5, rfl⟩ := burn_ok h
  exact hw.set (t := { a' with amount := a.amount - n }) (lt_of_le_of_lt (Nat.sub_le _ _) (hw _ _ h2)) rfl

theorem tokenExec_small {w v : World} {who : Nat} {i : TokenInstr} (hw : Small w) (h : w.tokenExec who i = .ok v) :
    Small v := by
  cases i with
  | createMint mint authority freezer =>
    simp only [tokenExec, bind_ok, pure_ok] at h
    obtain ⟨_, _, rfl⟩ := h
    exact hw.same rfl
  | createToken acc mint owner =>
    simp only [tokenExec, bind_ok, pure_ok] at h
    obtain ⟨_, h1, _, _, rfl⟩ := h
    exact hw.set (t := ⟨mint, owner, 0, none, false⟩) (by norm_num [u64Size]) rfl
  | transfer src dst amount => exact transfer_small hw h
  | mintTo mint dst amount => exact mintTo_small hw h
  | burn mint src amount => exact burn_small hw h
  | approve acc d amount =>
    simp only [tokenExec, bind_ok, pure_ok, load_ok] at h
    obtain ⟨a, h1, _, h2, rfl⟩ := h
    have := hw _ _ h1
    exact hw.set (t := { a with delegate := some (d, amount) }) this rfl
  | revoke acc =>
    simp only [tokenExec, bind_ok, pure_ok, load_ok] at h
    obtain ⟨a, h1, _, h2, rfl⟩ := h
    have := hw _ _ h1
    exact hw.set (t := { a with delegate := none }) this rfl
  | setOwner acc owner =>
    simp only [tokenExec, bind_ok, pure_ok, load_ok] at h
    obtain ⟨a, h1, _, h2, rfl⟩ := h
    have := hw _ _ h1
    exact hw.set (t := { a with owner := owner, delegate := none }) this rfl
  | setAuthority mint authority =>
    simp only [tokenExec, bind_ok, pure_ok] at h
    obtain ⟨_, _, _, _, rfl⟩ := h
    exact hw.same rfl
  | setFreezer mint freezer =>
    simp only [tokenExec, bind_ok, pure_ok] at h
    obtain ⟨_, _, _, _, rfl⟩ := h
    exact hw.same rfl
  | freeze acc frozen =>
    simp only [tokenExec, bind_ok, pure_ok, load_ok] at h
    obtain ⟨a, h1, m, h2, _, h3, rfl⟩ := h
    have := hw _ _ h1
    exact hw.set (t := { a with frozen := frozen }) this rfl
  | close acc =>
    simp only [tokenExec, bind_ok, pure_ok] at h
    obtain ⟨a, h1, _, h2, rfl⟩ := h
    intro b t hb
    simp only at hb
    by_cases he : b = acc
    · subst he
      rw [mapGet_erase_same] at hb; cases hb
    · rw [mapGet_erase_other he] at hb
      exact hw b t hb

theorem deposit_small {w v : World} {lp : Nat} {c : Accounts} {lower upper current xa ya : Nat} {m : Moved} (hw : Small w)
    (h : w.deposit lp c lower upper current xa ya = .ok (v, m)) : Small v := by
  obtain ⟨p, s, w1, w2, w3, h0, hp, h1, h2, h3, hv, hs⟩ := deposit_ok h
  exact (transfer_small (transfer_small (mintTo_small hw h1) h2) h3).same (by rw [hv])

theorem withdraw_small {w v : World} {lp : Nat} {c : Accounts} {lower upper current n : Nat} {m : Moved} (hw : Small w)
    (h : w.withdraw lp c lower upper current n = .ok (v, m)) : Small v := by
  obtain ⟨p, s, w1, w2, w3, h0, hp, _, h1, h2, h3, hv, hs⟩ := withdraw_ok h
  exact (transfer_small (transfer_small (burn_small hw h1) h2) h3).same (by rw [hv])

/-! ### Initialisation -/

theorem initVault_ok {w v : World} {a : Addr} {mint lp : Nat} (h : w.initVault a mint lp = .ok v) :
    mapGet a w.tokens = none ∧ v = World.mk w.pools w.mints (mapSet a ⟨mint, .pool lp, 0, none, false⟩ w.tokens) := by
  simp only [initVault, bind_ok, pure_ok, constraint_ok, Option.isNone_iff_eq_none] at h
  obtain ⟨_, h1, h2⟩ := h
  exact ⟨h1, h2.symm⟩

theorem initializePool_ok {w v : World} {authority lp x y tick : Nat} (h : w.initializePool authority lp x y tick = .ok v) :
    ∃ mt s, mapGet lp w.pools = none ∧ (∃ t, mapGet x w.mints = some t) ∧ (∃ t, mapGet y w.mints = some t) ∧
      mapGet lp w.mints = some mt ∧ mt.authority = some (.pool lp) ∧
      mapGet (.vault x lp) w.tokens = none ∧ mapGet (.vault y lp) w.tokens = none ∧ mapGet (.lpVault lp) w.tokens = none ∧
      x ≠ y ∧ OnChain.initializePool tick mt.supply = .ok s ∧
      v = World.mk (mapSet lp ⟨authority, x, y, s.gs, none, [], []⟩ w.pools) w.mints
        (mapSet (.lpVault lp) ⟨lp, .pool lp, 0, none, false⟩ (mapSet (.vault y lp) ⟨y, .pool lp, 0, none, false⟩
          (mapSet (.vault x lp) ⟨x, .pool lp, 0, none, false⟩ w.tokens))) := by
  unfold initializePool at h
  rw [bind_ok] at h; obtain ⟨_, h0, h⟩ := h
  rw [bind_ok] at h; obtain ⟨tx, h1, h⟩ := h
  rw [bind_ok] at h; obtain ⟨ty, h2, h⟩ := h
  rw [bind_ok] at h; obtain ⟨mt, h3, h⟩ := h
  rw [load_ok] at h1 h2 h3
  rw [constraint_ok, Option.isNone_iff_eq_none] at h0
  split at h
  · simp [rpanic] at h
  · rename_i a ha
    rw [bind_ok] at h; obtain ⟨_, h4, h⟩ := h
    rw [constraint_ok, decide_eq_true_eq] at h4
    subst h4
    rw [bind_ok] at h; obtain ⟨w1, h5, h⟩ := h
    rw [bind_ok] at h; obtain ⟨w2, h6, h⟩ := h
    rw [bind_ok] at h; obtain ⟨w3, h7, h⟩ := h
    rw [bind_ok] at h; obtain ⟨rp, h8, h⟩ := h
    rw [bind_ok] at h; obtain ⟨rp', h9, h⟩ := h
    rw [pure_ok] at h
    obtain ⟨h5, e5⟩ := initVault_ok h5
    obtain ⟨h6, e6⟩ := initVault_ok h6
    obtain ⟨h7, e7⟩ := initVault_ok h7
    rw [e5] at h6
    rw [e6, e5] at h7
    simp only at h6 h7
    have hxy : x ≠ y := by
      rintro rfl
      rw [mapGet_set_same] at h6; cases h6
    have hv : Addr.vault y lp ≠ .vault x lp := by
      intro e; cases e; exact hxy rfl
    rw [mapGet_set_other hv] at h6
    rw [mapGet_set_other (by simp), mapGet_set_other (by simp)] at h7
    refine ⟨mt, ⟨⟨0, liquidityScale, rp'.value, rootPriceScale, tick, Fee.zero⟩, none, [], [], mt.supply, [], [], [], 0, 0⟩,
      h0, ⟨tx, h1⟩, ⟨ty, h2⟩, h3, ha, h5, h6, h7, hxy, ?_, ?_⟩
    · unfold OnChain.initializePool
      rw [h8, bind_eq, h9, bind_eq]; rfl
    · rw [← h, e7, e6, e5]

end Hmm.OnChain.World
