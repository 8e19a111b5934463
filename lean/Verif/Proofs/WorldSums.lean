import Verif.Proofs.WorldRefine

/-
The sum of all balances of a mint is its supply.
-/

namespace Hmm.OnChain.World

open Decimal PoolMath

/-- The books of the token program. -/
structure Booked (w : World) : Prop where
  uniq : UniqueKeys w.tokens
  known : ∀ a t, mapGet a w.tokens = some t → ∃ mt, mapGet t.mint w.mints = some mt
  sums : ∀ m, w.held m = w.supply m

theorem held_set {w v : World} {a : Addr} {t' : Token} (e : v.tokens = mapSet a t' w.tokens) (m : Nat) :
    v.held m = w.held m + (if t'.mint = m then (t'.amount : ℚ) else 0) -
      (mapGet a w.tokens).elim 0 fun t => if t.mint = m then (t.amount : ℚ) else 0 := by
  have := mapSum_set (fun _ (t : Token) => if t.mint = m then (t.amount : ℚ) else 0) a t' w.tokens
  unfold held
  rw [e]
  exact this

theorem supply_set {w v : World} {q : Nat} {mt : Mint} (e : v.mints = mapSet q mt w.mints) (m : Nat) :
    v.supply m = if m = q then mt.supply else w.supply m := by
  unfold supply
  rw [e]
  split
  · rename_i h; subst h; rw [mapGet_set_same]; rfl
  · rename_i h; rw [mapGet_set_other h]

/-- One account and one mint changed. -/
theorem Booked.change {w v : World} {a : Addr} {t t' : Token} {mt mt' : Mint} (h : Booked w)
    (ht : mapGet a w.tokens = some t) (hm : mapGet t.mint w.mints = some mt) (e1 : v.tokens = mapSet a t' w.tokens)
    (e2 : v.mints = mapSet t.mint mt' w.mints) (k1 : t'.mint = t.mint)
    (k4 : t'.amount + mt.supply = t.amount + mt'.supply) :
    Booked v := by
  refine ⟨by rw [e1]; exact h.uniq.set _ _, fun b s hb => ?_, fun m => ?_⟩
  · have hk : ∃ m0, mapGet s.mint w.mints = some m0 := by
      rw [e1] at hb
      by_cases hba : b = a
      · subst hba
        rw [mapGet_set_same] at hb; cases hb
        exact ⟨mt, by rw [k1]; exact hm⟩
      · rw [mapGet_set_other hba] at hb
        exact h.known b s hb
    obtain ⟨m0, hk⟩ := hk
    rw [e2]
    by_cases hq : s.mint = t.mint
    · rw [hq, mapGet_set_same]; exact ⟨_, rfl⟩
    · rw [mapGet_set_other hq]; exact ⟨m0, hk⟩
  · rw [held_set e1, ht, supply_set e2, h.sums]
    simp only [Option.elim, k1]
    have hq : ((t'.amount : ℚ) + mt.supply) = t.amount + mt'.supply := by exact_mod_cast k4
    by_cases e : t.mint = m
    · rw [if_pos e, if_pos e, if_pos e.symm, ← e, supply_some hm]
      linarith
    · rw [if_neg e, if_neg e, if_neg fun h => e h.symm]
      ring

theorem mapSet_self {κ α : Type} [DecidableEq κ] {m : List (κ × α)} {k : κ} {v : α} (h : mapGet k m = some v) :
    mapSet k v m = m := by
  induction m with
  | nil => cases h
  | cons e m ih =>
    obtain ⟨k', v'⟩ := e
    simp only [mapGet, mapSet] at h ⊢
    split at h
    · rename_i hk
      cases h
      rw [if_pos hk]
      simp_all
    · rename_i hk
      rw [if_neg hk, ih h]

/-- One account changed. -/
theorem Booked.token {w v : World} {a : Addr} {t t' : Token} {mt : Mint} (h : Booked w)
    (ht : mapGet a w.tokens = some t) (hm : mapGet t.mint w.mints = some mt) (e1 : v.tokens = mapSet a t' w.tokens)
    (e2 : v.mints = w.mints) (k1 : t'.mint = t.mint) (k4 : t'.amount = t.amount) : Booked v :=
  h.change ht hm e1 (by rw [e2, mapSet_self hm]) k1 (by rw [k4])

/-- A new account. -/
theorem Booked.create {w v : World} {a : Addr} {mint : Nat} {owner : Party} {mt : Mint} (h : Booked w)
    (ht : mapGet a w.tokens = none) (hm : mapGet mint w.mints = some mt)
    (e1 : v.tokens = mapSet a ⟨mint, owner, 0, none, false⟩ w.tokens) (e2 : v.mints = w.mints) : Booked v := by
  have key : ∀ b s, mapGet b v.tokens = some s → s = ⟨mint, owner, 0, none, false⟩ ∨ mapGet b w.tokens = some s := by
    intro b s hb
    rw [e1] at hb
    by_cases hba : b = a
    · subst hba
      rw [mapGet_set_same] at hb; cases hb
      exact .inl rfl
    · rw [mapGet_set_other hba] at hb
      exact .inr hb
  refine ⟨by rw [e1]; exact h.uniq.set _ _, fun b s hb => ?_, fun m => ?_⟩
  · rw [e2]
    rcases key b s hb with rfl | hb
    · exact ⟨mt, hm⟩
    · exact h.known b s hb
  · rw [held_set e1, ht, h.sums]
    unfold supply
    rw [e2]
    simp

theorem transfer_booked {w v : World} {src dst : Addr} {who : Party} {n : Nat} (hw : Booked w)
    (h : w.transfer src dst who n = .ok v) : Booked v := by
  obtain ⟨a, b, a', h1, h2, f1, f2, h3, h4, h5, h6⟩ := transfer_ok h
  rcases h6 with ⟨rfl, rfl⟩ | ⟨hne, _, rfl⟩
  · exact hw
  obtain ⟨k, rfl, hk⟩ := spend_moves h5
  obtain ⟨mt, hm⟩ := hw.known _ _ h1
  have hmb : mapGet b.mint w.mints = some mt := by rw [← h4]; exact hm
  have key : ∀ c s, mapGet c (mapSet dst { b with amount := b.amount + n }
      (mapSet src { a with amount := a.amount - n, delegate := k } w.tokens)) = some s →
      ∃ s0, mapGet c w.tokens = some s0 ∧ s.mint = s0.mint := by
    intro c s hc
    by_cases c1 : c = dst
    · subst c1
      rw [mapGet_set_same] at hc; cases hc
      exact ⟨b, h2, rfl⟩
    rw [mapGet_set_other c1] at hc
    by_cases c2 : c = src
    · subst c2
      rw [mapGet_set_same] at hc; cases hc
      exact ⟨a, h1, rfl⟩
    rw [mapGet_set_other c2] at hc
    exact ⟨s, hc, rfl⟩
  refine ⟨(hw.uniq.set _ _).set _ _, fun c s hc => ?_, fun m => ?_⟩
  · obtain ⟨s0, g1, g2⟩ := key c s hc
    rw [g2]; exact hw.known c s0 g1
  · have e1 := held_set (w := w) (v := World.mk w.pools w.mints (mapSet src { a with amount := a.amount - n, delegate := k } w.tokens))
      rfl m
    have e2 := held_set (w := World.mk w.pools w.mints (mapSet src { a with amount := a.amount - n, delegate := k } w.tokens))
      (v := World.mk w.pools w.mints (mapSet dst { b with amount := b.amount + n }
        (mapSet src { a with amount := a.amount - n, delegate := k } w.tokens))) rfl m
    rw [e2, e1]
    simp only
    rw [mapGet_set_other (Ne.symm hne), h1, h2, hw.sums m]
    show _ = ((w.supply m : Nat) : ℚ)
    simp only [Option.elim, h4]
    split
    · push_cast [h3]; ring
    · ring

theorem mintTo_booked {w v : World} {mint : Nat} {dst : Addr} {who : Party} {n : Nat} (hw : Booked w)
    (h : w.mintTo mint dst who n = .ok v) : Booked v := by
  obtain ⟨m, b, h1, h2, _, rfl, h3, h4, _, rfl⟩ := mintTo_ok h
  exact hw.change (t' := { b with amount := b.amount + n }) (mt' := { m with supply := m.supply + n }) h2 h1 rfl rfl rfl
    (by simp only; ring)

theorem burn_booked {w v : World} {mint : Nat} {src : Addr} {who : Party} {n : Nat} (hw : Booked w)
    (h : w.burn mint src who n = .ok v) : Booked v := by
  obtain ⟨m, a, a', h1, h2, _, h3, rfl, h4, h5, rfl⟩ := burn_ok h
  obtain ⟨k, rfl, hk⟩ := spend_moves h4
  exact hw.change (t' := { a with amount := a.amount - n, delegate := k }) (mt' := { m with supply := m.supply - n }) h2 h1
    rfl rfl rfl (by simp only; omega)

theorem Booked.same {w v : World} (h : Booked w) (e1 : v.tokens = w.tokens) (e2 : v.mints = w.mints) : Booked v := by
  refine ⟨by rw [e1]; exact h.uniq, by rw [e1, e2]; exact h.known, fun m => ?_⟩
  have := h.sums m
  unfold held supply at *
  rw [e1, e2]; exact this

/-- A mint's authorities changed. -/
theorem Booked.mint {w v : World} {q : Nat} {mt mt' : Mint} (h : Booked w) (hm : mapGet q w.mints = some mt)
    (e1 : v.tokens = w.tokens) (e2 : v.mints = mapSet q mt' w.mints) (k1 : mt'.supply = mt.supply) :
    Booked v := by
  refine ⟨by rw [e1]; exact h.uniq, fun a t ha => ?_, fun m => ?_⟩
  · rw [e1] at ha
    obtain ⟨m0, h0⟩ := h.known a t ha
    rw [e2]
    by_cases hq : t.mint = q
    · rw [hq, mapGet_set_same]; exact ⟨_, rfl⟩
    · rw [mapGet_set_other hq]; exact ⟨m0, h0⟩
  · have := h.sums m
    rw [supply_set e2]
    unfold held at *
    rw [e1, this]
    split
    · rename_i e; subst e; rw [k1, supply_some hm]
    · rfl

theorem tokenExec_booked {w v : World} {who : Nat} {i : TokenInstr} (hw : Booked w) (h : w.tokenExec who i = .ok v) :
    Booked v := by
  cases i with
  | createMint mint authority freezer =>
    simp only [tokenExec, bind_ok, pure_ok, constraint_ok, Option.isNone_iff_eq_none] at h
    obtain ⟨_, h1, rfl⟩ := h
    refine ⟨hw.uniq, fun a t ha => ?_, fun m => ?_⟩
    · obtain ⟨m0, h0⟩ := hw.known a t ha
      have : t.mint ≠ mint := by rintro e; rw [e, h1] at h0; cases h0
      exact ⟨m0, by simp only; rw [mapGet_set_other this]; exact h0⟩
    · have := hw.sums m
      rw [supply_set (w := w) rfl]
      unfold held at *
      rw [this]
      split
      · rename_i e; subst e
        unfold supply; rw [h1]; rfl
      · rfl
  | createToken acc mint owner =>
    simp only [tokenExec, bind_ok, pure_ok, constraint_ok, load_ok, Option.isNone_iff_eq_none] at h
    obtain ⟨_, h1, mt, h2, rfl⟩ := h
    exact hw.create h1 h2 rfl rfl
  | transfer src dst amount => exact transfer_booked hw h
  | mintTo mint dst amount => exact mintTo_booked hw h
  | burn mint src amount => exact burn_booked hw h
  | approve acc d amount =>
    simp only [tokenExec, bind_ok, pure_ok, load_ok] at h
    obtain ⟨a, h1, _, h2, rfl⟩ := h
    obtain ⟨mt, hm⟩ := hw.known _ _ h1
    exact hw.token (t' := { a with delegate := some (d, amount) }) h1 hm rfl rfl rfl rfl
  | revoke acc =>
    simp only [tokenExec, bind_ok, pure_ok, load_ok] at h
    obtain ⟨a, h1, _, h2, rfl⟩ := h
    obtain ⟨mt, hm⟩ := hw.known _ _ h1
    exact hw.token (t' := { a with delegate := none }) h1 hm rfl rfl rfl rfl
  | setOwner acc owner =>
    simp only [tokenExec, bind_ok, pure_ok, load_ok] at h
    obtain ⟨a, h1, _, h2, rfl⟩ := h
    obtain ⟨mt, hm⟩ := hw.known _ _ h1
    exact hw.token (t' := { a with owner := owner, delegate := none }) h1 hm rfl rfl rfl rfl
  | setAuthority mint authority =>
    simp only [tokenExec, bind_ok, pure_ok, load_ok] at h
    obtain ⟨t, h1, _, _, rfl⟩ := h
    exact hw.mint (mt' := { t with authority := authority }) h1 rfl rfl rfl
  | setFreezer mint freezer =>
    simp only [tokenExec, bind_ok, pure_ok, load_ok] at h
    obtain ⟨t, h1, _, _, rfl⟩ := h
    exact hw.mint (mt' := { t with freezer := freezer }) h1 rfl rfl rfl
  | freeze acc frozen =>
    simp only [tokenExec, bind_ok, pure_ok, load_ok] at h
    obtain ⟨a, h1, m, h2, _, h3, rfl⟩ := h
    exact hw.token (t' := { a with frozen := frozen }) h1 h2 rfl rfl rfl rfl
  | close acc =>
    simp only [tokenExec, bind_ok, pure_ok, constraint_ok, load_ok, Bool.and_eq_true, decide_eq_true_eq] at h
    obtain ⟨a, h1, _, h2, rfl⟩ := h
    refine ⟨hw.uniq.erase _, fun b t hb => ?_, fun m => ?_⟩
    · simp only at hb
      by_cases he : b = acc
      · subst he
        rw [mapGet_erase_same] at hb; cases hb
      · rw [mapGet_erase_other he] at hb
        exact hw.known b t hb
    · have e := mapSum_erase (fun _ (t : Token) => if t.mint = m then (t.amount : ℚ) else 0) acc hw.uniq
      rw [h1] at e
      simp only [Option.elim, h2.2, Nat.cast_zero, ite_self, sub_zero] at e
      exact e.trans (hw.sums m)

theorem exec_booked {w v : World} {i : Instr} (hw : Booked w) (h : w.exec i = .ok v) : Booked v := by
  cases i with
  | initializePool a lp x y t =>
    obtain ⟨mt, s, h0, ⟨tx, hx⟩, ⟨ty, hy⟩, h1, h2, h3, h4, h5, h6, h7, rfl⟩ := initializePool_ok h
    have hv : Addr.vault y lp ≠ .vault x lp := fun e => h6 (Addr.vault.inj e).1.symm
    have s1 : Booked (World.mk w.pools w.mints (mapSet (.vault x lp) ⟨x, .pool lp, 0, none, false⟩ w.tokens)) :=
      hw.create h3 hx rfl rfl
    have s2 : Booked (World.mk w.pools w.mints (mapSet (.vault y lp) ⟨y, .pool lp, 0, none, false⟩
        (mapSet (.vault x lp) ⟨x, .pool lp, 0, none, false⟩ w.tokens))) :=
      s1.create (by simp only; rw [mapGet_set_other hv]; exact h4) hy rfl rfl
    exact s2.create (by simp only; rw [mapGet_set_other (by simp), mapGet_set_other (by simp)]; exact h5) h1 rfl rfl
  | initializeBitmap lp =>
    obtain ⟨p, _, _, rfl⟩ := initializeBitmap_ok h
    exact hw.same rfl rfl
  | initializeTick lp t =>
    obtain ⟨p, _, _, rfl⟩ := initializeTick_ok h
    exact hw.same rfl rfl
  | createPosition lp u l k =>
    obtain ⟨p, _, _, _, rfl⟩ := createPosition_ok h
    exact hw.same rfl rfl
  | deposit lp c l k cur x y =>
    simp only [exec, bind_ok, pure_ok] at h
    obtain ⟨⟨v', m⟩, h, rfl⟩ := h
    obtain ⟨p, s, w1, w2, w3, h0, hp, h1, h2, h3, hv, hs⟩ := deposit_ok h
    exact (transfer_booked (transfer_booked (mintTo_booked hw h1) h2) h3).same (by rw [hv]) (by rw [hv])
  | withdraw lp c l k cur n =>
    simp only [exec, bind_ok, pure_ok] at h
    obtain ⟨⟨v', m⟩, h, rfl⟩ := h
    obtain ⟨p, s, w1, w2, w3, h0, hp, _, h1, h2, h3, hv, hs⟩ := withdraw_ok h
    exact (transfer_booked (transfer_booked (burn_booked hw h1) h2) h3).same (by rw [hv]) (by rw [hv])

theorem Step.booked {w v : World} (hw : Booked w) (h : Step w v) : Booked v := by
  cases h with
  | program i h => exact exec_booked hw h
  | token who i h => exact tokenExec_booked hw h

theorem Reachable.booked {w : World} (h : Reachable w) : Booked w := by
  induction h with
  | empty => exact ⟨List.nodup_nil, fun a t h => (nomatch h), fun m => by simp [held, supply, mapGet]⟩
  | step _ hs ih => exact hs.booked ih

end Hmm.OnChain.World
