import Verif.Proofs.WorldBuy
import Verif.Spec.WorldOpen

/-
Facts about opening pools: vaults exist only for pools that were opened, and the accounts that a deposit needs can be
created.
-/

namespace Hmm.OnChain.World

open Decimal PoolMath

/-! ### Vaults belong to pools -/

/-- The pool that an address is derived from. -/
def Addr.home : Addr → Option Nat
  | .key _ => none
  | .vault _ lp => some lp
  | .lpVault lp => some lp

/-- There is no vault of a pool that was not opened. -/
def Homed (w : World) : Prop :=
  ∀ a lp, Addr.home a = some lp → mapGet lp w.pools = none → mapGet a w.tokens = none

theorem Homed.moves {w v : World} {d : Addr → ℤ} {q : Nat} {p p' : PoolAcc} (h : Homed w) (hm : Moves w v d)
    (hq : mapGet q w.pools = some p) (e : v.pools = mapSet q p' w.pools) : Homed v := by
  intro a lp ha hp
  refine (hm.absent (h a lp ha ?_)).1
  by_cases hl : lp = q
  · subst hl
    rw [e, mapGet_set_same] at hp; cases hp
  · rwa [e, mapGet_set_other hl] at hp

theorem Homed.token {w v : World} {who : Nat} {i : TokenInstr} (h : Homed w) (ht : w.tokenExec who i = .ok v) : Homed v := by
  have hp := (tokenExec_secure (E := fun _ => False) ht).2
  intro a lp ha hl
  rw [hp] at hl
  have hw := h a lp ha hl
  have set : ∀ {acc : Addr} {t t' : Token}, mapGet acc w.tokens = some t → v.tokens = mapSet acc t' w.tokens →
      mapGet a v.tokens = none := fun {acc t t'} h1 e => by
    have : a ≠ acc := by
      rintro rfl
      rw [hw] at h1; cases h1
    rw [e, mapGet_set_other this]; exact hw
  cases i with
  | createMint mint authority freezer =>
    simp only [tokenExec, bind_ok, pure_ok] at ht
    obtain ⟨_, _, rfl⟩ := ht
    exact hw
  | createToken acc mint owner =>
    simp only [tokenExec, bind_ok, pure_ok, constraint_ok, load_ok] at ht
    obtain ⟨_, h1, _, _, rfl⟩ := ht
    have : a ≠ .key acc := by
      rintro rfl
      cases ha
    simp only
    rw [mapGet_set_other this]; exact hw
  | transfer src dst amount => exact ((transfer_moves ht).2.2.absent hw).1
  | mintTo mint dst amount => exact ((mintTo_moves ht).2.2.absent hw).1
  | burn mint src amount => exact ((burn_moves ht).2.2.absent hw).1
  | approve acc d amount =>
    simp only [tokenExec, bind_ok, pure_ok, load_ok] at ht
    obtain ⟨a, h1, _, h2, rfl⟩ := ht
    exact set h1 rfl
  | revoke acc =>
    simp only [tokenExec, bind_ok, pure_ok, load_ok] at ht
    obtain ⟨a, h1, _, h2, rfl⟩ := ht
    exact set h1 rfl
  | setOwner acc owner =>
    simp only [tokenExec, bind_ok, pure_ok, load_ok] at ht
    obtain ⟨a, h1, _, h2, rfl⟩ := ht
    exact set h1 rfl
  | setAuthority mint authority =>
    simp only [tokenExec, bind_ok, pure_ok] at ht
    obtain ⟨_, _, _, _, rfl⟩ := ht
    exact hw
  | setFreezer mint freezer =>
    simp only [tokenExec, bind_ok, pure_ok] at ht
    obtain ⟨_, _, _, _, rfl⟩ := ht
    exact hw
  | freeze acc frozen =>
    simp only [tokenExec, bind_ok, pure_ok, load_ok] at ht
    obtain ⟨a, h1, m, h2, _, h3, rfl⟩ := ht
    exact set h1 rfl
  | close acc =>
    simp only [tokenExec, bind_ok, pure_ok, load_ok] at ht
    obtain ⟨b, h1, _, h2, rfl⟩ := ht
    have : a ≠ acc := by
      rintro rfl
      rw [hw] at h1; cases h1
    simp only
    rw [mapGet_erase_other this]; exact hw

theorem Homed.exec {w v : World} {i : Instr} (h : Homed w) (he : w.exec i = .ok v) : Homed v := by
  have quiet : ∀ {q : Nat} {p p' : PoolAcc}, mapGet q w.pools = some p →
      v = World.mk (mapSet q p' w.pools) w.mints w.tokens → Homed v := fun hq e =>
    h.moves (Moves.refl (by rw [e])) hq (by rw [e])
  cases i with
  | initializePool authority q x y tick =>
    obtain ⟨mt, s, h1, _, _, _, _, _, _, _, _, _, rfl⟩ := initializePool_ok he
    intro a lp ha hl
    by_cases hq : lp = q
    · subst hq
      simp only at hl
      rw [mapGet_set_same] at hl; cases hl
    · simp only at hl ⊢
      rw [mapGet_set_other hq] at hl
      have ne : ∀ b, Addr.home b = some q → a ≠ b := by
        rintro b hb rfl
        rw [ha] at hb; cases hb; exact hq rfl
      rw [mapGet_set_other (ne _ rfl), mapGet_set_other (ne _ rfl), mapGet_set_other (ne _ rfl)]
      exact h a lp ha hl
  | initializeBitmap q =>
    obtain ⟨p, h1, _, e⟩ := initializeBitmap_ok he
    exact quiet h1 e
  | initializeTick q t =>
    obtain ⟨p, h1, _, e⟩ := initializeTick_ok he
    exact quiet h1 e
  | createPosition q u lo up =>
    obtain ⟨p, k, r, h1, _, e⟩ := createPosition_new he
    exact quiet h1 e
  | deposit q c lo up cu x y =>
    obtain ⟨⟨v', m⟩, hd, e⟩ := bind_ok.1 he
    cases e
    obtain ⟨p, s, mt, h1, _, h2, _, _, _, _, hm, _⟩ := deposit_effect hd
    exact h.moves hm h1 h2
  | withdraw q c lo up cu n =>
    obtain ⟨⟨v', m⟩, hd, e⟩ := bind_ok.1 he
    cases e
    obtain ⟨p, s, mt, h1, _, h2, _, _, _, _, hm, _⟩ := withdraw_effect hd
    exact h.moves hm h1 h2

theorem Reachable.homed {w : World} (h : Reachable w) : Homed w := by
  induction h with
  | empty => intro a lp _ _; rfl
  | step _ hs ih =>
    cases hs with
    | program i h => exact ih.exec h
    | token who i h => exact ih.token h

/-! ### Creating accounts -/

theorem run_append {w v u : World} {is js : List Instr} (h1 : w.run is = .ok v) (h2 : v.run js = .ok u) :
    w.run (is ++ js) = .ok u := by
  induction is generalizing w with
  | nil => cases h1; exact h2
  | cons i is ih =>
    unfold run at h1
    rw [bind_ok] at h1; obtain ⟨w1, k1, k2⟩ := h1
    show (do (← w.exec i).run (is ++ js)) = .ok u
    rw [bind_ok]
    exact ⟨w1, k1, ih k2⟩

theorem Reachable.run {w v : World} (hw : Reachable w) {is : List Instr} (h : w.run is = .ok v) : Reachable v := by
  induction is generalizing w with
  | nil => cases h; exact hw
  | cons i is ih =>
    unfold World.run at h
    rw [bind_ok] at h; obtain ⟨w1, k1, k2⟩ := h
    exact ih (hw.step (.program i k1)) k2

/-- The pool `p` of `w` has become `p'` in `v`, by empty accounts that were added to it; nothing else happened. -/
structure Added (w v : World) (lp : Nat) (p p' : PoolAcc) : Prop where
  tokens : v.tokens = w.tokens
  mints : v.mints = w.mints
  others : ∀ q, q ≠ lp → mapGet q v.pools = mapGet q w.pools
  here : mapGet lp v.pools = some p'
  gs : p'.gs = p.gs
  x : p'.xMint = p.xMint
  y : p'.yMint = p.yMint
  bitmap : p.bitmap.isSome → p'.bitmap = p.bitmap
  tick : ∀ t ts, mapGet t p.ticks = some ts → mapGet t p'.ticks = some ts
  newTick : ∀ t ts, mapGet t p'.ticks = some ts → mapGet t p.ticks = some ts ∨ ts.gross = 0
  position : ∀ k q, mapGet k p.positions = some q → mapGet k p'.positions = some q
  newPosition : ∀ k q, mapGet k p'.positions = some q → mapGet k p.positions = some q ∨ q.liq = 0

theorem Added.refl {w : World} {lp : Nat} {p : PoolAcc} (hp : mapGet lp w.pools = some p) : Added w w lp p p :=
  ⟨rfl, rfl, fun _ _ => rfl, hp, rfl, rfl, rfl, fun _ => rfl, fun _ _ h => h, fun _ _ h => .inl h, fun _ _ h => h,
    fun _ _ h => .inl h⟩

theorem Added.trans {w v u : World} {lp : Nat} {p q r : PoolAcc} (h : Added w v lp p q) (g : Added v u lp q r) :
    Added w u lp p r where
  tokens := g.tokens.trans h.tokens
  mints := g.mints.trans h.mints
  others := fun k hk => (g.others k hk).trans (h.others k hk)
  here := g.here
  gs := g.gs.trans h.gs
  x := g.x.trans h.x
  y := g.y.trans h.y
  bitmap := fun hb => (g.bitmap (by rw [h.bitmap hb]; exact hb)).trans (h.bitmap hb)
  tick := fun t ts ht => g.tick t ts (h.tick t ts ht)
  newTick := fun t ts ht => (g.newTick t ts ht).elim (h.newTick t ts) .inr
  position := fun k q hk => g.position k q (h.position k q hk)
  newPosition := fun k q hk => (g.newPosition k q hk).elim (h.newPosition k q) .inr

/-- Creating the bitmap if there is none. -/
theorem add_bitmap {w : World} {lp : Nat} {p : PoolAcc} (hp : mapGet lp w.pools = some p) (user : Nat) :
    ∃ is v p', w.run is = .ok v ∧ is.length ≤ 1 ∧ (∀ i ∈ is, i.Creates user ∧ i.lp = lp) ∧ Added w v lp p p' ∧
      p'.bitmap.isSome := by
  cases hb : p.bitmap with
  | some b => exact ⟨[], w, p, rfl, Nat.zero_le _, by simp, .refl hp, by rw [hb]; rfl⟩
  | none =>
    refine ⟨[.initializeBitmap lp], { w with pools := mapSet lp { p with bitmap := some Bitmap.empty } w.pools }, { p with bitmap := some Bitmap.empty }, ?_, le_rfl, ?_, ?_, rfl⟩
    · show (do (← w.initializeBitmap lp).run []) = _
      unfold initializeBitmap
      rw [hp]
      simp only [load, bind_eq]
      rw [hb]
      rfl
    · intro i hi
      rw [List.mem_singleton] at hi
      subst hi
      exact ⟨trivial, rfl⟩
    · exact ⟨rfl, rfl, fun q hq => mapGet_set_other hq _ _, mapGet_set_same _ _ _, rfl, rfl, rfl,
        fun h => by rw [hb] at h; simp at h, fun _ _ h => h, fun _ _ h => .inl h, fun _ _ h => h, fun _ _ h => .inl h⟩

/-- Creating a tick if it does not exist. -/
theorem add_tick {w : World} {lp : Nat} {p : PoolAcc} (hp : mapGet lp w.pools = some p) (user t : Nat) :
    ∃ is v p', w.run is = .ok v ∧ is.length ≤ 1 ∧ (∀ i ∈ is, i.Creates user ∧ i.lp = lp) ∧ Added w v lp p p' ∧
      (mapGet t p'.ticks).isSome := by
  cases hb : mapGet t p.ticks with
  | some b => exact ⟨[], w, p, rfl, Nat.zero_le _, by simp, .refl hp, by rw [hb]; rfl⟩
  | none =>
    refine ⟨[.initializeTick lp t], { w with pools := mapSet lp { p with ticks := mapSet t (World.newTick t) p.ticks } w.pools },
      { p with ticks := mapSet t (World.newTick t) p.ticks }, ?_, le_rfl, ?_, ?_,
      by simp only; rw [mapGet_set_same]; rfl⟩
    · show (do (← w.initializeTick lp t).run []) = _
      unfold initializeTick
      rw [hp]
      simp only [load, bind_eq]
      rw [hb]
      rfl
    · intro i hi
      rw [List.mem_singleton] at hi
      subst hi
      exact ⟨trivial, rfl⟩
    · refine ⟨rfl, rfl, fun q hq => mapGet_set_other hq _ _, mapGet_set_same _ _ _, rfl, rfl, rfl,
        fun _ => rfl, fun s ts h => ?_, fun s ts h => ?_, fun _ _ h => h, fun _ _ h => .inl h⟩
      · have : s ≠ t := by
          rintro rfl
          rw [hb] at h; cases h
        simp only
        rw [mapGet_set_other this]; exact h
      · simp only at h
        by_cases e : s = t
        · subst e
          rw [mapGet_set_same] at h; cases h
          exact .inr rfl
        · rw [mapGet_set_other e] at h
          exact .inl h

/-- Creating a position if it does not exist. -/
theorem add_position {w : World} {lp : Nat} {p : PoolAcc} (hp : mapGet lp w.pools = some p) {user lower upper : Nat}
    (hlu : lower < upper) (h1 : (mapGet lower p.ticks).isSome) (h2 : (mapGet upper p.ticks).isSome) :
    ∃ is v p', w.run is = .ok v ∧ is.length ≤ 1 ∧ (∀ i ∈ is, i.Creates user ∧ i.lp = lp) ∧ Added w v lp p p' ∧
      (mapGet (⟨user, lower, upper⟩ : PosKey) p'.positions).isSome := by
  cases hb : mapGet (⟨user, lower, upper⟩ : PosKey) p.positions with
  | some b => exact ⟨[], w, p, rfl, Nat.zero_le _, by simp, .refl hp, by rw [hb]; rfl⟩
  | none =>
    obtain ⟨tl, h1⟩ := Option.isSome_iff_exists.1 h1
    obtain ⟨tu, h2⟩ := Option.isSome_iff_exists.1 h2
    refine ⟨[.createPosition lp user lower upper], ⟨mapSet lp
      { p with positions := mapSet ⟨user, lower, upper⟩ ⟨0, liquidityScale, lower, upper, Fee.zero⟩ p.positions } w.pools, w.mints, w.tokens⟩,
      { p with positions := mapSet ⟨user, lower, upper⟩ ⟨0, liquidityScale, lower, upper, Fee.zero⟩ p.positions },
      ?_, le_rfl, ?_, ?_, by simp only; rw [mapGet_set_same]; rfl⟩
    · show (do (← w.createPosition lp user lower upper).run []) = _
      unfold createPosition
      rw [hp]
      simp only [load, bind_eq]
      rw [hb, h1, h2, decide_eq_true hlu]
      rfl
    · intro i hi
      rw [List.mem_singleton] at hi
      subst hi
      exact ⟨rfl, rfl⟩
    · refine ⟨rfl, rfl, fun q hq => mapGet_set_other hq _ _, mapGet_set_same _ _ _, rfl, rfl, rfl,
        fun _ => rfl, fun _ _ h => h, fun _ _ h => .inl h, fun s ts h => ?_, fun s ts h => ?_⟩
      · have : s ≠ ⟨user, lower, upper⟩ := by
          rintro rfl
          rw [hb] at h; cases h
        simp only
        rw [mapGet_set_other this]; exact h
      · simp only at h
        by_cases e : s = ⟨user, lower, upper⟩
        · subst e
          rw [mapGet_set_same] at h; cases h
          exact .inr rfl
        · rw [mapGet_set_other e] at h
          exact .inl h

/-- Creating everything that a deposit needs. -/
theorem add_all {w : World} {lp : Nat} {p : PoolAcc} (hp : mapGet lp w.pools = some p) {user lower upper : Nat}
    (hlu : lower < upper) :
    ∃ is v p', w.run is = .ok v ∧ is.length ≤ 5 ∧ (∀ i ∈ is, i.Creates user ∧ i.lp = lp) ∧ Added w v lp p p' ∧
      p'.bitmap.isSome ∧ (mapGet p.gs.tick p'.ticks).isSome ∧ (mapGet lower p'.ticks).isSome ∧
      (mapGet upper p'.ticks).isSome ∧ (mapGet (⟨user, lower, upper⟩ : PosKey) p'.positions).isSome := by
  obtain ⟨i1, w1, p1, r1, l1, c1, a1, b1⟩ := add_bitmap hp user
  obtain ⟨i2, w2, p2, r2, l2, c2, a2, b2⟩ := add_tick a1.here user p.gs.tick
  obtain ⟨i3, w3, p3, r3, l3, c3, a3, b3⟩ := add_tick a2.here user lower
  obtain ⟨i4, w4, p4, r4, l4, c4, a4, b4⟩ := add_tick a3.here user upper
  have stays : ∀ {w v : World} {q r : PoolAcc} {t : Nat}, Added w v lp q r → (mapGet t q.ticks).isSome →
      (mapGet t r.ticks).isSome := fun ha h => by
    obtain ⟨ts, h⟩ := Option.isSome_iff_exists.1 h
    rw [ha.tick _ _ h]; rfl
  obtain ⟨i5, w5, p5, r5, l5, c5, a5, b5⟩ := add_position (user := user) a4.here hlu (stays a4 b3) b4
  have a25 := a2.trans (a3.trans (a4.trans a5))
  refine ⟨i1 ++ (i2 ++ (i3 ++ (i4 ++ i5))), w5, p5, run_append r1 (run_append r2 (run_append r3 (run_append r4 r5))), ?_, ?_,
    a1.trans a25, ?_, stays (a3.trans (a4.trans a5)) b2, stays (a4.trans a5) b3, stays a5 b4, b5⟩
  · simp only [List.length_append]; omega
  · intro i hi
    simp only [List.mem_append] at hi
    rcases hi with h | h | h | h | h
    exacts [c1 i h, c2 i h, c3 i h, c4 i h, c5 i h]
  · rw [a25.bitmap b1]; exact b1

end Hmm.OnChain.World
