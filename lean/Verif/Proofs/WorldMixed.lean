import Verif.Proofs.WorldOrder
import Verif.Proofs.WorldGather

/-
A deposit and a withdrawal commute.
-/

namespace Hmm.OnChain.World

open Decimal PoolMath

/-! ### Ticks -/

theorem Reachable.goodTick {w : World} (hw : Reachable w) {lp : Nat} {p : PoolAcc} (hp : mapGet lp w.pools = some p)
    {t : Nat} {ts : Tick} (ht : mapGet t p.ticks = some ts) : GoodTick t ts := by
  obtain ⟨_, supply0, s, hr, hs⟩ := hw.guarded hp
  exact (Good.reachable hr).tick t ts (by rw [hs.ticks]; exact ht)

/-- What the ticks say after a deposit. -/
theorem PoolMore.tickSays_ticks {r : Purchase} {l : Nat} {p q : PoolAcc} (h : PoolMore r l p q)
    (hg : ∀ t ts, mapGet t p.ticks = some ts → GoodTick t ts) (t : Nat) :
    (mapGet t q.ticks).map tickSays = ((mapGet t p.ticks).map tickSays).map fun e =>
      (e.1, e.2.1,
        e.2.2.1 + (if t = p.gs.tick then 0 else if t = r.lower then (l : ℚ) / 10 ^ 12 else if t = r.upper then
          -((l : ℚ) / 10 ^ 12) else 0),
        e.2.2.2 + (grown r l p t : ℚ) / 10 ^ 12) := by
  have := h.ticks t
  cases e : mapGet t p.ticks with
  | none =>
    rw [e] at this
    cases e' : mapGet t q.ticks with
    | none => rfl
    | some ts => rw [e'] at this; cases this
  | some ts =>
    rw [e] at this
    cases e' : mapGet t q.ticks with
    | none => rw [e'] at this; cases this
    | some ts' =>
      rw [e'] at this
      simp only [Option.map_some, Option.some.injEq, tickHolds, Prod.mk.injEq] at this
      obtain ⟨h1, h2, h3, h4, h5⟩ := this
      simp only [Option.map_some, Option.some.injEq, tickSays, Prod.mk.injEq, h1, h2, h3, true_and]
      unfold Tick.grossAmount
      rw [h4, h5, (hg t ts e).gross]
      unfold grown
      push_cast
      ring

theorem holds_of_says {t : Nat} {a b : Tick} (ha : GoodTick t a) (hb : GoodTick t b) (h : tickSays a = tickSays b) :
    tickHolds a = tickHolds b := by
  simp only [tickSays, Prod.mk.injEq] at h
  obtain ⟨h1, h2, h3, h4⟩ := h
  unfold Tick.grossAmount at h4
  rw [ha.gross, hb.gross, div_left_inj' (by positivity)] at h4
  have h5 : a.gross = b.gross := by exact_mod_cast h4
  simp only [tickHolds, h1, h2, h3, h5, ha.gross, hb.gross]

/-- A withdrawal does not add to the gross liquidity of a tick. -/
theorem PoolLess.gross {s : Redemption} {p o : PoolAcc} (h : PoolLess s p o)
    (hg : ∀ t ts, mapGet t p.ticks = some ts → GoodTick t ts) (hg' : ∀ t ts, mapGet t o.ticks = some ts → GoodTick t ts)
    {t : Nat} {ts : Tick} (ht : mapGet t p.ticks = some ts) :
    ∃ ts', mapGet t o.ticks = some ts' ∧ ts'.gross ≤ ts.gross := by
  have := h.ticks t
  rw [ht] at this
  cases e : mapGet t o.ticks with
  | none => rw [e] at this; cases this
  | some ts' =>
    rw [e] at this
    simp only [Option.map_some, Option.some.injEq, tickSays, Prod.mk.injEq] at this
    obtain ⟨_, _, _, h4⟩ := this
    refine ⟨ts', rfl, ?_⟩
    have : ts'.grossAmount ≤ ts.grossAmount := by
      rw [h4]
      have : (0 : ℚ) ≤ s.n := Nat.cast_nonneg _
      split <;> split <;> linarith
    unfold Tick.grossAmount at this
    rw [(hg _ _ ht).gross, (hg' _ _ e).gross, div_le_div_iff_of_pos_right (by positivity)] at this
    exact_mod_cast this

/-! ### What is there after the other -/

/-- A withdrawal takes nothing from the accounts of users, unless they are for LP tokens. -/
theorem Redeemable.apart {w : World} {lp : Nat} {p : PoolAcc} {s : Redemption} {dx dy : Nat}
    (h : Redeemable w lp p s.c s.lower s.upper s.current s.n dx dy) (hg : Guarded w lp p.xMint p.yMint) (m : Moved)
    {a : Addr} {t : Token} (ha : mapGet a w.tokens = some t) {user : Nat} (ho : t.owner = .user user)
    (hm : t.mint ≠ lp) : 0 ≤ redeemed lp p s m a ∧ a ≠ s.c.lp := by
  obtain ⟨vx, v1, v2, v3, v4⟩ := hg.vaultX
  obtain ⟨vy, u1, u2, u3, u4⟩ := hg.vaultY
  obtain ⟨tl, l1, l2, _⟩ := h.lpTokens
  have ne : ∀ {b : Addr} {s : Token}, mapGet b w.tokens = some s → (t.mint ≠ s.mint ∨ t.owner ≠ s.owner) → a ≠ b := by
    rintro b s e h rfl
    rw [ha] at e; cases e
    rcases h with h | h <;> exact h rfl
  have n1 := ne v1 (.inr (by rw [v3, ho]; simp))
  have n2 := ne u1 (.inr (by rw [u3, ho]; simp))
  have n5 := ne l1 (.inl (by rw [l2]; exact hm))
  refine ⟨?_, n5⟩
  unfold redeemed at_
  rw [if_neg n1, if_neg n2, if_neg n5]
  split <;> split <;> omega

/-- A deposit that is possible is possible after a withdrawal. -/
theorem Less.prepared {lp : Nat} {s : Redemption} {n : Moved} {w u : World} (hw : Reachable w) (hv : Reachable u)
    {p o : PoolAcc} (hp : mapGet lp w.pools = some p) (g : Less lp s n w u p o) (hx : p.xMint ≠ lp) (hy : p.yMint ≠ lp)
    {r : Purchase} {k dx dy dx' dy' : Nat}
    (hs : Redeemable w lp p s.c s.lower s.upper s.current s.n dx' dy')
    (hr : Prepared w lp p r.c r.lower r.upper r.current k dx dy) :
    Prepared u lp o r.c r.lower r.upper r.current k dx dy := by
  have hg := (hw.guarded hp).1
  obtain ⟨gl, eg, el⟩ := g.here.gs
  have e1 : o.gs.tick = p.gs.tick := by rw [eg]
  have e2 := g.here.xMint
  have e3 := g.here.yMint
  have e4 : o.gs.liq ≤ p.gs.liq := by
    have : (gl : ℚ) ≤ p.gs.liq := by
      rw [el]
      have : (0 : ℚ) ≤ s.n := Nat.cast_nonneg _
      split <;> linarith
    rw [eg]
    exact_mod_cast this
  obtain ⟨ps, o1, o2⟩ := hr.position
  obtain ⟨ts, s1, s2⟩ := hr.starts
  obtain ⟨te, s3, s4⟩ := hr.ends
  obtain ⟨tx, x1, x2, x3, x4, x5, x6⟩ := hr.tokenX
  obtain ⟨ty, y1, y2, y3, y4, y5, y6⟩ := hr.tokenY
  obtain ⟨vx, v1, v2⟩ := hr.vaultX
  obtain ⟨vy, v4, v5⟩ := hr.vaultY
  obtain ⟨tl, l1, l2, l3⟩ := hr.lpTokens
  obtain ⟨mt, m1, m2⟩ := hr.supply
  obtain ⟨n1, a1, a2⟩ := g.present _ _ x1
  obtain ⟨n2, b1, b2⟩ := g.present _ _ y1
  obtain ⟨_, c1, _⟩ := g.present _ _ v1
  obtain ⟨_, d1, _⟩ := g.present _ _ v4
  obtain ⟨_, f1, _⟩ := g.present _ _ l1
  obtain ⟨z1, z2⟩ := hs.apart hg n x1 x3 (by rw [x2]; exact hx)
  obtain ⟨z3, z4⟩ := hs.apart hg n y1 y3 (by rw [y2]; exact hy)
  rw [if_neg z2] at a1
  rw [if_neg z4] at b1
  have gp : ∀ t ts, mapGet t p.ticks = some ts → GoodTick t ts := fun t ts h => hw.goodTick hp h
  have go : ∀ t ts, mapGet t o.ticks = some ts → GoodTick t ts := fun t ts h => hv.goodTick g.pool h
  obtain ⟨ts', g1, g2⟩ := g.here.gross gp go s1
  obtain ⟨te', g3, g4⟩ := g.here.gross gp go s3
  obtain ⟨b0, hb⟩ := Option.isSome_iff_exists.1 hr.here
  obtain ⟨b1', hb1, _⟩ := g.here.gross gp go hb
  obtain ⟨mt', i1, i2, i3⟩ := g.mint
  rw [m1] at i1; cases i1
  obtain ⟨ps', h1, h2⟩ : ∃ q, mapGet (⟨r.c.user, r.lower, r.upper⟩ : PosKey) o.positions = some q ∧ q.liq + k < 2 ^ 128 := by
    by_cases e : (⟨r.c.user, r.lower, r.upper⟩ : PosKey) = ⟨s.c.user, s.lower, s.upper⟩
    · obtain ⟨o', l, j1, _, j3, j4⟩ := g.here.position
      rw [← e, o1] at j1; cases j1
      refine ⟨_, e ▸ j3, ?_⟩
      have : (l : ℚ) ≤ ps.liq := by
        have : (0 : ℚ) ≤ s.n := Nat.cast_nonneg _
        linarith
      have : l ≤ ps.liq := by exact_mod_cast this
      simp only
      omega
    · exact ⟨ps, by rw [g.here.others _ e]; exact o1, o2⟩
  refine ⟨e1 ▸ hr.atTick, hr.order, ?_, ?_, ⟨ps', ?_, h2⟩, ⟨ts', g1, by omega⟩, ⟨te', g3, by omega⟩, ?_,
    ⟨_, a1, by rw [e2]; exact x2, x3, x4, ?_, x6⟩, ⟨_, b1, by rw [e3]; exact y2, y3, y4, ?_, y6⟩,
    ⟨_, (congrArg (fun x => mapGet (Addr.vault x lp) u.tokens) e2).trans c1, v2⟩,
    ⟨_, (congrArg (fun x => mapGet (Addr.vault x lp) u.tokens) e3).trans d1, v5⟩, ⟨_, f1, l2, l3⟩, ⟨_, i3, ?_⟩⟩
  · obtain ⟨_, _, _, _, _, _, h⟩ := g.here.bitmap
    rw [h]; rfl
  · rw [e1, hb1]; rfl
  · exact h1
  · rw [e1]
    intro h1 h2
    have := hr.active h1 h2
    omega
  · simp only; omega
  · simp only; omega
  · simp only; omega

/-- A withdrawal that is possible is possible after a deposit. -/
theorem More.redeemable {lp : Nat} {r : Purchase} {m : Moved} {k : Nat} {w v : World} (hw : Reachable w)
    {p q : PoolAcc} (hp : mapGet lp w.pools = some p) (h : More lp r m k w v p q) (hx : p.xMint ≠ lp) (hy : p.yMint ≠ lp)
    {s : Redemption} {dx dy dx' dy' : Nat}
    (hr : Prepared w lp p r.c r.lower r.upper r.current k dx dy)
    (hs : Redeemable w lp p s.c s.lower s.upper s.current s.n dx' dy') :
    Redeemable v lp q s.c s.lower s.upper s.current s.n dx' dy' := by
  have hg := (hw.guarded hp).1
  have e1 := h.here.gsTick
  have e2 := h.here.xMint
  have e3 := h.here.yMint
  obtain ⟨gx, w1, w2, w3, _⟩ := hg.vaultX
  obtain ⟨gy, w4, w5, w6, _⟩ := hg.vaultY
  obtain ⟨rx, r1, r2, r3, _⟩ := hr.tokenX
  obtain ⟨ry, r4, r5, r6, _⟩ := hr.tokenY
  obtain ⟨ps, o1, o2⟩ := hs.position
  obtain ⟨tx, x1, x2, x3, x4⟩ := hs.tokenX
  obtain ⟨ty, y1, y2, y3, y4⟩ := hs.tokenY
  obtain ⟨vx, v1, v2, v3⟩ := hs.vaultX
  obtain ⟨vy, v4, v5, v6⟩ := hs.vaultY
  obtain ⟨tl, l1, l2, l3, l4, l5⟩ := hs.lpTokens
  obtain ⟨_, a1, _⟩ := h.present _ _ x1
  obtain ⟨_, b1, _⟩ := h.present _ _ y1
  obtain ⟨n1, c1, c2⟩ := h.present _ _ v1
  obtain ⟨n2, d1, d2⟩ := h.present _ _ v4
  obtain ⟨n3, f1, f2⟩ := h.present _ _ l1
  have ne : ∀ {a b : Addr} {s t : Token}, mapGet a w.tokens = some s → mapGet b w.tokens = some t →
      (s.mint ≠ t.mint ∨ s.owner ≠ t.owner) → a ≠ b := by
    rintro a b s t e1 e2 h rfl
    rw [e1] at e2; cases e2
    rcases h with h | h <;> exact h rfl
  have more : ∀ a, a ≠ r.c.tokenX → a ≠ r.c.tokenY → 0 ≤ bought lp p r m a := fun a h1 h2 => by
    unfold bought at_
    rw [if_neg h1, if_neg h2]
    split <;> split <;> split <;> omega
  have k1 := more _ (ne w1 r1 (.inr (by rw [w3, r3]; simp))) (ne w1 r4 (.inr (by rw [w3, r6]; simp)))
  have k2 := more _ (ne w4 r1 (.inr (by rw [w6, r3]; simp))) (ne w4 r4 (.inr (by rw [w6, r6]; simp)))
  have q1 := ne l1 r1 (.inl (by rw [l2, r2]; exact hx.symm))
  have q2 := ne l1 r4 (.inl (by rw [l2, r5]; exact hy.symm))
  have k3 := more _ q1 q2
  have e5 : approvalAfter r m s.c.lp tl.delegate = tl.delegate := by
    unfold approvalAfter
    rw [if_neg q1, if_neg q2]
  rw [e5] at f1
  obtain ⟨ps', j1, j2⟩ : ∃ o, mapGet (⟨s.c.user, s.lower, s.upper⟩ : PosKey) q.positions = some o ∧ (s.n : ℚ) ≤ o.amount := by
    by_cases e : (⟨s.c.user, s.lower, s.upper⟩ : PosKey) = ⟨r.c.user, r.lower, r.upper⟩
    · obtain ⟨o', j1, j3⟩ := h.here.position
      rw [← e, o1] at j1; cases j1
      refine ⟨_, e ▸ j3, o2.trans ?_⟩
      unfold Position.amount
      push_cast
      have : (0 : ℚ) ≤ k := Nat.cast_nonneg _
      gcongr
      linarith
    · exact ⟨ps, by rw [h.here.others _ e]; exact o1, o2⟩
  refine ⟨e1 ▸ hs.atTick, e1 ▸ hs.starts, e1 ▸ hs.ends, ⟨ps', ?_, j2⟩, e1 ▸ hs.worth,
    ⟨_, a1, by rw [e2]; exact x2, x3, x4⟩, ⟨_, b1, by rw [e3]; exact y2, y3, y4⟩,
    ⟨_, (congrArg (fun x => mapGet (Addr.vault x lp) v.tokens) e2).trans c1, v2, ?_⟩,
    ⟨_, (congrArg (fun x => mapGet (Addr.vault x lp) v.tokens) e3).trans d1, v5, ?_⟩, ⟨_, f1, l2, l3, ?_, l5⟩⟩
  · exact j1
  · simp only; omega
  · simp only; omega
  · simp only; omega

/-! ### Either order -/

theorem mixed_comm {lp : Nat} {r : Purchase} {s : Redemption} {m n : Moved} {k : Nat} {w v u v' u' : World}
    {p q o q' o' : PoolAcc} (hw : Reachable w) (hv' : Reachable v') (hru : Reachable u) (hru' : Reachable u')
    (hp : mapGet lp w.pools = some p)
    (h1 : More lp r m k w v p q) (h2 : Less lp s n v u q o) (g1 : Less lp s n w v' p q') (g2 : More lp r m k v' u' q' o')
    (hX : s.c.lp ≠ r.c.tokenX) (hY : s.c.lp ≠ r.c.tokenY) : Alike lp u u' where
  tokens := by
    intro a
    cases e : mapGet a w.tokens with
    | none => rw [h2.absent a (h1.absent a e), g2.absent a (g1.absent a e)]
    | some t =>
      obtain ⟨n1, a1, a2⟩ := h1.present a t e
      obtain ⟨n2, b1, b2⟩ := h2.present a _ a1
      obtain ⟨n3, c1, c2⟩ := g1.present a t e
      obtain ⟨n4, d1, d2⟩ := g2.present a _ c1
      rw [b1, d1]
      have e1 : redeemed lp q s n a = redeemed lp p s n a := by unfold redeemed; rw [h1.here.xMint, h1.here.yMint]
      have e2 : bought lp q' r m a = bought lp p r m a := by unfold bought; rw [g1.here.xMint, g1.here.yMint]
      rw [e1] at b2
      rw [e2] at d2
      simp only at b2 d2
      have e3 : n4 = n2 := by omega
      rw [e3]
      congr 2
      simp only
      unfold approvalAfter
      by_cases e : a = s.c.lp
      · subst e
        rw [if_pos rfl, if_pos rfl, if_neg hX, if_neg hY, if_neg hX, if_neg hY]
      · rw [if_neg e, if_neg e]
  mints := by
    intro x
    by_cases hx : x = lp
    · subst hx
      obtain ⟨t1, a1, a3⟩ := h1.mint
      obtain ⟨t2, b1, b2, b3⟩ := h2.mint
      obtain ⟨t3, c1, c2, c3⟩ := g1.mint
      obtain ⟨t4, d1, d3⟩ := g2.mint
      rw [a1] at c1; cases c1
      rw [a3] at b1; cases b1
      rw [c3] at d1; cases d1
      rw [b3, d3]
      simp only [Option.some.injEq, Mint.mk.injEq, and_true]
      omega
    · rw [h2.mints x hx, h1.mints x hx, g2.mints x hx, g1.mints x hx]
  others := fun x hx => by rw [h2.pools x hx, h1.pools x hx, g2.pools x hx, g1.pools x hx]
  pool := by
    intro x hx
    rw [h2.pool] at hx; cases hx
    have k1 := h1.here
    have k2 := h2.here
    have k3 := g1.here
    have k4 := g2.here
    have f1 := k1.gsTick
    obtain ⟨j2, i2, i2'⟩ := k2.gs
    obtain ⟨j3, i3, i3'⟩ := k3.gs
    have f3 : q'.gs.tick = p.gs.tick := by rw [i3]
    refine ⟨o', g2.pool, ?_, ?_, ?_, ?_, ?_, ?_, ?_⟩
    · rw [k4.authority, k3.authority, k2.authority, k1.authority]
    · rw [k4.xMint, k3.xMint, k2.xMint, k1.xMint]
    · rw [k4.yMint, k3.yMint, k2.yMint, k1.yMint]
    · have e : (j3 + (if r.lower ≤ p.gs.tick ∧ p.gs.tick < r.upper then k else 0) : ℕ) = j2 := by
        have : ((j3 + (if r.lower ≤ p.gs.tick ∧ p.gs.tick < r.upper then k else 0) : ℕ) : ℚ) = j2 := by
          rw [i2', k1.gs]
          simp only
          push_cast
          rw [i3']
          ring
        exact_mod_cast this
      rw [k4.gs, i2, k1.gs, i3]
      simp only [Global.mk.injEq, and_true, true_and]
      exact e
    · obtain ⟨_, _, _, _, _, _, h⟩ := k2.bitmap
      rw [k4.bitmap.2, h]; rfl
    · intro y
      by_cases f1 : y = ⟨r.c.user, r.lower, r.upper⟩
      · obtain ⟨o1, a1, a3⟩ := k1.position
        obtain ⟨o2, b1, b3⟩ := k4.position
        by_cases f2 : y = ⟨s.c.user, s.lower, s.upper⟩
        · obtain ⟨o3, n3, c1, _, c3, c4⟩ := k2.position
          obtain ⟨o4, n4, d1, _, d3, d4⟩ := k3.position
          rw [← f1] at a1 a3 b1 b3
          rw [← f2] at c1 c3 d1 d3
          rw [a1] at d1; cases d1
          rw [a3] at c1; cases c1
          rw [d3] at b1; cases b1
          have : n4 + k = n3 := by
            have : ((n4 + k : ℕ) : ℚ) = n3 := by
              push_cast
              rw [c4, d4]
              push_cast
              ring
            exact_mod_cast this
          rw [b3, c3, this]
        · rw [← f1] at a1 a3 b1 b3
          rw [k3.others _ f2, a1] at b1; cases b1
          rw [k2.others _ f2, a3, b3]
      · by_cases f2 : y = ⟨s.c.user, s.lower, s.upper⟩
        · obtain ⟨o1, n1, a1, _, a3, a4⟩ := k2.position
          obtain ⟨o2, n2, b1, _, b3, b4⟩ := k3.position
          rw [← f2] at a1 a3 b1 b3
          rw [k1.others _ f1, b1] at a1; cases a1
          have : n2 = n1 := by
            have : (n2 : ℚ) = n1 := by rw [a4, b4]
            exact_mod_cast this
          rw [k4.others _ f1, a3, b3, this]
        · rw [k4.others _ f1, k3.others _ f2, k2.others _ f2, k1.others _ f1]
    · intro t
      have hsay : (mapGet t o'.ticks).map tickSays = (mapGet t o.ticks).map tickSays := by
        rw [k4.tickSays_ticks (fun t ts h => hv'.goodTick g1.pool h), k3.ticks, k2.ticks,
          k1.tickSays_ticks (fun t ts h => hw.goodTick hp h)]
        unfold grown
        rw [f3]
        cases mapGet t p.ticks with
        | none => rfl
        | some ts =>
          simp only [Option.map_some, Option.some.injEq, Prod.mk.injEq, true_and]
          constructor <;> ring
      cases a : mapGet t o'.ticks with
      | none =>
        cases b : mapGet t o.ticks with
        | none => rfl
        | some ts => rw [a, b] at hsay; cases hsay
      | some ts' =>
        cases b : mapGet t o.ticks with
        | none => rw [a, b] at hsay; cases hsay
        | some ts =>
          rw [a, b] at hsay
          simp only [Option.map_some, Option.some.injEq] at hsay ⊢
          exact holds_of_says (hru'.goodTick g2.pool a) (hru.goodTick h2.pool b) hsay

/-- A deposit and a withdrawal that are both possible can be made in either order. -/
theorem mixed_orders {w v v' : World} (hw : Reachable w) {lp : Nat} {p : PoolAcc} (hp : mapGet lp w.pools = some p)
    (hx : p.xMint ≠ lp) (hy : p.yMint ≠ lp) {r : Purchase} {s : Redemption} {m n : Moved} (hr : r.Fits) (hs : 0 < s.n)
    (h : w.deposit lp r.c r.lower r.upper r.current r.x r.y = .ok (v, m))
    (g : w.withdraw lp s.c s.lower s.upper s.current s.n = .ok (v', n)) :
    ∃ u u', v.withdraw lp s.c s.lower s.upper s.current s.n = .ok (u, n) ∧
      v'.deposit lp r.c r.lower r.upper r.current r.x r.y = .ok (u', m) ∧ Alike lp u u' := by
  have hv := deposit_reachable hw h
  have hv' := withdraw_reachable hw g
  obtain ⟨l, X, Y, q, h1, h2, h3, h4, h5, h6, h7⟩ := deposit_both hw hp h
  obtain ⟨hn, red⟩ := withdraw_redeemable hw hp hs g
  obtain ⟨q', l1⟩ := withdraw_less hw hp hs g
  obtain ⟨u, k⟩ := withdraw_when hv h7.pool hs (h7.redeemable hw hp hx hy h6 red)
  have hm : (⟨n.x, n.y, s.n⟩ : Moved) = n := by rw [← hn]
  rw [hm] at k
  obtain ⟨o, l2⟩ := withdraw_less hv h7.pool hs k
  have h1' : Quote q'.gs.tick r.lower r.upper r.x r.y l X Y := by
    obtain ⟨_, e, _⟩ := l1.here.gs
    rw [e]; exact h1
  obtain ⟨u', f⟩ := deposit_when hv' l1.pool hr.1 hr.2 h1' h2 h3 h4 (l1.prepared hw hv' hp hx hy red h6)
  have hm : (⟨m.x, m.y, l / 10 ^ 12⟩ : Moved) = m := by rw [← h5]
  rw [hm] at f
  obtain ⟨l'', _, _, o', f1, _, _, _, _, _, f7⟩ := deposit_both hv' l1.pool f
  obtain ⟨rfl, _, _⟩ := h1'.unique f1
  obtain ⟨tx, x1, x2, x3, _⟩ := h6.tokenX
  obtain ⟨ty, y1, y2, y3, _⟩ := h6.tokenY
  have ne1 := (red.apart (hw.guarded hp).1 n x1 x3 (by rw [x2]; exact hx)).2.symm
  have ne2 := (red.apart (hw.guarded hp).1 n y1 y3 (by rw [y2]; exact hy)).2.symm
  exact ⟨u, u', k, f, mixed_comm hw hv' (withdraw_reachable hv k) (deposit_reachable hv' f) hp h7 l2 l1 f7 ne1 ne2⟩

/-! ### Sequences -/

theorem Alike.symm {lp : Nat} {w v : World} (h : Alike lp w v) (hp : ∃ p, mapGet lp w.pools = some p) : Alike lp v w := by
  refine ⟨fun a => (h.tokens a).symm, fun a => (h.mints a).symm, fun q hq => (h.others q hq).symm, fun q hq => ?_⟩
  obtain ⟨p, hp⟩ := hp
  obtain ⟨q', hq', k⟩ := h.pool p hp
  rw [hq] at hq'; cases hq'
  exact ⟨p, hp, k.authority.symm, k.xMint.symm, k.yMint.symm, k.gs.symm, k.bitmap.symm, fun a => (k.positions a).symm,
    fun a => (k.ticks a).symm⟩

theorem Redeemable.alike {lp : Nat} {w w' : World} {p p' : PoolAcc} (hp : mapGet lp w.pools = some p)
    (hp' : mapGet lp w'.pools = some p') (hs : Alike lp w w') {c : Accounts} {lower upper current n x y : Nat}
    (h : Redeemable w lp p c lower upper current n x y) : Redeemable w' lp p' c lower upper current n x y := by
  obtain ⟨z, hz, k⟩ := hs.pool p hp
  rw [hp'] at hz; cases hz
  refine ⟨?_, ?_, ?_, ?_, ?_, ?_, ?_, ?_, ?_, ?_⟩
  · rw [k.gs]; exact h.atTick
  · rw [k.gs]; exact h.starts
  · rw [k.gs]; exact h.ends
  · rw [k.positions]; exact h.position
  · rw [k.gs]; exact h.worth
  · rw [hs.tokens, k.xMint]; exact h.tokenX
  · rw [hs.tokens, k.yMint]; exact h.tokenY
  · rw [hs.tokens, k.xMint]; exact h.vaultX
  · rw [hs.tokens, k.yMint]; exact h.vaultY
  · rw [hs.tokens]; exact h.lpTokens

theorem says_of_holds {p q : PoolAcc} (h : AlikeRecord p q) (t : Nat) :
    (mapGet t q.ticks).map tickSays = (mapGet t p.ticks).map tickSays := by
  have := h.ticks t
  cases a : mapGet t q.ticks with
  | none =>
    cases b : mapGet t p.ticks with
    | none => rfl
    | some ts => rw [a, b] at this; cases this
  | some ts' =>
    cases b : mapGet t p.ticks with
    | none => rw [a, b] at this; cases this
    | some ts =>
      rw [a, b] at this
      simp only [Option.map_some, Option.some.injEq, tickHolds, Prod.mk.injEq] at this
      obtain ⟨h1, h2, h3, h4, h5⟩ := this
      simp only [Option.map_some, Option.some.injEq, tickSays, Prod.mk.injEq, h1, h2, h3, true_and, Tick.grossAmount, h4, h5]

theorem map_holds {p q : PoolAcc} (hp : ∀ t ts, mapGet t p.ticks = some ts → GoodTick t ts)
    (hq : ∀ t ts, mapGet t q.ticks = some ts → GoodTick t ts) {t : Nat}
    (h : (mapGet t q.ticks).map tickSays = (mapGet t p.ticks).map tickSays) :
    (mapGet t q.ticks).map tickHolds = (mapGet t p.ticks).map tickHolds := by
  cases a : mapGet t q.ticks with
  | none =>
    cases b : mapGet t p.ticks with
    | none => rfl
    | some ts => rw [a, b] at h; cases h
  | some ts' =>
    cases b : mapGet t p.ticks with
    | none => rw [a, b] at h; cases h
    | some ts =>
      rw [a, b] at h
      simp only [Option.map_some, Option.some.injEq] at h ⊢
      exact holds_of_says (hq t ts' a) (hp t ts b) h

/-- The same withdrawal from ledgers that are alike. -/
theorem Less.alike {lp : Nat} {r : Redemption} {m : Moved} {w v w' v' : World} {p q p' q' : PoolAcc}
    (hv : Reachable v) (hv' : Reachable v') (hp : mapGet lp w.pools = some p) (hp' : mapGet lp w'.pools = some p')
    (hs : Alike lp w w') (h : Less lp r m w v p q) (g : Less lp r m w' v' p' q') : Alike lp v v' := by
  obtain ⟨x, hx, k⟩ := hs.pool p hp
  rw [hp'] at hx; cases hx
  refine ⟨?_, ?_, fun x hx => by rw [g.pools x hx, h.pools x hx, hs.others x hx], ?_⟩
  · intro a
    cases e : mapGet a w.tokens with
    | none => rw [h.absent a e, g.absent a ((hs.tokens a).trans e)]
    | some t =>
      obtain ⟨n1, a1, a2⟩ := h.present a t e
      obtain ⟨n2, b1, b2⟩ := g.present a t ((hs.tokens a).trans e)
      have : redeemed lp p' r m a = redeemed lp p r m a := by unfold redeemed; rw [k.xMint, k.yMint]
      rw [this] at b2
      have : n2 = n1 := by omega
      rw [a1, b1, this]
  · intro x
    by_cases hx : x = lp
    · subst hx
      obtain ⟨t1, a1, _, a3⟩ := h.mint
      obtain ⟨t2, b1, _, b3⟩ := g.mint
      rw [hs.mints, a1] at b1; cases b1
      rw [a3, b3]
    · rw [g.mints x hx, h.mints x hx, hs.mints]
  · intro x hx
    rw [h.pool] at hx; cases hx
    have k1 := h.here
    have k2 := g.here
    refine ⟨q', g.pool, ?_, ?_, ?_, ?_, ?_, ?_, ?_⟩
    · rw [k2.authority, k.authority, k1.authority]
    · rw [k2.xMint, k.xMint, k1.xMint]
    · rw [k2.yMint, k.yMint, k1.yMint]
    · obtain ⟨n1, a1, a2⟩ := k1.gs
      obtain ⟨n2, b1, b2⟩ := k2.gs
      rw [k.gs] at b1 b2
      have : n2 = n1 := by
        have : (n2 : ℚ) = n1 := by rw [a2, b2]
        exact_mod_cast this
      rw [a1, b1, this]
    · obtain ⟨x1, x2, x3, a1, a2, a3, a4⟩ := k1.bitmap
      obtain ⟨y1, y2, y3, b1, b2, b3, b4⟩ := k2.bitmap
      rw [a4, b4]; rfl
    · intro j
      by_cases f : j = ⟨r.c.user, r.lower, r.upper⟩
      · subst f
        obtain ⟨o1, n1, a1, _, a3, a4⟩ := k1.position
        obtain ⟨o2, n2, b1, _, b3, b4⟩ := k2.position
        rw [k.positions, a1] at b1; cases b1
        have : n2 = n1 := by
          have : (n2 : ℚ) = n1 := by rw [a4, b4]
          exact_mod_cast this
        rw [a3, b3, this]
      · rw [k2.others j f, k1.others j f, k.positions]
    · intro t
      refine map_holds (fun t ts e => hv.goodTick h.pool e) (fun t ts e => hv'.goodTick g.pool e) ?_
      rw [k2.ticks, k1.ticks, says_of_holds k]

theorem withdraw_alike {w w' v : World} (hw : Reachable w) (hw' : Reachable w') {lp : Nat} (hs : Alike lp w w')
    {r : Redemption} {m : Moved} (h0 : 0 < r.n) (h : w.withdraw lp r.c r.lower r.upper r.current r.n = .ok (v, m)) :
    ∃ v', w'.withdraw lp r.c r.lower r.upper r.current r.n = .ok (v', m) ∧ Alike lp v v' := by
  obtain ⟨p, hp⟩ := withdraw_pool h
  obtain ⟨p', hp', _⟩ := hs.pool p hp
  obtain ⟨hn, red⟩ := withdraw_redeemable hw hp h0 h
  obtain ⟨v', h'⟩ := withdraw_when hw' hp' h0 (red.alike hp hp' hs)
  have hm : (⟨m.x, m.y, r.n⟩ : Moved) = m := by rw [← hn]
  rw [hm] at h'
  obtain ⟨q, l1⟩ := withdraw_less hw hp h0 h
  obtain ⟨q', l2⟩ := withdraw_less hw' hp' h0 h'
  exact ⟨v', h', Less.alike (withdraw_reachable hw h) (withdraw_reachable hw' h') hp hp' hs l1 l2⟩

theorem Redemptions.alike {lp : Nat} {w v : World} {rs : List (Redemption × Moved)} (h : Redemptions lp w rs v) :
    ∀ {w' : World}, Reachable w → Reachable w' → Alike lp w w' → (∀ r ∈ rs, 0 < r.1.n) →
      ∃ v', Redemptions lp w' rs v' ∧ Alike lp v v' := by
  induction h with
  | nil => exact fun _ _ hs _ => ⟨_, .nil, hs⟩
  | cons h _ ih =>
    intro w' hw hw' hs h0
    obtain ⟨v', h', hs'⟩ := withdraw_alike hw hw' hs (h0 _ (List.mem_cons_self ..)) h
    obtain ⟨u', hu, hs''⟩ := ih (withdraw_reachable hw h) (withdraw_reachable hw' h') hs'
      fun r hr => h0 r (List.mem_cons_of_mem _ hr)
    exact ⟨u', .cons h' hu, hs''⟩

theorem Redemptions.reachable {lp : Nat} {w v : World} {rs : List (Redemption × Moved)} (h : Redemptions lp w rs v) :
    Reachable w → Reachable v := by
  induction h with
  | nil => exact id
  | cons h _ ih => exact fun hw => ih (withdraw_reachable hw h)

theorem Purchases.reachable {lp : Nat} {w v : World} {rs : List (Purchase × Moved)} (h : Purchases lp w rs v) :
    Reachable w → Reachable v := by
  induction h with
  | nil => exact id
  | cons h _ ih => exact fun hw => ih (deposit_reachable hw h)

/-- The pool is there and does not trade its own LP tokens. -/
def Ordinary (w : World) (lp : Nat) : Prop := ∃ p, mapGet lp w.pools = some p ∧ p.xMint ≠ lp ∧ p.yMint ≠ lp

theorem Ordinary.withdraw {w v : World} (hw : Reachable w) {lp : Nat} (hp : Ordinary w lp) {s : Redemption} {n : Moved}
    (hs : 0 < s.n) (h : w.withdraw lp s.c s.lower s.upper s.current s.n = .ok (v, n)) : Ordinary v lp := by
  obtain ⟨p, hp, hx, hy⟩ := hp
  obtain ⟨q, l⟩ := withdraw_less hw hp hs h
  exact ⟨q, l.pool, by rw [l.here.xMint]; exact hx, by rw [l.here.yMint]; exact hy⟩

theorem Ordinary.deposit {w v : World} (hw : Reachable w) {lp : Nat} (hp : Ordinary w lp) {r : Purchase} {m : Moved}
    (h : w.deposit lp r.c r.lower r.upper r.current r.x r.y = .ok (v, m)) : Ordinary v lp := by
  obtain ⟨p, hp, hx, hy⟩ := hp
  obtain ⟨_, _, _, q, _, _, _, _, _, _, l⟩ := deposit_both hw hp h
  exact ⟨q, l.pool, by rw [l.here.xMint]; exact hx, by rw [l.here.yMint]; exact hy⟩

theorem Ordinary.redemptions {w v : World} {lp : Nat} (hp : Ordinary w lp) {ss : List (Redemption × Moved)}
    (h : Redemptions lp w ss v) : Reachable w → (∀ s ∈ ss, 0 < s.1.n) → Ordinary v lp := by
  induction h with
  | nil => exact fun _ _ => hp
  | cons h _ ih =>
    intro hw hs
    exact ih (hp.withdraw hw (hs _ (List.mem_cons_self ..)) h) (withdraw_reachable hw h)
      fun s hs' => hs s (List.mem_cons_of_mem _ hs')

/-- One deposit and several withdrawals. -/
theorem deposit_redemptions {lp : Nat} {w u : World} {ss : List (Redemption × Moved)} (h : Redemptions lp w ss u) :
    ∀ {v : World} {r : Purchase} {m : Moved}, Reachable w → Ordinary w lp → r.Fits → (∀ s ∈ ss, 0 < s.1.n) →
      w.deposit lp r.c r.lower r.upper r.current r.x r.y = .ok (v, m) →
      ∃ z z', Redemptions lp v ss z ∧ u.deposit lp r.c r.lower r.upper r.current r.x r.y = .ok (z', m) ∧ Alike lp z z' := by
  induction h with
  | nil => exact fun _ _ _ _ h => ⟨_, _, .nil, h, .refl _ _⟩
  | cons h _ ih =>
    intro v r m hw hp hr hs g
    obtain ⟨p, hp0, hx, hy⟩ := id hp
    have h0 := hs _ (List.mem_cons_self ..)
    obtain ⟨z1, z2, k1, k2, k3⟩ := mixed_orders hw hp0 hx hy hr h0 g h
    have r1 := withdraw_reachable hw h
    have r2 := deposit_reachable r1 k2
    have r3 := withdraw_reachable (deposit_reachable hw g) k1
    obtain ⟨z3, z4, j1, j2, j3⟩ := ih r1 (hp.withdraw hw h0 h) hr (fun s hs' => hs s (List.mem_cons_of_mem _ hs')) k2
    obtain ⟨q', hq', _, _⟩ := ((hp.deposit hw g).withdraw (deposit_reachable hw g) h0 k1)
    obtain ⟨z5, i1, i2⟩ := j1.alike r2 r3 (k3.symm ⟨q', hq'⟩) (fun s hs' => hs s (List.mem_cons_of_mem _ hs'))
    obtain ⟨q'', hq'', _, _⟩ := ((hp.withdraw hw h0 h).deposit r1 k2).redemptions j1 r2
      (fun s hs' => hs s (List.mem_cons_of_mem _ hs'))
    exact ⟨z5, z4, .cons k1 i1, j2, (i2.symm ⟨q'', hq''⟩).trans j3⟩

/-- Several deposits and several withdrawals. -/
theorem purchases_redemptions {lp : Nat} {w v : World} {rs : List (Purchase × Moved)} (h : Purchases lp w rs v) :
    ∀ {u : World} {ss : List (Redemption × Moved)}, Reachable w → Ordinary w lp → (∀ r ∈ rs, r.1.Fits) → (∀ s ∈ ss, 0 < s.1.n) →
      Redemptions lp w ss u → ∃ z z', Redemptions lp v ss z ∧ Purchases lp u rs z' ∧ Alike lp z z' := by
  induction h with
  | nil => exact fun _ _ _ _ h => ⟨_, _, h, .nil, .refl _ _⟩
  | cons h _ ih =>
    intro u ss hw hp hr hs g
    have h0 := hr _ (List.mem_cons_self ..)
    obtain ⟨z, z', k1, k2, k3⟩ := deposit_redemptions g hw hp h0 hs h
    have r1 := deposit_reachable hw h
    obtain ⟨y, y', j1, j2, j3⟩ := ih r1 (hp.deposit hw h) (fun r hr' => hr r (List.mem_cons_of_mem _ hr')) hs k1
    obtain ⟨y2, i1, i2⟩ := j2.again (k1.reachable r1) (deposit_reachable (g.reachable hw) k2) k3
      (fun r hr' => hr r (List.mem_cons_of_mem _ hr'))
    exact ⟨y, y2, j1, .cons k2 i1, j3.trans i2⟩

end Hmm.OnChain.World
