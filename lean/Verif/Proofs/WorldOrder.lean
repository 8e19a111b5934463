import Verif.Proofs.WorldWhen
import Verif.Spec.WorldOrder

/-
Withdrawals of different users from one pool commute.
-/

namespace Hmm.OnChain.World

open Decimal PoolMath

/-- What is left of an approval after the user spent `n`. -/
def approvalLeft (d : Option (Party × Nat)) (user n : Nat) : Option (Party × Nat) :=
  match d with
  | some (q, k) => if q = .user user then (if k = n then none else some (q, k - n)) else some (q, k)
  | none => none

theorem spend_left {a a' : Token} {user n : Nat} (h : spend a (.user user) n = .ok a') :
    a'.delegate = approvalLeft a.delegate user n := by
  unfold spend at h
  unfold approvalLeft
  split at h
  · rename_i d k hd
    rw [hd]
    split at h
    · rename_i hw
      split at h
      · simp [rerr] at h
      · cases h
        simp only [hw, if_true]
    · rename_i hw
      split at h
      · cases h; simp only [hw, if_false, hd]
      · simp [rerr] at h
  · rename_i hd
    rw [hd]
    split at h
    · cases h; simp [hd]
    · simp [rerr] at h

theorem approvalLeft_other {d : Option (Party × Nat)} {u v n k : Nat} (h : v ≠ u) :
    approvalLeft d u n = some (.user v, k) ↔ d = some (.user v, k) := by
  cases d with
  | none => exact Iff.rfl
  | some q =>
    obtain ⟨q, j⟩ := q
    unfold approvalLeft
    simp only
    by_cases e : q = .user u
    · subst e
      rw [if_pos rfl]
      split
      · simp [Ne.symm h]
      · simp [Ne.symm h]
    · rw [if_neg e]

theorem approvalLeft_comm {d : Option (Party × Nat)} {u v n k : Nat} (h : v ≠ u) :
    approvalLeft (approvalLeft d u n) v k = approvalLeft (approvalLeft d v k) u n := by
  cases d with
  | none => rfl
  | some q =>
    obtain ⟨q, j⟩ := q
    have hp : Party.user u ≠ Party.user v := by simpa using Ne.symm h
    unfold approvalLeft
    simp only
    by_cases e : q = .user u
    · subst e
      by_cases hj : j = n <;> simp [hj, hp]
    · by_cases e' : q = .user v
      · subst e'
        by_cases hj : j = k <;> simp [hj, Ne.symm hp]
      · simp [e, e']

theorem maySpend_left {t t' : Token} {u v n k : Nat} (h : v ≠ u) (ho : t'.owner = t.owner)
    (hd : t'.delegate = approvalLeft t.delegate u n) : MaySpend t' v k ↔ MaySpend t v k := by
  unfold MaySpend
  rw [ho, hd]
  simp only [ne_eq, approvalLeft_other h]

/-- How the tokens of an account change. -/
def redeemed (lp : Nat) (p : PoolAcc) (r : Redemption) (m : Moved) (a : Addr) : ℤ :=
  -at_ r.c.lp a r.n + (at_ r.c.tokenX a m.x - at_ (.vault p.xMint lp) a m.x) +
    (at_ r.c.tokenY a m.y - at_ (.vault p.yMint lp) a m.y)

/-- The effect of a withdrawal on the record of its pool. -/
structure PoolLess (r : Redemption) (p q : PoolAcc) : Prop where
  authority : q.authority = p.authority
  xMint : q.xMint = p.xMint
  yMint : q.yMint = p.yMint
  gs : ∃ l, q.gs = { p.gs with liq := l } ∧
    (l : ℚ) = p.gs.liq - (if r.lower ≤ p.gs.tick ∧ p.gs.tick < r.upper then 1 else 0) * (r.n * 10 ^ 12)
  bitmap : ∃ b b1 b2, p.bitmap = some b ∧ b.unsetTick 0 = .ok b1 ∧ b1.unsetTick 40000 = .ok b2 ∧ q.bitmap = some b2
  position : ∃ o l, mapGet (⟨r.c.user, r.lower, r.upper⟩ : PosKey) p.positions = some o ∧ o.liqScale = 12 ∧
    mapGet (⟨r.c.user, r.lower, r.upper⟩ : PosKey) q.positions = some { o with liq := l } ∧
    (l : ℚ) = o.liq - r.n * 10 ^ 12
  others : ∀ k : PosKey, k ≠ ⟨r.c.user, r.lower, r.upper⟩ → mapGet k q.positions = mapGet k p.positions
  ticks : ∀ t, (mapGet t q.ticks).map tickSays = ((mapGet t p.ticks).map tickSays).map fun e =>
    (e.1, e.2.1, e.2.2.1 - (if t = r.lower then (r.n : ℚ) else 0) + (if t = r.upper then (r.n : ℚ) else 0),
      e.2.2.2 - (if t = r.lower then (r.n : ℚ) else 0) - (if t = r.upper then (r.n : ℚ) else 0))

/-- The effect of a withdrawal on the ledger. -/
structure Less (lp : Nat) (r : Redemption) (m : Moved) (w v : World) (p q : PoolAcc) : Prop where
  present : ∀ a t, mapGet a w.tokens = some t → ∃ n, mapGet a v.tokens =
    some { t with amount := n, delegate := if a = r.c.lp then approvalLeft t.delegate r.c.user r.n else t.delegate } ∧
    (n : ℤ) = t.amount + redeemed lp p r m a
  absent : ∀ a, mapGet a w.tokens = none → mapGet a v.tokens = none
  mint : ∃ mt, mapGet lp w.mints = some mt ∧ r.n ≤ mt.supply ∧ mapGet lp v.mints = some { mt with supply := mt.supply - r.n }
  mints : ∀ q, q ≠ lp → mapGet q v.mints = mapGet q w.mints
  pools : ∀ q, q ≠ lp → mapGet q v.pools = mapGet q w.pools
  pool : mapGet lp v.pools = some q
  here : PoolLess r p q

theorem transfer_delegate {w v : World} {src dst : Addr} {who : Party} {n : Nat} (h : w.transfer src dst who n = .ok v)
    (hs : ∀ t, mapGet src w.tokens = some t → t.delegate = none) (a : Addr) :
    (mapGet a v.tokens).map Token.delegate = (mapGet a w.tokens).map Token.delegate := by
  obtain ⟨x, y, x', h1, h2, _, _, _, _, h3, h4⟩ := transfer_ok h
  rcases h4 with ⟨_, rfl⟩ | ⟨_, _, rfl⟩
  · rfl
  · have := (spend_owner h3 (hs _ h1)).2
    subst this
    simp only [mapGet_set]
    split
    · next e => subst e; rw [h2]; rfl
    · split
      · next e => subst e; rw [h1]; rfl
      · rfl

theorem withdraw_delegate {w v : World} {lp : Nat} {p : PoolAcc} (hp : mapGet lp w.pools = some p)
    (hg : Guarded w lp p.xMint p.yMint) {c : Accounts} {lower upper current n : Nat} {m : Moved}
    (h : w.withdraw lp c lower upper current n = .ok (v, m)) (a : Addr) :
    (mapGet a v.tokens).map Token.delegate =
      (mapGet a w.tokens).map fun t => if a = c.lp then approvalLeft t.delegate c.user n else t.delegate := by
  have hready := withdraw_ready hp hg h
  obtain ⟨k1, k2, _, _⟩ := hg.notUser hready
  obtain ⟨p', s, w1, w2, w3, h0, _, _, h1, h2, h3, hv, _⟩ := withdraw_ok h
  rw [hp] at h0; cases h0
  obtain ⟨mt, tl, tl', _, b2, _, _, _, b6, _, b7⟩ := burn_ok h1
  obtain ⟨vx, vx1, _, _, vx4⟩ := hg.vaultX
  obtain ⟨vy, vy1, _, _, vy4⟩ := hg.vaultY
  have e1 : ∀ t, mapGet (Addr.vault p.xMint lp) w1.tokens = some t → t.delegate = none := by
    intro t ht
    rw [b7] at ht
    simp only at ht
    rw [mapGet_set_other k1, vx1] at ht
    cases ht; exact vx4
  have d2 := transfer_delegate h2 e1
  have e2 : ∀ t, mapGet (Addr.vault p.yMint lp) w2.tokens = some t → t.delegate = none := by
    intro t ht
    have := d2 (.vault p.yMint lp)
    rw [ht, b7] at this
    simp only at this
    rw [mapGet_set_other k2, vy1] at this
    simpa [vy4] using this
  have d3 := transfer_delegate h3 e2 a
  rw [hv]
  simp only
  rw [d3, d2, b7]
  simp only
  rw [mapGet_set]
  split
  · next e =>
    subst e
    rw [b2]
    simp only [Option.map_some]
    rw [← spend_left b6]
  · rfl

theorem nat_of_amount {l : Nat} {x : ℚ} (h : (l : ℚ) / 10 ^ 12 = x) : (l : ℚ) = x * 10 ^ 12 := by
  rw [← h]; field_simp

theorem withdraw_less {w v : World} (hw : Reachable w) {lp : Nat} {p : PoolAcc} (hp : mapGet lp w.pools = some p)
    {r : Redemption} {m : Moved} (h0 : 0 < r.n)
    (h : w.withdraw lp r.c r.lower r.upper r.current r.n = .ok (v, m)) :
    ∃ q, Less lp r m w v p q := by
  obtain ⟨hg, supply0, s, hr, hs⟩ := hw.guarded hp
  obtain ⟨_, red⟩ := withdraw_redeemable hw hp h0 h
  obtain ⟨p0, _, mt, k0, _, kp, _, k1, k2, k3, hm, _⟩ := withdraw_effect h
  rw [hp] at k0; cases k0
  obtain ⟨q, s1, s2, c', q1, q2, q3, q4, hext, hu, hd, hv⟩ := hs.withdraw hp hg hw.small h
  have hr1 : OnChain.Reachable supply0 s1 := hr.step (.external hext)
  have hgood := Good.reachable hr1
  obtain ⟨d, rp, a, b, view⟩ := hgood.withdraw hd
  have raw := view.raw
  obtain ⟨a1, a2, a3, a4, a5, a6, a7, a8, a9, a10, a11, a12, a13⟩ := OnChain.loadAccounts_ok.1 raw.load
  have egs : s1.gs = p.gs := hext.gs.trans hs.gs
  have etk : s1.ticks = p.ticks := hext.ticks.trans hs.ticks
  have epo : s1.positions = p.positions := hext.positions.trans hs.positions
  have ebm : s1.bitmap = p.bitmap := hext.bitmap.trans hs.bitmap
  have gp := hgood.pos _ _ a2
  have gl := hgood.tick _ _ a4
  have gu := hgood.tick _ _ a6
  obtain ⟨l1, l2, l3, l4⟩ := updateTick_ok gl view.lwr
  obtain ⟨u1, u2, u3, u4⟩ := updateTick_ok gu view.upr
  have c1 : q.gs = d.g := by rw [← hv.gs, raw.result]; rfl
  have c2 : q.bitmap = some d.b := by rw [← hv.bitmap, raw.result]; rfl
  have c3 : q.positions = mapSet ⟨r.c.user, r.lower, r.upper⟩ d.pos p.positions := by
    rw [← hv.positions, raw.result, ← epo, ← hu]; rfl
  have c4 : q.ticks = mapSet r.current d.a.cur (mapSet r.upper d.upr (mapSet r.lower d.lwr p.ticks)) := by
    rw [← hv.ticks, raw.result, ← etk]; rfl
  have g1 := hgood.gs
  rw [egs] at g1
  have hcl : r.current ≠ r.lower := by rw [red.atTick]; exact red.starts.symm
  have hcu : r.current ≠ r.upper := by rw [red.atTick]; exact red.ends.symm
  have hlu : r.lower ≠ r.upper := by have := view.order; omega
  refine ⟨q, ?_, ?_, ⟨mt, k1, k2, by rw [k3, mapGet_set_same]⟩, fun q hq => by rw [k3, mapGet_set_other hq],
    fun q hq => by rw [kp, mapGet_set_other hq], q1, ⟨q2, q3, q4, ?_, ?_, ?_, ?_, ?_⟩⟩
  · intro a t ht
    obtain ⟨n, k, e1, e2, _⟩ := hm.present ht
    refine ⟨n, ?_, e2⟩
    have := withdraw_delegate hp hg h a
    rw [e1, ht] at this
    simp only [Option.map_some, Option.some.injEq] at this
    rw [e1, this]
  · intro a ha
    exact (hm.absent ha).1
  · refine ⟨d.g.liq, ?_, ?_⟩
    · rw [c1]
      have e1 := view.gTick
      have e2 := view.gRp
      have e3 := view.g.fee
      have e4 := view.g.scale
      have e5 := view.g.rpScale
      have f3 := g1.fee
      have f4 := g1.scale
      have f5 := g1.rpScale
      rw [egs] at e1 e2
      generalize d.g = x at *
      generalize p.gs = y at *
      cases x; cases y
      simp_all
    · have := view.gAmount
      unfold Global.amount at this
      rw [view.g.scale, egs, g1.scale] at this
      rw [nat_of_amount this]
      ring
  · exact ⟨d.a.bitmap, d.b1, d.b, by rw [← ebm, a1], raw.b1, raw.b, c2⟩
  · refine ⟨d.a.pos, d.pos.liq, by rw [← epo, ← hu]; exact a2, gp.scale, ?_, ?_⟩
    · rw [c3, mapGet_set_same]
      have e := view.pos
      obtain ⟨e1, e2, _, e4, e5⟩ := e
      obtain ⟨f1, f2, _, f4, f5⟩ := gp
      congr 1
      generalize d.pos = x at *
      generalize d.a.pos = y at *
      cases x; cases y
      simp_all
    · have := view.posAmount
      unfold Position.amount at this
      rw [view.pos.scale, gp.scale] at this
      rw [nat_of_amount this]
      ring
  · intro k hk
    rw [c3, mapGet_set_other hk]
  · intro t
    rw [c4]
    simp only [mapGet_set]
    rw [etk] at a4 a6 a8
    split
    · next e =>
      subst e
      rw [a8]
      simp [tickSays, hcl, hcu]
    · split
      · next e =>
        subst e
        rw [a6]
        simp only [Option.map_some, tickSays, if_neg (Ne.symm hlu), if_true, u3, u4, u2.tick, gu.tick, u2.fee, gu.fee, view.amtRat]
        congr 1
        simp only [Prod.mk.injEq, true_and]
        constructor <;> ring
      · split
        · next e =>
          subst e
          rw [a4]
          simp only [Option.map_some, tickSays, if_neg hlu, if_true, l3, l4, l2.tick, gl.tick, l2.fee, gl.fee, view.amtRat]
          congr 1
          simp only [Prod.mk.injEq, true_and]
          constructor
          · simp; ring
          · ring
        · next e1 e2 =>
          cases mapGet t p.ticks with
          | none => rfl
          | some ts => simp [tickSays, e1, e2]

/-- The addresses a withdrawal uses are different where it matters. -/
structure Distinct (lp : Nat) (p : PoolAcc) (c : Accounts) (w : World) : Prop where
  vx : Addr.vault p.xMint lp ≠ c.lp ∧ Addr.vault p.xMint lp ≠ c.tokenX ∧ Addr.vault p.xMint lp ≠ c.tokenY
  vy : Addr.vault p.yMint lp ≠ c.lp ∧ Addr.vault p.yMint lp ≠ c.tokenX ∧ Addr.vault p.yMint lp ≠ c.tokenY
  vv : Addr.vault p.xMint lp ≠ Addr.vault p.yMint lp
  lp : ∀ a t, mapGet a w.tokens = some t → t.mint = lp → a ≠ c.tokenX ∧ a ≠ c.tokenY ∧ a ≠ .vault p.xMint lp ∧
    a ≠ .vault p.yMint lp

theorem Redeemable.distinct {w : World} {lp : Nat} {p : PoolAcc} {c : Accounts} {lower upper current n x y : Nat}
    (h : Redeemable w lp p c lower upper current n x y) (hg : Guarded w lp p.xMint p.yMint)
    (hx : p.xMint ≠ lp) (hy : p.yMint ≠ lp) : Distinct lp p c w := by
  obtain ⟨vx, v1, v2, v3, v4⟩ := hg.vaultX
  obtain ⟨vy, u1, u2, u3, u4⟩ := hg.vaultY
  obtain ⟨tx, x1, x2, x3, _⟩ := h.tokenX
  obtain ⟨ty, y1, y2, y3, _⟩ := h.tokenY
  obtain ⟨tl, l1, l2, _, _, l3⟩ := h.lpTokens
  have ne : ∀ {a b : Addr} {s t : Token}, mapGet a w.tokens = some s → mapGet b w.tokens = some t →
      (s.mint ≠ t.mint ∨ s.owner ≠ t.owner) → a ≠ b := by
    rintro a b s t e1 e2 h rfl
    rw [e1] at e2; cases e2
    rcases h with h | h <;> exact h rfl
  refine ⟨⟨ne v1 l1 (.inl (by rw [v2, l2]; exact hx)), ne v1 x1 (.inr (by rw [v3, x3]; simp)),
    ne v1 y1 (.inr (by rw [v3, y3]; simp))⟩, ⟨ne u1 l1 (.inl (by rw [u2, l2]; exact hy)),
    ne u1 x1 (.inr (by rw [u3, x3]; simp)), ne u1 y1 (.inr (by rw [u3, y3]; simp))⟩,
    ne v1 u1 (.inl (by rw [v2, u2]; exact hg.ne)), fun a t ha hm =>
    ⟨ne ha x1 (.inl (by rw [hm, x2]; exact hx.symm)), ne ha y1 (.inl (by rw [hm, y2]; exact hy.symm)),
      ne ha v1 (.inl (by rw [hm, v2]; exact hx.symm)), ne ha u1 (.inl (by rw [hm, u2]; exact hy.symm))⟩⟩

theorem Distinct.vaultX {lp : Nat} {p : PoolAcc} {r : Redemption} {w : World} (h : Distinct lp p r.c w) (m : Moved) :
    redeemed lp p r m (.vault p.xMint lp) = -(m.x : ℤ) := by
  obtain ⟨h1, h2, h3⟩ := h.vx
  simp [redeemed, at_, h1, h2, h3, h.vv]

theorem Distinct.vaultY {lp : Nat} {p : PoolAcc} {r : Redemption} {w : World} (h : Distinct lp p r.c w) (m : Moved) :
    redeemed lp p r m (.vault p.yMint lp) = -(m.y : ℤ) := by
  obtain ⟨h1, h2, h3⟩ := h.vy
  simp [redeemed, at_, h1, h2, h3, h.vv.symm]

theorem Distinct.lpToken {lp : Nat} {p : PoolAcc} {r : Redemption} {w : World} (h : Distinct lp p r.c w) (m : Moved)
    {a : Addr} {t : Token} (ha : mapGet a w.tokens = some t) (hm : t.mint = lp) :
    redeemed lp p r m a = -(if a = r.c.lp then (r.n : ℤ) else 0) := by
  obtain ⟨h1, h2, h3, h4⟩ := h.lp a t ha hm
  simp [redeemed, at_, h1, h2, h3, h4]

theorem Less.prior {lp : Nat} {r : Redemption} {m : Moved} {w v : World} {p q : PoolAcc} (h : Less lp r m w v p q) {a : Addr}
    {t' : Token} (ha : mapGet a v.tokens = some t') : ∃ t, mapGet a w.tokens = some t ∧ t'.mint = t.mint ∧
      t'.owner = t.owner ∧ t'.frozen = t.frozen ∧
      t'.delegate = (if a = r.c.lp then approvalLeft t.delegate r.c.user r.n else t.delegate) ∧
      (t'.amount : ℤ) = t.amount + redeemed lp p r m a := by
  cases e : mapGet a w.tokens with
  | none => rw [h.absent a e] at ha; cases ha
  | some t =>
    obtain ⟨n, h1, h2⟩ := h.present a t e
    rw [h1] at ha; cases ha
    exact ⟨t, rfl, rfl, rfl, rfl, rfl, h2⟩

/-- What can be redeemed after somebody else's withdrawal could be redeemed before. -/
theorem Less.back {lp : Nat} {r : Redemption} {m : Moved} {w v : World} {p q : PoolAcc} (h : Less lp r m w v p q)
    (hd : Distinct lp p r.c w) {c : Accounts} (hu : c.user ≠ r.c.user) {lower upper current n x y : Nat}
    (hr : Redeemable v lp q c lower upper current n x y) : Redeemable w lp p c lower upper current n x y := by
  have e1 : q.gs.tick = p.gs.tick := by obtain ⟨l, e, _⟩ := h.here.gs; rw [e]
  have e2 := h.here.xMint
  have e3 := h.here.yMint
  obtain ⟨o, o1, o2⟩ := hr.position
  obtain ⟨tx, x1, x2, x3, x4⟩ := hr.tokenX
  obtain ⟨ty, y1, y2, y3, y4⟩ := hr.tokenY
  obtain ⟨vx, v1, v2, v3⟩ := hr.vaultX
  obtain ⟨vy, v4, v5, v6⟩ := hr.vaultY
  obtain ⟨tl, l1, l2, l3, l4, l5⟩ := hr.lpTokens
  obtain ⟨tx', a1, a2, a3, a4, _, _⟩ := h.prior x1
  obtain ⟨ty', b1, b2, b3, b4, _, _⟩ := h.prior y1
  rw [e2] at v1
  rw [e3] at v4
  obtain ⟨vx', c1, _, _, c4, _, c6⟩ := h.prior v1
  obtain ⟨vy', d1, _, _, d4, _, d6⟩ := h.prior v4
  obtain ⟨tl', f1, f2, f3, f4, f5, f6⟩ := h.prior l1
  rw [hd.vaultX] at c6
  rw [hd.vaultY] at d6
  rw [hd.lpToken m f1 (f2.symm.trans l2)] at f6
  refine ⟨e1 ▸ hr.atTick, e1 ▸ hr.starts, e1 ▸ hr.ends, ⟨o, ?_, o2⟩, e1 ▸ hr.worth,
    ⟨tx', a1, by rw [← a2, x2, e2], by rw [← a3, x3], by rw [← a4, x4]⟩,
    ⟨ty', b1, by rw [← b2, y2, e3], by rw [← b3, y3], by rw [← b4, y4]⟩,
    ⟨vx', c1, by rw [← c4, v2], by omega⟩, ⟨vy', d1, by rw [← d4, v5], by omega⟩,
    ⟨tl', f1, by rw [← f2, l2], by rw [← f4, l3], ?_, ?_⟩⟩
  · rw [← h.here.others _ ?_]
    · exact o1
    · intro e; exact hu (congrArg PosKey.user e)
  · split at f6 <;> omega
  · split at f5
    · exact (maySpend_left hu f3 f5).1 l5
    · unfold MaySpend at l5 ⊢
      rwa [f3, f5] at l5

/-- If B can be redeemed after A, then A can be redeemed after B. -/
theorem Less.forth {lp : Nat} {r s : Redemption} {m l : Moved} {w v u : World} {p q o : PoolAcc}
    (h : Less lp r m w v p q) (g : Less lp s l w u p o) (hd : Distinct lp p r.c w) (hs : Distinct lp p s.c w)
    (hu : r.c.user ≠ s.c.user)
    (hr : Redeemable w lp p r.c r.lower r.upper r.current r.n m.x m.y)
    (ht : Redeemable v lp q s.c s.lower s.upper s.current s.n l.x l.y) :
    Redeemable u lp o r.c r.lower r.upper r.current r.n m.x m.y := by
  have e1 : o.gs.tick = p.gs.tick := by obtain ⟨l, e, _⟩ := g.here.gs; rw [e]
  have e2 := g.here.xMint
  have e3 := g.here.yMint
  obtain ⟨ps, o1, o2⟩ := hr.position
  obtain ⟨tx, x1, x2, x3, x4⟩ := hr.tokenX
  obtain ⟨ty, y1, y2, y3, y4⟩ := hr.tokenY
  obtain ⟨vx, v1, v2, v3⟩ := hr.vaultX
  obtain ⟨vy, v4, v5, v6⟩ := hr.vaultY
  obtain ⟨tl, l1, l2, l3, l4, l5⟩ := hr.lpTokens
  obtain ⟨_, a1, _⟩ := g.present _ _ x1
  obtain ⟨_, b1, _⟩ := g.present _ _ y1
  obtain ⟨n1, c1, c2⟩ := g.present _ _ v1
  obtain ⟨n2, d1, d2⟩ := g.present _ _ v4
  obtain ⟨n3, f1, f2⟩ := g.present _ _ l1
  rw [hs.vaultX] at c2
  rw [hs.vaultY] at d2
  rw [hs.lpToken l l1 l2] at f2
  -- what B found after A
  obtain ⟨vx', k1, _, k3⟩ := ht.vaultX
  obtain ⟨vy', k4, _, k6⟩ := ht.vaultY
  obtain ⟨tl', k7, _, _, k8, _⟩ := ht.lpTokens
  rw [h.here.xMint] at k1
  rw [h.here.yMint] at k4
  obtain ⟨j1, i1, i2⟩ := h.present _ _ v1
  obtain ⟨j2, i3, i4⟩ := h.present _ _ v4
  obtain ⟨j3, i5, i6⟩ := h.present _ _ l1
  rw [i1] at k1; cases k1
  rw [i3] at k4; cases k4
  rw [hd.vaultX] at i2
  rw [hd.vaultY] at i4
  rw [hd.lpToken m l1 l2, if_pos rfl] at i6
  simp only at k3 k6
  have room : (r.n : ℤ) ≤ n3 := by
    split at f2
    · next e =>
      rw [← e, i5] at k7; cases k7
      simp only at k8
      omega
    · omega
  refine ⟨e1 ▸ hr.atTick, e1 ▸ hr.starts, e1 ▸ hr.ends, ⟨ps, ?_, o2⟩, e1 ▸ hr.worth,
    ⟨_, a1, by rw [e2]; exact x2, x3, x4⟩, ⟨_, b1, by rw [e3]; exact y2, y3, y4⟩,
    ⟨_, (congrArg (fun x => mapGet (Addr.vault x lp) u.tokens) e2).trans c1, v2, ?_⟩,
    ⟨_, (congrArg (fun x => mapGet (Addr.vault x lp) u.tokens) e3).trans d1, v5, ?_⟩, ⟨_, f1, l2, l3, ?_, ?_⟩⟩
  · rw [g.here.others _ ?_]
    · exact o1
    · intro e; exact hu (congrArg PosKey.user e)
  · simp only; omega
  · simp only; omega
  · simp only; omega
  · by_cases e : r.c.lp = s.c.lp
    · rw [if_pos e]
      exact (maySpend_left (t := tl) (t' := ⟨tl.mint, tl.owner, n3, approvalLeft tl.delegate s.c.user s.n, tl.frozen⟩)
        (u := s.c.user) (n := s.n) hu rfl rfl).2 l5
    · unfold MaySpend at l5 ⊢
      simpa only [e, if_false] using l5

/-- Two effects in either order give the same ledger. -/
theorem Less.comm {lp : Nat} {r s : Redemption} {m l : Moved} {w v u v' u' : World} {p q o q' o' : PoolAcc}
    (h1 : Less lp r m w v p q) (h2 : Less lp s l v u q o) (g1 : Less lp s l w v' p q') (g2 : Less lp r m v' u' q' o')
    (hu : r.c.user ≠ s.c.user) : SameLedger lp u u' where
  tokens := by
    intro a
    cases e : mapGet a w.tokens with
    | none => rw [h2.absent a (h1.absent a e), g2.absent a (g1.absent a e)]
    | some t =>
      obtain ⟨n1, a1, a2⟩ := h1.present a t e
      obtain ⟨n2, b1, b2⟩ := h2.present a _ a1
      obtain ⟨n3, c1, c2⟩ := g1.present a t e
      obtain ⟨n4, d1, d2⟩ := g2.present a _ c1
      rw [b1, d1]
      have e1 : redeemed lp q s l a = redeemed lp p s l a := by unfold redeemed; rw [h1.here.xMint, h1.here.yMint]
      have e2 : redeemed lp q' r m a = redeemed lp p r m a := by unfold redeemed; rw [g1.here.xMint, g1.here.yMint]
      rw [e1] at b2
      rw [e2] at d2
      simp only at b2 d2
      have e3 : n4 = n2 := by omega
      rw [e3]
      congr 2
      by_cases f1 : a = r.c.lp <;> by_cases f2 : a = s.c.lp <;> simp only [f1, f2, if_true, if_false]
      all_goals
        first
        | (have f3 : r.c.lp = s.c.lp := f1.symm.trans f2
           simp only [f3, if_true]
           exact approvalLeft_comm hu)
        | (simp_all)
  mints := by
    intro x
    by_cases hx : x = lp
    · subst hx
      obtain ⟨t1, a1, a2, a3⟩ := h1.mint
      obtain ⟨t2, b1, b2, b3⟩ := h2.mint
      obtain ⟨t3, c1, c2, c3⟩ := g1.mint
      obtain ⟨t4, d1, d2, d3⟩ := g2.mint
      rw [a1] at c1; cases c1
      rw [a3] at b1; cases b1
      rw [c3] at d1; cases d1
      rw [b3, d3]
      simp only at b2 d2
      simp only [Option.some.injEq, Mint.mk.injEq, and_true]
      omega
    · rw [h2.mints x hx, h1.mints x hx, g2.mints x hx, g1.mints x hx]
  others := fun x hx => by rw [h2.pools x hx, h1.pools x hx, g2.pools x hx, g1.pools x hx]
  pool := by
    intro x hx
    rw [h2.pool] at hx; cases hx
    have k1 := h1.here
    have k2 := h2.here
    have k3 := g1.here
    have k4 := g2.here
    refine ⟨o', g2.pool, ?_, ?_, ?_, ?_, ?_, ?_, ?_⟩
    · rw [k4.authority, k3.authority, k2.authority, k1.authority]
    · rw [k4.xMint, k3.xMint, k2.xMint, k1.xMint]
    · rw [k4.yMint, k3.yMint, k2.yMint, k1.yMint]
    · obtain ⟨n1, a1, a2⟩ := k1.gs
      obtain ⟨n2, b1, b2⟩ := k2.gs
      obtain ⟨n3, c1, c2⟩ := k3.gs
      obtain ⟨n4, d1, d2⟩ := k4.gs
      rw [a1] at b1 b2
      rw [c1] at d1 d2
      simp only at b1 b2 d1 d2
      have : n4 = n2 := by
        have : (n4 : ℚ) = n2 := by rw [b2, d2, a2, c2]; ring
        exact_mod_cast this
      rw [b1, d1, this]
    · obtain ⟨x1, x2, x3, a1, a2, a3, a4⟩ := k1.bitmap
      obtain ⟨y1, y2, y3, b1, b2, b3, b4⟩ := k2.bitmap
      obtain ⟨z1, z2, z3, c1, c2, c3, c4⟩ := k3.bitmap
      obtain ⟨w1, w2, w3, d1, d2, d3, d4⟩ := k4.bitmap
      rw [a1] at c1; cases c1
      rw [a2] at c2; cases c2
      rw [a3] at c3; cases c3
      rw [a4] at b1; cases b1
      rw [c4] at d1; cases d1
      rw [b2] at d2; cases d2
      rw [b3] at d3; cases d3
      rw [b4, d4]
    · intro k
      have neK : (⟨r.c.user, r.lower, r.upper⟩ : PosKey) ≠ ⟨s.c.user, s.lower, s.upper⟩ :=
        fun e => hu (congrArg PosKey.user e)
      by_cases f1 : k = ⟨r.c.user, r.lower, r.upper⟩
      · subst f1
        obtain ⟨o1, n1, a1, _, a3, a4⟩ := k1.position
        obtain ⟨o2, n2, b1, _, b3, b4⟩ := k4.position
        rw [k3.others _ neK, a1] at b1; cases b1
        rw [k2.others _ neK, a3, b3]
        have : n2 = n1 := by
          have : (n2 : ℚ) = n1 := by rw [a4, b4]
          exact_mod_cast this
        rw [this]
      · by_cases f2 : k = ⟨s.c.user, s.lower, s.upper⟩
        · subst f2
          obtain ⟨o1, n1, a1, _, a3, a4⟩ := k2.position
          obtain ⟨o2, n2, b1, _, b3, b4⟩ := k3.position
          rw [k1.others _ neK.symm, b1] at a1; cases a1
          rw [k4.others _ neK.symm, a3, b3]
          have : n2 = n1 := by
            have : (n2 : ℚ) = n1 := by rw [a4, b4]
            exact_mod_cast this
          rw [this]
        · rw [k4.others _ f1, k3.others _ f2, k2.others _ f2, k1.others _ f1]
    · intro t
      rw [k4.ticks, k3.ticks, k2.ticks, k1.ticks]
      cases mapGet t p.ticks with
      | none => rfl
      | some ts =>
        simp only [Option.map_some, Option.some.injEq, Prod.mk.injEq, true_and]
        constructor <;> ring

/-- The same withdrawal from ledgers that hold the same. -/
theorem Less.same {lp : Nat} {r : Redemption} {m : Moved} {w v w' v' : World} {p q p' q' : PoolAcc}
    (hp : mapGet lp w.pools = some p) (hp' : mapGet lp w'.pools = some p')
    (hs : SameLedger lp w w') (h : Less lp r m w v p q) (g : Less lp r m w' v' p' q') : SameLedger lp v v' := by
  obtain ⟨x, hx, k⟩ := hs.pool p hp
  rw [hp'] at hx; cases hx
  refine ⟨?_, ?_, fun x hx => by rw [g.pools x hx, h.pools x hx, hs.others x hx], ?_⟩
  · intro a
    cases e : mapGet a w.tokens with
    | none => rw [h.absent a e, g.absent a ((hs.tokens a).trans e)]
    | some t =>
      obtain ⟨n1, a1, a2⟩ := h.present a t e
      obtain ⟨n2, b1, b2⟩ := g.present a t ((hs.tokens a).trans e)
      have : redeemed lp p' r m a = redeemed lp p r m a := by unfold redeemed; rw [k.xMint, k.yMint]
      rw [this] at b2
      have : n2 = n1 := by omega
      rw [a1, b1, this]
  · intro x
    by_cases hx : x = lp
    · subst hx
      obtain ⟨t1, a1, _, a3⟩ := h.mint
      obtain ⟨t2, b1, _, b3⟩ := g.mint
      rw [hs.mints, a1] at b1; cases b1
      rw [a3, b3]
    · rw [g.mints x hx, h.mints x hx, hs.mints]
  · intro x hx
    rw [h.pool] at hx; cases hx
    have k1 := h.here
    have k2 := g.here
    refine ⟨q', g.pool, ?_, ?_, ?_, ?_, ?_, ?_, ?_⟩
    · rw [k2.authority, k.authority, k1.authority]
    · rw [k2.xMint, k.xMint, k1.xMint]
    · rw [k2.yMint, k.yMint, k1.yMint]
    · obtain ⟨n1, a1, a2⟩ := k1.gs
      obtain ⟨n2, b1, b2⟩ := k2.gs
      rw [k.gs] at b1 b2
      have : n2 = n1 := by
        have : (n2 : ℚ) = n1 := by rw [a2, b2]
        exact_mod_cast this
      rw [a1, b1, this]
    · obtain ⟨x1, x2, x3, a1, a2, a3, a4⟩ := k1.bitmap
      obtain ⟨y1, y2, y3, b1, b2, b3, b4⟩ := k2.bitmap
      rw [k.bitmap, a1] at b1; cases b1
      rw [a2] at b2; cases b2
      rw [a3] at b3; cases b3
      rw [a4, b4]
    · intro j
      by_cases f : j = ⟨r.c.user, r.lower, r.upper⟩
      · subst f
        obtain ⟨o1, n1, a1, _, a3, a4⟩ := k1.position
        obtain ⟨o2, n2, b1, _, b3, b4⟩ := k2.position
        rw [k.positions, a1] at b1; cases b1
        have : n2 = n1 := by
          have : (n2 : ℚ) = n1 := by rw [a4, b4]
          exact_mod_cast this
        rw [a3, b3, this]
      · rw [k2.others j f, k1.others j f, k.positions]
    · intro t
      rw [k2.ticks, k1.ticks, k.ticks]

theorem Redeemable.same {lp : Nat} {w w' : World} {p p' : PoolAcc} (hp : mapGet lp w.pools = some p)
    (hp' : mapGet lp w'.pools = some p') (hs : SameLedger lp w w') {c : Accounts} {lower upper current n x y : Nat}
    (h : Redeemable w lp p c lower upper current n x y) : Redeemable w' lp p' c lower upper current n x y := by
  obtain ⟨z, hz, k⟩ := hs.pool p hp
  rw [hp'] at hz; cases hz
  refine ⟨?_, ?_, ?_, ?_, ?_, ?_, ?_, ?_, ?_, ?_⟩
  · rw [k.gs]; exact h.atTick
  · rw [k.gs]; exact h.starts
  · rw [k.gs]; exact h.ends
  · rw [k.positions]; exact h.position
  · rw [k.gs]; exact h.worth
  · rw [hs.tokens, k.xMint]; exact h.tokenX
  · rw [hs.tokens, k.yMint]; exact h.tokenY
  · rw [hs.tokens, k.xMint]; exact h.vaultX
  · rw [hs.tokens, k.yMint]; exact h.vaultY
  · rw [hs.tokens]; exact h.lpTokens

theorem SameLedger.refl (lp : Nat) (w : World) : SameLedger lp w w :=
  ⟨fun _ => rfl, fun _ => rfl, fun _ _ => rfl, fun p hp => ⟨p, hp, rfl, rfl, rfl, rfl, rfl, fun _ => rfl, fun _ => rfl⟩⟩

theorem SameLedger.trans {lp : Nat} {w v u : World} (h : SameLedger lp w v) (g : SameLedger lp v u) : SameLedger lp w u := by
  refine ⟨fun a => (g.tokens a).trans (h.tokens a), fun a => (g.mints a).trans (h.mints a),
    fun q hq => (g.others q hq).trans (h.others q hq), fun p hp => ?_⟩
  obtain ⟨q, q1, k⟩ := h.pool p hp
  obtain ⟨o, o1, l⟩ := g.pool q q1
  exact ⟨o, o1, l.authority.trans k.authority, l.xMint.trans k.xMint, l.yMint.trans k.yMint, l.gs.trans k.gs,
    l.bitmap.trans k.bitmap, fun a => (l.positions a).trans (k.positions a), fun a => (l.ticks a).trans (k.ticks a)⟩

theorem withdraw_reachable {w v : World} (hw : Reachable w) {lp : Nat} {c : Accounts} {lower upper current n : Nat} {m : Moved}
    (h : w.withdraw lp c lower upper current n = .ok (v, m)) : Reachable v := by
  refine .step hw (.program (.withdraw lp c lower upper current n) ?_)
  simp only [exec, bind_ok, pure_ok]
  exact ⟨_, h, rfl⟩

theorem withdraw_pool {w v : World} {lp : Nat} {c : Accounts} {lower upper current n : Nat} {m : Moved}
    (h : w.withdraw lp c lower upper current n = .ok (v, m)) : ∃ p, mapGet lp w.pools = some p := by
  obtain ⟨p, _, _, h0, _⟩ := withdraw_effect h
  exact ⟨p, h0⟩

theorem withdraw_again {w w' v : World} (hw : Reachable w) (hw' : Reachable w') {lp : Nat} (hs : SameLedger lp w w')
    {r : Redemption} {m : Moved} (h0 : 0 < r.n) (h : w.withdraw lp r.c r.lower r.upper r.current r.n = .ok (v, m)) :
    ∃ v', w'.withdraw lp r.c r.lower r.upper r.current r.n = .ok (v', m) ∧ SameLedger lp v v' := by
  obtain ⟨p, hp⟩ := withdraw_pool h
  obtain ⟨p', hp', _⟩ := hs.pool p hp
  obtain ⟨hn, red⟩ := withdraw_redeemable hw hp h0 h
  obtain ⟨v', h'⟩ := withdraw_when hw' hp' h0 (red.same hp hp' hs)
  have hm : (⟨m.x, m.y, r.n⟩ : Moved) = m := by rw [← hn]
  rw [hm] at h'
  obtain ⟨q, l1⟩ := withdraw_less hw hp h0 h
  obtain ⟨q', l2⟩ := withdraw_less hw' hp' h0 h'
  exact ⟨v', h', Less.same hp hp' hs l1 l2⟩

theorem Redemptions.again {lp : Nat} {w v : World} {rs : List (Redemption × Moved)} (h : Redemptions lp w rs v) :
    ∀ {w' : World}, Reachable w → Reachable w' → SameLedger lp w w' → (∀ r ∈ rs, 0 < r.1.n) →
      ∃ v', Redemptions lp w' rs v' ∧ SameLedger lp v v' := by
  induction h with
  | nil => exact fun _ _ hs _ => ⟨_, .nil, hs⟩
  | cons h _ ih =>
    intro w' hw hw' hs h0
    obtain ⟨v', h', hs'⟩ := withdraw_again hw hw' hs (h0 _ (List.mem_cons_self ..)) h
    obtain ⟨u', hu, hs''⟩ := ih (withdraw_reachable hw h) (withdraw_reachable hw' h') hs'
      fun r hr => h0 r (List.mem_cons_of_mem _ hr)
    exact ⟨u', .cons h' hu, hs''⟩

theorem withdraw_swaps {w v u : World} (hw : Reachable w) {lp : Nat} {p : PoolAcc} (hp : mapGet lp w.pools = some p)
    (hx : p.xMint ≠ lp) (hy : p.yMint ≠ lp) {r s : Redemption} {m l : Moved} (hr : 0 < r.n) (hs : 0 < s.n)
    (hu : r.c.user ≠ s.c.user) (h : w.withdraw lp r.c r.lower r.upper r.current r.n = .ok (v, m))
    (g : v.withdraw lp s.c s.lower s.upper s.current s.n = .ok (u, l)) :
    ∃ v' u', w.withdraw lp s.c s.lower s.upper s.current s.n = .ok (v', l) ∧
      v'.withdraw lp r.c r.lower r.upper r.current r.n = .ok (u', m) ∧ SameLedger lp u u' := by
  have hg := (hw.guarded hp).1
  obtain ⟨n1, red⟩ := withdraw_redeemable hw hp hr h
  obtain ⟨q, l1⟩ := withdraw_less hw hp hr h
  have hv := withdraw_reachable hw h
  obtain ⟨n2, red2⟩ := withdraw_redeemable hv l1.pool hs g
  obtain ⟨o, l2⟩ := withdraw_less hv l1.pool hs g
  have d1 := red.distinct hg hx hy
  have red3 := l1.back d1 (Ne.symm hu) red2
  have d2 := red3.distinct hg hx hy
  obtain ⟨v', h'⟩ := withdraw_when hw hp hs red3
  have hm : (⟨l.x, l.y, s.n⟩ : Moved) = l := by rw [← n2]
  rw [hm] at h'
  obtain ⟨q', l3⟩ := withdraw_less hw hp hs h'
  have hv' := withdraw_reachable hw h'
  obtain ⟨u', h''⟩ := withdraw_when hv' l3.pool hr (l1.forth l3 d1 d2 hu red red2)
  have hm : (⟨m.x, m.y, r.n⟩ : Moved) = m := by rw [← n1]
  rw [hm] at h''
  obtain ⟨o', l4⟩ := withdraw_less hv' l3.pool hr h''
  exact ⟨v', u', h', h'', Less.comm l1 l2 l3 l4 hu⟩

theorem Redemptions.perm {lp : Nat} {rs rs' : List (Redemption × Moved)} (hp : rs.Perm rs') :
    ∀ {w v : World}, Reachable w → (∀ p, mapGet lp w.pools = some p → p.xMint ≠ lp ∧ p.yMint ≠ lp) →
      (∀ r ∈ rs, 0 < r.1.n) → rs.Pairwise (fun a b => a.1.c.user ≠ b.1.c.user) → Redemptions lp w rs v →
      ∃ v', Redemptions lp w rs' v' ∧ SameLedger lp v v' := by
  induction hp with
  | nil => exact fun _ _ _ _ h => ⟨_, h, .refl _ _⟩
  | cons x _ ih =>
    intro w v hw hm h0 hpw h
    cases h with
    | cons h1 h2 =>
      obtain ⟨p, hp⟩ := withdraw_pool h1
      obtain ⟨q, l1⟩ := withdraw_less hw hp (h0 _ (List.mem_cons_self ..)) h1
      obtain ⟨v', h3, h4⟩ := ih (withdraw_reachable hw h1) (fun p' hp' => by
        rw [l1.pool] at hp'; cases hp'
        rw [l1.here.xMint, l1.here.yMint]; exact hm p hp) (fun r hr => h0 r (List.mem_cons_of_mem _ hr))
        (List.pairwise_cons.1 hpw).2 h2
      exact ⟨v', .cons h1 h3, h4⟩
  | swap x y l =>
    intro w v hw hm h0 hpw h
    cases h with
    | cons h1 h2 =>
      cases h2 with
      | cons h2 h3 =>
        obtain ⟨p, hp⟩ := withdraw_pool h1
        have ne := (List.pairwise_cons.1 hpw).1 _ (List.mem_cons_self ..)
        obtain ⟨v', u', k1, k2, k3⟩ := withdraw_swaps hw hp (hm p hp).1 (hm p hp).2 (h0 _ (List.mem_cons_self ..))
          (h0 _ (List.mem_cons_of_mem _ (List.mem_cons_self ..))) ne h1 h2
        obtain ⟨z, z1, z2⟩ := h3.again (withdraw_reachable (withdraw_reachable hw h1) h2)
          (withdraw_reachable (withdraw_reachable hw k1) k2) k3
          (fun r hr => h0 r (List.mem_cons_of_mem _ (List.mem_cons_of_mem _ hr)))
        exact ⟨z, .cons k1 (.cons k2 z1), z2⟩
  | trans h1 _ ih1 ih2 =>
    intro w v hw hm h0 hpw h
    obtain ⟨v1, a1, a2⟩ := ih1 hw hm h0 hpw h
    obtain ⟨v2, b1, b2⟩ := ih2 hw hm (fun r hr => h0 r (h1.mem_iff.2 hr))
      ((h1.pairwise_iff (fun h => Ne.symm h)).1 hpw) a1
    exact ⟨v2, b1, a2.trans b2⟩

end Hmm.OnChain.World
