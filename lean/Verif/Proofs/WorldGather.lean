import Verif.Proofs.WorldBuy
import Verif.Proofs.WorldOrder
import Verif.Spec.WorldGather

/-
Deposits of different users into one pool commute, up to the bitmap.
-/

namespace Hmm.OnChain.World

open Decimal PoolMath

theorem Quote.unique {tick lower upper x y l X Y l' X' Y' : Nat} (h : Quote tick lower upper x y l X Y)
    (h' : Quote tick lower upper x y l' X' Y') : l = l' ∧ X = X' ∧ Y = Y' := by
  obtain ⟨p, a, b, q, h1, h2, h3, h4, _, _, _, h5, h6, h7⟩ := h
  obtain ⟨p', a', b', q', k1, k2, k3, k4, _, _, _, k5, k6, k7⟩ := h'
  rw [h1] at k1; cases k1
  rw [h2] at k2; cases k2
  rw [h3] at k3; cases k3
  subst h4 k4
  subst h5 k5
  exact ⟨rfl, h6.trans k6.symm, h7.trans k7.symm⟩

/-- How the tokens of an account change. -/
def bought (lp : Nat) (p : PoolAcc) (r : Purchase) (m : Moved) (a : Addr) : ℤ :=
  at_ r.c.lp a m.lp + (at_ (.vault p.xMint lp) a m.x - at_ r.c.tokenX a m.x) +
    (at_ (.vault p.yMint lp) a m.y - at_ r.c.tokenY a m.y)

/-- What is left of the approval of an account. -/
def approvalAfter (r : Purchase) (m : Moved) (a : Addr) (d : Option (Party × Nat)) : Option (Party × Nat) :=
  if a = r.c.tokenX then approvalLeft d r.c.user m.x else if a = r.c.tokenY then approvalLeft d r.c.user m.y else d

/-- The effect of a deposit of liquidity `l` on the record of its pool. -/
structure PoolMore (r : Purchase) (l : Nat) (p q : PoolAcc) : Prop where
  authority : q.authority = p.authority
  xMint : q.xMint = p.xMint
  yMint : q.yMint = p.yMint
  gs : q.gs = { p.gs with liq := p.gs.liq + (if r.lower ≤ p.gs.tick ∧ p.gs.tick < r.upper then l else 0) }
  bitmap : p.bitmap.isSome ∧ q.bitmap.isSome
  position : ∃ o, mapGet (⟨r.c.user, r.lower, r.upper⟩ : PosKey) p.positions = some o ∧
    mapGet (⟨r.c.user, r.lower, r.upper⟩ : PosKey) q.positions = some { o with liq := o.liq + l }
  others : ∀ k : PosKey, k ≠ ⟨r.c.user, r.lower, r.upper⟩ → mapGet k q.positions = mapGet k p.positions
  ticks : ∀ t, (mapGet t q.ticks).map tickHolds = ((mapGet t p.ticks).map tickHolds).map fun e =>
    (e.1, e.2.1,
      e.2.2.1 + (if t = p.gs.tick then 0 else if t = r.lower then (l : ℚ) / 10 ^ 12 else if t = r.upper then
        -((l : ℚ) / 10 ^ 12) else 0),
      e.2.2.2.1 + (if t = p.gs.tick then 0 else if t = r.lower then l else if t = r.upper then l else 0), e.2.2.2.2)

/-- The effect of a deposit on the ledger. -/
structure More (lp : Nat) (r : Purchase) (m : Moved) (l : Nat) (w v : World) (p q : PoolAcc) : Prop where
  present : ∀ a t, mapGet a w.tokens = some t → ∃ n, mapGet a v.tokens =
    some { t with amount := n, delegate := approvalAfter r m a t.delegate } ∧ (n : ℤ) = t.amount + bought lp p r m a
  absent : ∀ a, mapGet a w.tokens = none → mapGet a v.tokens = none
  mint : ∃ mt, mapGet lp w.mints = some mt ∧ mapGet lp v.mints = some { mt with supply := mt.supply + m.lp }
  mints : ∀ q, q ≠ lp → mapGet q v.mints = mapGet q w.mints
  pools : ∀ q, q ≠ lp → mapGet q v.pools = mapGet q w.pools
  pool : mapGet lp v.pools = some q
  here : PoolMore r l p q

theorem transfer_left {w v : World} {src dst : Addr} {user n : Nat} (h : w.transfer src dst (.user user) n = .ok v)
    (hne : src ≠ dst) (a : Addr) : (mapGet a v.tokens).map Token.delegate =
      (mapGet a w.tokens).map fun t => if a = src then approvalLeft t.delegate user n else t.delegate := by
  obtain ⟨x, y, x', h1, h2, _, _, _, _, h3, h4⟩ := transfer_ok h
  rcases h4 with ⟨e, _⟩ | ⟨_, _, rfl⟩
  · exact absurd e hne
  · simp only [mapGet_set]
    split
    · next e => subst e; rw [h2]; simp [Ne.symm hne]
    · split
      · next e => subst e; rw [h1]; simp [spend_left h3]
      · rfl

theorem deposit_delegate {w v : World} {lp : Nat} {p : PoolAcc} (hp : mapGet lp w.pools = some p)
    (hg : Guarded w lp p.xMint p.yMint) {r : Purchase} {m : Moved}
    (h : w.deposit lp r.c r.lower r.upper r.current r.x r.y = .ok (v, m)) (a : Addr) :
    (mapGet a v.tokens).map Token.delegate = (mapGet a w.tokens).map fun t => approvalAfter r m a t.delegate := by
  obtain ⟨p', s, w1, w2, w3, h0, hps, h1, h2, h3, hv, _⟩ := deposit_ok h
  rw [hp] at h0; cases h0
  obtain ⟨mt, b, _, b2, _, _, _, _, _, b7⟩ := mintTo_ok h1
  obtain ⟨vx, vx1, vx2, vx3, vx4⟩ := hg.vaultX
  obtain ⟨vy, vy1, vy2, vy3, vy4⟩ := hg.vaultY
  obtain ⟨tx, x1, x2, x3⟩ := hps.tokenX
  obtain ⟨ty, y1, y2, y3⟩ := hps.tokenY
  have ne : ∀ {a b : Addr} {s t : Token}, mapGet a w.tokens = some s → mapGet b w.tokens = some t →
      (s.mint ≠ t.mint ∨ s.owner ≠ t.owner) → a ≠ b := by
    rintro a b s t e1 e2 h rfl
    rw [e1] at e2; cases e2
    rcases h with h | h <;> exact h rfl
  have n1 : r.c.tokenX ≠ .vault p.xMint lp := ne x1 vx1 (.inr (by rw [vx3, x3]; simp))
  have n2 : r.c.tokenY ≠ .vault p.yMint lp := ne y1 vy1 (.inr (by rw [vy3, y3]; simp))
  have n3 : r.c.tokenX ≠ r.c.tokenY := ne x1 y1 (.inl (by rw [x2, y2]; exact hg.ne))
  have d1 : (mapGet a w1.tokens).map Token.delegate = (mapGet a w.tokens).map Token.delegate := by
    rw [b7]
    simp only [mapGet_set]
    split
    · next e => subst e; rw [b2]; rfl
    · rfl
  have d2 := transfer_left h2 n1 a
  have d3 := transfer_left h3 n2 a
  rw [hv]
  simp only
  have e3 : ∀ (o : Option Token) (f : Option (Party × Nat) → Option (Party × Nat)),
      o.map (fun t => f t.delegate) = (o.map Token.delegate).map f := by
    intro o f; cases o <;> rfl
  rw [e3 _ fun d => if a = r.c.tokenX then approvalLeft d r.c.user m.x else d] at d2
  rw [e3 _ fun d => if a = r.c.tokenY then approvalLeft d r.c.user m.y else d] at d3
  rw [d3, d2, d1, e3 _ (approvalAfter r m a)]
  unfold approvalAfter
  by_cases f1 : a = r.c.tokenX
  · subst f1
    cases mapGet r.c.tokenX w.tokens <;> simp [n3]
  · cases mapGet a w.tokens <;> simp [f1]

theorem nat_of_div {l k : Nat} {x : ℚ} (h : (l : ℚ) / 10 ^ 12 = x) (hx : x * 10 ^ 12 = (k : ℚ)) : l = k := by
  have := nat_of_amount h
  rw [hx] at this
  exact_mod_cast this

theorem deposit_more {w v : World} (hw : Reachable w) {lp : Nat} {p : PoolAcc} (hp : mapGet lp w.pools = some p)
    {r : Purchase} {m : Moved} (h : w.deposit lp r.c r.lower r.upper r.current r.x r.y = .ok (v, m)) :
    ∃ l X Y q, Quote p.gs.tick r.lower r.upper r.x r.y l X Y ∧ More lp r m l w v p q := by
  obtain ⟨hg, supply0, s, hr, hs⟩ := hw.guarded hp
  obtain ⟨p0, _, mt, k0, _, kp, k1, _, k2, k3, hm, _⟩ := deposit_effect h
  rw [hp] at k0; cases k0
  obtain ⟨q, s1, s2, s3, c', q1, q2, q3, q4, hext, hu, hd, hext3, hv⟩ := hs.deposit hp hg hw.small h
  have hr1 : OnChain.Reachable supply0 s1 := hr.step (.external hext)
  have hgood := Good.reachable hr1
  obtain ⟨d, rp, a, b, l, view⟩ := hgood.deposit hd
  have raw := view.raw
  obtain ⟨a1, a2, a3, a4, a5, a6, a7, a8, a9, a10, a11, a12, a13⟩ := OnChain.loadAccounts_ok.1 raw.load
  have egs : s1.gs = p.gs := hext.gs.trans hs.gs
  have etk : s1.ticks = p.ticks := hext.ticks.trans hs.ticks
  have epo : s1.positions = p.positions := hext.positions.trans hs.positions
  have ebm : s1.bitmap = p.bitmap := hext.bitmap.trans hs.bitmap
  have gp := hgood.pos _ _ a2
  have gl := hgood.tick _ _ a4
  have gu := hgood.tick _ _ a6
  obtain ⟨l1, l2, l3, l4⟩ := updateTick_ok gl view.lwr
  obtain ⟨u1, u2, u3, u4⟩ := updateTick_ok gu view.upr
  have hdelta : d.delta.toRat = (l : ℚ) / 10 ^ 12 := by rw [view.delta]; exact toRat_nonneg_mk rfl
  have c1 : q.gs = d.g := by rw [← hv.gs, hext3.gs, raw.result]; rfl
  have c2 : q.bitmap = some d.b := by rw [← hv.bitmap, hext3.bitmap, raw.result]; rfl
  have c3 : q.positions = mapSet ⟨r.c.user, r.lower, r.upper⟩ d.pos p.positions := by
    rw [← hv.positions, hext3.positions, raw.result, ← epo, ← hu]; rfl
  have c4 : q.ticks = mapSet r.current d.a.cur (mapSet r.upper d.upr (mapSet r.lower d.lwr p.ticks)) := by
    rw [← hv.ticks, hext3.ticks, raw.result, ← etk]; rfl
  have g1 := hgood.gs
  rw [egs] at g1
  have hcur : r.current = p.gs.tick := view.cur.trans (congrArg Global.tick egs)
  have hlu : r.lower ≠ r.upper := by have := view.order; omega
  -- the quote
  have hrp := raw.rp
  rw [hcur, view.rp] at hrp
  have hxi := raw.xIn
  rw [view.delta, view.rp, view.rpa, view.rpb] at hxi
  have hyi := raw.yIn
  rw [view.delta, view.rp, view.rpa, view.rpb] at hyi
  have ha := tickToRp_ge (view.rpa ▸ raw.rpa)
  obtain ⟨z1, z2, z3⟩ := (liqFrom_iff ha view.prices).1 view.liq
  have f3 := xFrom_product view.prices hxi
  refine ⟨l, _, _, q, ⟨rp, a, b, _, hrp, view.rpa ▸ raw.rpa, view.rpb ▸ raw.rpb, rfl, two128 ▸ f3, two128 ▸ z1, two128 ▸ z2,
    congrArg Decimal.value z3, rfl, rfl⟩, ?_, ?_, ⟨mt, k1, by rw [k3, mapGet_set_same]⟩,
    fun q hq => by rw [k3, mapGet_set_other hq], fun q hq => by rw [kp, mapGet_set_other hq], q1, ⟨q2, q3, q4, ?_, ?_, ?_, ?_, ?_⟩⟩
  · intro a t ht
    obtain ⟨n, k, e1, e2, _⟩ := hm.present ht
    refine ⟨n, ?_, e2⟩
    have := deposit_delegate hp hg h a
    rw [e1, ht] at this
    simp only [Option.map_some, Option.some.injEq] at this
    rw [e1, this]
  · intro a ha
    exact (hm.absent ha).1
  · have e0 : d.g.liq = p.gs.liq + (if r.lower ≤ p.gs.tick ∧ p.gs.tick < r.upper then l else 0) := by
      have := view.gAmount
      unfold Global.amount at this
      rw [view.g.scale, egs, g1.scale, hdelta] at this
      refine nat_of_div this ?_
      push_cast
      split
      · push_cast; field_simp
      · field_simp; ring
    rw [c1]
    have e1 := view.gTick
    have e2 := view.gRp
    have e3 := view.g.fee
    have e4 := view.g.scale
    have e5 := view.g.rpScale
    have f3 := g1.fee
    have f4 := g1.scale
    have f5 := g1.rpScale
    rw [egs] at e1 e2
    rw [← e0]
    clear e0
    generalize d.g = x at *
    generalize p.gs = y at *
    cases x; cases y
    simp_all
  · exact ⟨by rw [← ebm, a1]; rfl, by rw [c2]; rfl⟩
  · refine ⟨d.a.pos, by rw [← epo, ← hu]; exact a2, ?_⟩
    have e0 : d.pos.liq = d.a.pos.liq + l := by
      have := view.posAmount
      unfold Position.amount at this
      rw [view.pos.scale, gp.scale, hdelta] at this
      refine nat_of_div this ?_
      push_cast
      field_simp
    rw [c3, mapGet_set_same, ← e0]
    have e := view.pos
    obtain ⟨e1, e2, _, e4, e5⟩ := e
    obtain ⟨f1, f2, _, f4, f5⟩ := gp
    congr 1
    clear e0
    generalize d.pos = x at *
    generalize d.a.pos = y at *
    cases x; cases y
    simp_all
  · intro k hk
    rw [c3, mapGet_set_other hk]
  · intro t
    have gr : ∀ (ts ts' : Tick), ts.grossScale = 12 → ts'.grossScale = 12 →
        ts'.grossAmount = ts.grossAmount + d.delta.toRat → ts'.gross = ts.gross + l := by
      intro ts ts' h1 h2 h3
      unfold Tick.grossAmount at h3
      rw [h1, h2, hdelta] at h3
      refine nat_of_div h3 ?_
      push_cast
      field_simp
    rw [c4]
    simp only [mapGet_set]
    rw [etk] at a4 a6 a8
    rw [← hcur]
    split
    · next e =>
      subst e
      rw [a8]
      simp [tickHolds]
    · next e0 =>
      split
      · next e =>
        subst e
        rw [a6]
        simp only [Option.map_some, tickHolds, if_neg e0, if_neg (Ne.symm hlu), if_true, u4, u2.tick, gu.tick, u2.fee, gu.fee,
          hdelta, gr _ _ gu.gross u2.gross u3, gu.gross, u2.gross]
        congr 1
        simp only [Prod.mk.injEq, true_and, and_true]
        ring
      · next e1 =>
        split
        · next e =>
          subst e
          rw [a4]
          simp only [Option.map_some, tickHolds, if_neg e0, l4, l2.tick, gl.tick, l2.fee, gl.fee,
            hdelta, gr _ _ gl.gross l2.gross l3, gl.gross, l2.gross]
          congr 1
          simp
        · next e2 =>
          cases mapGet t p.ticks with
          | none => rfl
          | some ts => simp [tickHolds, e0, e1, e2]

/-- A deposit does not touch the accounts of other users, unless they are for LP tokens. -/
theorem Prepared.apart {w : World} {lp : Nat} {p : PoolAcc} {r : Purchase} {l dx dy : Nat}
    (h : Prepared w lp p r.c r.lower r.upper r.current l dx dy) (hg : Guarded w lp p.xMint p.yMint) (m : Moved)
    {a : Addr} {t : Token} (ha : mapGet a w.tokens = some t) {user : Nat} (ho : t.owner = .user user) (hu : user ≠ r.c.user)
    (hm : t.mint ≠ lp) : bought lp p r m a = 0 ∧ ∀ d, approvalAfter r m a d = d := by
  obtain ⟨vx, v1, v2, v3, v4⟩ := hg.vaultX
  obtain ⟨vy, u1, u2, u3, u4⟩ := hg.vaultY
  obtain ⟨tx, x1, x2, x3, _⟩ := h.tokenX
  obtain ⟨ty, y1, y2, y3, _⟩ := h.tokenY
  obtain ⟨tl, l1, l2, _⟩ := h.lpTokens
  have ne : ∀ {b : Addr} {s : Token}, mapGet b w.tokens = some s → (t.mint ≠ s.mint ∨ t.owner ≠ s.owner) → a ≠ b := by
    rintro b s e h rfl
    rw [ha] at e; cases e
    rcases h with h | h <;> exact h rfl
  have n1 := ne v1 (.inr (by rw [v3, ho]; simp))
  have n2 := ne u1 (.inr (by rw [u3, ho]; simp))
  have n3 := ne x1 (.inr (by rw [x3, ho]; simpa using hu))
  have n4 := ne y1 (.inr (by rw [y3, ho]; simpa using hu))
  have n5 := ne l1 (.inl (by rw [l2]; exact hm))
  constructor
  · simp [bought, at_, n1, n2, n3, n4, n5]
  · intro d; simp [approvalAfter, n3, n4]

theorem More.prior {lp : Nat} {r : Purchase} {m : Moved} {l : Nat} {w v : World} {p q : PoolAcc} (h : More lp r m l w v p q)
    {a : Addr} {t' : Token} (ha : mapGet a v.tokens = some t') : ∃ t, mapGet a w.tokens = some t ∧ t'.mint = t.mint ∧
      t'.owner = t.owner ∧ t'.frozen = t.frozen ∧ t'.delegate = approvalAfter r m a t.delegate ∧
      (t'.amount : ℤ) = t.amount + bought lp p r m a := by
  cases e : mapGet a w.tokens with
  | none => rw [h.absent a e] at ha; cases ha
  | some t =>
    obtain ⟨n, h1, h2⟩ := h.present a t e
    rw [h1] at ha; cases ha
    exact ⟨t, rfl, rfl, rfl, rfl, rfl, h2⟩

/-- The gross liquidity a deposit adds at a tick. -/
def grown (r : Purchase) (l : Nat) (p : PoolAcc) (t : Nat) : Nat :=
  if t = p.gs.tick then 0 else if t = r.lower then l else if t = r.upper then l else 0

theorem PoolMore.tick {r : Purchase} {l : Nat} {p q : PoolAcc} (h : PoolMore r l p q) {t : Nat} {ts : Tick}
    (ht : mapGet t p.ticks = some ts) : ∃ ts', mapGet t q.ticks = some ts' ∧ ts'.gross = ts.gross + grown r l p t := by
  have := h.ticks t
  rw [ht] at this
  cases e : mapGet t q.ticks with
  | none => rw [e] at this; cases this
  | some ts' =>
    rw [e] at this
    simp only [Option.map_some, Option.some.injEq, tickHolds, Prod.mk.injEq] at this
    exact ⟨ts', rfl, this.2.2.2.1⟩

theorem PoolMore.prior {r : Purchase} {l : Nat} {p q : PoolAcc} (h : PoolMore r l p q) {t : Nat} {ts' : Tick}
    (ht : mapGet t q.ticks = some ts') : ∃ ts, mapGet t p.ticks = some ts ∧ ts'.gross = ts.gross + grown r l p t := by
  have := h.ticks t
  rw [ht] at this
  cases e : mapGet t p.ticks with
  | none => rw [e] at this; cases this
  | some ts =>
    rw [e] at this
    simp only [Option.map_some, Option.some.injEq, tickHolds, Prod.mk.injEq] at this
    exact ⟨ts, rfl, this.2.2.2.1⟩

theorem PoolMore.gsTick {r : Purchase} {l : Nat} {p q : PoolAcc} (h : PoolMore r l p q) : q.gs.tick = p.gs.tick := by
  rw [h.gs]

theorem PoolMore.gsLiq {r : Purchase} {l : Nat} {p q : PoolAcc} (h : PoolMore r l p q) :
    q.gs.liq = p.gs.liq + (if r.lower ≤ p.gs.tick ∧ p.gs.tick < r.upper then l else 0) := by
  rw [h.gs]

/-- What can be deposited after somebody else's deposit could be deposited before. -/
theorem More.back {lp : Nat} {r : Purchase} {m : Moved} {k : Nat} {w v : World} {p q : PoolAcc} (h : More lp r m k w v p q)
    (hg : Guarded w lp p.xMint p.yMint) (hx : p.xMint ≠ lp) (hy : p.yMint ≠ lp) {dx' dy' : Nat}
    (hp : Prepared w lp p r.c r.lower r.upper r.current k dx' dy')
    {s : Purchase} (hu : s.c.user ≠ r.c.user) {l dx dy : Nat}
    (hr : Prepared v lp q s.c s.lower s.upper s.current l dx dy) : Prepared w lp p s.c s.lower s.upper s.current l dx dy := by
  have e1 := h.here.gsTick
  have e2 := h.here.xMint
  have e3 := h.here.yMint
  have e4 := h.here.gsLiq
  obtain ⟨ps, o1, o2⟩ := hr.position
  obtain ⟨ts, s1, s2⟩ := hr.starts
  obtain ⟨te, s3, s4⟩ := hr.ends
  obtain ⟨tx, x1, x2, x3, x4, x5, x6⟩ := hr.tokenX
  obtain ⟨ty, y1, y2, y3, y4, y5, y6⟩ := hr.tokenY
  obtain ⟨vx, v1, v2⟩ := hr.vaultX
  obtain ⟨vy, v4, v5⟩ := hr.vaultY
  obtain ⟨tl, l1, l2, l3⟩ := hr.lpTokens
  obtain ⟨mt, m1, m2⟩ := hr.supply
  obtain ⟨tx', a1, a2, a3, a4, a5, a6⟩ := h.prior x1
  obtain ⟨ty', b1, b2, b3, b4, b5, b6⟩ := h.prior y1
  rw [e2] at v1
  rw [e3] at v4
  obtain ⟨vx', c1, _, _, c4, _, _⟩ := h.prior v1
  obtain ⟨vy', d1, _, _, d4, _, _⟩ := h.prior v4
  obtain ⟨tl', f1, f2, f3, f4, _, _⟩ := h.prior l1
  obtain ⟨ts', g1, g2⟩ := h.here.prior s1
  obtain ⟨te', g3, g4⟩ := h.here.prior s3
  obtain ⟨mt', i1, i2⟩ := h.mint
  rw [i2] at m1; cases m1
  simp only at m2
  obtain ⟨z1, z2⟩ := hp.apart hg m a1 (a3.symm.trans x3) hu (by rw [← a2, x2, e2]; exact hx)
  obtain ⟨z3, z4⟩ := hp.apart hg m b1 (b3.symm.trans y3) hu (by rw [← b2, y2, e3]; exact hy)
  rw [z2] at a5
  rw [z4] at b5
  rw [z1] at a6
  rw [z3] at b6
  refine ⟨e1 ▸ hr.atTick, hr.order, h.here.bitmap.1, hp.here, ⟨ps, ?_, o2⟩, ⟨ts', g1, by omega⟩, ⟨te', g3, by omega⟩, ?_,
    ⟨tx', a1, by rw [← a2, x2, e2], by rw [← a3, x3], by rw [← a4, x4], by omega, ?_⟩,
    ⟨ty', b1, by rw [← b2, y2, e3], by rw [← b3, y3], by rw [← b4, y4], by omega, ?_⟩,
    ⟨vx', c1, by rw [← c4, v2]⟩, ⟨vy', d1, by rw [← d4, v5]⟩,
    ⟨tl', f1, by rw [← f2, l2], by rw [← f4, l3]⟩, ⟨mt', i1, by omega⟩⟩
  · rw [← h.here.others _ ?_]
    · exact o1
    · intro e; exact hu (congrArg PosKey.user e)
  · intro h1 h2
    have := hr.active (by rw [e1]; exact h1) (by rw [e1]; exact h2)
    omega
  · unfold MaySpend at x6 ⊢
    rwa [a3, a5] at x6
  · unfold MaySpend at y6 ⊢
    rwa [b3, b5] at y6

/-- If B can be deposited after A, then A can be deposited after B. -/
theorem More.forth {lp : Nat} {r s : Purchase} {m n : Moved} {k j : Nat} {w v u : World} {p q o : PoolAcc}
    (h : More lp r m k w v p q) (g : More lp s n j w u p o) (hg : Guarded w lp p.xMint p.yMint)
    (hx : p.xMint ≠ lp) (hy : p.yMint ≠ lp) (hu : r.c.user ≠ s.c.user) (hk : m.lp = k / 10 ^ 12) (hj : n.lp = j / 10 ^ 12)
    {dx dy dx' dy' : Nat}
    (hr : Prepared w lp p r.c r.lower r.upper r.current k dx dy)
    (hs : Prepared w lp p s.c s.lower s.upper s.current j dx' dy')
    (ht : Prepared v lp q s.c s.lower s.upper s.current j dx' dy') :
    Prepared u lp o r.c r.lower r.upper r.current k dx dy := by
  have e1 := g.here.gsTick
  have e2 := g.here.xMint
  have e3 := g.here.yMint
  have e4 := g.here.gsLiq
  have e5 := h.here.gsTick
  have e6 := h.here.gsLiq
  obtain ⟨ps, o1, o2⟩ := hr.position
  obtain ⟨ts, s1, s2⟩ := hr.starts
  obtain ⟨te, s3, s4⟩ := hr.ends
  obtain ⟨tx, x1, x2, x3, x4, x5, x6⟩ := hr.tokenX
  obtain ⟨ty, y1, y2, y3, y4, y5, y6⟩ := hr.tokenY
  obtain ⟨vx, v1, v2⟩ := hr.vaultX
  obtain ⟨vy, v4, v5⟩ := hr.vaultY
  obtain ⟨tl, l1, l2, l3⟩ := hr.lpTokens
  obtain ⟨n1, a1, a2⟩ := g.present _ _ x1
  obtain ⟨n2, b1, b2⟩ := g.present _ _ y1
  obtain ⟨_, c1, _⟩ := g.present _ _ v1
  obtain ⟨_, d1, _⟩ := g.present _ _ v4
  obtain ⟨_, f1, _⟩ := g.present _ _ l1
  obtain ⟨z1, z2⟩ := hs.apart hg n x1 x3 hu (by rw [x2]; exact hx)
  obtain ⟨z3, z4⟩ := hs.apart hg n y1 y3 hu (by rw [y2]; exact hy)
  rw [z1] at a2
  rw [z3] at b2
  rw [z2] at a1
  rw [z4] at b1
  obtain ⟨ts', g1, g2⟩ := g.here.tick s1
  obtain ⟨te', g3, g4⟩ := g.here.tick s3
  -- what B found after A
  obtain ⟨mt, i1, i2⟩ := g.mint
  obtain ⟨mt', i3, i4⟩ := h.mint
  obtain ⟨mt'', i5, i6⟩ := ht.supply
  rw [i1] at i3; cases i3
  rw [i4] at i5; cases i5
  simp only at i6
  obtain ⟨b0, hb⟩ := Option.isSome_iff_exists.1 hr.here
  have room : ∀ t ts, mapGet t p.ticks = some ts → (t = r.lower ∨ t = r.upper) → ts.gross + k < 2 ^ 128 →
      ts.gross + grown s j p t + k < 2 ^ 128 := by
    intro t ts ht' hor hts
    by_cases hc : t = p.gs.tick
    · simp [grown, hc]; exact hts
    · have hrk : grown r k p t = k := by
        unfold grown
        rw [if_neg hc]
        rcases hor with e | e
        · rw [if_pos e]
        · rw [if_pos e]; split <;> rfl
      obtain ⟨t1, t2, t3⟩ := h.here.tick ht'
      obtain ⟨p1, p2, p3⟩ := ht.starts
      obtain ⟨p4, p5, p6⟩ := ht.ends
      by_cases f1 : t = s.lower
      · rw [← f1, t2] at p2; cases p2
        have : grown s j p t = j := by unfold grown; rw [if_neg hc, if_pos f1]
        omega
      · by_cases f2 : t = s.upper
        · rw [← f2, t2] at p5; cases p5
          have : grown s j p t = j := by unfold grown; rw [if_neg hc, if_neg f1, if_pos f2]
          omega
        · have : grown s j p t = 0 := by unfold grown; rw [if_neg hc, if_neg f1, if_neg f2]
          omega
  refine ⟨e1 ▸ hr.atTick, hr.order, g.here.bitmap.2, ?_, ⟨ps, ?_, o2⟩, ⟨ts', g1, ?_⟩, ⟨te', g3, ?_⟩, ?_,
    ⟨_, a1, by rw [e2]; exact x2, x3, x4, ?_, x6⟩, ⟨_, b1, by rw [e3]; exact y2, y3, y4, ?_, y6⟩,
    ⟨_, (congrArg (fun x => mapGet (Addr.vault x lp) u.tokens) e2).trans c1, v2⟩,
    ⟨_, (congrArg (fun x => mapGet (Addr.vault x lp) u.tokens) e3).trans d1, v5⟩, ⟨_, f1, l2, l3⟩, ⟨_, i2, ?_⟩⟩
  · obtain ⟨b1, hb1, _⟩ := g.here.tick hb
    rw [e1, hb1]; rfl
  · rw [g.here.others _ ?_]
    · exact o1
    · intro e; exact hu (congrArg PosKey.user e)
  · rw [g2]; exact room _ _ s1 (.inl rfl) s2
  · rw [g4]; exact room _ _ s3 (.inr rfl) s4
  · rw [e1, e4]
    intro h1 h2
    have k1 := hr.active h1 h2
    rw [if_pos ⟨h1, h2⟩] at e6
    by_cases f : s.lower ≤ p.gs.tick ∧ p.gs.tick < s.upper
    · rw [if_pos f]
      have := ht.active (by rw [e5]; exact f.1) (by rw [e5]; exact f.2)
      omega
    · rw [if_neg f]; omega
  · simp only; omega
  · simp only; omega
  · simp only; omega

/-- Two effects in either order give the same ledger. -/
theorem More.comm {lp : Nat} {r s : Purchase} {m n : Moved} {k j : Nat} {w v u v' u' : World} {p q o q' o' : PoolAcc}
    (h1 : More lp r m k w v p q) (h2 : More lp s n j v u q o) (g1 : More lp s n j w v' p q') (g2 : More lp r m k v' u' q' o')
    (hu : r.c.user ≠ s.c.user)
    (hd : ∀ a d, approvalAfter s n a (approvalAfter r m a d) = approvalAfter r m a (approvalAfter s n a d)) :
    Alike lp u u' where
  tokens := by
    intro a
    cases e : mapGet a w.tokens with
    | none => rw [h2.absent a (h1.absent a e), g2.absent a (g1.absent a e)]
    | some t =>
      obtain ⟨n1, a1, a2⟩ := h1.present a t e
      obtain ⟨n2, b1, b2⟩ := h2.present a _ a1
      obtain ⟨n3, c1, c2⟩ := g1.present a t e
      obtain ⟨n4, d1, d2⟩ := g2.present a _ c1
      rw [b1, d1]
      have e1 : bought lp q s n a = bought lp p s n a := by unfold bought; rw [h1.here.xMint, h1.here.yMint]
      have e2 : bought lp q' r m a = bought lp p r m a := by unfold bought; rw [g1.here.xMint, g1.here.yMint]
      rw [e1] at b2
      rw [e2] at d2
      simp only at b2 d2
      have e3 : n4 = n2 := by omega
      rw [e3]
      congr 2
      exact (hd a t.delegate).symm
  mints := by
    intro x
    by_cases hx : x = lp
    · subst hx
      obtain ⟨t1, a1, a3⟩ := h1.mint
      obtain ⟨t2, b1, b3⟩ := h2.mint
      obtain ⟨t3, c1, c3⟩ := g1.mint
      obtain ⟨t4, d1, d3⟩ := g2.mint
      rw [a1] at c1; cases c1
      rw [a3] at b1; cases b1
      rw [c3] at d1; cases d1
      rw [b3, d3]
      simp only [Option.some.injEq, Mint.mk.injEq, and_true]
      omega
    · rw [h2.mints x hx, h1.mints x hx, g2.mints x hx, g1.mints x hx]
  others := fun x hx => by rw [h2.pools x hx, h1.pools x hx, g2.pools x hx, g1.pools x hx]
  pool := by
    intro x hx
    rw [h2.pool] at hx; cases hx
    have k1 := h1.here
    have k2 := h2.here
    have k3 := g1.here
    have k4 := g2.here
    have f1 := k1.gsTick
    have f3 := k3.gsTick
    refine ⟨o', g2.pool, ?_, ?_, ?_, ?_, ?_, ?_, ?_⟩
    · rw [k4.authority, k3.authority, k2.authority, k1.authority]
    · rw [k4.xMint, k3.xMint, k2.xMint, k1.xMint]
    · rw [k4.yMint, k3.yMint, k2.yMint, k1.yMint]
    · rw [k4.gs, k2.gs, f1, f3, k3.gs, k1.gs]
      simp only [Global.mk.injEq, and_true]
      omega
    · rw [k4.bitmap.2, k2.bitmap.2]
    · intro y
      have neK : (⟨r.c.user, r.lower, r.upper⟩ : PosKey) ≠ ⟨s.c.user, s.lower, s.upper⟩ :=
        fun e => hu (congrArg PosKey.user e)
      by_cases f1 : y = ⟨r.c.user, r.lower, r.upper⟩
      · subst f1
        obtain ⟨o1, a1, a3⟩ := k1.position
        obtain ⟨o2, b1, b3⟩ := k4.position
        rw [k3.others _ neK, a1] at b1; cases b1
        rw [k2.others _ neK, a3, b3]
      · by_cases f2 : y = ⟨s.c.user, s.lower, s.upper⟩
        · subst f2
          obtain ⟨o1, a1, a3⟩ := k2.position
          obtain ⟨o2, b1, b3⟩ := k3.position
          rw [k1.others _ neK.symm, b1] at a1; cases a1
          rw [k4.others _ neK.symm, a3, b3]
        · rw [k4.others _ f1, k3.others _ f2, k2.others _ f2, k1.others _ f1]
    · intro t
      rw [k4.ticks, k3.ticks, k2.ticks, k1.ticks, f1, f3]
      cases mapGet t p.ticks with
      | none => rfl
      | some ts =>
        simp only [Option.map_some, Option.some.injEq, Prod.mk.injEq, true_and, and_true]
        constructor
        · ring
        · ring

theorem approvalAfter_comm {r s : Purchase} (hu : r.c.user ≠ s.c.user) (m n : Moved) (a : Addr) (d : Option (Party × Nat)) :
    approvalAfter s n a (approvalAfter r m a d) = approvalAfter r m a (approvalAfter s n a d) := by
  unfold approvalAfter
  split
  · split
    · exact approvalLeft_comm hu.symm
    · split
      · exact approvalLeft_comm hu.symm
      · rfl
  · split
    · split
      · exact approvalLeft_comm hu.symm
      · split
        · exact approvalLeft_comm hu.symm
        · rfl
    · rfl

/-- The same deposit into ledgers that hold the same. -/
theorem More.same {lp : Nat} {r : Purchase} {m : Moved} {l : Nat} {w v w' v' : World} {p q p' q' : PoolAcc}
    (hp : mapGet lp w.pools = some p) (hp' : mapGet lp w'.pools = some p')
    (hs : Alike lp w w') (h : More lp r m l w v p q) (g : More lp r m l w' v' p' q') : Alike lp v v' := by
  obtain ⟨x, hx, k⟩ := hs.pool p hp
  rw [hp'] at hx; cases hx
  refine ⟨?_, ?_, fun x hx => by rw [g.pools x hx, h.pools x hx, hs.others x hx], ?_⟩
  · intro a
    cases e : mapGet a w.tokens with
    | none => rw [h.absent a e, g.absent a ((hs.tokens a).trans e)]
    | some t =>
      obtain ⟨n1, a1, a2⟩ := h.present a t e
      obtain ⟨n2, b1, b2⟩ := g.present a t ((hs.tokens a).trans e)
      have : bought lp p' r m a = bought lp p r m a := by unfold bought; rw [k.xMint, k.yMint]
      rw [this] at b2
      have : n2 = n1 := by omega
      rw [a1, b1, this]
  · intro x
    by_cases hx : x = lp
    · subst hx
      obtain ⟨t1, a1, a3⟩ := h.mint
      obtain ⟨t2, b1, b3⟩ := g.mint
      rw [hs.mints, a1] at b1; cases b1
      rw [a3, b3]
    · rw [g.mints x hx, h.mints x hx, hs.mints]
  · intro x hx
    rw [h.pool] at hx; cases hx
    have k1 := h.here
    have k2 := g.here
    refine ⟨q', g.pool, ?_, ?_, ?_, ?_, ?_, ?_, ?_⟩
    · rw [k2.authority, k.authority, k1.authority]
    · rw [k2.xMint, k.xMint, k1.xMint]
    · rw [k2.yMint, k.yMint, k1.yMint]
    · rw [k2.gs, k1.gs, k.gs]
    · rw [k2.bitmap.2, k1.bitmap.2]
    · intro j
      by_cases f : j = ⟨r.c.user, r.lower, r.upper⟩
      · subst f
        obtain ⟨o1, a1, a3⟩ := k1.position
        obtain ⟨o2, b1, b3⟩ := k2.position
        rw [k.positions, a1] at b1; cases b1
        rw [a3, b3]
      · rw [k2.others j f, k1.others j f, k.positions]
    · intro t
      rw [k2.ticks, k1.ticks, k.ticks, k.gs]

theorem AlikeRecord.tick {p q : PoolAcc} (h : AlikeRecord p q) {t : Nat} {ts : Tick} (ht : mapGet t p.ticks = some ts) :
    ∃ ts', mapGet t q.ticks = some ts' ∧ ts'.gross = ts.gross := by
  have := h.ticks t
  rw [ht] at this
  cases e : mapGet t q.ticks with
  | none => rw [e] at this; cases this
  | some ts' =>
    rw [e] at this
    simp only [Option.map_some, Option.some.injEq, tickHolds, Prod.mk.injEq] at this
    exact ⟨ts', rfl, this.2.2.2.1⟩

theorem Prepared.same {lp : Nat} {w w' : World} {p p' : PoolAcc} (hp : mapGet lp w.pools = some p)
    (hp' : mapGet lp w'.pools = some p') (hs : Alike lp w w') {c : Accounts} {lower upper current l dx dy : Nat}
    (h : Prepared w lp p c lower upper current l dx dy) : Prepared w' lp p' c lower upper current l dx dy := by
  obtain ⟨z, hz, k⟩ := hs.pool p hp
  rw [hp'] at hz; cases hz
  refine ⟨?_, h.order, ?_, ?_, ?_, ?_, ?_, ?_, ?_, ?_, ?_, ?_, ?_, ?_⟩
  · rw [k.gs]; exact h.atTick
  · rw [k.bitmap]; exact h.bitmap
  · obtain ⟨b, hb⟩ := Option.isSome_iff_exists.1 h.here
    obtain ⟨b', hb', _⟩ := k.tick hb
    rw [k.gs, hb']; rfl
  · rw [k.positions]; exact h.position
  · obtain ⟨t, t1, t2⟩ := h.starts
    obtain ⟨t', t3, t4⟩ := k.tick t1
    exact ⟨t', t3, t4 ▸ t2⟩
  · obtain ⟨t, t1, t2⟩ := h.ends
    obtain ⟨t', t3, t4⟩ := k.tick t1
    exact ⟨t', t3, t4 ▸ t2⟩
  · rw [k.gs]; exact h.active
  · rw [hs.tokens, k.xMint]; exact h.tokenX
  · rw [hs.tokens, k.yMint]; exact h.tokenY
  · rw [hs.tokens, k.xMint]; exact h.vaultX
  · rw [hs.tokens, k.yMint]; exact h.vaultY
  · rw [hs.tokens]; exact h.lpTokens
  · rw [hs.mints]; exact h.supply

theorem Alike.refl (lp : Nat) (w : World) : Alike lp w w :=
  ⟨fun _ => rfl, fun _ => rfl, fun _ _ => rfl, fun p hp => ⟨p, hp, rfl, rfl, rfl, rfl, rfl, fun _ => rfl, fun _ => rfl⟩⟩

theorem Alike.trans {lp : Nat} {w v u : World} (h : Alike lp w v) (g : Alike lp v u) : Alike lp w u := by
  refine ⟨fun a => (g.tokens a).trans (h.tokens a), fun a => (g.mints a).trans (h.mints a),
    fun q hq => (g.others q hq).trans (h.others q hq), fun p hp => ?_⟩
  obtain ⟨q, q1, k⟩ := h.pool p hp
  obtain ⟨o, o1, l⟩ := g.pool q q1
  exact ⟨o, o1, l.authority.trans k.authority, l.xMint.trans k.xMint, l.yMint.trans k.yMint, l.gs.trans k.gs,
    l.bitmap.trans k.bitmap, fun a => (l.positions a).trans (k.positions a), fun a => (l.ticks a).trans (k.ticks a)⟩

theorem deposit_reachable {w v : World} (hw : Reachable w) {lp : Nat} {c : Accounts} {lower upper current x y : Nat} {m : Moved}
    (h : w.deposit lp c lower upper current x y = .ok (v, m)) : Reachable v := by
  refine .step hw (.program (.deposit lp c lower upper current x y) ?_)
  simp only [exec, bind_ok, pure_ok]
  exact ⟨_, h, rfl⟩

theorem deposit_pool {w v : World} {lp : Nat} {c : Accounts} {lower upper current x y : Nat} {m : Moved}
    (h : w.deposit lp c lower upper current x y = .ok (v, m)) : ∃ p, mapGet lp w.pools = some p := by
  obtain ⟨p, _, _, h0, _⟩ := deposit_effect h
  exact ⟨p, h0⟩

/-- The offer is in 64 bits. -/
def Purchase.Fits (r : Purchase) : Prop := r.x < 2 ^ 64 ∧ r.y < 2 ^ 64

/-- A deposit with what it needs and what it does. -/
theorem deposit_both {w v : World} (hw : Reachable w) {lp : Nat} {p : PoolAcc} (hp : mapGet lp w.pools = some p)
    {r : Purchase} {m : Moved} (h : w.deposit lp r.c r.lower r.upper r.current r.x r.y = .ok (v, m)) :
    ∃ l X Y q, Quote p.gs.tick r.lower r.upper r.x r.y l X Y ∧ X ≤ r.x * 10 ^ 12 ∧ m.x = X / 10 ^ 12 ∧ m.y = Y / 10 ^ 12 ∧
      m.lp = l / 10 ^ 12 ∧ Prepared w lp p r.c r.lower r.upper r.current l m.x m.y ∧ More lp r m l w v p q := by
  obtain ⟨l, X, Y, h1, h2, h3, h4, h5, h6⟩ := deposit_prepared hw hp h
  obtain ⟨l', X', Y', q, k1, k2⟩ := deposit_more hw hp h
  obtain ⟨rfl, rfl, rfl⟩ := h1.unique k1
  exact ⟨_, _, _, q, h1, h2, h3, h4, h5, h6, k2⟩

theorem deposit_again {w w' v : World} (hw : Reachable w) (hw' : Reachable w') {lp : Nat} (hs : Alike lp w w')
    {r : Purchase} {m : Moved} (h0 : r.Fits) (h : w.deposit lp r.c r.lower r.upper r.current r.x r.y = .ok (v, m)) :
    ∃ v', w'.deposit lp r.c r.lower r.upper r.current r.x r.y = .ok (v', m) ∧ Alike lp v v' := by
  obtain ⟨p, hp⟩ := deposit_pool h
  obtain ⟨p', hp', k⟩ := hs.pool p hp
  obtain ⟨l, X, Y, q, h1, h2, h3, h4, h5, h6, h7⟩ := deposit_both hw hp h
  have h1' : Quote p'.gs.tick r.lower r.upper r.x r.y l X Y := by rw [k.gs]; exact h1
  obtain ⟨v', h'⟩ := deposit_when hw' hp' h0.1 h0.2 h1' h2 h3 h4 (h6.same hp hp' hs)
  have hm : (⟨m.x, m.y, l / 10 ^ 12⟩ : Moved) = m := by rw [← h5]
  rw [hm] at h'
  obtain ⟨l', X', Y', q', g1, _, _, _, _, _, g7⟩ := deposit_both hw' hp' h'
  obtain ⟨rfl, _, _⟩ := h1'.unique g1
  exact ⟨v', h', More.same hp hp' hs h7 g7⟩

theorem Purchases.again {lp : Nat} {w v : World} {rs : List (Purchase × Moved)} (h : Purchases lp w rs v) :
    ∀ {w' : World}, Reachable w → Reachable w' → Alike lp w w' → (∀ r ∈ rs, r.1.Fits) →
      ∃ v', Purchases lp w' rs v' ∧ Alike lp v v' := by
  induction h with
  | nil => exact fun _ _ hs _ => ⟨_, .nil, hs⟩
  | cons h _ ih =>
    intro w' hw hw' hs h0
    obtain ⟨v', h', hs'⟩ := deposit_again hw hw' hs (h0 _ (List.mem_cons_self ..)) h
    obtain ⟨u', hu, hs''⟩ := ih (deposit_reachable hw h) (deposit_reachable hw' h') hs'
      fun r hr => h0 r (List.mem_cons_of_mem _ hr)
    exact ⟨u', .cons h' hu, hs''⟩

theorem deposit_swaps {w v u : World} (hw : Reachable w) {lp : Nat} {p : PoolAcc} (hp : mapGet lp w.pools = some p)
    (hx : p.xMint ≠ lp) (hy : p.yMint ≠ lp) {r s : Purchase} {m n : Moved} (hr : r.Fits) (hs : s.Fits)
    (hu : r.c.user ≠ s.c.user) (h : w.deposit lp r.c r.lower r.upper r.current r.x r.y = .ok (v, m))
    (g : v.deposit lp s.c s.lower s.upper s.current s.x s.y = .ok (u, n)) :
    ∃ v' u', w.deposit lp s.c s.lower s.upper s.current s.x s.y = .ok (v', n) ∧
      v'.deposit lp r.c r.lower r.upper r.current r.x r.y = .ok (u', m) ∧ Alike lp u u' := by
  have hg := (hw.guarded hp).1
  obtain ⟨l, X, Y, q, h1, h2, h3, h4, h5, h6, h7⟩ := deposit_both hw hp h
  have hv := deposit_reachable hw h
  obtain ⟨l', X', Y', o, g1, g2, g3, g4, g5, g6, g7⟩ := deposit_both hv h7.pool g
  have g1' : Quote p.gs.tick s.lower s.upper s.x s.y l' X' Y' := by rw [← h7.here.gsTick]; exact g1
  have back := h7.back hg hx hy h6 (Ne.symm hu) g6
  obtain ⟨v', k⟩ := deposit_when hw hp hs.1 hs.2 g1' g2 g3 g4 back
  have hm : (⟨n.x, n.y, l' / 10 ^ 12⟩ : Moved) = n := by rw [← g5]
  rw [hm] at k
  obtain ⟨l'', _, _, q', k1, _, _, _, _, _, k7⟩ := deposit_both hw hp k
  obtain ⟨rfl, _, _⟩ := g1'.unique k1
  have forth := h7.forth k7 hg hx hy hu h5 g5 h6 back g6
  have hv' := deposit_reachable hw k
  have h1' : Quote q'.gs.tick r.lower r.upper r.x r.y l X Y := by rw [k7.here.gsTick]; exact h1
  obtain ⟨u', f⟩ := deposit_when hv' k7.pool hr.1 hr.2 h1' h2 h3 h4 forth
  have hm : (⟨m.x, m.y, l / 10 ^ 12⟩ : Moved) = m := by rw [← h5]
  rw [hm] at f
  obtain ⟨l'', _, _, o', f1, _, _, _, _, _, f7⟩ := deposit_both hv' k7.pool f
  obtain ⟨rfl, _, _⟩ := h1'.unique f1
  exact ⟨v', u', k, f, More.comm h7 g7 k7 f7 hu fun a d => approvalAfter_comm hu m n a d⟩

theorem Purchases.perm {lp : Nat} {rs rs' : List (Purchase × Moved)} (hp : rs.Perm rs') :
    ∀ {w v : World}, Reachable w → (∀ p, mapGet lp w.pools = some p → p.xMint ≠ lp ∧ p.yMint ≠ lp) →
      (∀ r ∈ rs, r.1.Fits) → rs.Pairwise (fun a b => a.1.c.user ≠ b.1.c.user) → Purchases lp w rs v →
      ∃ v', Purchases lp w rs' v' ∧ Alike lp v v' := by
  induction hp with
  | nil => exact fun _ _ _ _ h => ⟨_, h, .refl _ _⟩
  | cons x _ ih =>
    intro w v hw hm h0 hpw h
    cases h with
    | cons h1 h2 =>
      obtain ⟨p, hp⟩ := deposit_pool h1
      obtain ⟨_, _, _, q, _, _, _, _, _, _, l1⟩ := deposit_both hw hp h1
      obtain ⟨v', h3, h4⟩ := ih (deposit_reachable hw h1) (fun p' hp' => by
        rw [l1.pool] at hp'; cases hp'
        rw [l1.here.xMint, l1.here.yMint]; exact hm p hp) (fun r hr => h0 r (List.mem_cons_of_mem _ hr))
        (List.pairwise_cons.1 hpw).2 h2
      exact ⟨v', .cons h1 h3, h4⟩
  | swap x y l =>
    intro w v hw hm h0 hpw h
    cases h with
    | cons h1 h2 =>
      cases h2 with
      | cons h2 h3 =>
        obtain ⟨p, hp⟩ := deposit_pool h1
        have ne := (List.pairwise_cons.1 hpw).1 _ (List.mem_cons_self ..)
        obtain ⟨v', u', k1, k2, k3⟩ := deposit_swaps hw hp (hm p hp).1 (hm p hp).2 (h0 _ (List.mem_cons_self ..))
          (h0 _ (List.mem_cons_of_mem _ (List.mem_cons_self ..))) ne h1 h2
        obtain ⟨z, z1, z2⟩ := h3.again (deposit_reachable (deposit_reachable hw h1) h2)
          (deposit_reachable (deposit_reachable hw k1) k2) k3
          (fun r hr => h0 r (List.mem_cons_of_mem _ (List.mem_cons_of_mem _ hr)))
        exact ⟨z, .cons k1 (.cons k2 z1), z2⟩
  | trans h1 _ ih1 ih2 =>
    intro w v hw hm h0 hpw h
    obtain ⟨v1, a1, a2⟩ := ih1 hw hm h0 hpw h
    obtain ⟨v2, b1, b2⟩ := ih2 hw hm (fun r hr => h0 r (h1.mem_iff.2 hr))
      ((h1.pairwise_iff (fun h => Ne.symm h)).1 hpw) a1
    exact ⟨v2, b1, a2.trans b2⟩

end Hmm.OnChain.World
