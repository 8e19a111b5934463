import Verif.Spec.Twin
import Verif.Proofs.Ledger
import Verif.Proofs.SwapLoop

/-
Pools operated alike stay alike, whatever their HMM parameters.
-/

namespace Hmm

section Maps

variable {κ α β : Type} [DecidableEq κ]

/-- Changing all values of a map. -/
def mapVals (f : α → β) (m : List (κ × α)) : List (κ × β) := m.map fun e => (e.1, f e.2)

omit [DecidableEq κ] in
theorem mapVals_keys (f : α → β) (m : List (κ × α)) : (mapVals f m).map (·.1) = m.map (·.1) := by
  simp [mapVals, Function.comp_def]

theorem mapGet_vals (f : α → β) (k : κ) (m : List (κ × α)) : mapGet k (mapVals f m) = (mapGet k m).map f := by
  induction m with
  | nil => rfl
  | cons e m ih =>
    obtain ⟨k', v⟩ := e
    by_cases h : k' = k
    · simp [mapVals, mapGet, h]
    · simp only [mapVals, List.map_cons, mapGet, h, if_false]
      exact ih

theorem mapSet_vals (f : α → β) (k : κ) (v : α) (m : List (κ × α)) :
    mapVals f (mapSet k v m) = mapSet k (f v) (mapVals f m) := by
  induction m with
  | nil => rfl
  | cons e m ih =>
    obtain ⟨k', v'⟩ := e
    by_cases h : k' = k
    · simp [mapVals, mapSet, h]
    · simp only [mapVals, List.map_cons, mapSet, h, if_false]
      congr 1

theorem mapErase_vals (f : α → β) (k : κ) (m : List (κ × α)) :
    mapVals f (mapErase k m) = mapErase k (mapVals f m) := by
  induction m with
  | nil => rfl
  | cons e m ih =>
    obtain ⟨k', v'⟩ := e
    by_cases h : k' = k
    · simp only [mapErase, h, if_true, ih]; simp [mapVals, mapErase]
    · simp only [mapVals, List.map_cons, mapErase, h, if_false]
      congr 1

theorem treeInsert_vals (f : α → β) (k : Nat) (v : α) (m : List (Nat × α)) :
    mapVals f (treeInsert k v m) = treeInsert k (f v) (mapVals f m) := by
  induction m with
  | nil => rfl
  | cons e m ih =>
    obtain ⟨k', v'⟩ := e
    by_cases h : k < k'
    · simp [mapVals, treeInsert, h]
    · by_cases h' : k' = k
      · subst h'; simp [mapVals, treeInsert]
      · simp only [mapVals, List.map_cons, treeInsert, h, h', if_false]
        congr 1

end Maps

namespace Pool

open Decimal PoolMath

/-- The parts of `plain`. -/
structure Alike (p q : Pool) : Prop where
  spacing : p.spacing = q.spacing
  liq : p.gs.liq = q.gs.liq
  rp : p.gs.rp = q.gs.rp
  tick : p.gs.tick = q.gs.tick
  fx : p.gs.fees.fx = q.gs.fees.fx
  fy : p.gs.fees.fy = q.gs.fees.fy
  ticks : mapVals TickState.plain p.ticks = mapVals TickState.plain q.ticks
  positions : mapVals PositionState.plain p.positions = mapVals PositionState.plain q.positions
  xFee : p.xFee = q.xFee
  yFee : p.yFee = q.yFee
  feeRate : p.feeRate = q.feeRate

theorem alike_iff {p q : Pool} : p.plain = q.plain ↔ Alike p q := by
  constructor
  · intro h
    simp only [plain, Pool.mk.injEq, GlobalState.mk.injEq, Fees.plain, Fees.mk.injEq] at h
    obtain ⟨h1, ⟨h2, h3, h4, h5, h6, _⟩, h7, h8, _, _, _, _, h9, h10, _, h11⟩ := h
    exact ⟨h1, h2, h3, h4, h5, h6, h7, h8, h9, h10, h11⟩
  · intro h
    have h7 := h.ticks
    have h8 := h.positions
    simp only [mapVals] at h7 h8
    simp only [plain, h.spacing, h.liq, h.rp, h.tick, Fees.plain, h.fx, h.fy, h7, h8, h.xFee, h.yFee, h.feeRate]

theorem Alike.keys {p q : Pool} (h : Alike p q) : p.ticks.map (·.1) = q.ticks.map (·.1) := by
  rw [← mapVals_keys TickState.plain, h.ticks, mapVals_keys]

theorem Alike.get {p q : Pool} (h : Alike p q) {t : Nat} {a : TickState} (ha : mapGet t p.ticks = some a) :
    ∃ b, mapGet t q.ticks = some b ∧ a.plain = b.plain := by
  have := mapGet_vals TickState.plain t p.ticks
  rw [h.ticks, mapGet_vals, ha] at this
  cases hb : mapGet t q.ticks with
  | none => rw [hb] at this; cases this
  | some b => rw [hb] at this; simp only [Option.map_some, Option.some.injEq] at this; exact ⟨b, rfl, this.symm⟩

theorem plain_parts {a b : TickState} (h : a.plain = b.plain) :
    a.liqNet = b.liqNet ∧ a.liqGross = b.liqGross ∧ a.fees.fx = b.fees.fx ∧ a.fees.fy = b.fees.fy := by
  simp only [TickState.plain, TickState.mk.injEq, Fees.plain, Fees.mk.injEq] at h
  exact ⟨h.1, h.2.1, h.2.2.1, h.2.2.2.1⟩

theorem ok_unique {α : Type} {x : R α} {a b : α} (ha : x = .ok a) (hb : x = .ok b) : a = b := by
  rw [ha] at hb; exact Except.ok.inj hb

theorem Alike.cross {p q p' q' : Pool} (h : Alike p q) {t : Nat} {b : Bool} (hp : p.crossTick t b = .ok p')
    (hq : q.crossTick t b = .ok q') : Alike p' q' := by
  obtain ⟨ts, fx, fy, hx, hy, nt, n, h1, _, h3, h4, _, _, h7, h8, h9, _, rfl⟩ := crossTick_ok hp
  obtain ⟨us, gx, gy, kx, ky, mt, m, g1, _, g3, g4, _, _, g7, g8, g9, _, rfl⟩ := crossTick_ok hq
  obtain ⟨us', g1', e⟩ := h.get h1
  rw [g1] at g1'; cases g1'
  obtain ⟨e1, e2, e3, e4⟩ := plain_parts e
  rw [h.fx, e3] at h3
  rw [h.fy, e4] at h4
  rw [h.liq, e1] at h9
  cases ok_unique h3 g3
  cases ok_unique h4 g4
  cases ok_unique h9 g9
  have et : nt = mt := by
    cases b with
    | true => rw [h7 rfl, g7 rfl]
    | false => have := (h8 rfl).2; rw [h.spacing] at this; exact ok_unique this (g8 rfl).2
  subst et
  refine ⟨h.spacing, rfl, h.rp, rfl, h.fx, h.fy, ?_, h.positions, h.xFee, h.yFee, h.feeRate⟩
  simp only [mapSet_vals, h.ticks]
  congr 1
  simp only [TickState.plain, Fees.plain, e1, e2]

theorem Alike.setRp {p q : Pool} (h : Alike p q) (t : Nat) (rp : Decimal) :
    Alike ((p.setTick t).setRp rp) ((q.setTick t).setRp rp) :=
  ⟨h.spacing, h.liq, rfl, rfl, h.fx, h.fy, h.ticks, h.positions, h.xFee, h.yFee, h.feeRate⟩

theorem Alike.tickKeys {p q : Pool} (h : Alike p q) (b : Bool) : p.tickKeys b = q.tickKeys b := by
  unfold Pool.tickKeys; rw [h.keys]

theorem Alike.leftLimit {p q : Pool} (h : Alike p q) (s : Nat) : p.leftLimit s = q.leftLimit s := by
  unfold Pool.leftLimit tickToPossibleTick; rw [h.tickKeys, h.spacing, h.tick]

theorem Alike.rightLimit {p q : Pool} (h : Alike p q) (s g : Nat) : p.rightLimit s g = q.rightLimit s g := by
  unfold Pool.rightLimit tickToPossibleTick; rw [h.tickKeys, h.spacing]

theorem Alike.tryLeft : ∀ {tks : List Nat} {p q p' q' : Pool} {g g' : Option Nat} {rp rp' : Decimal}, Alike p q →
    tryInRangeLeft tks p = .ok (p', g, rp) → tryInRangeLeft tks q = .ok (q', g', rp') →
    Alike p' q' ∧ g = g' ∧ rp = rp' := by
  intro tks
  induction tks with
  | nil =>
    intro p q p' q' g g' rp rp' h hp hq
    simp only [tryInRangeLeft, ok_inj, Prod.mk.injEq] at hp hq
    obtain ⟨rfl, rfl, rfl⟩ := hp
    obtain ⟨rfl, rfl, rfl⟩ := hq
    exact ⟨h, rfl, h.rp⟩
  | cons tk tks ih =>
    intro p q p' q' g g' rp rp' h hp hq
    unfold tryInRangeLeft at hp hq
    rw [h.tick] at hp
    rw [ite_ok] at hp hq
    rcases hp with ⟨hlt, hp⟩ | ⟨hlt, hp⟩ <;> rcases hq with ⟨hlt', hq⟩ | ⟨hlt', hq⟩
    · exact ih h hp hq
    · exact absurd hlt hlt'
    · exact absurd hlt' hlt
    rw [bind_ok] at hp hq
    obtain ⟨r1, a1, hp⟩ := hp; obtain ⟨r2, a2, hq⟩ := hq
    cases ok_unique a1 a2
    rw [bind_ok] at hp hq
    obtain ⟨p1, b1, hp⟩ := hp; obtain ⟨q1, b2, hq⟩ := hq
    have h1 := (h.setRp tk r1).cross b1 b2
    rw [bind_ok] at hp hq
    obtain ⟨g1, c1, hp⟩ := hp; obtain ⟨g2, c2, hq⟩ := hq
    rw [h1.tick, h1.leftLimit] at c1
    cases ok_unique c1 c2
    rw [h1.liq] at hp
    rw [ite_ok] at hp hq
    rcases hp with ⟨_, hp⟩ | ⟨_, hp⟩; · simp [rpanic] at hp
    rcases hq with ⟨_, hq⟩ | ⟨_, hq⟩; · simp [rpanic] at hq
    rw [ite_ok] at hp hq
    rcases hp with ⟨e, hp⟩ | ⟨e, hp⟩ <;> rcases hq with ⟨e', hq⟩ | ⟨e', hq⟩
    · simp only [pure_ok, Prod.mk.injEq] at hp hq
      obtain ⟨rfl, rfl, rfl⟩ := hp
      obtain ⟨rfl, rfl, rfl⟩ := hq
      exact ⟨h1, rfl, h1.rp⟩
    · exact absurd e e'
    · exact absurd e' e
    · exact ih h1 hp hq

theorem Alike.tryRight : ∀ {tks : List Nat} {p q p' q' : Pool} {g g' : Option Nat} {rp rp' : Decimal}, Alike p q →
    tryInRangeRight tks p = .ok (p', g, rp) → tryInRangeRight tks q = .ok (q', g', rp') →
    Alike p' q' ∧ g = g' ∧ rp = rp' := by
  intro tks
  induction tks with
  | nil =>
    intro p q p' q' g g' rp rp' h hp hq
    simp only [tryInRangeRight, ok_inj, Prod.mk.injEq] at hp hq
    obtain ⟨rfl, rfl, rfl⟩ := hp
    obtain ⟨rfl, rfl, rfl⟩ := hq
    exact ⟨h, rfl, h.rp⟩
  | cons tk tks ih =>
    intro p q p' q' g g' rp rp' h hp hq
    unfold tryInRangeRight at hp hq
    rw [h.tick] at hp
    rw [ite_ok] at hp hq
    rcases hp with ⟨hlt, hp⟩ | ⟨hlt, hp⟩ <;> rcases hq with ⟨hlt', hq⟩ | ⟨hlt', hq⟩
    · exact ih h hp hq
    · exact absurd hlt hlt'
    · exact absurd hlt' hlt
    rw [bind_ok] at hp hq
    obtain ⟨r1, a1, hp⟩ := hp; obtain ⟨r2, a2, hq⟩ := hq
    cases ok_unique a1 a2
    rw [bind_ok] at hp hq
    obtain ⟨p1, b1, hp⟩ := hp; obtain ⟨q1, b2, hq⟩ := hq
    have h1 := (h.setRp tk r1).cross b1 b2
    rw [bind_ok] at hp hq
    obtain ⟨g1, c1, hp⟩ := hp; obtain ⟨g2, c2, hq⟩ := hq
    rw [h1.rightLimit] at c1
    cases ok_unique c1 c2
    rw [h1.liq] at hp
    rw [ite_ok] at hp hq
    rcases hp with ⟨_, hp⟩ | ⟨_, hp⟩; · simp [rpanic] at hp
    rcases hq with ⟨_, hq⟩ | ⟨_, hq⟩; · simp [rpanic] at hq
    rw [ite_ok] at hp hq
    rcases hp with ⟨e, hp⟩ | ⟨e, hp⟩ <;> rcases hq with ⟨e', hq⟩ | ⟨e', hq⟩
    · simp only [pure_ok, Prod.mk.injEq] at hp hq
      obtain ⟨rfl, rfl, rfl⟩ := hp
      obtain ⟨rfl, rfl, rfl⟩ := hq
      exact ⟨h1, rfl, h1.rp⟩
    · exact absurd e e'
    · exact absurd e' e
    · exact ih h1 hp hq

/-- The parts of the totals that HMM leaves alone. -/
structure AlikeAcc (a b : SwapAcc) : Prop where
  recv : a.recv = b.recv
  fee : a.fee = b.fee
  currT : a.currT = b.currT
  currRp : a.currRp = b.currRp
  net : a.send.toRat - a.adj.toRat = b.send.toRat - b.adj.toRat

theorem Alike.goalX {p q p' q' : Pool} (h : Alike p q) {a b a' b' : SwapAcc} (ha : AlikeAcc a b)
    {g g' : Option Nat} (hp : Pool.goalX p a = .ok (p', g, a')) (hq : Pool.goalX q b = .ok (q', g', b')) :
    Alike p' q' ∧ g = g' ∧ AlikeAcc a' b' ∧ SameBooks p p' ∧ SameBooks q q' := by
  obtain ⟨s1, e1, _, _, d1⟩ := goalX_ok hp
  obtain ⟨s2, e2, _, _, d2⟩ := goalX_ok hq
  rcases d1 with ⟨rfl, rfl, l1, k1⟩ | ⟨l1, c1, k1⟩ <;> rcases d2 with ⟨rfl, rfl, l2, k2⟩ | ⟨l2, c2, k2⟩
  · rw [ha.currT, h.leftLimit] at k1
    exact ⟨h, ok_unique k1 k2, ha, s1, s2⟩
  · rw [h.liq, l2] at l1; cases l1
  · rw [h.liq, l2] at l1; cases l1
  · rw [h.tickKeys] at k1
    obtain ⟨i1, i2, i3⟩ := h.tryLeft k1 k2
    refine ⟨i1, i2, ?_, s1, s2⟩
    rw [e1, e2]
    exact ⟨ha.recv, ha.fee, ha.currT, by simp only; rw [c1, c2, i3], ha.net⟩

theorem Alike.goalY {p q p' q' : Pool} (h : Alike p q) {a b a' b' : SwapAcc} (ha : AlikeAcc a b)
    {g g' : Option Nat} (hp : Pool.goalY p a = .ok (p', g, a')) (hq : Pool.goalY q b = .ok (q', g', b')) :
    Alike p' q' ∧ g = g' ∧ AlikeAcc a' b' ∧ SameBooks p p' ∧ SameBooks q q' := by
  obtain ⟨s1, e1, _, _, d1⟩ := goalY_ok hp
  obtain ⟨s2, e2, _, _, d2⟩ := goalY_ok hq
  rcases d1 with ⟨rfl, rfl, l1, k1⟩ | ⟨l1, c1, k1⟩ <;> rcases d2 with ⟨rfl, rfl, l2, k2⟩ | ⟨l2, c2, k2⟩
  · rw [ha.currT, h.tick, h.rightLimit] at k1
    exact ⟨h, ok_unique k1 k2, ha, s1, s2⟩
  · rw [h.liq, l2] at l1; cases l1
  · rw [h.liq, l2] at l1; cases l1
  · rw [h.tickKeys] at k1
    obtain ⟨i1, i2, i3⟩ := h.tryRight k1 k2
    refine ⟨i1, i2, ?_, s1, s2⟩
    rw [e1, e2]
    exact ⟨ha.recv, ha.fee, ha.currT, by simp only; rw [c1, c2, i3], ha.net⟩

theorem Alike.fillX {p q : Pool} (h : Alike p q) (s : Decimal) (g : Nat) (l d : Decimal) :
    p.fillX s g l d = q.fillX s g l d := by
  unfold Pool.fillX; rw [h.feeRate]

theorem Alike.fillY {p q : Pool} (h : Alike p q) (s : Decimal) (g : Nat) (l d : Decimal) :
    p.fillY s g l d = q.fillY s g l d := by
  unfold Pool.fillY tickToPossibleTick; rw [h.feeRate, h.tick, h.spacing]

theorem Alike.stepX {p q p' q' : Pool} (h : Alike p q) (hx : p.x.toRat = q.x.toRat) (hy : p.y.toRat = q.y.toRat)
    {a b a' b' : SwapAcc} (ha : AlikeAcc a b) {g : Nat} {fl fl' : FloatEnv} {dx o o' : Decimal}
    (hp : Pool.stepX fl dx o p a g = .ok (p', a')) (hq : Pool.stepX fl' dx o' q b g = .ok (q', b')) :
    Alike p' q' ∧ p'.x.toRat = q'.x.toRat ∧ p'.y.toRat = q'.y.toRat ∧ AlikeAcc a' b' := by
  obtain ⟨rem, r, ysum, newY, c1, chk, rs, newX, xFee, yAdj, fees, p1, h1, h2, h3, h4, _, _, _, _, h9, h10,
    h11, h12, h13, h14, h15, h16, h17, _, h19, hp1, h21⟩ := stepX_ok hp
  obtain ⟨rem', r', ysum', newY', c1', chk', rs', newX', xFee', yAdj', fees', q1, g1, g2, g3, g4, _, _, _, _, g9, g10,
    g11, g12, g13, g14, g15, g16, g17, _, g19, hq1, g21⟩ := stepX_ok hq
  rw [ha.recv] at h1
  cases ok_unique h1 g1
  obtain ⟨cp, s1, _, k1, k2, k3, k4, _, _, _, _⟩ := swapWithinX_ok h2
  obtain ⟨cp', s1', _, l1, l2, l3, l4, _, _, _, _⟩ := swapWithinX_ok g2
  rw [ha.currRp, h.liq, h.fillX] at k1
  have e := ok_unique k1 l1
  simp only [Prod.mk.injEq] at e
  obtain ⟨e1, e2, e3, e4, e5⟩ := e
  rw [ha.currRp, h.liq, e5] at k2
  cases ok_unique k2 l2
  have hnet : r.send.toRat - r.sendHmmAdj.toRat = r'.send.toRat - r'.sendHmmAdj.toRat := by
    rw [sub_toRat k4, sub_toRat l4]; ring
  rw [ha.recv, e1] at h9
  cases ok_unique h9 g9
  rw [e2] at h10 h13 h17
  rw [ha.fee] at h13
  rw [h.xFee] at h17
  have efee := ok_unique h17 g17
  have hacc : AlikeAcc a' b' := by
    refine ⟨ok_unique h10 g10, ok_unique h13 g13, by rw [h14, g14, e4], by rw [h15, g15, e5], ?_⟩
    have := ha.net
    rw [add_toRat h11, add_toRat h12, add_toRat g11, add_toRat g12]
    linarith
  have hff : fees.fx = fees'.fx ∧ fees.fy = fees'.fy := by
    rcases h19 with ⟨u0, u1, _, ⟨w, u3, u4⟩, _⟩ | ⟨u0, u1⟩ <;>
      rcases g19 with ⟨v0, v1, _, ⟨w', v3, v4⟩, _⟩ | ⟨v0, v1⟩
    · rw [e2, h.liq] at u3
      cases ok_unique u3 v3
      rw [h.fx] at u4
      exact ⟨ok_unique u4 v4, by rw [u1, v1, h.fy]⟩
    · rw [h.liq, v0] at u0; cases u0
    · rw [h.liq, v0] at u0; cases u0
    · rw [u1, v1]; exact ⟨h.fx, h.fy⟩
  have h1' : Alike p1 q1 := by
    rw [hp1, hq1]
    exact ⟨h.spacing, h.liq, e5, e4, hff.1, hff.2, h.ticks, h.positions, efee, h.yFee, h.feeRate⟩
  have hX : p1.x.toRat = q1.x.toRat := by
    rw [hp1, hq1]; simp only [add_toRat h16, add_toRat g16, e1, hx]
  have hY : p1.y.toRat = q1.y.toRat := by
    rw [hp1, hq1]; simp only [sub_toRat h4, sub_toRat g4, add_toRat h3, add_toRat g3]; linarith
  have hk := h.keys
  rcases h21 with ⟨c1, _, m1, x1⟩ | ⟨c1, _, m1, x1⟩ | ⟨c1, x1⟩ <;>
    rcases g21 with ⟨c2, _, m2, x2⟩ | ⟨c2, _, m2, x2⟩ | ⟨c2, x2⟩
  · obtain ⟨b1, b2, _⟩ := crossTick_frame x1
    obtain ⟨b3, b4, _⟩ := crossTick_frame x2
    exact ⟨h1'.cross x1 x2, by rw [b1, b3, hX], by rw [b2, b4, hY], hacc⟩
  · rw [hk] at m1; exact absurd m1 m2
  · rw [e3, c2] at c1; cases c1
  · rw [hk] at m1; exact absurd m2 m1
  · rw [x1, x2]; exact ⟨h1', hX, hY, hacc⟩
  · rw [e3, c2] at c1; cases c1
  · rw [e3, c2] at c1; cases c1
  · rw [e3, c2] at c1; cases c1
  · rw [x1, x2]; exact ⟨h1', hX, hY, hacc⟩

theorem Alike.stepY {p q p' q' : Pool} (h : Alike p q) (hx : p.x.toRat = q.x.toRat) (hy : p.y.toRat = q.y.toRat)
    {a b a' b' : SwapAcc} (ha : AlikeAcc a b) {g : Nat} {fl fl' : FloatEnv} {dy o o' : Decimal}
    (hp : Pool.stepY fl dy o p a g = .ok (p', a')) (hq : Pool.stepY fl' dy o' q b g = .ok (q', b')) :
    Alike p' q' ∧ p'.x.toRat = q'.x.toRat ∧ p'.y.toRat = q'.y.toRat ∧ AlikeAcc a' b' := by
  obtain ⟨rem, r, ysum, newY, c1, chk, rs, newX, xFee, yAdj, fees, p1, h1, h2, h3, h4, _, _, _, _, h9, h10,
    h11, h12, h13, h14, h15, h16, h17, _, h19, hp1, h21⟩ := stepY_ok hp
  obtain ⟨rem', r', ysum', newY', c1', chk', rs', newX', xFee', yAdj', fees', q1, g1, g2, g3, g4, _, _, _, _, g9, g10,
    g11, g12, g13, g14, g15, g16, g17, _, g19, hq1, g21⟩ := stepY_ok hq
  rw [ha.recv] at h1
  cases ok_unique h1 g1
  obtain ⟨cp, s1, _, k1, k2, k3, k4, _, _, _, _⟩ := swapWithinY_ok h2
  obtain ⟨cp', s1', _, l1, l2, l3, l4, _, _, _, _⟩ := swapWithinY_ok g2
  rw [ha.currRp, h.liq, h.fillY] at k1
  have e := ok_unique k1 l1
  simp only [Prod.mk.injEq] at e
  obtain ⟨e1, e2, e3, e4, e5⟩ := e
  rw [ha.currRp, h.liq, e5] at k2
  cases ok_unique k2 l2
  have hnet : r.send.toRat - r.sendHmmAdj.toRat = r'.send.toRat - r'.sendHmmAdj.toRat := by
    rw [sub_toRat k4, sub_toRat l4]; ring
  rw [ha.recv, e1] at h9
  cases ok_unique h9 g9
  rw [e2] at h10 h13 h17
  rw [ha.fee] at h13
  rw [h.yFee] at h17
  have efee := ok_unique h17 g17
  have hacc : AlikeAcc a' b' := by
    refine ⟨ok_unique h10 g10, ok_unique h13 g13, by rw [h14, g14, e4], by rw [h15, g15, e5], ?_⟩
    have := ha.net
    rw [add_toRat h11, add_toRat h12, add_toRat g11, add_toRat g12]
    linarith
  have hff : fees.fx = fees'.fx ∧ fees.fy = fees'.fy := by
    rcases h19 with ⟨u0, u1, _, ⟨w, u3, u4⟩, _⟩ | ⟨u0, u1⟩ <;>
      rcases g19 with ⟨v0, v1, _, ⟨w', v3, v4⟩, _⟩ | ⟨v0, v1⟩
    · rw [e2, h.liq] at u3
      cases ok_unique u3 v3
      rw [h.fy] at u4
      exact ⟨by rw [u1, v1, h.fx], ok_unique u4 v4⟩
    · rw [h.liq, v0] at u0; cases u0
    · rw [h.liq, v0] at u0; cases u0
    · rw [u1, v1]; exact ⟨h.fx, h.fy⟩
  have h1' : Alike p1 q1 := by
    rw [hp1, hq1]
    exact ⟨h.spacing, h.liq, e5, e4, hff.1, hff.2, h.ticks, h.positions, h.xFee, efee, h.feeRate⟩
  have hY : p1.y.toRat = q1.y.toRat := by
    rw [hp1, hq1]; simp only [add_toRat h16, add_toRat g16, e1, hy]
  have hX : p1.x.toRat = q1.x.toRat := by
    rw [hp1, hq1]; simp only [sub_toRat h4, sub_toRat g4, add_toRat h3, add_toRat g3]; linarith
  have hk := h.keys
  rcases h21 with ⟨c1, _, m1, x1⟩ | ⟨c1, _, m1, x1⟩ | ⟨c1, x1⟩ <;>
    rcases g21 with ⟨c2, _, m2, x2⟩ | ⟨c2, _, m2, x2⟩ | ⟨c2, x2⟩
  · obtain ⟨b1, b2, _⟩ := crossTick_frame x1
    obtain ⟨b3, b4, _⟩ := crossTick_frame x2
    exact ⟨h1'.cross x1 x2, by rw [b1, b3, hX], by rw [b2, b4, hY], hacc⟩
  · rw [hk] at m1; exact absurd m1 m2
  · rw [e3, c2] at c1; cases c1
  · rw [hk] at m1; exact absurd m2 m1
  · rw [x1, x2]; exact ⟨h1', hX, hY, hacc⟩
  · rw [e3, c2] at c1; cases c1
  · rw [e3, c2] at c1; cases c1
  · rw [e3, c2] at c1; cases c1
  · rw [x1, x2]; exact ⟨h1', hX, hY, hacc⟩

/-- What two alike swaps report in common. -/
structure AlikeOut (r s : SwapOutput) : Prop where
  recv : r.recv = s.recv
  fee : r.recvFee = s.recvFee
  endPrice : r.endPrice = s.endPrice
  net : r.send.toRat - r.sendHmmAdj.toRat = s.send.toRat - s.sendHmmAdj.toRat

theorem Alike.loopX {fl fl' : FloatEnv} {dx o o' : Decimal} : ∀ {n : Nat} {p q p' q' : Pool} {a b : SwapAcc}
    {r s : SwapOutput}, Alike p q → p.x.toRat = q.x.toRat → p.y.toRat = q.y.toRat → AlikeAcc a b →
    Pool.loopX fl dx o n p a = .ok (p', r) → Pool.loopX fl' dx o' n q b = .ok (q', s) →
    Alike p' q' ∧ p'.x.toRat = q'.x.toRat ∧ p'.y.toRat = q'.y.toRat ∧ AlikeOut r s := by
  have fin : ∀ {p q p' q' : Pool} {a b : SwapAcc} {r s : SwapOutput}, Alike p q → p.x.toRat = q.x.toRat →
      p.y.toRat = q.y.toRat → AlikeAcc a b → finishX p a = .ok (p', r) → finishX q b = .ok (q', s) →
      Alike p' q' ∧ p'.x.toRat = q'.x.toRat ∧ p'.y.toRat = q'.y.toRat ∧ AlikeOut r s := by
    intro p q p' q' a b r s h hx hy ha hp hq
    obtain ⟨rfl, e1, e2, e3, e4, _, _, _, e5, _⟩ := finishX_ok hp
    obtain ⟨rfl, f1, f2, f3, f4, _, _, _, f5, _⟩ := finishX_ok hq
    rw [h.rp] at e5
    exact ⟨h, hx, hy, by rw [e1, f1, ha.recv], by rw [e4, f4, ha.fee], ok_unique e5 f5,
      by rw [e2, e3, f2, f3, ha.net]⟩
  intro n
  induction n with
  | zero => intro p q p' q' a b r s _ _ _ _ hp; cases hp
  | succ n ih =>
    intro p q p' q' a b r s h hx hy ha hp hq
    rw [loopX_succ, bind_ok] at hp hq
    obtain ⟨t1, b1, hp⟩ := hp; obtain ⟨t2, b2, hq⟩ := hq
    rw [ha.recv] at b1
    cases ok_unique b1 b2
    cases t1
    · exact fin h hx hy ha hp hq
    · simp only [if_true] at hp hq
      rw [bind_ok] at hp hq
      obtain ⟨⟨p1, g1, a1⟩, k1, hp⟩ := hp
      obtain ⟨⟨q1, g2, b1⟩, k2, hq⟩ := hq
      obtain ⟨h1, rfl, ha1, s1, s2⟩ := h.goalX ha k1 k2
      have hx1 : p1.x.toRat = q1.x.toRat := by rw [s1.x, s2.x, hx]
      have hy1 : p1.y.toRat = q1.y.toRat := by rw [s1.y, s2.y, hy]
      cases g1 with
      | none => exact fin h1 hx1 hy1 ha1 hp hq
      | some g =>
        unfold afterGoalX at hp hq
        simp only at hp hq
        rw [bind_ok] at hp hq
        obtain ⟨⟨p2, a2⟩, m1, hp⟩ := hp
        obtain ⟨⟨q2, b2⟩, m2, hq⟩ := hq
        obtain ⟨h2, hx2, hy2, ha2⟩ := h1.stepX hx1 hy1 ha1 m1 m2
        exact ih h2 hx2 hy2 ha2 hp hq

theorem Alike.loopY {fl fl' : FloatEnv} {dx o o' : Decimal} : ∀ {n : Nat} {p q p' q' : Pool} {a b : SwapAcc}
    {r s : SwapOutput}, Alike p q → p.x.toRat = q.x.toRat → p.y.toRat = q.y.toRat → AlikeAcc a b →
    Pool.loopY fl dx o n p a = .ok (p', r) → Pool.loopY fl' dx o' n q b = .ok (q', s) →
    Alike p' q' ∧ p'.x.toRat = q'.x.toRat ∧ p'.y.toRat = q'.y.toRat ∧ AlikeOut r s := by
  have fin : ∀ {p q p' q' : Pool} {a b : SwapAcc} {r s : SwapOutput}, Alike p q → p.x.toRat = q.x.toRat →
      p.y.toRat = q.y.toRat → AlikeAcc a b → finishY p a = .ok (p', r) → finishY q b = .ok (q', s) →
      Alike p' q' ∧ p'.x.toRat = q'.x.toRat ∧ p'.y.toRat = q'.y.toRat ∧ AlikeOut r s := by
    intro p q p' q' a b r s h hx hy ha hp hq
    obtain ⟨rfl, e1, e2, e3, e4, _, _, _, e5, _⟩ := finishY_ok hp
    obtain ⟨rfl, f1, f2, f3, f4, _, _, _, f5, _⟩ := finishY_ok hq
    rw [h.rp] at e5
    exact ⟨h, hx, hy, by rw [e1, f1, ha.recv], by rw [e4, f4, ha.fee], ok_unique e5 f5,
      by rw [e2, e3, f2, f3, ha.net]⟩
  intro n
  induction n with
  | zero => intro p q p' q' a b r s _ _ _ _ hp; cases hp
  | succ n ih =>
    intro p q p' q' a b r s h hx hy ha hp hq
    rw [loopY_succ, bind_ok] at hp hq
    obtain ⟨t1, b1, hp⟩ := hp; obtain ⟨t2, b2, hq⟩ := hq
    rw [ha.recv] at b1
    cases ok_unique b1 b2
    cases t1
    · exact fin h hx hy ha hp hq
    · simp only [if_true] at hp hq
      rw [bind_ok] at hp hq
      obtain ⟨⟨p1, g1, a1⟩, k1, hp⟩ := hp
      obtain ⟨⟨q1, g2, b1⟩, k2, hq⟩ := hq
      obtain ⟨h1, rfl, ha1, s1, s2⟩ := h.goalY ha k1 k2
      have hx1 : p1.x.toRat = q1.x.toRat := by rw [s1.x, s2.x, hx]
      have hy1 : p1.y.toRat = q1.y.toRat := by rw [s1.y, s2.y, hy]
      cases g1 with
      | none => exact fin h1 hx1 hy1 ha1 hp hq
      | some g =>
        unfold afterGoalY at hp hq
        simp only at hp hq
        rw [bind_ok] at hp hq
        obtain ⟨⟨p2, a2⟩, m1, hp⟩ := hp
        obtain ⟨⟨q2, b2⟩, m2, hq⟩ := hq
        obtain ⟨h2, hx2, hy2, ha2⟩ := h1.stepY hx1 hy1 ha1 m1 m2
        exact ih h2 hx2 hy2 ha2 hp hq

theorem Alike.acc0 {p q : Pool} (h : Alike p q) : AlikeAcc p.acc0 q.acc0 :=
  ⟨rfl, rfl, h.tick, h.rp, rfl⟩

theorem Alike.fuel {p q : Pool} (h : Alike p q) : p.swapFuel = q.swapFuel := by
  have := congrArg List.length h.keys
  simp only [List.length_map] at this
  simp [swapFuel, this]

theorem SameMarket.sellX {p q p' q' : Pool} (h : SameMarket p q) {fl fl' : FloatEnv} {dx o o' : Decimal}
    {r s : SwapOutput} (hp : p.executeSwapFromX fl dx o = .ok (p', r))
    (hq : q.executeSwapFromX fl' dx o' = .ok (q', s)) : SameMarket p' q' ∧ AlikeOut r s := by
  have ha := alike_iff.1 h.plain
  unfold executeSwapFromX at hp hq
  rw [ite_ok] at hp hq
  rcases hp with ⟨_, hp⟩ | ⟨_, hp⟩; · simp [rpanic] at hp
  rcases hq with ⟨_, hq⟩ | ⟨_, hq⟩; · simp [rpanic] at hq
  rw [ha.fuel] at hp
  obtain ⟨h1, h2, h3, h4⟩ := ha.loopX h.x h.y ha.acc0 hp hq
  exact ⟨⟨alike_iff.2 h1, h2, h3⟩, h4⟩

theorem SameMarket.sellY {p q p' q' : Pool} (h : SameMarket p q) {fl fl' : FloatEnv} {dy o o' : Decimal}
    {r s : SwapOutput} (hp : p.executeSwapFromY fl dy o = .ok (p', r))
    (hq : q.executeSwapFromY fl' dy o' = .ok (q', s)) : SameMarket p' q' ∧ AlikeOut r s := by
  have ha := alike_iff.1 h.plain
  unfold executeSwapFromY at hp hq
  rw [ite_ok] at hp hq
  rcases hp with ⟨_, hp⟩ | ⟨_, hp⟩; · simp [rpanic] at hp
  rcases hq with ⟨_, hq⟩ | ⟨_, hq⟩; · simp [rpanic] at hq
  rw [ha.fuel] at hp
  obtain ⟨h1, h2, h3, h4⟩ := ha.loopY h.x h.y ha.acc0 hp hq
  exact ⟨⟨alike_iff.2 h1, h2, h3⟩, h4⟩

/-! ### Deposits and withdrawals -/

theorem Alike.tickOrNew {p q : Pool} (h : Alike p q) (t : Nat) : (p.tickOrNew t).plain = (q.tickOrNew t).plain := by
  have h1 := mapGet_vals TickState.plain t p.ticks
  have h2 := mapGet_vals TickState.plain t q.ticks
  rw [h.ticks, h2] at h1
  unfold Pool.tickOrNew
  rw [h.tick]
  cases ha : mapGet t p.ticks <;> cases hb : mapGet t q.ticks <;> rw [ha, hb] at h1
  · simp only [Option.getD_none]
    split <;> simp [TickState.plain, Fees.plain, h.fx, h.fy]
  · cases h1
  · cases h1
  · simpa using h1.symm

theorem Alike.ticksWith {p q : Pool} (h : Alike p q) (t : Nat) :
    mapVals TickState.plain (p.ticksWith t) = mapVals TickState.plain (q.ticksWith t) := by
  have h1 := mapGet_vals TickState.plain t p.ticks
  have h2 := mapGet_vals TickState.plain t q.ticks
  rw [h.ticks, h2] at h1
  have e := h.tickOrNew t
  unfold Pool.ticksWith
  cases ha : mapGet t p.ticks <;> cases hb : mapGet t q.ticks <;> rw [ha, hb] at h1
  · simp only [treeInsert_vals, h.ticks, e]
  · cases h1
  · cases h1
  · exact h.ticks

theorem Alike.updateTick {p q p' q' : Pool} (h : Alike p q) {t : Nat} {d : Decimal} {u : Bool}
    (hp : p.updateTick t d u = .ok p') (hq : q.updateTick t d u = .ok q') : Alike p' q' := by
  obtain ⟨n, g, a1, a2, _, _, rfl⟩ := updateTick_ok hp
  obtain ⟨n', g', b1, b2, _, _, rfl⟩ := updateTick_ok hq
  obtain ⟨e1, e2, e3, e4⟩ := plain_parts (h.tickOrNew t)
  rw [e1] at a1; rw [e2] at a2
  cases ok_unique a1 b1
  cases ok_unique a2 b2
  refine ⟨h.spacing, h.liq, h.rp, h.tick, h.fx, h.fy, ?_, h.positions, h.xFee, h.yFee, h.feeRate⟩
  simp only
  split
  · rw [mapErase_vals, mapErase_vals, h.ticksWith]
  · rw [mapSet_vals, mapSet_vals, h.ticksWith]
    congr 1
    simp only [TickState.plain, Fees.plain, e3, e4]

theorem Alike.feeBelowAbove {p q : Pool} (h : Alike p q) {sel : Fees → Decimal}
    (hs : ∀ f, sel f.plain = sel f) (hg : sel p.gs.fees = sel q.gs.fees) (t : Nat) :
    p.feeBelowAbove sel t = q.feeBelowAbove sel t := by
  have h1 := mapGet_vals TickState.plain t p.ticks
  have h2 := mapGet_vals TickState.plain t q.ticks
  rw [h.ticks, h2] at h1
  unfold Pool.feeBelowAbove
  rw [hg, h.tick]
  cases ha : mapGet t p.ticks <;> cases hb : mapGet t q.ticks <;> rw [ha, hb] at h1
  · cases h1
  · cases h1
  · rename_i a b
    simp only [Option.map_some, Option.some.injEq] at h1
    have : sel a.fees = sel b.fees := by
      rw [← hs a.fees, ← hs b.fees]
      exact congrArg (fun s : TickState => sel s.fees) h1.symm
    simp only [this]

theorem Alike.feeRng {p q : Pool} (h : Alike p q) {sel : Fees → Decimal}
    (hs : ∀ f, sel f.plain = sel f) (hg : sel p.gs.fees = sel q.gs.fees) (l u : Nat) :
    p.feeRng sel l u = q.feeRng sel l u := by
  unfold Pool.feeRng
  rw [h.feeBelowAbove hs hg, h.feeBelowAbove hs hg]

theorem setPositionMap_alike {ps qs ps' qs' : List (PositionKey × PositionState)} {key : PositionKey}
    {d b b' : Decimal} {nf nf' old old' : Fees}
    (h : mapVals PositionState.plain ps = mapVals PositionState.plain qs) (hn : nf.plain = nf'.plain)
    (hp : setPositionMap ps key d nf = .ok (ps', old, b)) (hq : setPositionMap qs key d nf' = .ok (qs', old', b')) :
    mapVals PositionState.plain ps' = mapVals PositionState.plain qs' ∧ old.plain = old'.plain ∧ b = b' := by
  have h1 := mapGet_vals PositionState.plain key ps
  have h2 := mapGet_vals PositionState.plain key qs
  rw [h, h2] at h1
  rcases setPositionMap_ok hp with ⟨a1, _, rfl, rfl, rfl⟩ | ⟨poz, n, a1, _, rfl, rfl, a2, _, a3⟩ <;>
    rcases setPositionMap_ok hq with ⟨c1, _, rfl, rfl, rfl⟩ | ⟨poz', n', c1, _, rfl, rfl, c2, _, c3⟩ <;>
    rw [a1, c1] at h1
  · exact ⟨by rw [mapSet_vals, mapSet_vals, h], rfl, rfl⟩
  · cases h1
  · cases h1
  · simp only [Option.map_some, Option.some.injEq, PositionState.plain, PositionState.mk.injEq] at h1
    obtain ⟨e1, e2⟩ := h1
    rw [← e1] at a2
    cases ok_unique a2 c2
    refine ⟨?_, e2.symm, e1.symm⟩
    rcases a3 with ⟨z, rfl⟩ | ⟨z, rfl⟩ <;> rcases c3 with ⟨z', rfl⟩ | ⟨z', rfl⟩
    · rw [mapErase_vals, mapErase_vals, h]
    · rw [z] at z'; cases z'
    · rw [z] at z'; cases z'
    · rw [mapSet_vals, mapSet_vals, h]
      congr 1
      simp only [PositionState.plain, hn]

theorem Alike.setPosition {p q p' q' : Pool} (h : Alike p q) {user lower upper : Nat} {d : Decimal} {f f' : Fees}
    (hp : p.setPosition user lower upper d = .ok (p', f)) (hq : q.setPosition user lower upper d = .ok (q', f')) :
    Alike p' q' ∧ f.plain = f'.plain := by
  obtain ⟨nf, ps', old, base, fu, p1, p2, a1, a2, _, _, a5, a6, a7, _, _, _, a11, a12, a13, a14, a15, _⟩ :=
    setPosition_ok hp
  obtain ⟨nf', qs', old', base', fu', q1, q2, b1, b2, _, _, b5, b6, b7, _, _, _, b11, b12, b13, b14, b15, _⟩ :=
    setPosition_ok hq
  rw [h.feeRng (fun _ => rfl) h.fx] at a1
  rw [h.feeRng (fun _ => rfl) h.fy] at a2
  have e1 := ok_unique a1 b1
  have e2 := ok_unique a2 b2
  obtain ⟨k1, k2, rfl⟩ := setPositionMap_alike h.positions
    (by simp only [Fees.plain, e1, e2]) a5 b5
  simp only [Fees.plain, Fees.mk.injEq, and_true] at k2
  rw [e1, k2.1] at a6
  rw [e2, k2.2] at a7
  rw [ok_unique a6 b6] at a14
  rw [ok_unique a7 b7] at a15
  have h0 : Alike { p with positions := ps' } { q with positions := qs' } :=
    ⟨h.spacing, h.liq, h.rp, h.tick, h.fx, h.fy, h.ticks, k1, h.xFee, h.yFee, h.feeRate⟩
  have h2 := (h0.updateTick a11 b11).updateTick a12 b12
  refine ⟨?_, by simp only [Fees.plain, ok_unique a14 b14, ok_unique a15 b15]⟩
  rw [h2.tick] at a13
  split at a13 <;> rename_i hc
  · rw [if_pos hc] at b13
    obtain ⟨n, c1, _, rfl⟩ := addGlblLiq_ok.1 a13
    obtain ⟨n', c2, _, rfl⟩ := addGlblLiq_ok.1 b13
    rw [h2.liq] at c1
    exact ⟨h2.spacing, ok_unique c1 c2, h2.rp, h2.tick, h2.fx, h2.fy, h2.ticks, h2.positions, h2.xFee, h2.yFee,
      h2.feeRate⟩
  · rw [if_neg hc] at b13
    cases a13; cases b13; exact h2

theorem Alike.payFees {p q p' q' : Pool} (h : Alike p q) {f f' : Fees} (hf : f.plain = f'.plain)
    (hp : p.payFees f = .ok p') (hq : q.payFees f' = .ok q') : Alike p' q' := by
  simp only [Fees.plain, Fees.mk.injEq, and_true] at hf
  obtain ⟨xf, xa, yf, ya, _, _, _, _, a1, _, a3, _, rfl⟩ := payFees_ok hp
  obtain ⟨xf', xa', yf', ya', _, _, _, _, b1, _, b3, _, rfl⟩ := payFees_ok hq
  rw [h.xFee, hf.1] at a1
  rw [h.yFee, hf.2] at a3
  exact ⟨h.spacing, h.liq, h.rp, h.tick, h.fx, h.fy, h.ticks, h.positions, ok_unique a1 b1, ok_unique a3 b3, h.feeRate⟩

theorem SameMarket.deposit {p q p' q' : Pool} (h : SameMarket p q) {user : Nat} {x y rpa rpb : Decimal}
    {r s : Receipt} (hp : p.deposit user x y rpa rpb = .ok (p', r)) (hq : q.deposit user x y rpa rpb = .ok (q', s)) :
    SameMarket p' q' ∧ r.x = s.x ∧ r.y = s.y ∧ r.fees.plain = s.fees.plain := by
  have ha := alike_iff.1 h.plain
  obtain ⟨lower, upper, a, b, liq, p1, p2, px, py, _, _, _, _, h1, h2, _, h4, h5, h6, _, h8, _, h9, _, h10, _, _, h11,
    h12, h13, rfl⟩ := deposit_ok hp
  obtain ⟨lower', upper', a', b', liq', q1, q2, qx, qy, _, _, _, _, g1, g2, _, g4, g5, g6, _, g8, _, g9, _, g10, _, _,
    g11, g12, g13, rfl⟩ := deposit_ok hq
  unfold rpToPossibleTick at h1 h2 g1 g2
  rw [ha.spacing] at h1 h2
  cases ok_unique h1 g1
  cases ok_unique h2 g2
  cases ok_unique h4 g4
  cases ok_unique h5 g5
  rw [ha.rp] at h6 h8 h9
  cases ok_unique h6 g6
  have ex := ok_unique h8 g8
  have ey := ok_unique h9 g9
  obtain ⟨k1, k2⟩ := ha.setPosition h10 g10
  have k3 := k1.payFees k2 h13 g13
  have f1 := setPosition_frame h10
  have f2 := setPosition_frame g10
  refine ⟨⟨alike_iff.2 ⟨k3.spacing, k3.liq, k3.rp, k3.tick, k3.fx, k3.fy, k3.ticks, k3.positions, k3.xFee, k3.yFee,
    k3.feeRate⟩, ?_, ?_⟩, ex, ey, k2⟩
  · simp only [add_toRat h11, add_toRat g11, ex]; rw [f1, f2]; simp only [h.x]
  · simp only [add_toRat h12, add_toRat g12, ey]; rw [f1, f2]; simp only [h.y]

theorem SameMarket.withdraw {p q p' q' : Pool} (h : SameMarket p q) {user : Nat} {liq rpa rpb : Decimal}
    {r s : Receipt} (hp : p.withdraw user liq rpa rpb = .ok (p', r)) (hq : q.withdraw user liq rpa rpb = .ok (q', s)) :
    SameMarket p' q' ∧ r.x = s.x ∧ r.y = s.y ∧ r.fees.plain = s.fees.plain := by
  have ha := alike_iff.1 h.plain
  obtain ⟨lower, upper, a, b, p1, p2, x0, y0, adj, px, py, _, h1, h2, _, h4, h5, h6, h7, h8, h9, h10, h11, _, _, _, _,
    h12, h13, h14, rfl⟩ := withdraw_ok hp
  obtain ⟨lower', upper', a', b', q1, q2, x0', y0', adj', qx, qy, _, g1, g2, _, g4, g5, g6, g7, g8, g9, g10, g11, _, _,
    _, _, g12, g13, g14, rfl⟩ := withdraw_ok hq
  unfold rpToPossibleTick at h1 h2 g1 g2
  rw [ha.spacing] at h1 h2
  cases ok_unique h1 g1
  cases ok_unique h2 g2
  cases ok_unique h4 g4
  cases ok_unique h5 g5
  obtain ⟨k1, k2⟩ := ha.setPosition h6 g6
  rw [k1.rp] at h7 h8
  cases ok_unique h7 g7
  cases ok_unique h8 g8
  cases ok_unique h9 g9
  have ex := ok_unique h10 g10
  have ey := ok_unique h11 g11
  have k3 := k1.payFees k2 h14 g14
  have f1 := setPosition_frame h6
  have f2 := setPosition_frame g6
  refine ⟨⟨alike_iff.2 ⟨k3.spacing, k3.liq, k3.rp, k3.tick, k3.fx, k3.fy, k3.ticks, k3.positions, k3.xFee, k3.yFee,
    k3.feeRate⟩, ?_, ?_⟩, ex, ey, k2⟩
  · simp only [sub_toRat h12, sub_toRat g12, ex]; rw [f1, f2]; simp only [h.x]
  · simp only [sub_toRat h13, sub_toRat g13, ey]; rw [f1, f2]; simp only [h.y]

theorem SameMarket.new {p q : Pool} {rp : Decimal} {spacing : Nat} {c c' fee : Decimal}
    (hp : Pool.new rp spacing c fee = .ok p) (hq : Pool.new rp spacing c' fee = .ok q) : SameMarket p q := by
  obtain ⟨t, k, _, _, _, h1, h2, rfl⟩ := new_ok hp
  obtain ⟨t', k', _, _, _, g1, g2, rfl⟩ := new_ok hq
  cases ok_unique h1 g1
  cases ok_unique h2 g2
  exact ⟨rfl, rfl, rfl⟩

theorem SameMarket.twins {p q : Pool} (h : Twins p q) : SameMarket p q := by
  induction h with
  | new hp hq => exact .new hp hq
  | deposit _ hp hq ih => exact (ih.deposit hp hq).1
  | withdraw _ hp hq ih => exact (ih.withdraw hp hq).1
  | sellX _ hp hq ih => exact (ih.sellX hp hq).1
  | sellY _ hp hq ih => exact (ih.sellY hp hq).1

end Pool

end Hmm
