import Verif.Proofs.Active
import Verif.Props.Swap
import Verif.Spec.Earned

/-
What the owner of a position can claim in fees.
-/

namespace Hmm.Pool

open Decimal PoolMath

theorem est_congr {p p' : Pool} {t : Nat} (h1 : mapGet t p'.ticks = mapGet t p.ticks) (h2 : p'.gs.tick = p.gs.tick)
    (h3 : p'.gs.fees = p.gs.fees) (k : Kind) : p'.est k t = p.est k t := by
  have hm : t ∈ p'.ticks.map (·.1) ↔ t ∈ p.ticks.map (·.1) := by rw [← mapGet_isSome, ← mapGet_isSome, h1]
  unfold est below
  rw [recorded_congr h1, growth_congr h3, h2]
  simp only [hm]

theorem updateTick_est {p p' : Pool} {t s : Nat} {d : Decimal} {u : Bool} (h : p.updateTick t d u = .ok p') (k : Kind)
    (hs : s ≠ t ∨ s ∈ p'.ticks.map (·.1)) : p'.est k s = p.est k s := by
  obtain ⟨h1, n, g, _, _, h2⟩ := updateTick_get h
  have hf := updateTick_frame h
  have hgs : p'.gs = p.gs := by rw [hf]
  by_cases hst : s = t
  · subst hst
    have hin : s ∈ p'.ticks.map (·.1) := hs.resolve_left (by simp)
    rcases h2 with ⟨_, h2⟩ | ⟨_, h2⟩
    · exact absurd hin (mapGet_none.1 h2)
    unfold est
    rw [if_pos hin]
    unfold below
    rw [growth_congr (by rw [hgs] : p'.gs.fees = p.gs.fees), hgs]
    unfold recorded
    rw [h2]
    simp only [Option.elim, tickOrNew]
    cases hm : mapGet s p.ticks with
    | none =>
      simp only [Option.getD_none]
      rw [if_neg (mapGet_none.1 hm)]
      split
      · rfl
      · rw [zero_at]; ring
    | some ts =>
      rw [if_pos (mapGet_isSome.1 (by rw [hm]; rfl))]
      rfl
  · exact est_congr (h1 s hst) (by rw [hgs]) (by rw [hgs]) k

theorem setPosition_gs {p p' : Pool} {user lower upper : Nat} {d : Decimal} {f : Fees}
    (h : p.setPosition user lower upper d = .ok (p', f)) :
    p'.gs.tick = p.gs.tick ∧ p'.gs.fees = p.gs.fees ∧ p'.gs.rp = p.gs.rp := by
  have hf := setPosition_frame h
  exact ⟨by rw [hf], by rw [hf], by rw [hf]⟩

theorem setPosition_est {p p' : Pool} {user lower upper s : Nat} {d : Decimal} {f : Fees} (hlu : lower < upper)
    (h : p.setPosition user lower upper d = .ok (p', f)) (k : Kind) (hs : s ∈ p'.ticks.map (·.1)) :
    p'.est k s = p.est k s := by
  obtain ⟨nf, ps', old, base, fu, p1, p2, _, _, _, _, h0, _, _, _, _, _, h1, h2, h3, _⟩ := setPosition_ok h
  have e : p'.ticks = p2.ticks ∧ p'.gs.tick = p2.gs.tick ∧ p'.gs.fees = p2.gs.fees := by
    rw [ite_ok] at h3
    rcases h3 with ⟨_, h3⟩ | ⟨_, h3⟩
    · obtain ⟨n, _, _, rfl⟩ := addGlblLiq_ok.1 h3
      exact ⟨rfl, rfl, rfl⟩
    · cases h3; exact ⟨rfl, rfl, rfl⟩
  rw [est_congr (p := p2) (by rw [e.1]) e.2.1 e.2.2 k]
  rw [e.1] at hs
  rw [updateTick_est h2 k (.inr hs)]
  have hs1 : s ≠ lower ∨ s ∈ p1.ticks.map (·.1) := by
    by_cases hsl : s = lower
    · right
      obtain ⟨g1, _⟩ := updateTick_get h2
      rw [← mapGet_isSome, g1 s (by omega), mapGet_isSome] at hs
      exact hs
    · exact .inl hsl
  rw [updateTick_est h1 k hs1]
  rfl

theorem mul_le {a b c : Decimal} (h : a.mul b = .ok c) (ha : 0 ≤ a.toRat) (hb : 0 ≤ b.toRat) :
    c.toRat ≤ a.toRat * b.toRat := by
  have h1 := mul_mag_le h
  rw [← abs_toRat, ← abs_toRat, ← abs_toRat, abs_of_nonneg ha, abs_of_nonneg hb] at h1
  exact (le_abs_self _).trans h1

/-- What a change of position pays, and what it notes. -/
theorem setPosition_claim {p p' : Pool} {user lower upper : Nat} {d : Decimal} {f : Fees}
    (h : p.setPosition user lower upper d = .ok (p', f)) (k : Kind) :
    0 ≤ (f.at k).toRat ∧
    (f.at k).toRat ≤ liqOf p.positions ⟨user, lower, upper⟩ *
      (p.est k upper - p.est k lower - noted p.positions ⟨user, lower, upper⟩ k) ∧
    0 ≤ p.est k upper - p.est k lower ∧
    (mapGet ⟨user, lower, upper⟩ p.positions = none → noted p'.positions ⟨user, lower, upper⟩ k = 0) ∧
    (mapGet ⟨user, lower, upper⟩ p.positions ≠ none → 0 < liqOf p'.positions ⟨user, lower, upper⟩ →
      noted p'.positions ⟨user, lower, upper⟩ k = p.est k upper - p.est k lower) := by
  obtain ⟨nf, ps', old, base, fu, p1, p2, n1, n2, n3, n4, h0, s1, s2, s3, s4, hn, h1, h2, h3, m1, m2, m3, m4⟩ :=
    setPosition_ok h
  have hps : p'.positions = ps' := by
    have e1 := updateTick_frame h1
    have e2 := updateTick_frame h2
    rw [ite_ok] at h3
    rcases h3 with ⟨_, h3⟩ | ⟨_, h3⟩
    · obtain ⟨n, _, _, rfl⟩ := addGlblLiq_ok.1 h3
      rw [e2, e1]
    · cases h3
      rw [e2, e1]
  rw [hps]
  obtain ⟨_, _, hbase, _⟩ := setPositionMap_same h0
  have hb0 : 0 ≤ base.toRat := by
    rcases setPositionMap_ok h0 with ⟨_, _, _, _, rfl⟩ | ⟨poz, n, _, e, rfl, _⟩
    · rw [zero_toRat]
    · exact e
  have hold : noted p.positions ⟨user, lower, upper⟩ k = (old.at k).toRat := by
    unfold noted
    rcases setPositionMap_ok h0 with ⟨e, _, _, rfl, _⟩ | ⟨poz, n, e, _, _, rfl, _⟩
    · rw [e, zero_at]; rfl
    · rw [e]; rfl
  have hnf : p.feeRng (fun f => f.at k) lower upper = .ok (nf.at k) := by cases k <;> assumption
  have hsub : (nf.at k).sub (old.at k) = .ok (fu.at k) := by cases k <;> assumption
  have hmul : base.mul (fu.at k) = .ok (f.at k) := by cases k <;> assumption
  have hfu : 0 ≤ (fu.at k).toRat := by
    simp only [Fees.anyNegative, Bool.or_eq_false_iff] at hn
    obtain ⟨⟨⟨a1, a2⟩, a3⟩, a4⟩ := hn
    cases k
    · exact not_isNegative.1 a1
    · exact not_isNegative.1 a2
    · exact not_isNegative.1 a3
    · exact not_isNegative.1 a4
  obtain ⟨g1, g2⟩ := feeRng_at hnf
  have g3 : (nf.at k).toRat = p.est k upper - p.est k lower := g2
  refine ⟨nonneg_mul hmul hb0 hfu, ?_, g3 ▸ g1, ?_, ?_⟩
  · rw [hold, ← hbase, ← g3, ← sub_toRat hsub]
    exact mul_le hmul hb0 hfu
  · intro hnone
    rcases setPositionMap_ok h0 with ⟨_, _, rfl, _⟩ | ⟨poz, n, e, _⟩
    · unfold noted
      rw [mapGet_set_same]
      exact zero_at k
    · rw [e] at hnone; cases hnone
  · intro hsome hl
    rcases setPositionMap_ok h0 with ⟨e, _⟩ | ⟨poz, n, e, _, _, _, _, _, ⟨_, rfl⟩ | ⟨_, rfl⟩⟩
    · exact absurd e hsome
    · unfold liqOf at hl
      rw [mapGet_erase_same] at hl
      exact absurd hl (lt_irrefl _)
    · unfold noted
      rw [mapGet_set_same]
      exact g3

/-- A deposit or withdrawal as a change of position. -/
theorem deposit_set {p p' : Pool} {user : Nat} {x y rpa rpb : Decimal} {r : Receipt}
    (h : p.deposit user x y rpa rpb = .ok (p', r)) :
    ∃ lower upper d p1, p.rpToPossibleTick rpa false 0 = .ok lower ∧ p.rpToPossibleTick rpb false lower = .ok upper ∧
      lower < upper ∧ p.setPosition user lower upper d = .ok (p1, r.fees) ∧ p'.positions = p1.positions ∧
      p'.ticks = p1.ticks ∧ p'.gs = p1.gs := by
  obtain ⟨lower, upper, a, b, liq, p1, p2, px, py, _, _, _, _, g1, g2, g3, _, g5, _, _, _, _, _, _, h1, _, _, h2, h3,
    h4, rfl⟩ := deposit_ok h
  obtain ⟨e1, e2, e4, _⟩ := payFees_frame h4
  exact ⟨lower, upper, liq, p1, g1, g2, g3, h1, e1, e2, e4⟩

theorem withdraw_set {p p' : Pool} {user : Nat} {liq rpa rpb : Decimal} {r : Receipt}
    (h : p.withdraw user liq rpa rpb = .ok (p', r)) :
    ∃ lower upper d p1, p.rpToPossibleTick rpa false 0 = .ok lower ∧ p.rpToPossibleTick rpb false lower = .ok upper ∧
      lower < upper ∧ p.setPosition user lower upper d = .ok (p1, r.fees) ∧ p'.positions = p1.positions ∧
      p'.ticks = p1.ticks ∧ p'.gs = p1.gs := by
  obtain ⟨lower, upper, a, b, p1, p2, x0, y0, adj, px, py, _, g1, g2, g3, _, g5, h1, _, _, _, _, _, _, _, _, _, _, _,
    h5, rfl⟩ := withdraw_ok h
  obtain ⟨e1, e2, e4, _⟩ := payFees_frame h5
  exact ⟨lower, upper, liq.neg, p1, g1, g2, g3, h1, e1, e2, e4⟩

theorem deposit_spacing {p p' : Pool} {user : Nat} {x y rpa rpb : Decimal} {r : Receipt}
    (h : p.deposit user x y rpa rpb = .ok (p', r)) : p'.spacing = p.spacing := by
  obtain ⟨_, _, _, _, _, q1, q2, px, py, _, _, _, _, _, _, _, _, _, _, _, _, _, _, _, i1, _, _, _, _, i2, rfl⟩ :=
    deposit_ok h
  show q2.spacing = _
  rw [(payFees_frame i2).2.2.2.1, setPosition_frame i1]

theorem ClearReachable.reachable {p : Pool} (h : ClearReachable p) : Reachable p := by
  induction h with
  | new h => exact .new h
  | step _ hs ih =>
    cases hs with
    | deposit h => exact .step ih (.deposit h)
    | withdraw h => exact .step ih (.withdraw h)
    | sellX h _ => exact .step ih (.sellX h)
    | sellY h _ => exact .step ih (.sellY h)

/-- What stays true from the moment a position was last known, for as long as it stays open. -/
structure Since (key : PositionKey) (p q : Pool) : Prop where
  sound : Sound q
  op : 0 < liqOf q.positions key
  note : ∀ k, noted p.positions key k ≤ p.inside k key.lower key.upper →
    noted p.positions key k ≤ noted q.positions key k
  lo : ∀ k, p.inside k key.lower key.upper ≤ q.inside k key.lower key.upper
  hi : ∀ k, q.inside k key.lower key.upper - p.inside k key.lower key.upper ≤ q.growth k - p.growth k
  growth : ∀ k, p.growth k ≤ q.growth k

theorem Sound.ends {p : Pool} (hs : Sound p) {key : PositionKey} (h : 0 < liqOf p.positions key) :
    key.lower < key.upper ∧ key.lower ∈ p.ticks.map (·.1) ∧ key.upper ∈ p.ticks.map (·.1) := by
  unfold liqOf at h
  cases hm : mapGet key p.positions with
  | none => rw [hm] at h; exact absurd h (lt_irrefl _)
  | some s =>
    rw [hm] at h
    have hs' : 0 < s.liq.toRat := h
    exact ⟨(hs.booked.pos key s hm).2.1, hs.booked.initialised (mapGet_mem hm) hs'.ne'⟩

theorem Sound.inside_est {p : Pool} (hs : Sound p) {key : PositionKey} (h : 0 < liqOf p.positions key) (k : Kind) :
    p.inside k key.lower key.upper = p.est k key.upper - p.est k key.lower := by
  obtain ⟨_, h1, h2⟩ := hs.ends h
  unfold inside est
  rw [if_pos h1, if_pos h2]

theorem Since.set {key : PositionKey} {p q q1 q' : Pool} (h : Since key p q) {user lower upper : Nat} {d : Decimal} {f : Fees} (hlu : lower < upper) (hset : q.setPosition user lower upper d = .ok (q1, f))
    (e1 : q'.positions = q1.positions) (e2 : q'.ticks = q1.ticks) (e3 : q'.gs = q1.gs) (hs : Sound q')
    (ho : 0 < liqOf q'.positions key) : Since key p q' := by
  obtain ⟨_, i1, i2⟩ := hs.ends ho
  have hgs := setPosition_gs hset
  have hest : ∀ k, ∀ t ∈ q'.ticks.map (·.1), q'.est k t = q.est k t := fun k t ht => by
    rw [est_congr (p := q1) (by rw [e2]) (by rw [e3]) (by rw [e3])]
    exact setPosition_est hlu hset k (e2 ▸ ht)
  have hin : ∀ k, q'.inside k key.lower key.upper = q.inside k key.lower key.upper := fun k => by
    rw [hs.inside_est ho, h.sound.inside_est h.op, hest k _ i1, hest k _ i2]
  have hgr : ∀ k, q'.growth k = q.growth k := growth_congr (by rw [e3]; exact hgs.2.1)
  refine ⟨hs, ho, fun k hn => ?_, fun k => hin k ▸ h.lo k, fun k => by rw [hin, hgr]; exact h.hi k,
    fun k => hgr k ▸ h.growth k⟩
  by_cases hk : key = ⟨user, lower, upper⟩
  · subst hk
    obtain ⟨_, _, _, _, h5⟩ := setPosition_claim hset k
    rw [e1, h5 ?_ (e1 ▸ ho)]
    · have := h.lo k
      rw [h.sound.inside_est h.op] at this
      exact hn.trans this
    · intro hnone
      have := h.op
      unfold liqOf at this
      rw [hnone] at this
      exact absurd this (lt_irrefl _)
  · obtain ⟨_, _, _, _, q5, _⟩ := setPosition_sums h.sound.booked.unique hset
    unfold noted
    rw [e1, q5 key hk]
    exact h.note k hn

theorem Since.grow {key : PositionKey} {p q q' : Pool} (h : Since key p q) (hs : Sound q') (hg : Grows q q')
    (hp : q'.positions = q.positions) : Since key p q' := by
  obtain ⟨hlu, i1, i2⟩ := h.sound.ends h.op
  refine ⟨hs, hp ▸ h.op, fun k => hp ▸ h.note k, fun k => ?_, fun k => ?_, fun k => (h.growth k).trans (hg.growth k)⟩
  · have h1 := hg.mono k _ i1 _ i2 hlu.le
    have h2 := h.lo k
    unfold inside at *
    linarith
  · have h1 := (hg.below k _ i1).1
    have h2 := (hg.below k _ i2).2
    have h3 := h.hi k
    unfold inside at *
    linarith

theorem Since.held {key : PositionKey} {p q : Pool} (hp : Sound p) (h : Held key p q) : Since key p q := by
  induction h with
  | here h => exact ⟨hp, h, fun _ _ => le_rfl, fun _ => le_rfl, fun _ => by simp, fun _ => le_rfl⟩
  | step _ hstep ho ih =>
    cases hstep with
    | deposit h =>
      obtain ⟨l, u, d, p1, _, _, hlu, hset, e1, e2, e3⟩ := deposit_set h
      exact ih.set hlu hset e1 e2 e3 (ih.sound.deposit h) ho
    | withdraw h =>
      obtain ⟨l, u, d, p1, _, _, hlu, hset, e1, e2, e3⟩ := withdraw_set h
      exact ih.set hlu hset e1 e2 e3 (ih.sound.withdraw h) ho
    | sellX h hon =>
      obtain ⟨h1, h2⟩ := ih.sound.sellX h hon
      exact ih.grow h1 h2 (C40_swap (.inl h))
    | sellY h hon =>
      obtain ⟨h1, h2⟩ := ih.sound.sellY h hon
      exact ih.grow h1 h2 (C40_swap (.inr h))

/-- A change of an open position pays no more than its liquidity times the growth since it was last known
to be settled. -/
theorem Since.claim {user lower upper : Nat} {p q q' : Pool} (h : Since ⟨user, lower, upper⟩ p q)
    (hn : ∀ k, noted p.positions ⟨user, lower, upper⟩ k = p.inside k lower upper) {d : Decimal} {f : Fees}
    (hset : q.setPosition user lower upper d = .ok (q', f)) (k : Kind) :
    (f.at k).toRat ≤ liqOf q.positions ⟨user, lower, upper⟩ * (q.growth k - p.growth k) := by
  obtain ⟨_, h2, _⟩ := setPosition_claim hset k
  refine h2.trans (mul_le_mul_of_nonneg_left ?_ h.op.le)
  have h3 := h.note k (hn k).le
  have h4 := h.hi k
  rw [h.sound.inside_est h.op] at h4
  simp only at h4
  rw [hn k] at h3
  linarith

/-- After a change that leaves the position open, the position is settled, if it was open before, or if its
lower tick was not in use. -/
theorem settled {user lower upper : Nat} {p p1 p' : Pool} {d : Decimal} {f : Fees} (hr : Recorded p)
    (hlu : lower < upper) (hset : p.setPosition user lower upper d = .ok (p1, f)) (e1 : p'.positions = p1.positions)
    (e2 : p'.ticks = p1.ticks) (e3 : p'.gs = p1.gs) (hs : Sound p')
    (ho : 0 < liqOf p'.positions ⟨user, lower, upper⟩)
    (h : mapGet ⟨user, lower, upper⟩ p.positions ≠ none ∨ lower ∉ p.ticks.map (·.1)) (k : Kind) :
    noted p'.positions ⟨user, lower, upper⟩ k = p'.inside k lower upper := by
  obtain ⟨_, i1, i2⟩ := hs.ends ho
  have hest : ∀ k, ∀ t ∈ p'.ticks.map (·.1), p'.est k t = p.est k t := fun k t ht => by
    rw [est_congr (p := p1) (by rw [e2]) (by rw [e3]) (by rw [e3])]
    exact setPosition_est hlu hset k (e2 ▸ ht)
  have h0 := hs.inside_est ho k
  simp only at h0 i1 i2
  rw [h0, hest k _ i1, hest k _ i2, e1]
  obtain ⟨_, _, h3, h4, h5⟩ := setPosition_claim hset k
  by_cases hnone : mapGet ⟨user, lower, upper⟩ p.positions = none
  · rw [h4 hnone]
    have hl := h.resolve_left (by simp [hnone])
    have hle : p.est k upper ≤ p.growth k := by
      unfold est
      split
      · exact (hr.below k upper).2
      · exact le_rfl
    have : p.est k lower = p.growth k := by unfold est; rw [if_neg hl]
    linarith
  · exact h5 hnone (e1 ▸ ho)

/-- Right after opening a position whose lower tick was not in use, there is nothing to claim. -/
theorem nothing_yet {user lower upper : Nat} {p p1 p' p2 : Pool} {d d' : Decimal} {f f' : Fees}
    (hlu : lower < upper) (hset : p.setPosition user lower upper d = .ok (p1, f)) (e1 : p'.positions = p1.positions)
    (e2 : p'.ticks = p1.ticks) (e3 : p'.gs = p1.gs) (hr' : Recorded p')
    (hl : lower ∉ p.ticks.map (·.1)) (hnone : mapGet ⟨user, lower, upper⟩ p.positions = none)
    (h' : p'.setPosition user lower upper d' = .ok (p2, f')) (k : Kind) : (f'.at k).toRat = 0 := by
  obtain ⟨g1, g2, g3, _⟩ := setPosition_claim h' k
  obtain ⟨_, _, _, g4, _⟩ := setPosition_claim hset k
  have hn := g4 hnone
  rw [← e1] at hn
  have hgr : p'.growth k = p.growth k := growth_congr (by rw [e3]; exact (setPosition_gs hset).2.1) k
  have hle : p'.est k upper ≤ p'.growth k := by
    unfold est
    split
    · exact (hr'.below k upper).2
    · exact le_rfl
  have heq : p'.est k lower = p'.growth k := by
    by_cases hin : lower ∈ p'.ticks.map (·.1)
    · rw [est_congr (p := p1) (by rw [e2]) (by rw [e3]) (by rw [e3]), setPosition_est hlu hset k (e2 ▸ hin), hgr]
      unfold est
      rw [if_neg hl]
    · unfold est; rw [if_neg hin]
  have : p'.est k upper - p'.est k lower = 0 := by linarith
  rw [this, hn, sub_zero, mul_zero] at g2
  exact le_antisymm g2 g1

end Hmm.Pool
