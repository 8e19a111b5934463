import Verif.Proofs.History

/-
Tick records against positions.
-/

namespace Hmm

theorem get_of_mem {κ α : Type} [DecidableEq κ] {m : List (κ × α)} (hu : UniqueKeys m) {k : κ} {v : α}
    (h : (k, v) ∈ m) : mapGet k m = some v := by
  unfold UniqueKeys at hu
  induction m with
  | nil => simp at h
  | cons e m ih =>
    obtain ⟨k', v'⟩ := e
    simp only [List.map_cons, List.nodup_cons] at hu
    rcases List.mem_cons.1 h with h | h
    · cases h; simp [mapGet]
    · have : k' ≠ k := by
        rintro rfl
        exact hu.1 (List.mem_map.2 ⟨_, h, rfl⟩)
      simp [mapGet, this, ih hu.2 h]

namespace Pool

open Decimal PoolMath

theorem sumPos_eq (w : PositionKey → ℚ) (ps : List (PositionKey × PositionState)) :
    sumPos w ps = mapSum (fun k s => w k * s.liq.toRat) ps := rfl

/-- What a tick's record says, zero where there is none. -/
def grossAt (p : Pool) (t : Nat) : ℚ := (mapGet t p.ticks).elim 0 (·.liqGross.toRat)

def netAt (p : Pool) (t : Nat) : ℚ := (mapGet t p.ticks).elim 0 (·.liqNet.toRat)

/-- The books kept in ticks agree with the positions. -/
structure Booked (p : Pool) : Prop where
  unique : UniqueKeys p.positions
  asc : Ascending p.ticks
  pos : ∀ k s, mapGet k p.positions = some s → 0 ≤ s.liq.toRat ∧ k.lower < k.upper ∧
    p.spacing ∣ k.lower ∧ p.spacing ∣ k.upper
  gross : ∀ t, p.grossAt t = p.startingAt t + p.endingAt t
  net : ∀ t, p.netAt t = p.startingAt t - p.endingAt t
  init : ∀ t ts, mapGet t p.ticks = some ts → 0 < ts.liqGross.toRat

theorem sumPos_nonneg {w : PositionKey → ℚ} (hw : ∀ k, 0 ≤ w k) {ps : List (PositionKey × PositionState)}
    (hu : UniqueKeys ps) (hp : ∀ k s, mapGet k ps = some s → 0 ≤ s.liq.toRat) : 0 ≤ sumPos w ps := by
  rw [sumPos_eq]
  exact mapSum_nonneg fun k v h => mul_nonneg (hw k) (hp k v (get_of_mem hu h))

/-- Effect of one change of position on every weighted sum. -/
theorem sumPos_set {ps ps' : List (PositionKey × PositionState)} {key : PositionKey} {d base : Decimal}
    {nf old : Fees} (hu : UniqueKeys ps) (h : setPositionMap ps key d nf = .ok (ps', old, base))
    (w : PositionKey → ℚ) : sumPos w ps' = sumPos w ps + w key * d.toRat := by
  rcases setPositionMap_ok h with ⟨h1, _, rfl, _⟩ | ⟨poz, n, h1, _, _, _, h2, _, ⟨h3, rfl⟩ | ⟨_, rfl⟩⟩
  · rw [sumPos_eq, mapSum_set, h1, sumPos_eq]; simp
  · rw [sumPos_eq, mapSum_erase _ _ hu, h1, sumPos_eq]
    rw [isZero_toRat, add_toRat h2] at h3
    have : d.toRat = -poz.liq.toRat := by linarith
    simp [this]; ring
  · rw [sumPos_eq, mapSum_set, h1, sumPos_eq]
    simp [add_toRat h2]; ring

theorem setPositionMap_unique {ps ps' : List (PositionKey × PositionState)} {key : PositionKey} {d base : Decimal}
    {nf old : Fees} (hu : UniqueKeys ps) (h : setPositionMap ps key d nf = .ok (ps', old, base)) :
    UniqueKeys ps' := by
  rcases setPositionMap_ok h with ⟨_, _, rfl, _⟩ | ⟨poz, n, _, _, _, _, _, _, ⟨_, rfl⟩ | ⟨_, rfl⟩⟩
  · exact hu.set _ _
  · exact hu.erase _
  · exact hu.set _ _

/-- The record of a key after a change: untouched for other keys. -/
theorem setPositionMap_other {ps ps' : List (PositionKey × PositionState)} {key k : PositionKey} {d base : Decimal}
    {nf old : Fees} (h : setPositionMap ps key d nf = .ok (ps', old, base)) (hk : k ≠ key) :
    mapGet k ps' = mapGet k ps := by
  rcases setPositionMap_ok h with ⟨_, _, rfl, _⟩ | ⟨poz, n, _, _, _, _, _, _, ⟨_, rfl⟩ | ⟨_, rfl⟩⟩
  · exact mapGet_set_other hk _ _
  · exact mapGet_erase_other hk _
  · exact mapGet_set_other hk _ _

/-- The key's own liquidity: grows by exactly the change, and ends up non-negative. -/
theorem setPositionMap_same {ps ps' : List (PositionKey × PositionState)} {key : PositionKey} {d base : Decimal}
    {nf old : Fees} (h : setPositionMap ps key d nf = .ok (ps', old, base)) :
    liqOf ps' key = liqOf ps key + d.toRat ∧ 0 ≤ liqOf ps' key ∧ base.toRat = liqOf ps key ∧
    ∀ s, mapGet key ps' = some s → 0 ≤ s.liq.toRat := by
  unfold liqOf
  rcases setPositionMap_ok h with ⟨h1, h0, rfl, _, rfl⟩ | ⟨poz, n, h1, _, rfl, _, h2, h4, ⟨h3, rfl⟩ | ⟨_, rfl⟩⟩
  · rw [h1, mapGet_set_same]
    refine ⟨by simp, h0, by simp [zero_toRat], ?_⟩
    intro s hs; cases hs; exact h0
  · rw [h1, mapGet_erase_same]
    rw [isZero_toRat] at h3
    refine ⟨?_, le_refl _, rfl, by simp⟩
    simp only [Option.elim]
    rw [← h3, add_toRat h2]
  · rw [h1, mapGet_set_same]
    refine ⟨add_toRat h2, h4, rfl, ?_⟩
    intro s hs; cases hs; exact h4

/-- Effect of `update_tick` on the records. -/
theorem updateTick_get {p p' : Pool} {t : Nat} {d : Decimal} {u : Bool} (h : p.updateTick t d u = .ok p') :
    (∀ j, j ≠ t → mapGet j p'.ticks = mapGet j p.ticks) ∧
    ∃ n g : Decimal, g.toRat = p.grossAt t + d.toRat ∧
      n.toRat = p.netAt t + (if u then -d.toRat else d.toRat) ∧
      ((g.toRat = 0 ∧ mapGet t p'.ticks = none) ∨
       (0 < g.toRat ∧ mapGet t p'.ticks = some ⟨n, g, (p.tickOrNew t).fees⟩)) := by
  obtain ⟨n, g, h1, h2, h3, _, rfl⟩ := updateTick_ok h
  have e1 : (p.tickOrNew t).liqGross.toRat = p.grossAt t := by
    unfold tickOrNew grossAt
    cases mapGet t p.ticks <;> simp [zero_toRat]
  have e2 : (p.tickOrNew t).liqNet.toRat = p.netAt t := by
    unfold tickOrNew netAt
    cases mapGet t p.ticks <;> simp [zero_toRat]
  refine ⟨?_, n, g, by rw [add_toRat h2, e1], ?_, ?_⟩
  · intro j hj
    simp only
    split
    · rw [mapGet_erase_other hj, ticksWith_other hj]
    · rw [mapGet_set_other hj, ticksWith_other hj]
  · rw [add_toRat h1, e2]
    cases u <;> simp [neg_toRat]
  · by_cases hz : g.isZero = true
    · simp only [hz, if_true]
      exact .inl ⟨isZero_toRat.1 hz, mapGet_erase_same _ _⟩
    · simp only [hz]
      refine .inr ⟨lt_of_le_of_ne (not_isNegative.1 h3) ?_, mapGet_set_same _ _ _⟩
      exact fun h => hz (isZero_toRat.2 h.symm)

theorem ticksWith_asc {p : Pool} (h : Ascending p.ticks) (t : Nat) : Ascending (p.ticksWith t) := by
  unfold ticksWith
  cases mapGet t p.ticks with
  | none => exact h.treeInsert _ _
  | some _ => exact h

theorem updateTick_asc {p p' : Pool} {t : Nat} {d : Decimal} {u : Bool} (h : p.updateTick t d u = .ok p')
    (ha : Ascending p.ticks) : Ascending p'.ticks := by
  obtain ⟨n, g, h1, h2, h3, _, rfl⟩ := updateTick_ok h
  simp only
  split
  · exact (ticksWith_asc ha t).erase _
  · exact (ticksWith_asc ha t).set (mapGet_isSome.1 (by rw [ticksWith_get]; rfl)) _

theorem Booked.of_ticks {p p' : Pool} (h : Booked p) (hp : p'.positions = p.positions)
    (hk : p'.ticks.map (·.1) = p.ticks.map (·.1)) (hs : p'.spacing = p.spacing)
    (ht : ∀ t ts, mapGet t p'.ticks = some ts → ∃ ts', mapGet t p.ticks = some ts' ∧
      ts.liqGross = ts'.liqGross ∧ ts.liqNet = ts'.liqNet) : Booked p' := by
  have hnone : ∀ t, mapGet t p'.ticks = none ↔ mapGet t p.ticks = none := fun t => by
    rw [mapGet_none, mapGet_none, hk]
  have hg : ∀ t, p'.grossAt t = p.grossAt t := fun t => by
    unfold grossAt
    cases h1 : mapGet t p'.ticks with
    | none => rw [(hnone t).1 h1]
    | some ts => obtain ⟨ts', h2, h3, _⟩ := ht t ts h1; rw [h2]; simp [h3]
  have hn : ∀ t, p'.netAt t = p.netAt t := fun t => by
    unfold netAt
    cases h1 : mapGet t p'.ticks with
    | none => rw [(hnone t).1 h1]
    | some ts => obtain ⟨ts', h2, _, h3⟩ := ht t ts h1; rw [h2]; simp [h3]
  refine ⟨hp ▸ h.unique, ?_, hp ▸ hs ▸ h.pos, ?_, ?_, ?_⟩
  · have := h.asc; unfold Ascending at *; rwa [hk]
  · intro t; rw [hg, h.gross]; simp [startingAt, endingAt, hp]
  · intro t; rw [hn, h.net]; simp [startingAt, endingAt, hp]
  · intro t ts h1
    obtain ⟨ts', h2, h3, _⟩ := ht t ts h1
    rw [h3]; exact h.init t ts' h2

/-- The position map after a change of position. -/
theorem setPosition_map {p p' : Pool} {user lower upper : Nat} {d : Decimal} {f : Fees}
    (h : p.setPosition user lower upper d = .ok (p', f)) :
    ∃ nf old base, setPositionMap p.positions ⟨user, lower, upper⟩ d nf = .ok (p'.positions, old, base) := by
  obtain ⟨nf, ps', old, base, fu, p1, p2, _, _, _, _, h0, _, _, _, _, _, h1, h2, h3, _⟩ := setPosition_ok h
  have e1 := updateTick_frame h1
  have e2 := updateTick_frame h2
  have hps : p'.positions = ps' := by
    rw [ite_ok] at h3
    rcases h3 with ⟨_, h3⟩ | ⟨_, h3⟩
    · obtain ⟨n, _, _, rfl⟩ := addGlblLiq_ok.1 h3
      rw [e2, e1]
    · cases h3
      rw [e2, e1]
  exact ⟨nf, old, base, hps ▸ h0⟩

/-- Effect of a change of position on the sums. -/
theorem setPosition_sums {p p' : Pool} {user lower upper : Nat} {d : Decimal} {f : Fees}
    (hu : UniqueKeys p.positions) (h : p.setPosition user lower upper d = .ok (p', f)) :
    UniqueKeys p'.positions ∧
    (∀ t, p'.startingAt t = p.startingAt t + if lower = t then d.toRat else 0) ∧
    (∀ t, p'.endingAt t = p.endingAt t + if upper = t then d.toRat else 0) ∧
    (∀ t, p'.inRange t = p.inRange t + if lower ≤ t ∧ t < upper then d.toRat else 0) ∧
    (∀ k, k ≠ ⟨user, lower, upper⟩ → mapGet k p'.positions = mapGet k p.positions) ∧
    liqOf p'.positions ⟨user, lower, upper⟩ = liqOf p.positions ⟨user, lower, upper⟩ + d.toRat ∧
    0 ≤ liqOf p'.positions ⟨user, lower, upper⟩ ∧
    (∀ s, mapGet ⟨user, lower, upper⟩ p'.positions = some s → 0 ≤ s.liq.toRat) := by
  obtain ⟨nf, old, base, h0⟩ := setPosition_map h
  unfold startingAt endingAt inRange
  obtain ⟨g1, g2, _, g3⟩ := setPositionMap_same h0
  refine ⟨setPositionMap_unique hu h0, ?_, ?_, ?_, fun k hk => setPositionMap_other h0 hk, g1, g2, g3⟩
  all_goals
    intro t
    rw [sumPos_set hu h0]
    simp only
    split <;> simp

/-- Effect of a change of position on the pool's liquidity. -/
theorem setPosition_liq {p p' : Pool} {user lower upper : Nat} {d : Decimal} {f : Fees}
    (h : p.setPosition user lower upper d = .ok (p', f)) :
    p'.gs.liq.toRat = p.gs.liq.toRat + (if lower ≤ p.gs.tick ∧ p.gs.tick < upper then d.toRat else 0) := by
  obtain ⟨nf, ps', old, base, fu, p1, p2, _, _, _, _, h0, _, _, _, _, _, h1, h2, h3, _⟩ := setPosition_ok h
  have e : p2.gs = p.gs := by rw [updateTick_frame h2, updateTick_frame h1]
  simp only [e] at h3
  rw [ite_ok] at h3
  rcases h3 with ⟨h4, h3⟩ | ⟨h4, h3⟩
  · obtain ⟨n, h5, _, rfl⟩ := addGlblLiq_ok.1 h3
    rw [if_pos h4]
    simp only [add_toRat h5, e]
  · cases h3
    rw [if_neg h4, e, add_zero]

theorem Booked.setPosition {p p' : Pool} (hb : Booked p) {user lower upper : Nat} {d : Decimal} {f : Fees}
    (hlu : lower < upper) (hl : p.spacing ∣ lower) (hu : p.spacing ∣ upper)
    (h : p.setPosition user lower upper d = .ok (p', f)) : Booked p' := by
  obtain ⟨q1, q2, q3, _, q4, _, _, q5⟩ := setPosition_sums hb.unique h
  have hf := setPosition_frame h
  have hpos : ∀ k s, mapGet k p'.positions = some s → 0 ≤ s.liq.toRat ∧ k.lower < k.upper ∧
      p'.spacing ∣ k.lower ∧ p'.spacing ∣ k.upper := by
    have hsp : p'.spacing = p.spacing := by rw [hf]
    intro k s hs
    rw [hsp]
    by_cases hk : k = ⟨user, lower, upper⟩
    · subst hk; exact ⟨q5 s hs, hlu, hl, hu⟩
    · rw [q4 k hk] at hs; exact hb.pos k s hs
  obtain ⟨nf, ps', old, base, fu, p1, p2, _, _, _, _, h0, _, _, _, _, _, h1, h2, h3, _⟩ := setPosition_ok h
  have htk : p'.ticks = p2.ticks := by
    rw [ite_ok] at h3
    rcases h3 with ⟨_, h3⟩ | ⟨_, h3⟩
    · obtain ⟨n, _, _, rfl⟩ := addGlblLiq_ok.1 h3; rfl
    · cases h3; rfl
  obtain ⟨a1, n1, g1, a2, a3, a4⟩ := updateTick_get h1
  obtain ⟨b1, n2, g2, b2, b3, b4⟩ := updateTick_get h2
  have hne : lower ≠ upper := hlu.ne
  have hg0 : ({ p with positions := ps' } : Pool).grossAt lower = p.grossAt lower := rfl
  have hn0 : ({ p with positions := ps' } : Pool).netAt lower = p.netAt lower := rfl
  have hg1 : p1.grossAt upper = p.grossAt upper := by unfold grossAt; rw [a1 upper hne.symm]
  have hn1 : p1.netAt upper = p.netAt upper := by unfold netAt; rw [a1 upper hne.symm]
  rw [hg0, hb.gross] at a2
  rw [hn0, hb.net] at a3
  rw [hg1, hb.gross] at b2
  rw [hn1, hb.net] at b3
  -- positions with no gross liquidity have no net liquidity
  have hs0 : ∀ t, 0 ≤ p'.startingAt t := fun t =>
    sumPos_nonneg (by intro k; split <;> simp) q1 (fun k s hs => (hpos k s hs).1)
  have he0 : ∀ t, 0 ≤ p'.endingAt t := fun t =>
    sumPos_nonneg (by intro k; split <;> simp) q1 (fun k s hs => (hpos k s hs).1)
  have key : ∀ t, p'.grossAt t = p'.startingAt t + p'.endingAt t ∧
      p'.netAt t = p'.startingAt t - p'.endingAt t ∧
      ∀ ts, mapGet t p'.ticks = some ts → 0 < ts.liqGross.toRat := by
    intro t
    have hs := q2 t
    have he := q3 t
    have := hs0 t
    have := he0 t
    by_cases h6 : t = lower
    · subst h6
      have hm : mapGet t p'.ticks = mapGet t p1.ticks := by rw [htk, b1 t hne]
      rw [if_pos rfl] at hs
      rw [if_neg hne.symm] at he
      unfold grossAt netAt
      rw [hm]
      rcases a4 with ⟨c1, c2⟩ | ⟨c1, c2⟩
      · rw [c2]
        simp only [Option.elim]
        refine ⟨by linarith, by linarith, by simp⟩
      · rw [c2]
        simp only [Option.elim]
        refine ⟨by linarith, by simp only [Bool.false_eq_true, if_false] at a3; linarith, ?_⟩
        intro ts hts; cases hts; exact c1
    · by_cases h7 : t = upper
      · subst h7
        have hm : mapGet t p'.ticks = mapGet t p2.ticks := by rw [htk]
        rw [if_neg hne] at hs
        rw [if_pos rfl] at he
        unfold grossAt netAt
        rw [hm]
        rcases b4 with ⟨c1, c2⟩ | ⟨c1, c2⟩
        · rw [c2]
          simp only [Option.elim]
          refine ⟨by linarith, by linarith, by simp⟩
        · rw [c2]
          simp only [Option.elim]
          refine ⟨by linarith, by simp only [if_true] at b3; linarith, ?_⟩
          intro ts hts; cases hts; exact c1
      · have hm : mapGet t p'.ticks = mapGet t p.ticks := by
          rw [htk, b1 t h7, a1 t h6]
        rw [if_neg (Ne.symm h6)] at hs
        rw [if_neg (Ne.symm h7)] at he
        have hg := hb.gross t
        have hn := hb.net t
        unfold grossAt netAt at *
        rw [hm, hg, hn]
        exact ⟨by linarith, by linarith, hb.init t⟩
  refine ⟨q1, ?_, hpos, fun t => (key t).1, fun t => (key t).2.1, fun t => (key t).2.2⟩
  rw [htk]
  exact updateTick_asc h2 (updateTick_asc h1 hb.asc)

theorem payFees_frame {p p' : Pool} {f : Fees} (h : p.payFees f = .ok p') :
    p'.positions = p.positions ∧ p'.ticks = p.ticks ∧ p'.gs = p.gs ∧ p'.spacing = p.spacing ∧ p'.x = p.x ∧
    p'.y = p.y ∧ p'.c = p.c ∧ p'.feeRate = p.feeRate := by
  obtain ⟨xf, xa, yf, ya, _, _, _, _, _, _, _, _, rfl⟩ := payFees_ok h
  exact ⟨rfl, rfl, rfl, rfl, rfl, rfl, rfl, rfl⟩

theorem Booked.same {p p' : Pool} (hb : Booked p) (h1 : p'.positions = p.positions) (h2 : p'.ticks = p.ticks)
    (h3 : p'.spacing = p.spacing) : Booked p' :=
  hb.of_ticks h1 (by rw [h2]) h3 (fun t ts h => ⟨ts, h2 ▸ h, rfl, rfl⟩)

/-- A price snapped to the grid is on the grid. -/
theorem rpToPossibleTick_grid {p : Pool} {rp : Decimal} {s t : Nat} (h : p.rpToPossibleTick rp false s = .ok t) :
    p.spacing ∣ t := by
  unfold rpToPossibleTick rpToPossibleTk at h
  steps at h
  obtain ⟨q, _, h⟩ := h
  exact (C26_down h).1

theorem Booked.deposit {p p' : Pool} (hb : Booked p) {user : Nat} {x y rpa rpb : Decimal} {r : Receipt}
    (h : p.deposit user x y rpa rpb = .ok (p', r)) : Booked p' := by
  obtain ⟨lower, upper, a, b, liq, p1, p2, px, py, _, _, _, _, g1, g2, g3, _, _, _, _, _, _, _, _, h1, _, _, h2, h3,
    h4, rfl⟩ := deposit_ok h
  obtain ⟨e1, e2, _, e3, _⟩ := payFees_frame h4
  exact (hb.setPosition g3 (rpToPossibleTick_grid g1) (rpToPossibleTick_grid g2) h1).same e1 e2 e3

theorem Booked.withdraw {p p' : Pool} (hb : Booked p) {user : Nat} {liq rpa rpb : Decimal} {r : Receipt}
    (h : p.withdraw user liq rpa rpb = .ok (p', r)) : Booked p' := by
  obtain ⟨lower, upper, a, b, p1, p2, x0, y0, adj, px, py, _, g1, g2, g3, _, _, h1, _, _, _, _, _, _, _, _, _, _, _,
    h5, rfl⟩ := withdraw_ok h
  obtain ⟨e1, e2, _, e3, _⟩ := payFees_frame h5
  exact (hb.setPosition g3 (rpToPossibleTick_grid g1) (rpToPossibleTick_grid g2) h1).same e1 e2 e3

theorem Booked.cross {p p' : Pool} (hb : Booked p) {t : Nat} {b : Bool} (h : p.crossTick t b = .ok p') :
    Booked p' := by
  obtain ⟨_, _, _, _, _, _, e1, e2, _, _, e3, _⟩ := crossTick_frame h
  refine hb.of_ticks e1 e3 e2 ?_
  obtain ⟨ts, fx, fy, hx, hy, nt, n, h1, _, _, _, _, _, _, _, _, _, rfl⟩ := crossTick_ok h
  intro j ts' hj
  simp only at hj
  by_cases hjt : j = t
  · subst hjt
    rw [mapGet_set_same] at hj
    cases hj
    exact ⟨ts, h1, rfl, rfl⟩
  · rw [mapGet_set_other hjt] at hj
    exact ⟨ts', hj, rfl, rfl⟩

/-- Invariant rule for the search for the next liquidity. -/
theorem tryLeft_inv {P : Pool → Prop}
    (hc : ∀ {p tk q p'}, P p → tk ≤ p.gs.tick → tickToRp tk = .ok q →
      ((p.setTick tk).setRp q).crossTick tk false = .ok p' → P p') :
    ∀ {tks : List Nat} {p p' : Pool} {goal : Option Nat} {rp : Decimal}, P p →
    tryInRangeLeft tks p = .ok (p', goal, rp) → P p' := by
  intro tks
  induction tks with
  | nil => intro p p' goal rp hb h; cases h; exact hb
  | cons tk tks ih =>
    intro p p' goal rp hb h
    unfold tryInRangeLeft at h
    rw [ite_ok] at h
    rcases h with ⟨_, h⟩ | ⟨h0, h⟩
    · exact ih hb h
    · rw [bind_ok] at h; obtain ⟨q, hq, h⟩ := h
      simp only at h
      rw [bind_ok] at h; obtain ⟨p1, h1, h⟩ := h
      rw [bind_ok] at h; obtain ⟨g, _, h⟩ := h
      have hb1 : P p1 := hc hb (not_lt.1 h0) hq h1
      rw [ite_ok] at h; rcases h with ⟨_, h⟩ | ⟨_, h⟩; · simp [rpanic] at h
      rw [ite_ok] at h; rcases h with ⟨_, h⟩ | ⟨_, h⟩
      · cases h; exact hb1
      · exact ih hb1 h

theorem tryRight_inv {P : Pool → Prop}
    (hc : ∀ {p tk q p'}, P p → p.gs.tick < tk → tickToRp tk = .ok q →
      ((p.setTick tk).setRp q).crossTick tk true = .ok p' → P p') :
    ∀ {tks : List Nat} {p p' : Pool} {goal : Option Nat} {rp : Decimal}, P p →
    tryInRangeRight tks p = .ok (p', goal, rp) → P p' := by
  intro tks
  induction tks with
  | nil => intro p p' goal rp hb h; cases h; exact hb
  | cons tk tks ih =>
    intro p p' goal rp hb h
    unfold tryInRangeRight at h
    rw [ite_ok] at h
    rcases h with ⟨_, h⟩ | ⟨h0, h⟩
    · exact ih hb h
    · rw [bind_ok] at h; obtain ⟨q, hq, h⟩ := h
      simp only at h
      rw [bind_ok] at h; obtain ⟨p1, h1, h⟩ := h
      rw [bind_ok] at h; obtain ⟨g, _, h⟩ := h
      have hb1 : P p1 := hc hb (not_le.1 h0) hq h1
      rw [ite_ok] at h; rcases h with ⟨_, h⟩ | ⟨_, h⟩; · simp [rpanic] at h
      rw [ite_ok] at h; rcases h with ⟨_, h⟩ | ⟨_, h⟩
      · cases h; exact hb1
      · exact ih hb1 h

theorem goalX_inv {P : Pool → Prop} {p p' : Pool} {a a' : SwapAcc} {g : Option Nat} (hp : P p)
    (h : goalX p a = .ok (p', g, a'))
    (hc : ∀ {p tk q p'}, P p → tk ≤ p.gs.tick → tickToRp tk = .ok q →
      ((p.setTick tk).setRp q).crossTick tk false = .ok p' → P p') : P p' := by
  obtain ⟨_, _, _, _, ⟨rfl, _⟩ | ⟨_, _, h⟩⟩ := goalX_ok h
  · exact hp
  · exact tryLeft_inv hc hp h

theorem goalY_inv {P : Pool → Prop} {p p' : Pool} {a a' : SwapAcc} {g : Option Nat} (hp : P p)
    (h : goalY p a = .ok (p', g, a'))
    (hc : ∀ {p tk q p'}, P p → p.gs.tick < tk → tickToRp tk = .ok q →
      ((p.setTick tk).setRp q).crossTick tk true = .ok p' → P p') : P p' := by
  obtain ⟨_, _, _, _, ⟨rfl, _⟩ | ⟨_, _, h⟩⟩ := goalY_ok h
  · exact hp
  · exact tryRight_inv hc hp h

theorem Booked.walk {p p' : Pool} (hb : Booked p) {t : Nat} {q : Decimal} {b : Bool}
    (h : ((p.setTick t).setRp q).crossTick t b = .ok p') : Booked p' :=
  (hb.same (p' := (p.setTick t).setRp q) rfl rfl rfl).cross h

theorem Booked.stepX {fl : FloatEnv} {dx o : Decimal} {p p' : Pool} {a a' : SwapAcc} {g : Nat}
    (hp : Booked p) (hs : Pool.stepX fl dx o p a g = .ok (p', a')) : Booked p' := by
  obtain ⟨rem, r, ysum, newY, c1, chk, rs, newX, xFee, yAdj, fees, p1, _, _, _, _, _, _, _, _, _, _,
    _, _, _, _, _, _, _, _, _, hp1, h18⟩ := stepX_ok hs
  have key : Booked p1 := by rw [hp1]; exact hp.same rfl rfl rfl
  rcases h18 with ⟨_, _, _, hc⟩ | ⟨_, _, _, rfl⟩ | ⟨_, rfl⟩
  · exact key.cross hc
  · exact key
  · exact key

theorem Booked.stepY {fl : FloatEnv} {dy o : Decimal} {p p' : Pool} {a a' : SwapAcc} {g : Nat}
    (hp : Booked p) (hs : Pool.stepY fl dy o p a g = .ok (p', a')) : Booked p' := by
  obtain ⟨rem, r, xsum, newX, c1, chk, rs, newY, yFee, xAdj, fees, p1, _, _, _, _, _, _, _, _, _, _,
    _, _, _, _, _, _, _, _, _, hp1, h18⟩ := stepY_ok hs
  have key : Booked p1 := by rw [hp1]; exact hp.same rfl rfl rfl
  rcases h18 with ⟨_, _, _, hc⟩ | ⟨_, _, _, rfl⟩ | ⟨_, rfl⟩
  · exact key.cross hc
  · exact key
  · exact key

theorem Booked.new {rp : Decimal} {spacing : Nat} {c fee : Decimal} {p : Pool}
    (h : Pool.new rp spacing c fee = .ok p) : Booked p := by
  obtain ⟨_, _, _, _, _, _, _, rfl⟩ := new_ok h
  refine ⟨List.nodup_nil, .nil, ?_, ?_, ?_, ?_⟩
  · intro k s h; simp [mapGet] at h
  · intro t; simp [grossAt, startingAt, endingAt, sumPos, mapGet]
  · intro t; simp [netAt, startingAt, endingAt, sumPos, mapGet]
  · intro t ts h; simp [mapGet] at h

theorem Booked.reachable {p : Pool} (h : Reachable p) : Booked p := by
  induction h with
  | new h => exact .new h
  | step _ hs ih =>
    cases hs with
    | deposit h => exact ih.deposit h
    | withdraw h => exact ih.withdraw h
    | sellX h =>
      exact sellX_inv h ih (fun hp hg => goalX_inv hp hg fun hp _ _ h => hp.walk h) (fun hp hs => hp.stepX hs)
    | sellY h =>
      exact sellY_inv h ih (fun hp hg => goalY_inv hp hg fun hp _ _ h => hp.walk h) (fun hp hs => hp.stepY hs)

end Pool

end Hmm
