import Verif.Proofs.Fees
import Verif.Props.Swap

/-
Active liquidity against the positions in range.
-/

namespace Hmm.Pool

open Decimal PoolMath

/-! ### Which ticks are initialised -/

theorem sumPos_zero {w : PositionKey → ℚ} {ps : List (PositionKey × PositionState)}
    (h : ∀ k s, (k, s) ∈ ps → w k * s.liq.toRat = 0) : sumPos w ps = 0 := by
  unfold sumPos
  induction ps with
  | nil => rfl
  | cons e ps ih =>
    rw [List.map_cons, List.sum_cons, ih fun k s hm => h k s (List.mem_cons_of_mem _ hm),
      h e.1 e.2 List.mem_cons_self]
    simp

/-- An initialised tick bounds some position. -/
theorem Booked.bounds {p : Pool} (hb : Booked p) {t : Nat} (ht : t ∈ p.ticks.map (·.1)) :
    ∃ k s, (k, s) ∈ p.positions ∧ (k.lower = t ∨ k.upper = t) := by
  by_contra hno
  have hs : p.startingAt t = 0 := sumPos_zero fun k s hm => by
    rw [if_neg (fun h => hno ⟨k, s, hm, .inl h⟩), zero_mul]
  have he : p.endingAt t = 0 := sumPos_zero fun k s hm => by
    rw [if_neg (fun h => hno ⟨k, s, hm, .inr h⟩), zero_mul]
  obtain ⟨ts, hts⟩ := Option.isSome_iff_exists.1 (mapGet_isSome.2 ht)
  have h1 := hb.init t ts hts
  have h2 := hb.gross t
  unfold grossAt at h2
  rw [hts] at h2
  simp only [Option.elim] at h2
  linarith

theorem sumPos_nonneg' {w : PositionKey → ℚ} {ps : List (PositionKey × PositionState)} (hw : ∀ k, 0 ≤ w k)
    (h : ∀ k s, (k, s) ∈ ps → 0 ≤ s.liq.toRat) : 0 ≤ sumPos w ps := by
  unfold sumPos
  refine List.sum_nonneg fun x hx => ?_
  obtain ⟨⟨k, s⟩, hm, rfl⟩ := List.mem_map.1 hx
  exact mul_nonneg (hw k) (h k s hm)

theorem le_sumPos {w : PositionKey → ℚ} {ps : List (PositionKey × PositionState)} {k : PositionKey}
    {s : PositionState} (hw : ∀ k, 0 ≤ w k) (h : ∀ k s, (k, s) ∈ ps → 0 ≤ s.liq.toRat) (hm : (k, s) ∈ ps) :
    w k * s.liq.toRat ≤ sumPos w ps := by
  unfold sumPos
  refine List.single_le_sum (l := ps.map fun e => w e.1 * e.2.liq.toRat) (fun x hx => ?_) _
    (List.mem_map.2 ⟨(k, s), hm, rfl⟩)
  obtain ⟨⟨k, s⟩, hm, rfl⟩ := List.mem_map.1 hx
  exact mul_nonneg (hw k) (h k s hm)

/-- The bounds of a position with liquidity are initialised. -/
theorem Booked.initialised {p : Pool} (hb : Booked p) {k : PositionKey} {s : PositionState}
    (hm : (k, s) ∈ p.positions) (h0 : s.liq.toRat ≠ 0) :
    k.lower ∈ p.ticks.map (·.1) ∧ k.upper ∈ p.ticks.map (·.1) := by
  have hpos : ∀ k s, (k, s) ∈ p.positions → 0 ≤ s.liq.toRat := fun k s h =>
    (hb.pos k s (get_of_mem hb.unique h)).1
  have h1 : 0 < s.liq.toRat := lt_of_le_of_ne (hpos k s hm) h0.symm
  have key : ∀ t, (k.lower = t ∨ k.upper = t) → t ∈ p.ticks.map (·.1) := by
    intro t ht
    by_contra hn
    have h2 := hb.gross t
    unfold grossAt at h2
    rw [mapGet_none.2 hn] at h2
    simp only [Option.elim] at h2
    have hs0 : 0 ≤ p.startingAt t := sumPos_nonneg' (fun k => by split <;> simp) hpos
    have he0 : 0 ≤ p.endingAt t := sumPos_nonneg' (fun k => by split <;> simp) hpos
    rcases ht with ht | ht
    · have : (if k.lower = t then (1 : ℚ) else 0) * s.liq.toRat ≤ p.startingAt t := by
        exact le_sumPos (w := fun k => if k.lower = t then (1 : ℚ) else 0)
          (fun k => by split <;> simp) hpos hm
      rw [if_pos ht, one_mul] at this
      linarith
    · have : (if k.upper = t then (1 : ℚ) else 0) * s.liq.toRat ≤ p.endingAt t := by
        exact le_sumPos (w := fun k => if k.upper = t then (1 : ℚ) else 0)
          (fun k => by split <;> simp) hpos hm
      rw [if_pos ht, one_mul] at this
      linarith
  exact ⟨key _ (.inl rfl), key _ (.inr rfl)⟩

/-- Initialised ticks are on the grid. -/
theorem Booked.grid {p : Pool} (hb : Booked p) {t : Nat} (ht : t ∈ p.ticks.map (·.1)) : p.spacing ∣ t := by
  obtain ⟨k, s, hm, h⟩ := hb.bounds ht
  obtain ⟨_, _, h1, h2⟩ := hb.pos k s (get_of_mem hb.unique hm)
  rcases h with rfl | rfl
  · exact h1
  · exact h2

/-! ### Moving the tick -/

/-- Between two ticks with no initialised tick in between the same positions are in range. -/
theorem Booked.inRange_same {p : Pool} (hb : Booked p) {a b : Nat} (hab : a ≤ b)
    (hno : ∀ g ∈ p.ticks.map (·.1), g ≤ b → g ≤ a) : p.inRange a = p.inRange b := by
  unfold inRange
  rw [sumPos_eq, sumPos_eq]
  refine mapSum_congr fun k s hm => ?_
  by_cases h0 : s.liq.toRat = 0
  · rw [h0, mul_zero, mul_zero]
  · obtain ⟨h1, h2⟩ := hb.initialised hm h0
    have := hno _ h1
    have := hno _ h2
    congr 1
    by_cases hr : k.lower ≤ a ∧ a < k.upper
    · rw [if_pos hr, if_pos]
      refine ⟨by omega, ?_⟩
      by_contra hc
      have := hno _ h2 (by omega)
      omega
    · rw [if_neg hr, if_neg]
      rintro ⟨c1, c2⟩
      exact hr ⟨hno _ h1 c1, by omega⟩

theorem sumPos_combine {w w1 w2 w3 : PositionKey → ℚ} {ps : List (PositionKey × PositionState)}
    (h : ∀ k s, (k, s) ∈ ps → w k * s.liq.toRat = w1 k * s.liq.toRat + w2 k * s.liq.toRat - w3 k * s.liq.toRat) :
    sumPos w ps = sumPos w1 ps + sumPos w2 ps - sumPos w3 ps := by
  unfold sumPos
  induction ps with
  | nil => simp
  | cons e ps ih =>
    simp only [List.map_cons, List.sum_cons]
    rw [ih fun k s hm => h k s (List.mem_cons_of_mem _ hm), h e.1 e.2 List.mem_cons_self]
    ring

/-- Passing one initialised tick: its positions begin or end. -/
theorem Booked.inRange_cross {p : Pool} (hb : Booked p) {a t : Nat} (hat : a < t)
    (hno : ∀ g ∈ p.ticks.map (·.1), g < t → g ≤ a) :
    p.inRange t = p.inRange a + p.startingAt t - p.endingAt t := by
  unfold inRange startingAt endingAt
  refine sumPos_combine fun k s hm => ?_
  by_cases h0 : s.liq.toRat = 0
  · rw [h0]; ring
  · obtain ⟨h1, h2⟩ := hb.initialised hm h0
    obtain ⟨_, hlu, _⟩ := hb.pos k s (get_of_mem hb.unique hm)
    have hl := hno _ h1
    have hu := hno _ h2
    by_cases c1 : k.lower = t
    · rw [if_pos (by omega), if_neg (by omega), if_pos c1, if_neg (by omega)]; ring
    · by_cases c2 : k.upper = t
      · rw [if_neg (by omega), if_pos (by omega), if_neg c1, if_pos c2]; ring
      · by_cases c3 : k.lower ≤ t ∧ t < k.upper
        · rw [if_pos c3, if_pos (by omega), if_neg c1, if_neg c2]; ring
        · rw [if_neg c3, if_neg (by omega), if_neg c1, if_neg c2]; ring

/-- The next initialised tick to the left. -/
theorem leftLimit_max {p : Pool} (hb : Booked p) {s g : Nat} (hs : p.gs.tick ≤ s)
    (h : p.leftLimit s = .ok (some g)) :
    g ∈ p.ticks.map (·.1) ∧ g ≤ p.gs.tick ∧ ∀ k ∈ p.ticks.map (·.1), k ≤ p.gs.tick → k ≤ g := by
  obtain ⟨h1, h2, _⟩ := leftLimit_goal h
  refine ⟨h1, h2, fun k hk hkt => ?_⟩
  obtain ⟨t, e1, e2⟩ := leftLimit_ok h
  have hmin : Nat.min s p.gs.tick = p.gs.tick := Nat.min_eq_right hs
  rw [hmin] at e1
  have hkt' : k ≤ t := (C26_down e1).2.2 k (hb.grid hk) hkt
  obtain ⟨_, as, bs, e3, e4⟩ := List.find?_eq_some_iff_append.1 e2.symm
  have hd : (p.tickKeys true).Pairwise (· > ·) := by
    unfold tickKeys
    simp only [if_true]
    exact List.pairwise_reverse.2 hb.asc
  have hmem : k ∈ p.tickKeys true := mem_tickKeys.2 hk
  rw [e3] at hmem hd
  rcases List.mem_append.1 hmem with h5 | h5
  · have := e4 k h5
    simp at this
    omega
  · rcases List.mem_cons.1 h5 with rfl | h5
    · exact le_refl _
    · exact (List.rel_of_pairwise_cons (List.pairwise_append.1 hd).2.1 h5).le

/-- The next initialised tick to the right. -/
theorem rightLimit_min {p : Pool} (hb : Booked p) {g : Nat} (h : p.rightLimit p.gs.tick p.gs.tick = .ok (some g)) :
    g ∈ p.ticks.map (·.1) ∧ p.gs.tick < g ∧ ∀ k ∈ p.ticks.map (·.1), k < g → k ≤ p.gs.tick := by
  obtain ⟨h1, h2⟩ := rightLimit_goal h
  refine ⟨h1, h2, fun k hk hkt => ?_⟩
  obtain ⟨t, e1, ⟨rfl, e2⟩ | ⟨e0, e2⟩⟩ := rightLimit_ok h
  · obtain ⟨_, as, bs, e3, e4⟩ := List.find?_eq_some_iff_append.1 e2.symm
    have hd : (p.tickKeys false).Pairwise (· < ·) := hb.asc
    have hmem : k ∈ p.tickKeys false := mem_tickKeys.2 hk
    rw [e3] at hmem hd
    rcases List.mem_append.1 hmem with h5 | h5
    · have := e4 k h5
      simp at this
      omega
    · rcases List.mem_cons.1 h5 with rfl | h5
      · omega
      · have := List.rel_of_pairwise_cons (List.pairwise_append.1 hd).2.1 h5
        omega
  · have := (C26_down e1).2.1
    omega

/-! ### The invariant -/

/-- The price is in the grid cell of the recorded tick, borders included: no grid tick at or below the
recorded one has a higher price, and none above it has a lower one. -/
def InCell (p : Pool) : Prop :=
  ∀ g q, p.spacing ∣ g → PoolMath.tickToRp g = .ok q →
    (g ≤ p.gs.tick → q.toRat ≤ p.gs.rp.toRat) ∧ (p.gs.tick < g → p.gs.rp.toRat ≤ q.toRat)

/-- The tick search finds the right cell for prices away from the grid. -/
theorem Away.inCell {p : Pool} (hA : Away p) {start : Nat}
    (h : rpToTickLoop p.gs.rp false start = .ok p.gs.tick)
    (hst : ∀ g q, p.spacing ∣ g → g ≤ start → tickToRp g = .ok q → q.toRat ≤ p.gs.rp.toRat) : InCell p := by
  intro g q hg hq
  obtain ⟨s, e, h1, h2, h3, h4⟩ := C24_brackets h
  simp only [Bool.false_eq_true, if_false] at e
  rw [e]
  have hA' := hA g q hg hq
  obtain ⟨_, b1, b2, b3⟩ := tickToRp_bounds hq
  have hg19 := tickToRp_lt hq
  rw [← toRat_of_nonneg b1] at b2 b3
  have hq0 : 0 < q.toRat := (tickToRp_pos hq).2
  constructor
  · intro hgs
    rcases Nat.lt_or_ge start s with hlt | hge
    · have h5 := h4 hlt
      have h6 : rootQ ^ g ≤ rootQ ^ s := pow_le_pow_right₀ rootQ_gt.le hgs
      by_contra hc
      rw [abs_of_neg (by linarith)] at hA'
      have h7 : (s : ℚ) < 2 ^ 20 := by exact_mod_cast h2
      generalize rootQ ^ s = P at *
      have h8 : (2 : ℚ) ^ 20 = 1048576 := by norm_num
      have h9 : P * (1 - 1048576 / 10 ^ 12) ≤ P * (1 - s / 10 ^ 12) := by
        apply mul_le_mul_of_nonneg_left _ (by linarith)
        have : (s : ℚ) / 10 ^ 12 ≤ 1048576 / 10 ^ 12 := by
          apply div_le_div_of_nonneg_right _ (by norm_num); linarith
        linarith
      norm_num at h9
      linarith
    · exact hst g q hg (by omega) hq
  · intro hgs
    have h6 : rootQ ^ (s + 1) ≤ rootQ ^ g := pow_le_pow_right₀ rootQ_gt.le hgs
    by_contra hc
    rw [abs_of_pos (by linarith)] at hA'
    have h7 : (g : ℚ) < 2 ^ 19 := by exact_mod_cast hg19
    have h8 : (2 : ℚ) ^ 19 = 524288 := by norm_num
    have hP : 0 ≤ rootQ ^ g := pow_nonneg (by linarith [rootQ_gt]) _
    generalize rootQ ^ g = P at *
    have h9 : P * (1 - 524288 / 10 ^ 12) ≤ P * (1 - g * ulp 12) := by
      apply mul_le_mul_of_nonneg_left _ hP
      unfold ulp
      have : (g : ℚ) * (1 / 10 ^ 12) ≤ 524288 / 10 ^ 12 := by
        rw [mul_one_div]
        apply div_le_div_of_nonneg_right _ (by norm_num); linarith
      linarith
    norm_num at h9
    linarith

/-- Books right, all position bounds have a price, active liquidity right, price in the tick's cell. -/
structure Sound (p : Pool) : Prop where
  booked : Booked p
  priced : ∀ k s, mapGet k p.positions = some s → k.upper < 2 ^ 19
  active : p.gs.liq.toRat = p.inRange p.gs.tick
  cell : InCell p

theorem Sound.price {p : Pool} (h : Sound p) {g : Nat} (hg : g ∈ p.ticks.map (·.1)) :
    ∃ q, tickToRp g = .ok q := by
  obtain ⟨k, s, hm, hk⟩ := h.booked.bounds hg
  have hgs := get_of_mem h.booked.unique hm
  have h1 := h.priced k s hgs
  have h2 := (h.booked.pos k s hgs).2.1
  exact tickToRp_returns (by rcases hk with rfl | rfl <;> omega)

/-- Prices rise with ticks. -/
theorem price_mono {s t : Nat} {a b : Decimal} (h : s ≤ t) (ha : tickToRp s = .ok a) (hb : tickToRp t = .ok b) :
    a.toRat ≤ b.toRat := by
  rcases Nat.lt_or_ge s t with h' | h'
  · exact (C23_increasing h' ha hb).le
  · have : s = t := by omega
    subst this
    rw [ha] at hb; cases hb; exact le_refl _

theorem inRange_congr {p p' : Pool} (h : p'.positions = p.positions) (t : Nat) : p'.inRange t = p.inRange t := by
  unfold inRange; rw [h]

theorem startingAt_congr {p p' : Pool} (h : p'.positions = p.positions) (t : Nat) :
    p'.startingAt t = p.startingAt t := by unfold startingAt; rw [h]

theorem endingAt_congr {p p' : Pool} (h : p'.positions = p.positions) (t : Nat) :
    p'.endingAt t = p.endingAt t := by unfold endingAt; rw [h]

/-- A leftward crossing keeps the active liquidity right. -/
theorem Sound.crossLeft {p p1 p' : Pool} (h : Sound p) {g : Nat} {q : Decimal} (hle : g ≤ p.gs.tick)
    (hmax : ∀ k ∈ p.ticks.map (·.1), k ≤ p.gs.tick → k ≤ g) (hq : tickToRp g = .ok q)
    (e1 : p1.positions = p.positions) (e2 : p1.ticks = p.ticks) (e3 : p1.spacing = p.spacing)
    (e4 : p1.gs.liq = p.gs.liq) (e5 : p1.gs.rp = q) (hc : p1.crossTick g false = .ok p') : Sound p' := by
  have hb1 : Booked p1 := h.booked.same e1 e2 e3
  have hb' : Booked p' := hb1.cross hc
  obtain ⟨ts, fx, fy, hx, hy, nt, n, g1, _, _, _, _, _, _, g2, g3, _, hp'⟩ := crossTick_ok hc
  obtain ⟨g4, g5⟩ := g2 rfl
  obtain ⟨_, s1, s2⟩ := C26_down g5
  have hpos : p'.positions = p.positions := by rw [hp']; exact e1
  have hsp : p'.spacing = p.spacing := by rw [hp']; exact e3
  rw [e3] at s2
  have hnet : ts.liqNet.toRat = p.startingAt g - p.endingAt g := by
    have := h.booked.net g
    unfold netAt at this
    rw [← e2, g1] at this
    exact this
  have hr1 : p.inRange g = p.inRange p.gs.tick := h.booked.inRange_same hle hmax
  have hr2 := h.booked.inRange_cross (a := nt) (t := g) (by omega)
    (fun k hk hkg => s2 k (h.booked.grid hk) (by omega))
  refine ⟨hb', hpos ▸ h.priced, ?_, ?_⟩
  · rw [inRange_congr hpos, hp']
    simp only [add_toRat g3]
    simp only [Bool.false_eq_true, if_false, neg_toRat, e4, h.active, hnet]
    rw [← hr1, hr2]; ring
  · intro k qk hk hqk
    rw [hsp] at hk
    have ht : p'.gs.tick = nt := by rw [hp']
    have hrp : p'.gs.rp = q := by rw [hp']; exact e5
    rw [ht, hrp]
    refine ⟨fun hkt => price_mono (by omega) hqk hq, fun hkt => price_mono ?_ hq hqk⟩
    by_contra hlt
    have := s2 k hk (by omega)
    omega

/-- A rightward crossing keeps the active liquidity right. -/
theorem Sound.crossRight {p p1 p' : Pool} (h : Sound p) {g : Nat} {q : Decimal} (hlt : p.gs.tick < g)
    (hmin : ∀ k ∈ p.ticks.map (·.1), k < g → k ≤ p.gs.tick) (hq : tickToRp g = .ok q)
    (e1 : p1.positions = p.positions) (e2 : p1.ticks = p.ticks) (e3 : p1.spacing = p.spacing)
    (e4 : p1.gs.liq = p.gs.liq) (e5 : p1.gs.rp = q) (hc : p1.crossTick g true = .ok p') : Sound p' := by
  have hb1 : Booked p1 := h.booked.same e1 e2 e3
  have hb' : Booked p' := hb1.cross hc
  obtain ⟨ts, fx, fy, hx, hy, nt, n, g1, _, _, _, _, _, g2, _, g3, _, hp'⟩ := crossTick_ok hc
  have g4 := g2 rfl
  subst g4
  have hpos : p'.positions = p.positions := by rw [hp']; exact e1
  have hnet : ts.liqNet.toRat = p.startingAt nt - p.endingAt nt := by
    have := h.booked.net nt
    unfold netAt at this
    rw [← e2, g1] at this
    exact this
  have hr2 := h.booked.inRange_cross (a := p.gs.tick) (t := nt) hlt hmin
  refine ⟨hb', hpos ▸ h.priced, ?_, ?_⟩
  · rw [inRange_congr hpos, hp']
    simp only [add_toRat g3]
    simp only [if_true, e4, h.active, hnet]
    rw [hr2]; ring
  · intro k qk hk hqk
    have ht : p'.gs.tick = nt := by rw [hp']
    have hrp : p'.gs.rp = q := by rw [hp']; exact e5
    rw [ht, hrp]
    exact ⟨fun hkt => price_mono hkt hqk hq, fun hkt => price_mono hkt.le hq hqk⟩

/-! ### Walking to the next liquidity -/

theorem Sound.tryLeft : ∀ {tks : List Nat} {p p' : Pool} {goal : Option Nat} {rp : Decimal}, Sound p →
    tks.Pairwise (· > ·) → (∀ k ∈ p.ticks.map (·.1), k ≤ p.gs.tick → k ∈ tks) →
    tryInRangeLeft tks p = .ok (p', goal, rp) →
    Sound p' ∧ Grows p p' ∧ ∀ g, goal = some g → p'.leftLimit p'.gs.tick = .ok (some g) := by
  intro tks
  induction tks with
  | nil => intro p p' goal rp hb _ _ h; cases h; exact ⟨hb, .refl _, by simp⟩
  | cons tk tks ih =>
    intro p p' goal rp hb hpw hall h
    have hpw' := List.pairwise_cons.1 hpw
    unfold tryInRangeLeft at h
    rw [ite_ok] at h
    rcases h with ⟨h0, h⟩ | ⟨h0, h⟩
    · refine ih hb hpw'.2 (fun k hk hkt => ?_) h
      rcases List.mem_cons.1 (hall k hk hkt) with rfl | hm
      · omega
      · exact hm
    · rw [bind_ok] at h; obtain ⟨q, hq, h⟩ := h
      simp only at h
      rw [bind_ok] at h; obtain ⟨p1, h1, h⟩ := h
      rw [bind_ok] at h; obtain ⟨g, hg, h⟩ := h
      have hmax : ∀ k ∈ p.ticks.map (·.1), k ≤ p.gs.tick → k ≤ tk := fun k hk hkt => by
        rcases List.mem_cons.1 (hall k hk hkt) with rfl | hm
        · exact le_refl _
        · exact (hpw'.1 k hm).le
      have hs1 : Sound p1 := hb.crossLeft (p1 := (p.setTick tk).setRp q) (not_lt.1 h0) hmax hq rfl rfl rfl rfl rfl h1
      have hgr : Grows p p1 := (Rises.crossLeft (p1 := (p.setTick tk).setRp q) (not_lt.1 h0)
        (fun k hk => hb.booked.grid hk) hmax rfl rfl (fun _ => le_rfl) h1).grows
      have hkeys : p1.ticks.map (·.1) = p.ticks.map (·.1) := (crossTick_frame h1).2.2.2.2.2.2.2.2.2.2.1
      have htick := cross_left_tick h1
      rw [ite_ok] at h; rcases h with ⟨_, h⟩ | ⟨_, h⟩; · simp [rpanic] at h
      rw [ite_ok] at h; rcases h with ⟨_, h⟩ | ⟨_, h⟩
      · cases h
        exact ⟨hs1, hgr, fun g' e => e ▸ hg⟩
      · obtain ⟨k1, k2, k3⟩ := ih hs1 hpw'.2 (fun k hk hkt => by
          rw [hkeys] at hk
          rcases List.mem_cons.1 (hall k hk (by omega)) with rfl | hm
          · omega
          · exact hm) h
        exact ⟨k1, hgr.trans k2, k3⟩

theorem Sound.tryRight : ∀ {tks : List Nat} {p p' : Pool} {goal : Option Nat} {rp : Decimal}, Sound p →
    tks.Pairwise (· < ·) → (∀ k ∈ p.ticks.map (·.1), p.gs.tick < k → k ∈ tks) →
    tryInRangeRight tks p = .ok (p', goal, rp) →
    Sound p' ∧ Grows p p' ∧ ∀ g, goal = some g → p'.rightLimit p'.gs.tick p'.gs.tick = .ok (some g) := by
  intro tks
  induction tks with
  | nil => intro p p' goal rp hb _ _ h; cases h; exact ⟨hb, .refl _, by simp⟩
  | cons tk tks ih =>
    intro p p' goal rp hb hpw hall h
    have hpw' := List.pairwise_cons.1 hpw
    unfold tryInRangeRight at h
    rw [ite_ok] at h
    rcases h with ⟨h0, h⟩ | ⟨h0, h⟩
    · refine ih hb hpw'.2 (fun k hk hkt => ?_) h
      rcases List.mem_cons.1 (hall k hk hkt) with rfl | hm
      · omega
      · exact hm
    · rw [bind_ok] at h; obtain ⟨q, hq, h⟩ := h
      simp only at h
      rw [bind_ok] at h; obtain ⟨p1, h1, h⟩ := h
      rw [bind_ok] at h; obtain ⟨g, hg, h⟩ := h
      have hmin : ∀ k ∈ p.ticks.map (·.1), k < tk → k ≤ p.gs.tick := fun k hk hkt => by
        by_contra hc
        rcases List.mem_cons.1 (hall k hk (by omega)) with rfl | hm
        · omega
        · have := hpw'.1 k hm; omega
      have hs1 : Sound p1 := hb.crossRight (p1 := (p.setTick tk).setRp q) (not_le.1 h0) hmin hq rfl rfl rfl rfl rfl h1
      have hgr : Grows p p1 := (Rises.crossRight (p1 := (p.setTick tk).setRp q) (not_le.1 h0) hmin rfl (fun _ => le_rfl) h1).grows
      have hkeys : p1.ticks.map (·.1) = p.ticks.map (·.1) := (crossTick_frame h1).2.2.2.2.2.2.2.2.2.2.1
      have htick := cross_right_tick h1
      rw [ite_ok] at h; rcases h with ⟨_, h⟩ | ⟨_, h⟩; · simp [rpanic] at h
      rw [ite_ok] at h; rcases h with ⟨_, h⟩ | ⟨_, h⟩
      · cases h
        exact ⟨hs1, hgr, fun g' e => by rw [htick, ← e]; exact hg⟩
      · obtain ⟨k1, k2, k3⟩ := ih hs1 hpw'.2 (fun k hk hkt => by
          rw [hkeys] at hk
          rcases List.mem_cons.1 (hall k hk (by omega)) with rfl | hm
          · omega
          · exact hm) h
        exact ⟨k1, hgr.trans k2, k3⟩

/-- Ticks separated by the same initialised ticks have the same positions in range. -/
theorem Booked.inRange_iff {p : Pool} (hb : Booked p) {a b : Nat}
    (h : ∀ k ∈ p.ticks.map (·.1), (k ≤ a ↔ k ≤ b)) : p.inRange a = p.inRange b := by
  rcases le_total a b with hab | hab
  · exact hb.inRange_same hab fun k hk => (h k hk).2
  · exact (hb.inRange_same hab fun k hk => (h k hk).1).symm

/-! ### Swaps -/

/-- Between rounds of a sale of X: everything is right, or the offer is used up and
everything is right unless the price is close to the grid. -/
def PhaseX (dx : Decimal) (p0 p : Pool) (a : SwapAcc) : Prop :=
  (Sound p ∧ Grows p0 p ∧ a.currRp = p.gs.rp ∧ p.gs.tick ≤ a.currT) ∨
  (a.recv.lt dx = .ok false ∧
    a.recv.toRat = dx.toRat ∧ (Away p → Sound p ∧ Grows p0 p))

/-- Once the goal is known. -/
def AimedX (p0 p : Pool) (g : Option Nat) (a : SwapAcc) : Prop :=
  Sound p ∧ Grows p0 p ∧ a.currRp = p.gs.rp ∧ ∀ g', g = some g' → g' ∈ p.ticks.map (·.1) ∧ g' ≤ p.gs.tick ∧ ∀ k ∈ p.ticks.map (·.1), k ≤ p.gs.tick → k ≤ g'

/-- Between rounds of a sale of Y: everything is right, or the offer is used up and
everything is right unless the price is close to the grid. -/
def PhaseY (dy : Decimal) (p0 p : Pool) (a : SwapAcc) : Prop :=
  (Sound p ∧ Grows p0 p ∧ a.currRp = p.gs.rp ∧ a.currT = p.gs.tick) ∨
  (a.recv.lt dy = .ok false ∧
    a.recv.toRat = dy.toRat ∧ (Away p → Sound p ∧ Grows p0 p))

/-- Once the goal is known. -/
def AimedY (p0 p : Pool) (g : Option Nat) (a : SwapAcc) : Prop :=
  Sound p ∧ Grows p0 p ∧ a.currRp = p.gs.rp ∧ ∀ g', g = some g' → g' ∈ p.ticks.map (·.1) ∧ p.gs.tick < g' ∧ ∀ k ∈ p.ticks.map (·.1), k < g' → k ≤ p.gs.tick

theorem PhaseX.goal {dx : Decimal} {p0 p p' : Pool} {a a' : SwapAcc} {g : Option Nat} (h : PhaseX dx p0 p a)
    (hl : a.recv.lt dx = .ok true) (hg : goalX p a = .ok (p', g, a')) : AimedX p0 p' g a' := by
  rcases h with ⟨hs, hgr, hrp, hT⟩ | ⟨hl', _⟩
  · obtain ⟨_, _, _, _, ⟨rfl, rfl, _, h1⟩ | ⟨_, h2, h3⟩⟩ := goalX_ok hg
    · exact ⟨hs, hgr, hrp, fun g' e => leftLimit_max hs.booked hT (e ▸ h1)⟩
    · obtain ⟨k1, k3, k2⟩ := hs.tryLeft (by
        unfold tickKeys; simp only [if_true]; exact List.pairwise_reverse.2 hs.booked.asc) (fun k hk _ => mem_tickKeys.2 hk) h3
      exact ⟨k1, hgr.trans k3, h2, fun g' e => leftLimit_max k1.booked le_rfl (k2 g' e)⟩
  · rw [hl] at hl'; cases hl'

theorem PhaseY.goal {dy : Decimal} {p0 p p' : Pool} {a a' : SwapAcc} {g : Option Nat} (h : PhaseY dy p0 p a)
    (hl : a.recv.lt dy = .ok true) (hg : goalY p a = .ok (p', g, a')) : AimedY p0 p' g a' := by
  rcases h with ⟨hs, hgr, hrp, hT⟩ | ⟨hl', _⟩
  · obtain ⟨_, _, _, _, ⟨rfl, rfl, _, h1⟩ | ⟨_, h2, h3⟩⟩ := goalY_ok hg
    · exact ⟨hs, hgr, hrp, fun g' e => rightLimit_min hs.booked (by rw [← e, ← h1, hT])⟩
    · obtain ⟨k1, k3, k2⟩ := hs.tryRight hs.booked.asc (fun k hk _ => hk) h3
      exact ⟨k1, hgr.trans k3, h2, fun g' e => rightLimit_min k1.booked (k2 g' e)⟩
  · rw [hl] at hl'; cases hl'

theorem lt_false_of_eq {a b : Decimal} (hb : b.isPositive = true) (hs : a.scale = b.scale) (h : a.toRat = b.toRat) :
    a.lt b = .ok false := by
  obtain ⟨e1, e2⟩ := isPositive_iff.1 hb
  have hp : 0 < a.toRat := h ▸ isPositive_toRat.1 hb
  have : a = b := Amount.ext (Amount.of_scale hs hp) ⟨rfl, e1⟩ h
  rw [this]
  unfold Decimal.lt
  simp [e1]

/-- A price that falls no further than the next initialised tick, away from the grid, passes no tick. -/
theorem Sound.stay_left {p p' : Pool} {g : Nat} {q : Decimal} (hs : Sound p) (hmax : ∀ k ∈ p.ticks.map (·.1), k ≤ p.gs.tick → k ≤ g)
    (hge : q.toRat ≤ p'.gs.rp.toRat) (hst : p'.gs.rp.toRat ≤ p.gs.rp.toRat)
    (hq : tickToRp g = .ok q) (hS : p'.spacing = p.spacing) (haway : Away p') (hin : InCell p') :
    ∀ k ∈ p.ticks.map (·.1), (k ≤ p.gs.tick ↔ k ≤ p'.gs.tick) := by
  intro k hk
  obtain ⟨qk, hqk⟩ := hs.price hk
  have hne : p'.gs.rp.toRat ≠ qk.toRat := fun e => by
    have h3 := haway k qk (hS ▸ hs.booked.grid hk) hqk
    rw [e, sub_self, abs_zero, zero_mul] at h3
    linarith [(tickToRp_pos hqk).2]
  obtain ⟨i1, i2⟩ := hin k qk (hS ▸ hs.booked.grid hk) hqk
  obtain ⟨j1, j2⟩ := hs.cell k qk (hs.booked.grid hk) hqk
  constructor
  · intro hk1
    have h3 := price_mono (hmax k hk hk1) hqk hq
    by_contra hc
    exact hne (le_antisymm (i2 (not_le.1 hc)) (h3.trans hge))
  · intro hk1
    by_contra hc
    exact hne (le_antisymm (hst.trans (j2 (not_le.1 hc))) (i1 hk1))

/-- A price that rises no further than the next initialised tick, away from the grid, passes no tick. -/
theorem Sound.stay_right {p p' : Pool} {g : Nat} {q : Decimal} (hs : Sound p) (hmax : ∀ k ∈ p.ticks.map (·.1), k < g → k ≤ p.gs.tick)
    (hge : p'.gs.rp.toRat ≤ q.toRat) (hst : p.gs.rp.toRat ≤ p'.gs.rp.toRat)
    (hq : tickToRp g = .ok q) (hS : p'.spacing = p.spacing) (haway : Away p') (hin : InCell p') :
    ∀ k ∈ p.ticks.map (·.1), (k ≤ p.gs.tick ↔ k ≤ p'.gs.tick) := by
  intro k hk
  obtain ⟨qk, hqk⟩ := hs.price hk
  have hne : p'.gs.rp.toRat ≠ qk.toRat := fun e => by
    have h3 := haway k qk (hS ▸ hs.booked.grid hk) hqk
    rw [e, sub_self, abs_zero, zero_mul] at h3
    linarith [(tickToRp_pos hqk).2]
  obtain ⟨i1, i2⟩ := hin k qk (hS ▸ hs.booked.grid hk) hqk
  obtain ⟨j1, j2⟩ := hs.cell k qk (hs.booked.grid hk) hqk
  constructor
  · intro hk1
    by_contra hc
    exact hne (le_antisymm (i2 (not_le.1 hc)) ((j1 hk1).trans hst))
  · intro hk1
    by_contra hc
    have h3 : g ≤ k := not_lt.1 fun hk' => hc (hmax k hk hk')
    exact hne (le_antisymm (hge.trans (price_mono h3 hq hqk)) (i1 hk1))

theorem AimedX.step {fl : FloatEnv} {dx o : Decimal} (hd : dx.isPositive = true) {p0 p p' : Pool} {a a' : SwapAcc}
    {g : Nat} (h : AimedX p0 p (some g) a) (hstep : stepX fl dx o p a g = .ok (p', a')) : PhaseX dx p0 p' a' := by
  obtain ⟨hs, hgr, hrp, hl⟩ := h
  obtain ⟨hmem, hle, hmax⟩ := hl g rfl
  have hbk : Booked p' := hs.booked.stepX hstep
  obtain ⟨rem, r, ysum, newY, c1, chk, rs, newX, xFee, yAdj, fees, p1, h1, h2, _, _, _, _, _, _, h9, h10,
    _, _, _, ht, hr, _, _, _, hfs, hp1, h18⟩ := stepX_ok hstep
  obtain ⟨_, _, _, h3, _, _, _, _, _, _, _, _, hadj, hfee, _⟩ := swapWithinX_ok h2
  have hrise : ∀ k, p.growth k ≤ p1.growth k := fun k => by rw [hp1]; exact riseX hadj hfee hfs k
  obtain ⟨q, _, m, dl, hq, hstart, _, _, _, _, hcase⟩ := fillX_ok h3
  rcases h18 with ⟨hcr, het, _, hc⟩ | ⟨_, _, hn, _⟩ | ⟨hcr, hpe⟩
  · rcases hcase with ⟨_, _, _, _, hrpe, _⟩ | ⟨_, hcf, _⟩
    · left
      refine ⟨hs.crossLeft (p1 := p1) hle hmax hq (by rw [hp1]) (by rw [hp1]) (by rw [hp1]) (by rw [hp1])
        (by rw [hp1]; exact hrpe) hc,
        hgr.trans (Rises.crossLeft (p1 := p1) hle (fun k hk => hs.booked.grid hk) hmax (by rw [hp1]) (by rw [hp1]) hrise hc).grows, ?_, ?_⟩
      · rw [hr, (crossTick_frame hc).2.2.2.2.2.2.2.2.2.2.2.1, hp1]
      · rw [ht, het]; exact (cross_left_tick hc).le
    · rw [hcr] at hcf; cases hcf
  · exact absurd hmem hn
  · right
    rw [hcr] at hcase
    rcases hcase with ⟨_, hcf, _⟩ | ⟨_, _, e, hf, _, hg1, hsearch, hle1, hle2⟩
    · cases hcf
    have hpos : p'.positions = p.positions := by rw [hpe, hp1]
    have he : a'.recv.toRat = dx.toRat := by
      rw [add_toRat h10, add_toRat h9, sub_toRat hf, e, sub_toRat h1]; ring
    have hsc : a'.recv.scale = dx.scale := by
      rw [(add_ok.1 h10).2.2.1, (add_ok.1 h9).2.2.1]; exact (sub_ok.1 h1).1.symm
    refine ⟨lt_false_of_eq hd hsc he, he, fun haway => ?_⟩
    have hst := (gt_le hle1).2.2 rfl
    have hge := (lt_le hle2).2.2 rfl
    rw [hrp] at hst
    have hT : p'.gs.tick = r.endTick := by rw [hpe, hp1]
    have hR : p'.gs.rp = r.endRp := by rw [hpe, hp1]
    have hL : p'.gs.liq = p.gs.liq := by rw [hpe, hp1]
    have hK : p'.ticks = p.ticks := by rw [hpe, hp1]
    have hS : p'.spacing = p.spacing := by rw [hpe, hp1]
    have hin : InCell p' := haway.inCell (start := g - 1) (by rw [hR, hT]; exact hsearch) fun k qk _ hk hqk => by
      rw [hR]
      exact (price_mono (by omega) hqk hq).trans hge
    have hsame := hs.stay_left hmax (hR ▸ hge) (hR ▸ hst) hq hS haway hin
    refine ⟨⟨hbk, hpos ▸ hs.priced, ?_, hin⟩, hgr.trans (Rises.move hK (fun k => by rw [hpe]; exact hrise k) hsame).grows⟩
    rw [hL, inRange_congr hpos, hs.active]
    exact hs.booked.inRange_iff fun k hk => (hsame k hk)

theorem Sound.sellX {fl : FloatEnv} {p p' : Pool} {dx o : Decimal} {r : SwapOutput} (hp : Sound p)
    (h : p.executeSwapFromX fl dx o = .ok (p', r)) (hon : r.recv.toRat = dx.toRat → Away p') :
    Sound p' ∧ Grows p p' := by
  unfold executeSwapFromX at h
  rw [ite_ok] at h
  rcases h with ⟨_, h⟩ | ⟨h0, h⟩
  · simp [rpanic] at h
  have hd : dx.isPositive = true := by simpa using h0
  obtain ⟨a', hf, ⟨⟨hs, hg, _⟩ | ⟨_, he, hact⟩, _⟩ | ⟨hs, hg, _⟩⟩ := loopX_rule (H := PhaseX dx p) (G := AimedX p)
    (fun hP hl hg => hP.goal hl hg) (fun hG hs => hG.step hd hs) (.inl ⟨hp, .refl _, rfl, le_rfl⟩) h
  · exact ⟨hs, hg⟩
  · exact hact (hon (by rw [(finishX_ok hf).2.1, he]))
  · exact ⟨hs, hg⟩

theorem AimedY.step {fl : FloatEnv} {dy o : Decimal} (hd : dy.isPositive = true) {p0 p p' : Pool} {a a' : SwapAcc}
    {g : Nat} (h : AimedY p0 p (some g) a) (hstep : stepY fl dy o p a g = .ok (p', a')) : PhaseY dy p0 p' a' := by
  obtain ⟨hs, hgr, hrp, hl⟩ := h
  obtain ⟨hmem, hle, hmax⟩ := hl g rfl
  have hbk : Booked p' := hs.booked.stepY hstep
  obtain ⟨rem, r, xsum, newX, c1, chk, rs, newY, yFee, xAdj, fees, p1, h1, h2, _, _, _, _, _, _, h9, h10,
    _, _, _, ht, hr, _, _, _, hfs, hp1, h18⟩ := stepY_ok hstep
  obtain ⟨_, _, _, h3, _, _, _, _, _, _, _, _, hadj, hfee, _⟩ := swapWithinY_ok h2
  have hrise : ∀ k, p.growth k ≤ p1.growth k := fun k => by rw [hp1]; exact riseY hadj hfee hfs k
  obtain ⟨q, _, m, dl, hq, hstart, _, _, _, _, hcase⟩ := fillY_ok h3
  rcases h18 with ⟨hcr, het, _, hc⟩ | ⟨_, _, hn, _⟩ | ⟨hcr, hpe⟩
  · rcases hcase with ⟨_, _, _, _, hrpe, _⟩ | ⟨_, hcf, _⟩
    · left
      refine ⟨hs.crossRight (p1 := p1) hle hmax hq (by rw [hp1]) (by rw [hp1]) (by rw [hp1]) (by rw [hp1])
        (by rw [hp1]; exact hrpe) hc,
        hgr.trans (Rises.crossRight (p1 := p1) hle hmax (by rw [hp1]) hrise hc).grows, ?_, ?_⟩
      · rw [hr, (crossTick_frame hc).2.2.2.2.2.2.2.2.2.2.2.1, hp1]
      · rw [ht, het]; exact (cross_right_tick hc).symm
    · rw [hcr] at hcf; cases hcf
  · exact absurd hmem hn
  · right
    rw [hcr] at hcase
    rcases hcase with ⟨_, hcf, _⟩ | ⟨_, _, e, hf, _, hg1, hsearch, hle1, hle2⟩
    · cases hcf
    have hpos : p'.positions = p.positions := by rw [hpe, hp1]
    have he : a'.recv.toRat = dy.toRat := by
      rw [add_toRat h10, add_toRat h9, sub_toRat hf, e, sub_toRat h1]; ring
    have hsc : a'.recv.scale = dy.scale := by
      rw [(add_ok.1 h10).2.2.1, (add_ok.1 h9).2.2.1]; exact (sub_ok.1 h1).1.symm
    refine ⟨lt_false_of_eq hd hsc he, he, fun haway => ?_⟩
    have hst := (lt_le hle1).2.2 rfl
    have hge := (gt_le hle2).2.2 rfl
    rw [hrp] at hst
    have hT : p'.gs.tick = r.endTick := by rw [hpe, hp1]
    have hR : p'.gs.rp = r.endRp := by rw [hpe, hp1]
    have hL : p'.gs.liq = p.gs.liq := by rw [hpe, hp1]
    have hK : p'.ticks = p.ticks := by rw [hpe, hp1]
    have hS : p'.spacing = p.spacing := by rw [hpe, hp1]
    have hin : InCell p' := by
      obtain ⟨seek, hseek, hsearch⟩ := hsearch
      refine haway.inCell (start := seek) (by rw [hR, hT]; exact hsearch) fun k qk hkg hk hqk => ?_
      rw [hR]
      exact ((hs.cell k qk (hS ▸ hkg) hqk).1 (by have := (C26_down hseek).2.1; omega)).trans hst
    have hsame := hs.stay_right hmax (hR ▸ hge) (hR ▸ hst) hq hS haway hin
    refine ⟨⟨hbk, hpos ▸ hs.priced, ?_, hin⟩, hgr.trans (Rises.move hK (fun k => by rw [hpe]; exact hrise k) hsame).grows⟩
    rw [hL, inRange_congr hpos, hs.active]
    exact hs.booked.inRange_iff fun k hk => (hsame k hk)

theorem Sound.sellY {fl : FloatEnv} {p p' : Pool} {dy o : Decimal} {r : SwapOutput} (hp : Sound p)
    (h : p.executeSwapFromY fl dy o = .ok (p', r)) (hon : r.recv.toRat = dy.toRat → Away p') :
    Sound p' ∧ Grows p p' := by
  unfold executeSwapFromY at h
  rw [ite_ok] at h
  rcases h with ⟨_, h⟩ | ⟨h0, h⟩
  · simp [rpanic] at h
  have hd : dy.isPositive = true := by simpa using h0
  obtain ⟨a', hf, ⟨⟨hs, hg, _⟩ | ⟨_, he, hact⟩, _⟩ | ⟨hs, hg, _⟩⟩ := loopY_rule (H := PhaseY dy p) (G := AimedY p)
    (fun hP hl hg => hP.goal hl hg) (fun hG hs => hG.step hd hs) (.inl ⟨hp, .refl _, rfl, rfl⟩) h
  · exact ⟨hs, hg⟩
  · exact hact (hon (by rw [(finishY_ok hf).2.1, he]))
  · exact ⟨hs, hg⟩

/-! ### Whole histories -/

theorem Sound.setPosition {p p' : Pool} (hs : Sound p) {user lower upper : Nat} {d : Decimal} {f : Fees}
    (hlu : lower < upper) (hl : p.spacing ∣ lower) (hu : p.spacing ∣ upper) (hub : upper < 2 ^ 19)
    (h : p.setPosition user lower upper d = .ok (p', f)) : Sound p' := by
  obtain ⟨_, _, _, q4, q5, _⟩ := setPosition_sums hs.booked.unique h
  have hf := setPosition_frame h
  have hT : p'.gs.tick = p.gs.tick := by rw [hf]
  have hR : p'.gs.rp = p.gs.rp := by rw [hf]
  have hS : p'.spacing = p.spacing := by rw [hf]
  refine ⟨hs.booked.setPosition hlu hl hu h, fun k s hk => ?_, ?_, ?_⟩
  · by_cases hk' : k = ⟨user, lower, upper⟩
    · subst hk'; exact hub
    · rw [q5 k hk'] at hk; exact hs.priced k s hk
  · rw [setPosition_liq h, hT, q4, hs.active]
  · unfold InCell
    rw [hT, hR, hS]
    exact hs.cell

theorem Sound.same {p p' : Pool} (hs : Sound p) (h1 : p'.positions = p.positions) (h2 : p'.ticks = p.ticks)
    (h3 : p'.gs = p.gs) (h4 : p'.spacing = p.spacing) : Sound p' := by
  refine ⟨hs.booked.same h1 h2 h4, h1 ▸ hs.priced, ?_, ?_⟩
  · rw [inRange_congr h1, h3]; exact hs.active
  · unfold InCell; rw [h3, h4]; exact hs.cell

theorem Sound.deposit {p p' : Pool} (hs : Sound p) {user : Nat} {x y rpa rpb : Decimal} {r : Receipt}
    (h : p.deposit user x y rpa rpb = .ok (p', r)) : Sound p' := by
  obtain ⟨lower, upper, a, b, liq, p1, p2, px, py, _, _, _, _, g1, g2, g3, _, g5, _, _, _, _, _, _, h1, _, _, h2, h3,
    h4, rfl⟩ := deposit_ok h
  obtain ⟨e1, e2, e4, e3, _⟩ := payFees_frame h4
  exact (hs.setPosition g3 (rpToPossibleTick_grid g1) (rpToPossibleTick_grid g2) (tickToRp_lt g5) h1).same
    e1 e2 e4 e3

theorem Sound.withdraw {p p' : Pool} (hs : Sound p) {user : Nat} {liq rpa rpb : Decimal} {r : Receipt}
    (h : p.withdraw user liq rpa rpb = .ok (p', r)) : Sound p' := by
  obtain ⟨lower, upper, a, b, p1, p2, x0, y0, adj, px, py, _, g1, g2, g3, _, g5, h1, _, _, _, _, _, _, _, _, _, _, _,
    h5, rfl⟩ := withdraw_ok h
  obtain ⟨e1, e2, e4, e3, _⟩ := payFees_frame h5
  exact (hs.setPosition g3 (rpToPossibleTick_grid g1) (rpToPossibleTick_grid g2) (tickToRp_lt g5) h1).same
    e1 e2 e4 e3

theorem Sound.new {rp : Decimal} {spacing : Nat} {c fee : Decimal} {p : Pool}
    (h : Pool.new rp spacing c fee = .ok p) : Sound p := by
  have hb := Booked.new h
  obtain ⟨tk, q, _, _, _, _, hq, rfl⟩ := new_ok h
  refine ⟨hb, fun k s hk => by simp [mapGet] at hk, by simp [inRange, sumPos, zero_toRat], fun g qg _ hg => ?_⟩
  exact ⟨fun hle => price_mono hle hg hq, fun hlt => price_mono hlt.le hq hg⟩

theorem Sound.clearReachable {p : Pool} (h : ClearReachable p) : Sound p := by
  induction h with
  | new h => exact Sound.new h
  | step _ hs ih =>
    cases hs with
    | deposit h => exact ih.deposit h
    | withdraw h => exact ih.withdraw h
    | sellX h hon => exact (ih.sellX h hon).1
    | sellY h hon => exact (ih.sellY h hon).1

end Hmm.Pool
