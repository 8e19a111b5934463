import Verif.Spec.FloatActive
import Verif.Proofs.FloatQuiet
import Verif.Proofs.FloatEnds
import Verif.Proofs.FloatStage
import Verif.Props.FloatTicks

/-
Active liquidity of the floating-point pool against the positions in range.
-/

namespace Hmm.Flt

open F64

attribute [local irreducible] unit limit

/-! ### Order of doubles -/

/-- Place in the order, for doubles that are numbers. -/
theorem le_iff {a b : F64} : le a b = true ↔
    (match a, b with
      | .nan, _ => False
      | _, .nan => False
      | .inf true, _ => True
      | _, .inf false => True
      | .inf false, _ => False
      | _, .inf true => False
      | .fin s m, .fin t n => signed s m ≤ signed t n) := by
  unfold le
  cases a with
  | nan => cases b <;> simp [lt, F64.eq]
  | inf s => cases b with
    | nan => simp [lt, F64.eq]
    | inf t => cases s <;> cases t <;> simp [lt, F64.eq]
    | fin t n => cases s <;> simp [lt, F64.eq]
  | fin s m => cases b with
    | nan => simp [lt, F64.eq]
    | inf t => cases t <;> simp [lt, F64.eq]
    | fin t n => simp only [lt, F64.eq, Bool.or_eq_true, decide_eq_true_eq]; omega

theorem lt_iff {a b : F64} : lt a b = true ↔
    (match a, b with
      | .nan, _ => False
      | _, .nan => False
      | .inf true, .inf false => True
      | .inf true, .fin _ _ => True
      | .fin _ _, .inf false => True
      | .inf _, _ => False
      | _, .inf _ => False
      | .fin s m, .fin t n => signed s m < signed t n) := by
  cases a with
  | nan => cases b <;> simp [lt]
  | inf s => cases b with
    | nan => simp [lt]
    | inf t => cases s <;> cases t <;> simp [lt]
    | fin t n => cases s <;> simp [lt]
  | fin s m => cases b with
    | nan => simp [lt]
    | inf t => cases t <;> simp [lt]
    | fin t n => simp only [lt, decide_eq_true_eq]

theorem le_trans' {a b c : F64} (h1 : le a b = true) (h2 : le b c = true) : le a c = true := by
  rw [le_iff] at *
  rcases a with _ | (_ | _) | ⟨s, m⟩ <;> rcases b with _ | (_ | _) | ⟨t, n⟩ <;> rcases c with _ | (_ | _) | ⟨u, k⟩ <;>
    simp_all
  omega

theorem le_of_lt' {a b : F64} (h : lt a b = true) : le a b = true := by
  unfold le; rw [h]; rfl

theorem not_lt' {a b : F64} (h : le a b = true) : lt b a = false := by
  cases hl : lt b a with
  | false => rfl
  | true =>
    exfalso
    rw [le_iff] at h
    rw [lt_iff] at hl
    rcases a with _ | (_ | _) | ⟨s, m⟩ <;> rcases b with _ | (_ | _) | ⟨t, n⟩ <;> simp_all
    omega

theorem le_of_not_lt' {a b : F64} (h : lt b a = false) (ha : a ≠ nan) (hb : b ≠ nan) : le a b = true := by
  cases hl : le a b with
  | true => rfl
  | false =>
    exfalso
    rw [← Bool.not_eq_true] at h hl
    rw [le_iff] at hl
    rw [lt_iff] at h
    rcases a with _ | (_ | _) | ⟨s, m⟩ <;> rcases b with _ | (_ | _) | ⟨t, n⟩ <;> simp_all

theorem le_refl' {a : F64} (h : a ≠ nan) : le a a = true := by
  rw [le_iff]
  rcases a with _ | (_ | _) | ⟨s, m⟩ <;> simp_all

theorem not_lt_le {a b : F64} (h1 : lt a b = true) (h2 : le b a = true) : False := by
  rw [not_lt' h2] at h1; cases h1

/-! ### Which ticks are initialised -/

/-- Liquidity of the positions whose range contains `t`. -/
def inRangeAt (p : Pool) (t : Nat) : ℚ := p.sumLiq fun k => if k.lower ≤ t ∧ t < k.upper then 1 else 0

theorem inRange_eq (p : Pool) : p.inRange = inRangeAt p p.gs.tick := rfl

/-- A tick is initialised exactly when a position with liquidity has a bound there. -/
theorem Inv.mem_keys {p : Pool} (hi : Inv p) {t : Nat} : t ∈ p.keys ↔ 0 < p.touching t := by
  obtain ⟨g, n, e1, _, hT⟩ := hi.books t
  unfold TickIs at hT
  unfold Pool.keys
  rw [← mapGet_isSome, e1]
  cases hg : mapGet t p.ticks with
  | none => rw [hg] at hT; obtain ⟨rfl, _⟩ := hT; simp
  | some ts => rw [hg] at hT; simp only [Option.isSome_some, true_iff]; exact_mod_cast hT.2.2

/-- The bounds of a position with liquidity are initialised. -/
theorem Inv.initialised {p : Pool} (hi : Inv p) {k : PositionKey} {v : PositionState} (hm : (k, v) ∈ p.positions)
    (h0 : v.liq.val ≠ 0) : k.lower ∈ p.keys ∧ k.upper ∈ p.keys := by
  have hpos : 0 < v.liq.val := lt_of_le_of_ne (hi.whole.val_nonneg hm) h0.symm
  have key : ∀ t, (k.lower = t ∨ k.upper = t) → t ∈ p.keys := by
    intro t ht
    rw [hi.mem_keys]
    unfold Pool.touching Pool.sumLiq
    refine lt_of_lt_of_le ?_ (List.single_le_sum ?_
      (((if k.lower = t then 1 else 0) + (if k.upper = t then 1 else 0)) * v.liq.val)
      (List.mem_map.2 ⟨(k, v), hm, rfl⟩))
    · refine mul_pos ?_ hpos
      rcases ht with rfl | rfl
      · rw [if_pos rfl]; split <;> norm_num
      · rw [if_pos (rfl : k.upper = k.upper)]; split <;> norm_num
    · intro x hx
      obtain ⟨⟨k', v'⟩, hm', rfl⟩ := List.mem_map.1 hx
      refine mul_nonneg ?_ (hi.whole.val_nonneg hm')
      simp only
      split <;> split <;> norm_num
  exact ⟨key _ (.inl rfl), key _ (.inr rfl)⟩

/-- Ticks separated by the same initialised ticks have the same positions in range. -/
theorem Inv.inRange_iff {p : Pool} (hi : Inv p) {a b : Nat} (h : ∀ k ∈ p.keys, (k ≤ a ↔ k ≤ b)) :
    inRangeAt p a = inRangeAt p b := by
  unfold inRangeAt
  rw [sumLiq_eq, sumLiq_eq]
  refine mapSum_congr fun k v hm => ?_
  by_cases h0 : v.liq.val = 0
  · rw [h0, mul_zero, mul_zero]
  · obtain ⟨h1, h2⟩ := hi.initialised hm h0
    have i1 := h _ h1
    have i2 := h _ h2
    congr 1
    by_cases hr : k.lower ≤ a ∧ a < k.upper
    · rw [if_pos hr, if_pos (by omega)]
    · rw [if_neg hr, if_neg (by omega)]

theorem mapSum_add' {κ α : Type} (f g : κ → α → ℚ) (m : List (κ × α)) :
    mapSum (fun k v => f k v + g k v) m = mapSum f m + mapSum g m := by
  induction m with
  | nil => simp [mapSum]
  | cons e m ih => rw [mapSum_cons, mapSum_cons, mapSum_cons, ih]; ring

/-- Passing one initialised tick: its positions begin or end. -/
theorem Inv.inRange_cross {p : Pool} (hi : Inv p)
    (hr : ∀ k v, (k, v) ∈ p.positions → v.liq.val ≠ 0 → k.lower ≤ k.upper) {a t : Nat} (hat : a < t)
    (hno : ∀ g ∈ p.keys, g < t → g ≤ a) : inRangeAt p t = inRangeAt p a + p.entering t := by
  unfold inRangeAt Pool.entering
  rw [sumLiq_eq, sumLiq_eq, sumLiq_eq, ← mapSum_add']
  refine mapSum_congr fun k v hm => ?_
  by_cases h0 : v.liq.val = 0
  · rw [h0]; ring
  · obtain ⟨h1, h2⟩ := hi.initialised hm h0
    have hlu := hr k v hm h0
    have hl := hno _ h1
    have hu := hno _ h2
    by_cases c1 : k.lower = t
    · by_cases c2 : k.upper = t
      · rw [if_neg (by omega), if_neg (by omega), if_pos c1, if_pos c2]; ring
      · rw [if_pos (by omega), if_neg (by omega), if_pos c1, if_neg c2]; ring
    · by_cases c2 : k.upper = t
      · rw [if_neg (by omega), if_pos (by omega), if_neg c1, if_pos c2]; ring
      · by_cases c3 : k.lower ≤ t ∧ t < k.upper
        · rw [if_pos c3, if_pos (by omega), if_neg c1, if_neg c2]; ring
        · rw [if_neg c3, if_neg (by omega), if_neg c1, if_neg c2]; ring

/-! ### The limits of a round -/

/-- The grid. -/
structure Grid (p : Pool) : Prop where
  pos : 0 < p.spacing
  small : p.spacing < 2 ^ 32
  tick : p.gs.tick < 2 ^ 32
  dvd : ∀ k ∈ p.keys, p.spacing ∣ k ∧ k < 2 ^ 32
  asc : Ascending p.ticks

/-- Multiples of the spacing not above a tick are not above the tick moved to the grid. -/
theorem snap_ge {t s k : Nat} (ht : t < 2 ^ 32) (hs : 0 < s) (hs' : s < 2 ^ 32) (hk : s ∣ k) (h : k ≤ t) :
    k ≤ tkToPossibleTk t s false := by
  obtain ⟨⟨j, hj⟩, _, h2⟩ := snap_down ht hs hs'
  obtain ⟨i, rfl⟩ := hk
  rw [hj] at h2 ⊢
  refine Nat.mul_le_mul_left _ ?_
  have : s * i < s * (j + 1) := by rw [mul_add, mul_one]; omega
  have := Nat.lt_of_mul_lt_mul_left this
  omega

theorem leftLimit_max {p : Pool} (hg : Grid p) {s g : Nat} (hs : p.gs.tick ≤ s) (h : p.leftLimit s = some g) :
    g ∈ p.keys ∧ g ≤ p.gs.tick ∧ ∀ k ∈ p.keys, k ≤ p.gs.tick → k ≤ g := by
  obtain ⟨h1, h2⟩ := Pool.leftLimit_le hg.small h
  refine ⟨h1, h2, fun k hk hkt => ?_⟩
  unfold Pool.leftLimit at h
  simp only at h
  have hmin : Nat.min s p.gs.tick = p.gs.tick := Nat.min_eq_right hs
  rw [hmin] at h
  have hkt' : k ≤ p.tickToPossibleTick p.gs.tick false := snap_ge hg.tick hg.pos hg.small (hg.dvd k hk).1 hkt
  obtain ⟨_, as, bs, e3, e4⟩ := List.find?_eq_some_iff_append.1 h
  have hd : (p.tickKeys true).Pairwise (· > ·) := by
    unfold Pool.tickKeys
    simp only [if_true]
    exact List.pairwise_reverse.2 hg.asc
  have hmem : k ∈ p.tickKeys true := by simpa [Pool.tickKeys, Pool.keys] using hk
  rw [e3] at hmem hd
  rcases List.mem_append.1 hmem with h5 | h5
  · have := e4 k h5
    simp at this
    omega
  · rcases List.mem_cons.1 h5 with rfl | h5
    · exact le_refl _
    · exact (List.rel_of_pairwise_cons (List.pairwise_append.1 hd).2.1 h5).le

theorem rightLimit_min {p : Pool} (hg : Grid p) {g : Nat} (h : p.rightLimit p.gs.tick p.gs.tick = .ok (some g)) :
    g ∈ p.keys ∧ p.gs.tick < g ∧ ∀ k ∈ p.keys, k < g → k ≤ p.gs.tick := by
  obtain ⟨h1, h2⟩ := Pool.rightLimit_gt h
  refine ⟨h1, h2, fun k hk hkg => ?_⟩
  unfold Pool.rightLimit at h
  simp only at h
  have hle : p.tickToPossibleTick p.gs.tick false ≤ p.gs.tick := snap_le hg.small
  rw [ite_ok] at h
  rcases h with ⟨h0, h⟩ | ⟨h0, h⟩
  · rw [ok_inj] at h
    obtain ⟨_, as, bs, e3, e4⟩ := List.find?_eq_some_iff_append.1 h
    have hd : (p.tickKeys false).Pairwise (· < ·) := hg.asc
    have hmem : k ∈ p.tickKeys false := by simpa [Pool.tickKeys, Pool.keys] using hk
    rw [e3] at hmem hd
    rcases List.mem_append.1 hmem with h5 | h5
    · have := e4 k h5
      simp at this
      omega
    · rcases List.mem_cons.1 h5 with rfl | h5
      · omega
      · have := List.rel_of_pairwise_cons (List.pairwise_append.1 hd).2.1 h5
        omega
  · rw [ite_ok] at h
    rcases h with ⟨h0', _⟩ | ⟨_, h⟩
    · omega
    · exact absurd h (by simp [rpanic])

/-! ### The invariant -/

/-- Books right, on the grid, ranges not inverted, active liquidity right, price and tick in place. -/
structure Sound (m : LibM) (p : Pool) : Prop where
  inv : Inv p
  grid : Grid p
  ranges : ∀ k v, (k, v) ∈ p.positions → v.liq.val ≠ 0 → k.lower ≤ k.upper
  active : Active p
  placed : p.Placed m

theorem Sound.ordered {m : LibM} {p : Pool} (h : Sound m p) {j k : Nat} (hj : j ∈ p.keys) (hk : k ∈ p.keys)
    (hjk : j ≤ k) : le (tickToRp m j) (tickToRp m k) = true := h.placed.2 j hj k hk hjk

theorem Sound.below {m : LibM} {p : Pool} (h : Sound m p) {k : Nat} (hk : k ∈ p.keys) (hkt : k ≤ p.gs.tick) :
    le (tickToRp m k) p.gs.rp = true := by
  have := h.placed.1 k hk; rwa [if_pos hkt] at this

theorem Sound.above {m : LibM} {p : Pool} (h : Sound m p) {k : Nat} (hk : k ∈ p.keys) (hkt : p.gs.tick < k) :
    le p.gs.rp (tickToRp m k) = true := by
  have := h.placed.1 k hk; rwa [if_neg (by omega)] at this

/-- A sum over ranges is at most `2^52`. -/
theorem inRangeAt_bound {p : Pool} (hi : Inv p) {t : Nat} {z : ℤ} (h : inRangeAt p t = z) : |z| ≤ 2 ^ 53 := by
  have h1 : 0 ≤ inRangeAt p t := by
    unfold inRangeAt
    rw [sumLiq_eq]
    refine mapSum_nonneg fun k v hm => mul_nonneg ?_ (hi.whole.val_nonneg hm)
    split <;> norm_num
  have h2 : inRangeAt p t ≤ p.total := hi.whole.sum_le fun k => by split <;> norm_num
  have h3 := hi.bound
  rw [h] at h1 h2
  have l1 : 0 ≤ z := by exact_mod_cast h1
  have l2 : z ≤ 2 ^ 52 := by
    have : ((z : ℤ) : ℚ) ≤ ((2 ^ 52 : ℤ) : ℚ) := by push_cast; linarith
    exact_mod_cast this
  have b53 : (2 : ℤ) ^ 53 = 9007199254740992 := by norm_num
  have b52 : (2 : ℤ) ^ 52 = 4503599627370496 := by norm_num
  rw [abs_le]; omega

/-- What a pool and the pool between two steps of a round have in common. -/
structure Alike (p p1 : Pool) : Prop where
  positions : p1.positions = p.positions
  ticks : p1.ticks = p.ticks
  spacing : p1.spacing = p.spacing
  liq : p1.gs.liq = p.gs.liq

theorem inRangeAt_congr {p p' : Pool} (h : p'.positions = p.positions) (t : Nat) : inRangeAt p' t = inRangeAt p t := by
  unfold inRangeAt Pool.sumLiq; rw [h]

theorem Inv.alike {p p1 : Pool} (hi : Inv p) (h : Alike p p1) : Inv p1 := by
  have hs : ∀ w, p1.sumLiq w = p.sumLiq w := fun w => by unfold Pool.sumLiq; rw [h.positions]
  refine ⟨fun k v hm => hi.whole k v (by rw [← h.positions]; exact hm), ?_, by rw [h.positions]; exact hi.unique, ?_⟩
  · have := hi.bound; unfold Pool.total at this ⊢; rw [hs]; exact this
  · intro t
    obtain ⟨g, n, e1, e2, hT⟩ := hi.books t
    unfold Pool.touching Pool.entering at *
    exact ⟨g, n, by rw [hs]; exact e1, by rw [hs]; exact e2, hT.congr (by rw [h.ticks])⟩

/-- The record of an initialised tick. -/
theorem Inv.net {p : Pool} (hi : Inv p) {t : Nat} {ts : TickState} (h : mapGet t p.ticks = some ts) :
    ∃ n : ℤ, p.entering t = n ∧ ts.liqNet.IsInt n := by
  obtain ⟨g, n, _, e2, hT⟩ := hi.books t
  unfold TickIs at hT
  rw [h] at hT
  exact ⟨n, e2, hT.2.1⟩

/-- A leftward crossing keeps the active liquidity right. -/
theorem Sound.crossLeft {m : LibM} {p p1 p' : Pool} (h : Sound m p) {g : Nat} (hmem : g ∈ p.keys) (hle : g ≤ p.gs.tick)
    (hmax : ∀ k ∈ p.keys, k ≤ p.gs.tick → k ≤ g) (e : Alike p p1) (e5 : p1.gs.rp = tickToRp m g)
    (hc : p1.crossTick g false = .ok p') : Sound m p' ∧ p'.gs.rp = tickToRp m g ∧ p'.gs.tick < g ∧ p'.keys = p.keys := by
  have hi1 := h.inv.alike e
  have hi' : Inv p' := Inv.kept.cross _ _ _ _ hc hi1
  have hk' : p'.keys = p.keys := by
    have := Pool.crossTick_keys hc
    unfold Pool.keys; rw [this, e.ticks]
  have hasc : Ascending p'.ticks := by
    unfold Ascending
    rw [show p'.ticks.map (·.1) = p.ticks.map (·.1) from hk']
    exact h.grid.asc
  obtain ⟨ts, nt, g1, _, _, g2, g3, hp'⟩ := Pool.crossTick_ok hc
  obtain ⟨g4, g5⟩ := g2 rfl
  have hg32 := (h.grid.dvd g hmem).2
  have hsn : nt ≤ g - 1 := by rw [g5]; exact snap_le (by rw [e.spacing]; exact h.grid.small)
  have hsep : ∀ k ∈ p.keys, k < g → k ≤ nt := fun k hk hkg => by
    rw [g5, e.spacing]
    exact snap_ge (by omega) h.grid.pos h.grid.small (h.grid.dvd k hk).1 (by omega)
  have hpos : p'.positions = p.positions := by rw [hp']; exact e.positions
  have hsp : p'.spacing = p.spacing := by rw [hp']; exact e.spacing
  have ht : p'.gs.tick = nt := by rw [hp']
  have hrp : p'.gs.rp = tickToRp m g := by rw [hp']; exact e5
  obtain ⟨n, en, hn⟩ := h.inv.net (by rw [← e.ticks]; exact g1)
  have hr1 : inRangeAt p g = inRangeAt p p.gs.tick := h.inv.inRange_iff fun k hk => ⟨fun h => by omega, hmax k hk⟩
  have hr2 := h.inv.inRange_cross h.ranges (a := nt) (t := g) (by omega) hsep
  obtain ⟨a, ea, ha⟩ := h.active
  rw [inRange_eq] at ea
  have hv : inRangeAt p nt = ((a + -n : ℤ) : ℚ) := by
    rw [← hr1, hr2, en] at ea; push_cast; linarith
  refine ⟨⟨hi', ⟨hsp ▸ h.grid.pos, hsp ▸ h.grid.small, by rw [ht]; omega, by rw [hk', hsp]; exact h.grid.dvd, hasc⟩,
    by rw [hpos]; exact h.ranges, ⟨a + -n, ?_, ?_⟩, ?_, ?_⟩, hrp, by rw [ht]; omega, hk'⟩
  · rw [inRange_eq, inRangeAt_congr hpos, ht, hv]
  · rw [hp']
    simp only [Bool.false_eq_true, if_false]
    rw [e.liq]
    exact add_int ha (neg_int hn) (inRangeAt_bound h.inv hv)
  · intro k hk
    have hk : k ∈ p.keys := by rw [← hk']; exact hk
    rw [ht, hrp]
    split
    · exact h.ordered hk hmem (by omega)
    · refine h.ordered hmem hk ?_
      by_contra hlt
      have := hsep k hk (by omega)
      omega
  · intro j hj k hk hjk
    exact h.ordered (by rw [← hk']; exact hj) (by rw [← hk']; exact hk) hjk

/-- A rightward crossing keeps the active liquidity right. -/
theorem Sound.crossRight {m : LibM} {p p1 p' : Pool} (h : Sound m p) {g : Nat} (hmem : g ∈ p.keys) (hlt : p.gs.tick < g)
    (hmin : ∀ k ∈ p.keys, k < g → k ≤ p.gs.tick) (e : Alike p p1) (e5 : p1.gs.rp = tickToRp m g)
    (hc : p1.crossTick g true = .ok p') : Sound m p' ∧ p'.gs.rp = tickToRp m g ∧ p'.gs.tick = g ∧ p'.keys = p.keys := by
  have hi1 := h.inv.alike e
  have hi' : Inv p' := Inv.kept.cross _ _ _ _ hc hi1
  have hk' : p'.keys = p.keys := by
    have := Pool.crossTick_keys hc
    unfold Pool.keys; rw [this, e.ticks]
  have hasc : Ascending p'.ticks := by
    unfold Ascending
    rw [show p'.ticks.map (·.1) = p.ticks.map (·.1) from hk']
    exact h.grid.asc
  obtain ⟨ts, nt, g1, _, g2, _, g3, hp'⟩ := Pool.crossTick_ok hc
  have g4 := g2 rfl
  subst g4
  have hg32 := (h.grid.dvd nt hmem).2
  have hpos : p'.positions = p.positions := by rw [hp']; exact e.positions
  have hsp : p'.spacing = p.spacing := by rw [hp']; exact e.spacing
  have ht : p'.gs.tick = nt := by rw [hp']
  have hrp : p'.gs.rp = tickToRp m nt := by rw [hp']; exact e5
  obtain ⟨n, en, hn⟩ := h.inv.net (by rw [← e.ticks]; exact g1)
  have hr2 := h.inv.inRange_cross h.ranges (a := p.gs.tick) (t := nt) hlt hmin
  obtain ⟨a, ea, ha⟩ := h.active
  rw [inRange_eq] at ea
  have hv : inRangeAt p nt = ((a + n : ℤ) : ℚ) := by
    rw [hr2, en, ea]; push_cast; rfl
  refine ⟨⟨hi', ⟨hsp ▸ h.grid.pos, hsp ▸ h.grid.small, by rw [ht]; omega, by rw [hk', hsp]; exact h.grid.dvd, hasc⟩,
    by rw [hpos]; exact h.ranges, ⟨a + n, ?_, ?_⟩, ?_, ?_⟩, hrp, ht, hk'⟩
  · rw [inRange_eq, inRangeAt_congr hpos, ht, hv]
  · rw [hp']
    simp only [if_true]
    rw [e.liq]
    exact add_int ha hn (inRangeAt_bound h.inv hv)
  · intro k hk
    have hk : k ∈ p.keys := by rw [← hk']; exact hk
    rw [ht, hrp]
    split
    · exact h.ordered hk hmem (by omega)
    · exact h.ordered hmem hk (by omega)
  · intro j hj k hk hjk
    exact h.ordered (by rw [← hk']; exact hj) (by rw [← hk']; exact hk) hjk

/-! ### Walking to the next liquidity -/

theorem Sound.tryLeft {m : LibM} : ∀ {tks : List Nat} {p p' : Pool} {goal : Option Nat} {rp : F64}, Sound m p →
    tks.Pairwise (· > ·) → (∀ k ∈ tks, k ∈ p.keys) → (∀ k ∈ p.keys, k ≤ p.gs.tick → k ∈ tks) →
    Pool.tryInRangeLeft m tks p = .ok (p', goal, rp) →
    Sound m p' ∧ p'.keys = p.keys ∧ rp = p'.gs.rp ∧ p'.gs.tick ≤ p.gs.tick ∧
      ∀ g, goal = some g → p'.leftLimit p'.gs.tick = some g := by
  intro tks
  induction tks with
  | nil =>
    intro p p' goal rp hb _ _ _ h
    unfold Pool.tryInRangeLeft at h
    rw [ok_inj, Prod.mk.injEq, Prod.mk.injEq] at h
    obtain ⟨rfl, rfl, rfl⟩ := h
    exact ⟨hb, rfl, rfl, le_refl _, fun g hg => by cases hg⟩
  | cons tk tks ih =>
    intro p p' goal rp hb hpw hin hall h
    have hpw' := List.pairwise_cons.1 hpw
    unfold Pool.tryInRangeLeft at h
    rw [ite_ok] at h
    rcases h with ⟨h0, h⟩ | ⟨h0, h⟩
    · refine ih hb hpw'.2 (fun k hk => hin k (List.mem_cons_of_mem _ hk)) (fun k hk hkt => ?_) h
      rcases List.mem_cons.1 (hall k hk hkt) with rfl | hm
      · omega
      · exact hm
    · simp only at h
      rw [bind_ok] at h; obtain ⟨p1, h1, h⟩ := h
      have hmax : ∀ k ∈ p.keys, k ≤ p.gs.tick → k ≤ tk := fun k hk hkt => by
        rcases List.mem_cons.1 (hall k hk hkt) with rfl | hm
        · exact le_refl _
        · exact (hpw'.1 k hm).le
      obtain ⟨hs1, hr1, ht1, hk1⟩ := hb.crossLeft (hin tk List.mem_cons_self)
        (p1 := (p.setTick tk).setRp (tickToRp m tk)) (not_lt.1 h0) hmax ⟨rfl, rfl, rfl, rfl⟩ rfl h1
      rw [Pool.ite_eq_ok] at h; rcases h with ⟨_, h⟩ | ⟨_, h⟩; · exact absurd h (by simp [rpanic])
      rw [Pool.ite_eq_ok] at h; rcases h with ⟨_, h⟩ | ⟨_, h⟩
      · rw [pure_ok, Prod.mk.injEq, Prod.mk.injEq] at h
        obtain ⟨rfl, h2, rfl⟩ := h
        exact ⟨hs1, hk1, rfl, by omega, fun g hg => by rw [h2, hg]⟩
      · obtain ⟨k1, k2, k3, k4, k5⟩ := ih hs1 hpw'.2 (fun k hk => by rw [hk1]; exact hin k (List.mem_cons_of_mem _ hk))
          (fun k hk hkt => by
            rw [hk1] at hk
            rcases List.mem_cons.1 (hall k hk (by omega)) with rfl | hm
            · omega
            · exact hm) h
        exact ⟨k1, k2.trans hk1, k3, by omega, k5⟩

theorem Sound.tryRight {m : LibM} : ∀ {tks : List Nat} {p p' : Pool} {goal : Option Nat} {rp : F64}, Sound m p →
    tks.Pairwise (· < ·) → (∀ k ∈ tks, k ∈ p.keys) → (∀ k ∈ p.keys, p.gs.tick < k → k ∈ tks) →
    Pool.tryInRangeRight m tks p = .ok (p', goal, rp) →
    Sound m p' ∧ p'.keys = p.keys ∧ rp = p'.gs.rp ∧
      ∀ g, goal = some g → p'.rightLimit p'.gs.tick p'.gs.tick = .ok (some g) := by
  intro tks
  induction tks with
  | nil =>
    intro p p' goal rp hb _ _ _ h
    unfold Pool.tryInRangeRight at h
    rw [ok_inj, Prod.mk.injEq, Prod.mk.injEq] at h
    obtain ⟨rfl, rfl, rfl⟩ := h
    exact ⟨hb, rfl, rfl, fun g hg => by cases hg⟩
  | cons tk tks ih =>
    intro p p' goal rp hb hpw hin hall h
    have hpw' := List.pairwise_cons.1 hpw
    unfold Pool.tryInRangeRight at h
    rw [ite_ok] at h
    rcases h with ⟨h0, h⟩ | ⟨h0, h⟩
    · refine ih hb hpw'.2 (fun k hk => hin k (List.mem_cons_of_mem _ hk)) (fun k hk hkt => ?_) h
      rcases List.mem_cons.1 (hall k hk hkt) with rfl | hm
      · omega
      · exact hm
    · simp only at h
      rw [bind_ok] at h; obtain ⟨p1, h1, h⟩ := h
      rw [bind_ok] at h; obtain ⟨goal1, h2, h⟩ := h
      have hmin : ∀ k ∈ p.keys, k < tk → k ≤ p.gs.tick := fun k hk hkt => by
        by_contra hc
        rcases List.mem_cons.1 (hall k hk (by omega)) with rfl | hm
        · omega
        · have := hpw'.1 k hm; omega
      obtain ⟨hs1, hr1, ht1, hk1⟩ := hb.crossRight (hin tk List.mem_cons_self)
        (p1 := (p.setTick tk).setRp (tickToRp m tk)) (not_le.1 h0) hmin ⟨rfl, rfl, rfl, rfl⟩ rfl h1
      rw [Pool.ite_eq_ok] at h; rcases h with ⟨_, h⟩ | ⟨_, h⟩; · exact absurd h (by simp [rpanic])
      rw [Pool.ite_eq_ok] at h; rcases h with ⟨_, h⟩ | ⟨_, h⟩
      · rw [pure_ok, Prod.mk.injEq, Prod.mk.injEq] at h
        obtain ⟨rfl, rfl, rfl⟩ := h
        exact ⟨hs1, hk1, rfl, fun g hg => by rw [ht1, ← hg]; exact h2⟩
      · obtain ⟨k1, k2, k3, k4⟩ := ih hs1 hpw'.2 (fun k hk => by rw [hk1]; exact hin k (List.mem_cons_of_mem _ hk))
          (fun k hk hkt => by
            rw [hk1] at hk
            rcases List.mem_cons.1 (hall k hk (by omega)) with rfl | hm
            · omega
            · exact hm) h
        exact ⟨k1, k2.trans hk1, k3, k4⟩

theorem Sound.tryGetLeft {m : LibM} {p p' : Pool} {goal : Option Nat} {rp : F64} (hs : Sound m p)
    (h : p.tryGetInRange m false = .ok (p', goal, rp)) :
    Sound m p' ∧ p'.keys = p.keys ∧ rp = p'.gs.rp ∧ p'.gs.tick ≤ p.gs.tick ∧
      ∀ g, goal = some g → p'.leftLimit p'.gs.tick = some g := by
  unfold Pool.tryGetInRange at h
  rw [Pool.ite_eq_ok] at h
  rcases h with ⟨_, h⟩ | ⟨_, h⟩
  · exact absurd h (by simp [rpanic])
  · rw [bind_ok] at h
    obtain ⟨⟨q1, g1, r1⟩, h1, h⟩ := h
    simp only at h
    rw [Pool.ite_eq_ok] at h
    rcases h with ⟨_, h⟩ | ⟨_, h⟩
    · exact absurd h (by simp [rpanic])
    · rw [pure_ok, Prod.mk.injEq, Prod.mk.injEq] at h
      obtain ⟨rfl, rfl, rfl⟩ := h
      refine hs.tryLeft ?_ ?_ ?_ h1
      · unfold Pool.tickKeys; simp only [if_true]; exact List.pairwise_reverse.2 hs.grid.asc
      · intro k hk; simpa [Pool.tickKeys, Pool.keys] using hk
      · intro k hk _; simpa [Pool.tickKeys, Pool.keys] using hk

theorem Sound.tryGetRight {m : LibM} {p p' : Pool} {goal : Option Nat} {rp : F64} (hs : Sound m p)
    (h : p.tryGetInRange m true = .ok (p', goal, rp)) :
    Sound m p' ∧ p'.keys = p.keys ∧ rp = p'.gs.rp ∧
      ∀ g, goal = some g → p'.rightLimit p'.gs.tick p'.gs.tick = .ok (some g) := by
  unfold Pool.tryGetInRange at h
  rw [Pool.ite_eq_ok] at h
  rcases h with ⟨_, h⟩ | ⟨_, h⟩
  · exact absurd h (by simp [rpanic])
  · rw [bind_ok] at h
    obtain ⟨⟨q1, g1, r1⟩, h1, h⟩ := h
    simp only at h
    rw [Pool.ite_eq_ok] at h
    rcases h with ⟨_, h⟩ | ⟨_, h⟩
    · exact absurd h (by simp [rpanic])
    · rw [pure_ok, Prod.mk.injEq, Prod.mk.injEq] at h
      obtain ⟨rfl, rfl, rfl⟩ := h
      refine hs.tryRight hs.grid.asc ?_ ?_ h1
      · intro k hk; simpa [Pool.tickKeys, Pool.keys] using hk
      · intro k hk _; simpa [Pool.tickKeys, Pool.keys] using hk

theorem fillX_stop {m : LibM} {p : Pool} {s : F64} {goal : Nat} {liq dx a b e : F64} {c : Bool} {t : Nat}
    (h : p.fillX m s goal liq dx = .ok (a, b, c, t, e)) :
    (c = true ∧ e = tickToRp m goal) ∨
    (c = false ∧ t = rpToTick m e false ∧ lt s e = false ∧ lt e (tickToRp m goal) = false) := by
  unfold Pool.fillX at h
  simp only at h
  rw [Pool.ite_eq_ok] at h
  rcases h with ⟨_, h⟩ | ⟨h0, h⟩
  · exact absurd h (by simp [rpanic])
  rw [Pool.ite_eq_ok] at h
  rcases h with ⟨_, h⟩ | ⟨_, h⟩
  · exact absurd h (by simp [rpanic])
  rw [Pool.ite_eq_ok] at h
  rcases h with ⟨_, h⟩ | ⟨_, h⟩
  · rw [ok_inj] at h
    simp only [Prod.mk.injEq] at h
    obtain ⟨rfl, rfl, rfl, rfl, rfl⟩ := h
    exact Or.inl ⟨rfl, rfl⟩
  rw [Pool.ite_eq_ok] at h
  rcases h with ⟨_, h⟩ | ⟨h1, h⟩
  · exact absurd h (by simp [rpanic])
  rw [Pool.ite_eq_ok] at h
  rcases h with ⟨_, h⟩ | ⟨h2, h⟩
  · exact absurd h (by simp [rpanic])
  rw [ok_inj] at h
  simp only [Prod.mk.injEq] at h
  obtain ⟨rfl, rfl, rfl, rfl, rfl⟩ := h
  exact Or.inr ⟨rfl, rfl, h1, h2⟩

theorem fillY_stop {m : LibM} {p : Pool} {s : F64} {goal : Nat} {liq dx a b e : F64} {c : Bool} {t : Nat}
    (h : p.fillY m s goal liq dx = .ok (a, b, c, t, e)) :
    (c = true ∧ e = tickToRp m goal) ∨
    (c = false ∧ t = rpToTick m e false ∧ lt e s = false ∧ lt (tickToRp m goal) e = false) := by
  unfold Pool.fillY at h
  simp only at h
  rw [Pool.ite_eq_ok] at h
  rcases h with ⟨_, h⟩ | ⟨h0, h⟩
  · exact absurd h (by simp [rpanic])
  rw [Pool.ite_eq_ok] at h
  rcases h with ⟨_, h⟩ | ⟨_, h⟩
  · exact absurd h (by simp [rpanic])
  rw [Pool.ite_eq_ok] at h
  rcases h with ⟨_, h⟩ | ⟨_, h⟩
  · rw [ok_inj] at h
    simp only [Prod.mk.injEq] at h
    obtain ⟨rfl, rfl, rfl, rfl, rfl⟩ := h
    exact Or.inl ⟨rfl, rfl⟩
  rw [Pool.ite_eq_ok] at h
  rcases h with ⟨_, h⟩ | ⟨h1, h⟩
  · exact absurd h (by simp [rpanic])
  rw [Pool.ite_eq_ok] at h
  rcases h with ⟨_, h⟩ | ⟨h2, h⟩
  · exact absurd h (by simp [rpanic])
  rw [ok_inj] at h
  simp only [Prod.mk.injEq] at h
  obtain ⟨rfl, rfl, rfl, rfl, rfl⟩ := h
  exact Or.inr ⟨rfl, rfl, h1, h2⟩

/-- A change of a position by a whole amount, in sums over the positions. -/
theorem setPosition_sum {p p' : Pool} (hi : Inv p) {user lower upper : Nat} {δ : F64} {f : Fees}
    {d : ℤ} (hd : δ.IsInt d) (h : p.setPosition user lower upper δ = .ok (p', f)) (hb : d ≤ 0 ∨ p'.Bounded)
    (w : PositionKey → ℚ) : p'.sumLiq w = p.sumLiq w + w ⟨user, lower, upper⟩ * d := by
  obtain ⟨nf, old, base, pos, q1, q2, _, _, _, _, h5, _, h7, h8, h9, _⟩ := Pool.setPosition_ok h
  obtain ⟨_, t1, rfl, _⟩ := Pool.updateTick_ok h7
  obtain ⟨_, t2, rfl, _⟩ := Pool.updateTick_ok h8
  have ep1 : p'.positions = pos := by
    rcases h9 with ⟨_, _, _, rfl⟩ | ⟨_, rfl⟩ <;> rfl
  have hsum : ∀ w, p'.sumLiq w = Pool.sumLiq { p with positions := pos } w := by
    intro w; unfold Pool.sumLiq; rw [ep1]
  have hb' : d ≤ 0 ∨ Pool.Bounded { p with positions := pos } := by
    rcases hb with hb | hb
    · exact Or.inl hb
    · refine Or.inr ⟨fun k v hm => hb.1 k v (by rw [ep1]; exact hm), ?_⟩
      have := hb.2
      unfold Pool.total at this ⊢
      rw [← hsum]; exact this
  obtain ⟨_, _, hs, _⟩ := positions_step hi hd h5 hb'
  rw [hsum, hs]

/-! ### Swaps -/

theorem finite_not_nan {a : F64} (h : le a a = true) : a ≠ nan := (le_not_nan h).1

/-- The keys are where they were when a round stops clear of them. -/
theorem Sound.stop {m : LibM} {p p' : Pool} (h : Sound m p) (e : Alike p p') {rp : F64} (hc : p.Clear m rp)
    (ht : p'.gs.tick = rpToTick m rp false) (hr : p'.gs.rp = rp)
    (hsame : ∀ k ∈ p.keys, (k ≤ p.gs.tick ↔ k ≤ rpToTick m rp false)) : Sound m p' := by
  have hk : p'.keys = p.keys := by unfold Pool.keys; rw [e.ticks]
  have htk : p'.gs.tick < 2 ^ 32 := by
    rw [ht]
    unfold rpToTick
    simp only [Bool.false_eq_true, if_false]
    have := toU32_le (div (m.ln rp) (m.ln tickBase.sqrt)).floor
    omega
  obtain ⟨a, ea, ha⟩ := h.active
  refine ⟨h.inv.alike e, ⟨e.spacing ▸ h.grid.pos, e.spacing ▸ h.grid.small, htk, by rw [hk, e.spacing]; exact h.grid.dvd,
    by rw [e.ticks]; exact h.grid.asc⟩, by rw [e.positions]; exact h.ranges, ⟨a, ?_, by rw [e.liq]; exact ha⟩, ?_, ?_⟩
  · rw [inRange_eq, inRangeAt_congr e.positions, ht, ← ea, inRange_eq]
    exact (h.inv.inRange_iff hsame).symm
  · intro k hk'
    have hk' : k ∈ p.keys := by rw [← hk]; exact hk'
    have := hc k hk'
    rw [ht, hr]
    split at this
    · rename_i hle; rw [if_pos hle]; exact le_of_lt' this
    · rename_i hle; rw [if_neg hle]; exact le_of_lt' this
  · intro j hj k hk' hjk
    exact h.ordered (by rw [← hk]; exact hj) (by rw [← hk]; exact hk') hjk

/-- A round of a sale of X. -/
theorem Sound.stepX {m : LibM} {dx o : F64} {p p' : Pool} {a a' : Pool.SwapAcc} {g : Nat} (hs : Sound m p)
    (hrp : a.currRp = p.gs.rp) (hmem : g ∈ p.keys) (hle : g ≤ p.gs.tick) (hmax : ∀ k ∈ p.keys, k ≤ p.gs.tick → k ≤ g)
    (h : Pool.stepX m dx o p a g = .ok (p', a'))
    (hc : ∀ r, p.swapWithinX m a.currRp g p.gs.liq (sub dx a.recv) o = .ok r → r.cross = false → p.Clear m r.endRp) :
    Sound m p' ∧ p'.keys = p.keys ∧ a'.currRp = p'.gs.rp ∧ p'.gs.tick ≤ a'.currT := by
  obtain ⟨r, h1, _, _, rfl, h4⟩ := Pool.stepX_ok h
  obtain ⟨hfill, _⟩ := Pool.swapWithinX_parts h1
  rcases h4 with ⟨hcr, rfl⟩ | ⟨hcr, het, ⟨hn, _⟩ | ⟨_, hx⟩⟩
  · rcases fillX_stop hfill with ⟨h5, _⟩ | ⟨_, h5, h6, h7⟩
    · rw [hcr] at h5; cases h5
    have hcl := hc r h1 hcr
    rw [hrp] at h6
    -- the price is a number
    have hnan : r.endRp ≠ nan := by
      have := hcl g hmem
      split at this
      · exact (lt_not_nan this).2
      · exact (lt_not_nan this).1
    have hg : tickToRp m g ≠ nan := finite_not_nan (hs.ordered hmem hmem le_rfl)
    have hst : p.gs.rp ≠ nan := (le_not_nan (hs.below hmem hle)).2
    have l1 : le r.endRp p.gs.rp = true := le_of_not_lt' h6 hnan hst
    have l2 : le (tickToRp m g) r.endRp = true := le_of_not_lt' h7 hg hnan
    refine ⟨hs.stop (p' := p.midX r) ⟨rfl, rfl, rfl, rfl⟩ hcl h5 rfl fun k hk => ?_, rfl, rfl, le_rfl⟩
    have hk' := hcl k hk
    constructor
    · intro hkt
      by_contra hlt
      rw [if_neg hlt] at hk'
      exact not_lt_le hk' (le_trans' (hs.ordered hk hmem (hmax k hk hkt)) l2)
    · intro hkt
      by_contra hlt
      rw [if_pos hkt] at hk'
      exact not_lt_le hk' (le_trans' l1 (hs.above hk (not_le.1 hlt)))
  · rw [mapGet_none] at hn
    exact absurd hmem hn
  · rcases fillX_stop hfill with ⟨_, h5⟩ | ⟨h5, _⟩
    · obtain ⟨k1, k2, k3, k4⟩ := hs.crossLeft hmem hle hmax (p1 := p.midX r) ⟨rfl, rfl, rfl, rfl⟩ h5 hx
      refine ⟨k1, k4, ?_, ?_⟩
      · rw [k2]; exact h5
      · simp only; omega
    · rw [hcr] at h5; cases h5

/-- A round of a sale of Y. -/
theorem Sound.stepY {m : LibM} {dx o : F64} {p p' : Pool} {a a' : Pool.SwapAcc} {g : Nat} (hs : Sound m p)
    (hrp : a.currRp = p.gs.rp) (hmem : g ∈ p.keys) (hle : p.gs.tick < g) (hmin : ∀ k ∈ p.keys, k < g → k ≤ p.gs.tick)
    (h : Pool.stepY m dx o p a g = .ok (p', a'))
    (hc : ∀ r, p.swapWithinY m a.currRp g p.gs.liq (sub dx a.recv) o = .ok r → r.cross = false → p.Clear m r.endRp) :
    Sound m p' ∧ p'.keys = p.keys ∧ a'.currRp = p'.gs.rp ∧ a'.currT = p'.gs.tick := by
  obtain ⟨r, h1, _, _, rfl, h4⟩ := Pool.stepY_ok h
  obtain ⟨hfill, _⟩ := Pool.swapWithinY_parts h1
  rcases h4 with ⟨hcr, rfl⟩ | ⟨hcr, het, ⟨hn, _⟩ | ⟨_, hx⟩⟩
  · rcases fillY_stop hfill with ⟨h5, _⟩ | ⟨_, h5, h6, h7⟩
    · rw [hcr] at h5; cases h5
    have hcl := hc r h1 hcr
    rw [hrp] at h6
    have hnan : r.endRp ≠ nan := by
      have := hcl g hmem
      split at this
      · exact (lt_not_nan this).2
      · exact (lt_not_nan this).1
    have hg : tickToRp m g ≠ nan := finite_not_nan (hs.ordered hmem hmem le_rfl)
    have hst : p.gs.rp ≠ nan := (le_not_nan (hs.above hmem hle)).1
    have l1 : le p.gs.rp r.endRp = true := le_of_not_lt' h6 hst hnan
    have l2 : le r.endRp (tickToRp m g) = true := le_of_not_lt' h7 hnan hg
    refine ⟨hs.stop (p' := p.midY r) ⟨rfl, rfl, rfl, rfl⟩ hcl h5 rfl fun k hk => ?_, rfl, rfl, rfl⟩
    have hk' := hcl k hk
    constructor
    · intro hkt
      by_contra hlt
      rw [if_neg hlt] at hk'
      exact not_lt_le hk' (le_trans' (hs.below hk hkt) l1)
    · intro hkt
      by_contra hlt
      rw [if_pos hkt] at hk'
      have hgk : g ≤ k := not_lt.1 fun hk' => hlt (hmin k hk hk')
      exact not_lt_le hk' (le_trans' l2 (hs.ordered hmem hk hgk))
  · rw [mapGet_none] at hn
    exact absurd hmem hn
  · rcases fillY_stop hfill with ⟨_, h5⟩ | ⟨h5, _⟩
    · obtain ⟨k1, k2, k3, k4⟩ := hs.crossRight hmem hle hmin (p1 := p.midY r) ⟨rfl, rfl, rfl, rfl⟩ h5 hx
      refine ⟨k1, k4, ?_, ?_⟩
      · rw [k2]; exact h5
      · simp only; omega
    · rw [hcr] at h5; cases h5

theorem Clear.congr {m : LibM} {p q : Pool} (h : q.keys = p.keys) {rp : F64} (hc : p.Clear m rp) : q.Clear m rp := by
  intro k hk
  exact hc k (by show k ∈ p.keys; rw [← h]; exact hk)

/-- The loop of a sale of X. -/
theorem Sound.loopX {m : LibM} {dx o : F64} : ∀ {n : Nat} {p p' : Pool} {a : Pool.SwapAcc} {out : SwapOutput}, Sound m p →
    a.currRp = p.gs.rp → p.gs.tick ≤ a.currT → Pool.loopX m dx o n p a = .ok (p', out) →
    (∀ rp ∈ stopsX m dx o n p a, p.Clear m rp) → Sound m p' := by
  intro n
  induction n with
  | zero => intro p p' a out _ _ _ h; cases h
  | succ n ih =>
    intro p p' a out hs hrp hT h hc
    rcases Pool.loopX_succ h with ⟨_, h⟩ | ⟨hl, q, goal, rp, hq, h⟩
    · rw [Pool.finishX_pool h]; exact hs
    have haim : (if lt F64.zero p.gs.liq then (.ok (p, p.leftLimit a.currT, a.currRp) : R (Pool × Option Nat × F64))
        else p.tryGetInRange m false) = .ok (q, goal, rp) := by
      rcases hq with ⟨k, rfl, rfl, rfl⟩ | ⟨k, hq⟩
      · rw [k]; rfl
      · rw [k]; exact hq
    have key : Sound m q ∧ q.keys = p.keys ∧ rp = q.gs.rp ∧
        ∀ g, goal = some g → g ∈ q.keys ∧ g ≤ q.gs.tick ∧ ∀ k ∈ q.keys, k ≤ q.gs.tick → k ≤ g := by
      rcases hq with ⟨_, rfl, rfl, rfl⟩ | ⟨_, hq⟩
      · exact ⟨hs, rfl, hrp, fun g hg => leftLimit_max hs.grid hT hg⟩
      · obtain ⟨k1, k2, k3, _, k5⟩ := hs.tryGetLeft hq
        exact ⟨k1, k2, k3, fun g hg => leftLimit_max k1.grid le_rfl (k5 g hg)⟩
    obtain ⟨hsq, hkq, hrq, hgoal⟩ := key
    rcases h with ⟨_, h⟩ | ⟨g, q', a', rfl, hstep, h⟩
    · rw [Pool.finishX_pool h]; exact hsq
    obtain ⟨g1, g2, g3⟩ := hgoal g rfl
    obtain ⟨r, hr, _⟩ := Pool.stepX_ok hstep
    have hstops : stopsX m dx o (n + 1) p a = (if r.cross then [] else [r.endRp]) ++ stopsX m dx o n q' a' := by
      rw [stopsX, if_pos hl]
      simp only [haim]
      rw [hstep]
      simp only at hr
      rw [hr]
    rw [hstops] at hc
    obtain ⟨s1, s2, s3, s4⟩ := hsq.stepX (a := { a with currRp := rp }) hrq g1 g2 g3 hstep fun r' hr' hcr => by
      rw [hr] at hr'
      cases hr'
      exact Clear.congr hkq (hc r.endRp (List.mem_append_left _ (by rw [hcr]; exact List.mem_singleton.2 rfl)))
    exact ih s1 s3 s4 h fun rp' hrp' => Clear.congr (s2.trans hkq) (hc rp' (List.mem_append_right _ hrp'))

/-- The loop of a sale of Y. -/
theorem Sound.loopY {m : LibM} {dx o : F64} : ∀ {n : Nat} {p p' : Pool} {a : Pool.SwapAcc} {out : SwapOutput}, Sound m p →
    a.currRp = p.gs.rp → a.currT = p.gs.tick ∨ lt F64.zero p.gs.liq = false → Pool.loopY m dx o n p a = .ok (p', out) →
    (∀ rp ∈ stopsY m dx o n p a, p.Clear m rp) → Sound m p' := by
  intro n
  induction n with
  | zero => intro p p' a out _ _ _ h; cases h
  | succ n ih =>
    intro p p' a out hs hrp hT h hc
    rcases Pool.loopY_succ h with ⟨_, h⟩ | ⟨hl, q, goal, rp, hq, h⟩
    · rw [Pool.finishY_pool h]; exact hs
    have haim : (if lt F64.zero p.gs.liq then (do return (p, ← p.rightLimit a.currT p.gs.tick, a.currRp) : R (Pool × Option Nat × F64))
        else p.tryGetInRange m true) = .ok (q, goal, rp) := by
      rcases hq with ⟨k, rfl, hq, rfl⟩ | ⟨k, hq⟩
      · rw [k, hq]; rfl
      · rw [k]; exact hq
    have key : Sound m q ∧ q.keys = p.keys ∧ rp = q.gs.rp ∧
        ∀ g, goal = some g → g ∈ q.keys ∧ q.gs.tick < g ∧ ∀ k ∈ q.keys, k < g → k ≤ q.gs.tick := by
      rcases hq with ⟨hpos, rfl, hq, rfl⟩ | ⟨_, hq⟩
      · rcases hT with hT | hT
        · exact ⟨hs, rfl, hrp, fun g hg => rightLimit_min hs.grid (by rw [← hg, ← hq, hT])⟩
        · rw [hT] at hpos; cases hpos
      · obtain ⟨k1, k2, k3, k5⟩ := hs.tryGetRight hq
        exact ⟨k1, k2, k3, fun g hg => rightLimit_min k1.grid (k5 g hg)⟩
    obtain ⟨hsq, hkq, hrq, hgoal⟩ := key
    rcases h with ⟨_, h⟩ | ⟨g, q', a', rfl, hstep, h⟩
    · rw [Pool.finishY_pool h]; exact hsq
    obtain ⟨g1, g2, g3⟩ := hgoal g rfl
    obtain ⟨r, hr, _⟩ := Pool.stepY_ok hstep
    have hstops : stopsY m dx o (n + 1) p a = (if r.cross then [] else [r.endRp]) ++ stopsY m dx o n q' a' := by
      rw [stopsY, if_pos hl]
      simp only [haim]
      rw [hstep]
      simp only at hr
      rw [hr]
    rw [hstops] at hc
    obtain ⟨s1, s2, s3, s4⟩ := hsq.stepY (a := { a with currRp := rp }) hrq g1 g2 g3 hstep fun r' hr' hcr => by
      rw [hr] at hr'
      cases hr'
      exact Clear.congr hkq (hc r.endRp (List.mem_append_left _ (by rw [hcr]; exact List.mem_singleton.2 rfl)))
    exact ih s1 s3 (Or.inl s4) h fun rp' hrp' => Clear.congr (s2.trans hkq) (hc rp' (List.mem_append_right _ hrp'))

/-! ### Histories -/

theorem Sound.frame {m : LibM} {p p' : Pool} (h : Sound m p) (h1 : p'.gs = p.gs) (h2 : p'.ticks = p.ticks)
    (h3 : p'.positions = p.positions) (h4 : p'.spacing = p.spacing) : Sound m p' := by
  have hk : p'.keys = p.keys := by unfold Pool.keys; rw [h2]
  refine ⟨h.inv.alike ⟨h3, h2, h4, by rw [h1]⟩, ⟨h4 ▸ h.grid.pos, h4 ▸ h.grid.small, by rw [h1]; exact h.grid.tick,
    by rw [hk, h4]; exact h.grid.dvd, by rw [h2]; exact h.grid.asc⟩, by rw [h3]; exact h.ranges, h.active.frame h1 h3, ?_⟩
  unfold Pool.Placed
  rw [h1, h2]; exact h.placed

theorem possibleTk_grid (m : LibM) (rp : F64) {s : Nat} (hs : 0 < s) (hs' : s < 2 ^ 32) :
    s ∣ rpToPossibleTk m rp s false ∧ rpToPossibleTk m rp s false < 2 ^ 32 := by
  have ht : rpToTick m rp false < 2 ^ 32 := by
    unfold rpToTick
    simp only [Bool.false_eq_true, if_false]
    have := toU32_le (div (m.ln rp) (m.ln tickBase.sqrt)).floor
    omega
  obtain ⟨h1, h2, _⟩ := snap_down ht hs hs'
  exact ⟨h1, by unfold rpToPossibleTk; omega⟩

/-- A change of a position. -/
theorem Sound.setPosition {m : LibM} {p p' : Pool} (hs : Sound m p) {user lower upper : Nat} {δ : F64} {f : Fees} {d : ℤ}
    (hd : δ.IsInt d) (h : p.setPosition user lower upper δ = .ok (p', f)) (hb : d ≤ 0 ∨ p'.Bounded)
    (hl : p.spacing ∣ lower ∧ lower < 2 ^ 32) (hu : p.spacing ∣ upper ∧ upper < 2 ^ 32)
    (hr : d ≤ 0 ∨ lower ≤ upper) (hp : p'.Placed m) : Sound m p' := by
  have hi' := setPosition_inv hs.inv hd h hb
  have ha' := setPosition_active hs.inv hs.active hd h hb
  have hsum : ∀ w, p'.sumLiq w = p.sumLiq w + w ⟨user, lower, upper⟩ * d := setPosition_sum hs.inv hd h hb
  obtain ⟨ticks, pos, liq, rfl, f1, f2, f3, _⟩ := Pool.setPosition_frame h
  refine ⟨hi', ⟨hs.grid.pos, hs.grid.small, hs.grid.tick, ?_, f3 hs.grid.asc⟩, ?_, ha', hp⟩
  · intro k hk
    by_cases e1 : k = lower
    · rw [e1]; exact hl
    by_cases e2 : k = upper
    · rw [e2]; exact hu
    refine hs.grid.dvd k ?_
    unfold Pool.keys at hk ⊢
    rw [← mapGet_isSome] at hk ⊢
    rw [← f1 k e1 e2]; exact hk
  · intro k v hm h0
    by_cases e : k = ⟨user, lower, upper⟩
    · subst e
      rcases hr with hr | hr
      · -- the liquidity of the position has only been reduced
        by_contra hlt
        have hold : ∀ v, (⟨user, lower, upper⟩, v) ∈ p.positions → v.liq.val = 0 := fun v hv => by
          by_contra hne; exact hlt (hs.ranges _ v hv hne)
        have e0 := hsum fun k => if k = ⟨user, lower, upper⟩ then 1 else 0
        have e1 : p.sumLiq (fun k => if k = ⟨user, lower, upper⟩ then 1 else 0) = 0 := by
          rw [sumLiq_eq]
          have : mapSum (fun k v => (if k = (⟨user, lower, upper⟩ : PositionKey) then 1 else 0) * v.liq.val) p.positions
              = mapSum (fun _ _ => 0) p.positions := mapSum_congr fun k v hm => by
            by_cases hk : k = ⟨user, lower, upper⟩
            · subst hk; rw [hold v hm, mul_zero]
            · rw [if_neg hk, zero_mul]
          rw [this]
          have := mapSum_const_mul 0 (fun (_ : PositionKey) (_ : PositionState) => (0 : ℚ)) p.positions
          simpa using this
        have e2 : v.liq.val ≤ Pool.sumLiq { p with ticks := ticks, positions := pos, gs := { p.gs with liq := liq } }
            (fun k => if k = ⟨user, lower, upper⟩ then 1 else 0) := by
          have := List.single_le_sum (l := pos.map fun e => (if e.1 = (⟨user, lower, upper⟩ : PositionKey) then (1 : ℚ) else 0) * e.2.liq.val)
            (fun x hx => by
              obtain ⟨⟨k', v'⟩, hm', rfl⟩ := List.mem_map.1 hx
              refine mul_nonneg ?_ (hi'.whole.val_nonneg hm')
              simp only
              split <;> norm_num) _ (List.mem_map.2 ⟨_, hm, rfl⟩)
          simp only [if_true, one_mul] at this
          exact this
        rw [e0, e1, if_pos rfl] at e2
        have e3 := hi'.whole.val_nonneg hm
        have e4 : (d : ℚ) ≤ 0 := by exact_mod_cast hr
        exact h0 (by linarith)
      · exact hr
    · refine hs.ranges k v ?_ h0
      have h1 : mapGet k pos = some v := get_of_mem hi'.unique hm
      rw [f2 k e] at h1
      exact mapGet_mem' h1

theorem ClearReach.sound {m : LibM} {p : Pool} (h : ClearReach m p) : Sound m p := by
  induction h with
  | @new rp c fee spacing p hsp h =>
    have hw := (WholeReach.new (m := m) h).inv
    unfold Pool.new at h
    simp only at h
    rw [bind_ok] at h
    obtain ⟨g, h1, h⟩ := h
    rw [pure_ok] at h
    unfold GlobalState.new at h1
    rw [Pool.ite_eq_ok] at h1
    rcases h1 with ⟨_, h1⟩ | ⟨_, h1⟩
    · exact absurd h1 (by simp [rpanic])
    rw [ok_inj] at h1
    subst h1 h
    refine ⟨hw, ⟨hsp.1, hsp.2, (possibleTk_grid m rp hsp.1 hsp.2).2, by simp [Pool.keys], Ascending.nil⟩, by simp,
      ⟨0, by simp [Pool.inRange, Pool.sumLiq], zero_int⟩, by simp, by simp⟩
  | @deposit p p' r user x y rpa rpb h0 hr h hb hp ih =>
    obtain ⟨lower, upper, rpaU, rpbU, liq, q, f, rfl, rfl, _, _, rfl, _, _, _, _, h1, rfl, _⟩ := Pool.deposit_ok h
    have hbq : q.Bounded := hb
    obtain ⟨z, hz⟩ := deposit_whole hbq h1
    have hpq : q.Placed m := hp
    exact (ih.setPosition hz h1 (Or.inr hbq) (possibleTk_grid m rpa ih.grid.pos ih.grid.small)
      (possibleTk_grid m rpb ih.grid.pos ih.grid.small) (Or.inr hr) hpq).frame rfl rfl rfl rfl
  | @withdraw p p' r user liq rpa rpb n h0 hn h ih =>
    obtain ⟨lower, upper, rpaU, rpbU, q, f, rfl, rfl, _, _, hl, h1, rfl, _⟩ := Pool.withdraw_ok h
    have hneg := withdraw_nonneg hn hl
    have hpq : q.Placed m := by
      have hi' := setPosition_inv ih.inv (neg_int hn) h1 (Or.inl hneg)
      have hsum := setPosition_sum ih.inv (neg_int hn) h1 (Or.inl hneg)
      have hsub : ∀ k ∈ q.keys, k ∈ p.keys := by
        intro k hk
        rw [hi'.mem_keys] at hk
        rw [ih.inv.mem_keys]
        rw [touching_step hsum k] at hk
        have : (((-n : ℤ)) : ℚ) ≤ 0 := by exact_mod_cast hneg
        refine lt_of_lt_of_le hk ?_
        have h2 : ∀ c : ℚ, 0 ≤ c → c * ((-n : ℤ) : ℚ) ≤ 0 := fun c hc => mul_nonpos_of_nonneg_of_nonpos hc this
        have := h2 ((if p.rpToPossibleTick m rpa false = k then 1 else 0) + (if p.rpToPossibleTick m rpb false = k then 1 else 0))
          (by split <;> split <;> norm_num)
        simp only at this ⊢
        linarith
      obtain ⟨ticks, pos, liq', rfl, _⟩ := Pool.setPosition_frame h1
      exact ⟨fun k hk => ih.placed.1 k (hsub k hk), fun j hj k hk hjk => ih.placed.2 j (hsub j hj) k (hsub k hk) hjk⟩
    exact (ih.setPosition (neg_int hn) h1 (Or.inl hneg) (possibleTk_grid m rpa ih.grid.pos ih.grid.small)
      (possibleTk_grid m rpb ih.grid.pos ih.grid.small) (Or.inl hneg) hpq).frame rfl rfl rfl rfl
  | swapX _ h hc ih =>
    unfold Pool.executeSwapFromX at h
    rw [Pool.ite_eq_ok] at h
    rcases h with ⟨_, h⟩ | ⟨_, h⟩
    · exact absurd h (by simp [rpanic])
    · exact ih.loopX rfl le_rfl h hc
  | swapY _ h hc ih =>
    unfold Pool.executeSwapFromY at h
    rw [Pool.ite_eq_ok] at h
    rcases h with ⟨_, h⟩ | ⟨_, h⟩
    · exact absurd h (by simp [rpanic])
    · exact ih.loopY rfl (Or.inl rfl) h hc

end Hmm.Flt
