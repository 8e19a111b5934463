import Verif.Spec.FloatReach
import Verif.Proofs.FloatPool
import Verif.Proofs.FloatRounding
import Mathlib.Tactic.Linarith

/-
The tick records of the floating-point pool agree with its positions as long as all amounts of liquidity
are whole numbers below `2^52`.
-/

namespace Hmm.Flt

open F64

attribute [local irreducible] unit limit

theorem sumLiq_eq (p : Pool) (w : PositionKey → ℚ) :
    p.sumLiq w = mapSum (fun k v => w k * v.liq.val) p.positions := rfl

/-- Every position has whole, non-negative liquidity. -/
def Pool.Whole (p : Pool) : Prop := ∀ k v, (k, v) ∈ p.positions → ∃ z : ℤ, 0 ≤ z ∧ v.liq.IsInt z

theorem mapSum_int {κ α : Type} {f : κ → α → ℚ} {m : List (κ × α)} (h : ∀ k v, (k, v) ∈ m → ∃ z : ℤ, f k v = z) :
    ∃ z : ℤ, mapSum f m = z := by
  induction m with
  | nil => exact ⟨0, by simp [mapSum]⟩
  | cons e m ih =>
    obtain ⟨k, v⟩ := e
    obtain ⟨y, hy⟩ := h k v List.mem_cons_self
    obtain ⟨z, hz⟩ := ih fun k v hm => h k v (List.mem_cons_of_mem _ hm)
    exact ⟨y + z, by rw [mapSum_cons, hy, hz]; push_cast; rfl⟩

theorem mapSum_le {κ α : Type} {f g : κ → α → ℚ} {m : List (κ × α)} (h : ∀ k v, (k, v) ∈ m → f k v ≤ g k v) :
    mapSum f m ≤ mapSum g m := by
  induction m with
  | nil => exact le_refl _
  | cons e m ih =>
    obtain ⟨k, v⟩ := e
    rw [mapSum_cons, mapSum_cons]
    exact add_le_add (h k v List.mem_cons_self) (ih fun k v hm => h k v (List.mem_cons_of_mem _ hm))

theorem mapSum_const_mul {κ α : Type} (c : ℚ) (f : κ → α → ℚ) (m : List (κ × α)) :
    mapSum (fun k v => c * f k v) m = c * mapSum f m := by
  induction m with
  | nil => simp [mapSum]
  | cons e m ih => obtain ⟨k, v⟩ := e; rw [mapSum_cons, mapSum_cons, ih, mul_add]

theorem IsInt.val {a : F64} {z : ℤ} (h : a.IsInt z) : a.val = z := Is.val h

theorem Pool.Whole.sum_int {p : Pool} (h : p.Whole) {w : PositionKey → ℚ} (hw : ∀ k, ∃ z : ℤ, w k = z) :
    ∃ z : ℤ, p.sumLiq w = z := by
  rw [sumLiq_eq]
  refine mapSum_int fun k v hm => ?_
  obtain ⟨z, _, hz⟩ := h k v hm
  obtain ⟨y, hy⟩ := hw k
  exact ⟨y * z, by rw [hy, IsInt.val hz]; push_cast; rfl⟩

theorem Pool.Whole.val_nonneg {p : Pool} (h : p.Whole) {k v} (hm : (k, v) ∈ p.positions) : 0 ≤ v.liq.val := by
  obtain ⟨z, h0, hz⟩ := h k v hm
  rw [IsInt.val hz]; exact_mod_cast h0

theorem Pool.Whole.sum_le {p : Pool} (h : p.Whole) {w w' : PositionKey → ℚ} (hw : ∀ k, w k ≤ w' k) :
    p.sumLiq w ≤ p.sumLiq w' := by
  rw [sumLiq_eq, sumLiq_eq]
  exact mapSum_le fun k v hm => mul_le_mul_of_nonneg_right (hw k) (h.val_nonneg hm)

theorem touching_int {p : Pool} (h : p.Whole) (t : Nat) : ∃ z : ℤ, p.touching t = z :=
  h.sum_int fun k => by
    split <;> split
    · exact ⟨2, by norm_num⟩
    · exact ⟨1, by norm_num⟩
    · exact ⟨1, by norm_num⟩
    · exact ⟨0, by norm_num⟩

theorem entering_int {p : Pool} (h : p.Whole) (t : Nat) : ∃ z : ℤ, p.entering t = z :=
  h.sum_int fun k => by
    split <;> split
    · exact ⟨0, by norm_num⟩
    · exact ⟨1, by norm_num⟩
    · exact ⟨-1, by norm_num⟩
    · exact ⟨0, by norm_num⟩

theorem total_int {p : Pool} (h : p.Whole) : ∃ z : ℤ, p.total = z := h.sum_int fun _ => ⟨1, by norm_num⟩

theorem touching_le {p : Pool} (h : p.Whole) (t : Nat) : p.touching t ≤ 2 * p.total := by
  have e : 2 * p.total = p.sumLiq fun _ => 2 := by
    unfold Pool.total
    rw [sumLiq_eq, sumLiq_eq, ← mapSum_const_mul]
    exact mapSum_congr fun k v _ => by ring
  rw [e]
  exact h.sum_le fun k => by split <;> split <;> norm_num

theorem entering_le {p : Pool} (h : p.Whole) (t : Nat) : p.entering t ≤ p.touching t :=
  h.sum_le fun k => by split <;> split <;> norm_num

theorem neg_entering_le {p : Pool} (h : p.Whole) (t : Nat) : -p.entering t ≤ p.touching t := by
  have e : -p.entering t = p.sumLiq fun k => (if k.upper = t then 1 else 0) - (if k.lower = t then 1 else 0) := by
    unfold Pool.entering
    rw [sumLiq_eq, sumLiq_eq, neg_eq_neg_one_mul, ← mapSum_const_mul]
    exact mapSum_congr fun k v _ => by ring
  rw [e]
  exact h.sum_le fun k => by split <;> split <;> norm_num

theorem touching_nonneg {p : Pool} (h : p.Whole) (t : Nat) : 0 ≤ p.touching t := by
  have h1 := entering_le h t
  have h2 := neg_entering_le h t
  linarith

/-! ### One tick -/

/-- What the record of tick `t` is. -/
def TickIs (p : Pool) (t : Nat) (g n : ℤ) : Prop :=
  match mapGet t p.ticks with
  | none => g = 0 ∧ n = 0
  | some ts => ts.liqGross.IsInt g ∧ ts.liqNet.IsInt n ∧ 0 < g

theorem TickIs.tickOr {p : Pool} {t : Nat} {g n : ℤ} (h : TickIs p t g n) :
    (p.tickOr t).liqGross.IsInt g ∧ (p.tickOr t).liqNet.IsInt n := by
  unfold TickIs at h
  unfold Pool.tickOr
  cases hg : mapGet t p.ticks with
  | none => rw [hg] at h; obtain ⟨rfl, rfl⟩ := h; exact ⟨zero_int, zero_int⟩
  | some ts => rw [hg] at h; exact ⟨h.1, h.2.1⟩

theorem TickIs.congr {p p' : Pool} {t : Nat} {g n : ℤ} (h : TickIs p t g n) (e : mapGet t p'.ticks = mapGet t p.ticks) :
    TickIs p' t g n := by
  unfold TickIs at *; rw [e]; exact h

theorem TickIs.update {p p' : Pool} {t : Nat} {g n d : ℤ} {δ : F64} {up : Bool} (h : TickIs p t g n) (hd : δ.IsInt d)
    (hu : p.updateTick t δ up = .ok p') (hg : |g + d| ≤ 2 ^ 53) (hn : |n + (if up then -d else d)| ≤ 2 ^ 53)
    (h0 : g + d = 0 → n + (if up then -d else d) = 0) :
    TickIs p' t (g + d) (n + (if up then -d else d)) := by
  obtain ⟨h1, ticks, rfl, _, h2, _⟩ := Pool.updateTick_ok hu
  obtain ⟨hG, hN⟩ := h.tickOr
  have hG' := add_int hG hd hg
  have hN' : (add (p.tickOr t).liqNet (if up then δ.neg else δ)).IsInt (n + (if up then -d else d)) := by
    cases up
    · exact add_int hN hd hn
    · exact add_int hN (neg_int hd) hn
  have hz : F64.eq (add (p.tickOr t).liqGross δ) F64.zero = true ↔ g + d = 0 := by
    rw [eq_is hG' zero_is]; exact_mod_cast Iff.rfl
  have hge : 0 ≤ g + d := by
    by_contra hc
    rw [not_le] at hc
    have := (lt_zero_is hG').2 (by exact_mod_cast hc)
    rw [this] at h1; exact absurd h1 (by simp)
  unfold TickIs
  simp only
  rw [h2]
  split
  · rename_i ts he
    split at he
    · rename_i hc
      rw [hz] at hc
      exact ⟨hc, h0 hc⟩
    · cases he
  · rename_i ts he
    split at he
    · cases he
    · rename_i hc
      rw [hz] at hc
      simp only [Option.some.injEq] at he
      subst he
      exact ⟨hG', hN', by omega⟩

/-! ### One position -/

theorem zero_of_eq {a : F64} (h : F64.eq a F64.zero = true) : a.IsInt 0 := by
  cases a with
  | nan => exact absurd h (by simp [F64.eq])
  | inf s => exact absurd h (by simp [F64.eq, F64.zero])
  | fin s n =>
    have := (eq_is (is_fin s n) zero_is).1 h
    unfold IsInt
    rw [Int.cast_zero, ← this]; exact is_fin s n

theorem two53_is : (fin false (2 ^ 53 * unit)).IsInt (2 ^ 53) := by
  rw [isInt_iff]; exact ⟨_, _, rfl, by rw [signed_whole]; simp [signed]⟩

theorem two53_rounded : Rounded (2 ^ 53) (fin false (2 ^ 53 * unit)) := by
  refine ⟨false, 2 ^ 53 * unit, 1, one_pos, (ofRatio_whole (le_refl _)).symm, ?_⟩
  rw [signed_whole]
  have hu := unitQ_ne
  push_cast
  rw [div_one, mul_div_assoc, div_self hu]
  norm_num [signed]

/-- A whole sum that comes out finite, non-negative and below `2^53` was exact. -/
theorem add_int_of {a b : F64} {y z : ℤ} (ha : a.IsInt y) (hb : b.IsInt z) {r : ℚ} (hr : (add a b).Is r) (h0 : 0 ≤ r)
    (h1 : r < 2 ^ 53) : (add a b).IsInt (y + z) ∧ r = ((y + z : ℤ) : ℚ) := by
  have hR := add_rounded ha hb
  have hle : (y : ℚ) + z ≤ 2 ^ 53 := by
    by_contra hc
    have := two53_rounded.mono hR two53_is hr (le_of_lt (not_le.1 hc))
    push_cast at this
    linarith
  have hge : -(2 ^ 53) ≤ (y : ℚ) + z := by
    by_contra hc
    have hneg : Rounded (-(2 ^ 53)) (fin true (2 ^ 53 * unit)) := by
      obtain ⟨w, num, den, hd, e, hx⟩ := two53_rounded
      refine ⟨!w, num, den, hd, ?_, ?_⟩
      · unfold ofRatio at e ⊢
        simp only at e ⊢
        split at e
        · rename_i hc
          simp only [fin.injEq] at e
          rw [if_pos hc, ← e.1, ← e.2]; rfl
        · cases e
      · rw [hx, signed_neg]; push_cast; ring
    have hi : (fin true (2 ^ 53 * unit)).Is (-(2 ^ 53)) := by
      have := neg_is two53_is
      push_cast at this
      exact this
    have := hR.mono hneg hr hi (le_of_lt (not_le.1 hc))
    have h3 : (0 : ℚ) < 2 ^ 53 := by norm_num
    linarith
  have hi : (add a b).IsInt (y + z) := by
    refine add_int ha hb ?_
    rw [abs_le]
    constructor
    · have : ((-(2 ^ 53) : ℤ) : ℚ) ≤ ((y + z : ℤ) : ℚ) := by push_cast; exact hge
      exact_mod_cast this
    · have : ((y + z : ℤ) : ℚ) ≤ ((2 ^ 53 : ℤ) : ℚ) := by push_cast; exact hle
      exact_mod_cast this
  exact ⟨hi, hr.unique hi⟩

/-- What holds of the pool along such histories. -/
structure Inv (p : Pool) : Prop where
  whole : p.Whole
  bound : p.total ≤ 2 ^ 52
  unique : UniqueKeys p.positions
  books : ∀ t, ∃ g n : ℤ, p.touching t = g ∧ p.entering t = n ∧ TickIs p t g n

theorem mem_set {κ α : Type} [DecidableEq κ] {k k' : κ} {v v' : α} {m : List (κ × α)} (h : (k', v') ∈ mapSet k v m) :
    (k' = k ∧ v' = v) ∨ (k', v') ∈ m := by
  induction m with
  | nil => simp only [mapSet, List.mem_singleton, Prod.mk.injEq] at h; exact Or.inl h
  | cons e m ih =>
    obtain ⟨k1, v1⟩ := e
    rw [mapSet] at h
    split at h
    · rcases List.mem_cons.1 h with h | h
      · rw [Prod.mk.injEq] at h; exact Or.inl h
      · exact Or.inr (List.mem_cons_of_mem _ h)
    · rcases List.mem_cons.1 h with h | h
      · rw [h]; exact Or.inr List.mem_cons_self
      · rcases ih h with h | h
        · exact Or.inl h
        · exact Or.inr (List.mem_cons_of_mem _ h)

theorem mem_erase {κ α : Type} [DecidableEq κ] {k : κ} {e : κ × α} {m : List (κ × α)} (h : e ∈ mapErase k m) :
    e ∈ m := by
  induction m with
  | nil => exact h
  | cons e' m ih =>
    obtain ⟨k1, v1⟩ := e'
    rw [mapErase] at h
    split at h
    · exact List.mem_cons_of_mem _ (ih h)
    · rcases List.mem_cons.1 h with h | h
      · rw [h]; exact List.mem_cons_self
      · exact List.mem_cons_of_mem _ (ih h)

theorem mapGet_mem' {κ α : Type} [DecidableEq κ] {k : κ} {v : α} {m : List (κ × α)} (h : mapGet k m = some v) :
    (k, v) ∈ m := by
  induction m with
  | nil => exact absurd h (by simp [mapGet])
  | cons e m ih =>
    obtain ⟨k1, v1⟩ := e
    rw [mapGet] at h
    split at h
    · rename_i hk
      rw [Option.some.injEq] at h
      rw [← hk, ← h]; exact List.mem_cons_self
    · exact List.mem_cons_of_mem _ (ih h)

/-- The liquidity a position has, zero if there is none. -/
def posLiq (p : Pool) (k : PositionKey) : ℚ := (mapGet k p.positions).elim 0 fun v => v.liq.val

/-- The effect of the position part: one position changes by `d`, exactly. -/
theorem positions_step {p : Pool} (hi : Inv p) {pos : List (PositionKey × PositionState)} {key : PositionKey} {δ base : F64}
    {nf old : Fees} {d : ℤ} (hd : δ.IsInt d) (h : Pool.setPositionMap p.positions key δ nf = .ok (pos, old, base))
    (hb : d ≤ 0 ∨ Pool.Bounded { p with positions := pos }) :
    Pool.Whole { p with positions := pos } ∧ UniqueKeys pos ∧
    (∀ w, Pool.sumLiq { p with positions := pos } w = p.sumLiq w + w key * d) ∧
    ∃ b : ℤ, 0 ≤ b ∧ base.IsInt b ∧ 0 ≤ b + d := by
  have hT0 : ∀ k v, (k, v) ∈ p.positions → v.liq.val ≤ p.total := by
    intro k v hm
    have h1 : p.sumLiq (fun _ => 1) = mapSum (fun k v => 1 * v.liq.val) p.positions := rfl
    unfold Pool.total
    rw [h1]
    have := List.single_le_sum (l := p.positions.map fun e => 1 * e.2.liq.val) (by
      intro x hx
      obtain ⟨⟨k', v'⟩, hm', rfl⟩ := List.mem_map.1 hx
      have := hi.whole.val_nonneg hm'
      linarith) (1 * v.liq.val) (List.mem_map.2 ⟨(k, v), hm, rfl⟩)
    rw [one_mul] at this
    exact this
  rcases Pool.setPositionMap_ok h with ⟨hn, hl, rfl, _, rfl⟩ | ⟨poz, hg, _, rfl, hl, hcase⟩
  · have h0 : 0 ≤ d := by
      by_contra hc
      have := (lt_zero_is hd).2 (by exact_mod_cast not_le.1 hc)
      rw [this] at hl; cases hl
    refine ⟨?_, hi.unique.set _ _, ?_, 0, le_refl _, zero_int, by omega⟩
    · intro k v hm
      rcases mem_set hm with ⟨rfl, rfl⟩ | hm
      · exact ⟨d, h0, hd⟩
      · exact hi.whole k v hm
    · intro w
      rw [sumLiq_eq, sumLiq_eq]
      simp only
      rw [mapSum_set, hn]
      simp only [Option.elim_none, sub_zero]
      rw [IsInt.val hd]
  · obtain ⟨b, hb0, hbz⟩ := hi.whole key poz (mapGet_mem' hg)
    have hbT := hT0 key poz (mapGet_mem' hg)
    rw [IsInt.val hbz] at hbT
    rcases hcase with ⟨he, rfl⟩ | ⟨he, hnl, rfl⟩
    · obtain ⟨_, h1⟩ := add_int_of hbz hd (zero_of_eq he) (le_refl _) (by norm_num)
      have hbd : b + d = 0 := by
        have h2 : ((b + d : ℤ) : ℚ) = ((0 : ℤ) : ℚ) := h1.symm
        exact_mod_cast h2
      refine ⟨fun k v hm => hi.whole k v (mem_erase hm), hi.unique.erase _, ?_, b, hb0, hbz, by omega⟩
      intro w
      rw [sumLiq_eq, sumLiq_eq]
      simp only
      rw [mapSum_erase _ _ hi.unique, hg]
      simp only [Option.elim_some]
      rw [IsInt.val hbz]
      have : (b : ℚ) = -(d : ℚ) := by
        have : b = -d := by omega
        rw [this]; push_cast; ring
      rw [this]; ring
    · -- the stored sum is finite
      have hfin : (add poz.liq δ).Finite ∧ ∀ r, (add poz.liq δ).Is r → r < 2 ^ 53 := by
        rcases hb with hneg | hbd
        · -- a smaller number
          have hR := add_rounded hbz hd
          have hdq : (d : ℚ) ≤ 0 := by exact_mod_cast hneg
          have hbq : (0 : ℚ) ≤ b := by exact_mod_cast hb0
          constructor
          · rcases hR.cases with ⟨r, hr⟩ | ⟨hpos, he'⟩ | ⟨hneg', he'⟩
            · exact ⟨r, hr⟩
            · refine hR.finite two53_is (rep_fin.2 ⟨whole_lt (le_refl _), ?_⟩) ?_
              · refine ⟨1, 53 + 1074, by norm_num, ?_⟩
                rw [unit_eq]; rw [pow_add, one_mul]
              · rw [abs_of_pos hpos]
                push_cast
                rw [abs_of_nonneg (by norm_num)]
                have := hi.bound
                have h9 : (2 : ℚ) ^ 52 ≤ 2 ^ 53 := by norm_num
                linarith
            · rw [he'] at hnl
              exact absurd hnl (by decide)
          · intro r hr
            have h52 : (b : ℚ) + d ≤ 2 ^ 52 := by have := hi.bound; linarith
            have hi2 : (fin false (2 ^ 52 * unit)).IsInt (2 ^ 52) := by
              rw [isInt_iff]; exact ⟨_, _, rfl, by rw [signed_whole]; simp [signed]⟩
            have hr2 := add_rounded hi2 zero_is
            have hi3 := add_int hi2 zero_int (by norm_num)
            have h8 : (((2 ^ 52 : ℤ) : ℚ)) + 0 = 2 ^ 52 := by norm_num
            rw [h8] at hr2
            have h7 := hR.mono hr2 hr hi3 h52
            push_cast at h7
            have h9 : (2 : ℚ) ^ 52 + 0 < 2 ^ 53 := by norm_num
            linarith
        · obtain ⟨hf, ht⟩ := hbd
          have hmem : (key, (⟨add poz.liq δ, nf⟩ : PositionState)) ∈ mapSet key ⟨add poz.liq δ, nf⟩ p.positions :=
            mapGet_mem' (mapGet_set_same _ _ _)
          have hf1 := hf _ _ hmem
          refine ⟨hf1, ?_⟩
          intro r hr
          -- its value is at most the total
          have hnn : 0 ≤ r := by
            by_contra hc
            have := (lt_zero_is hr).2 (not_le.1 hc)
            rw [this] at hnl; cases hnl
          have h9 := List.single_le_sum (l := (mapSet key ⟨add poz.liq δ, nf⟩ p.positions).map fun e => (1 : ℚ) * e.2.liq.val) (by
            intro x hx
            obtain ⟨⟨k', v'⟩, hm', rfl⟩ := List.mem_map.1 hx
            rcases mem_set hm' with ⟨_, rfl⟩ | hm'
            · simp only; rw [hr.val, one_mul]; exact hnn
            · have := hi.whole.val_nonneg hm'
              linarith) (1 * (add poz.liq δ).val) (List.mem_map.2 ⟨_, hmem, rfl⟩)
          rw [hr.val, one_mul] at h9
          have h10 : (2 : ℚ) ^ 52 < 2 ^ 53 := by norm_num
          exact lt_of_le_of_lt (le_trans h9 ht) h10
      obtain ⟨⟨r, hr⟩, hlt⟩ := hfin
      have hnn : 0 ≤ r := by
        by_contra hc
        have := (lt_zero_is hr).2 (not_le.1 hc)
        rw [this] at hnl; cases hnl
      obtain ⟨hI, hrz⟩ := add_int_of hbz hd hr hnn (hlt r hr)
      have h0 : 0 ≤ b + d := by rw [hrz] at hnn; exact_mod_cast hnn
      refine ⟨?_, hi.unique.set _ _, ?_, b, hb0, hbz, h0⟩
      · intro k v hm
        rcases mem_set hm with ⟨rfl, rfl⟩ | hm
        · exact ⟨b + d, h0, hI⟩
        · exact hi.whole k v hm
      · intro w
        rw [sumLiq_eq, sumLiq_eq]
        simp only
        rw [mapSum_set, hg]
        simp only [Option.elim_some]
        rw [IsInt.val hbz, IsInt.val hI]; push_cast; ring

theorem touching_step {p p' : Pool} {key : PositionKey} {d : ℤ}
    (h : ∀ w, p'.sumLiq w = p.sumLiq w + w key * d) (t : Nat) :
    p'.touching t = p.touching t + ((if key.lower = t then 1 else 0) + (if key.upper = t then 1 else 0)) * d := h _

theorem entering_step {p p' : Pool} {key : PositionKey} {d : ℤ}
    (h : ∀ w, p'.sumLiq w = p.sumLiq w + w key * d) (t : Nat) :
    p'.entering t = p.entering t + ((if key.lower = t then 1 else 0) - (if key.upper = t then 1 else 0)) * d := h _

/-- A change of a position by a whole amount keeps everything consistent. -/
theorem setPosition_inv {p p' : Pool} (hi : Inv p) {user lower upper : Nat} {δ : F64} {f : Fees} {d : ℤ} (hd : δ.IsInt d)
    (h : p.setPosition user lower upper δ = .ok (p', f)) (hb : d ≤ 0 ∨ p'.Bounded) : Inv p' := by
  obtain ⟨nf, old, base, pos, q1, q2, _, _, _, _, h5, _, h7, h8, h9, _⟩ := Pool.setPosition_ok h
  have e1 : ∃ ticks, q1 = { p with positions := pos, ticks := ticks } := by
    obtain ⟨_, t, rfl, _⟩ := Pool.updateTick_ok h7; exact ⟨t, rfl⟩
  obtain ⟨t1, rfl⟩ := e1
  have e2 : ∃ ticks, q2 = { p with positions := pos, ticks := ticks } := by
    obtain ⟨_, t, rfl, _⟩ := Pool.updateTick_ok h8; exact ⟨t, rfl⟩
  obtain ⟨t2, rfl⟩ := e2
  have ep : p'.positions = pos ∧ p'.ticks = t2 := by
    rcases h9 with ⟨_, _, _, rfl⟩ | ⟨_, rfl⟩ <;> exact ⟨rfl, rfl⟩
  obtain ⟨ep1, ep2⟩ := ep
  have hsum : ∀ w, p'.sumLiq w = Pool.sumLiq { p with positions := pos } w := by
    intro w; unfold Pool.sumLiq; rw [ep1]
  have hb' : d ≤ 0 ∨ Pool.Bounded { p with positions := pos } := by
    rcases hb with hb | hb
    · exact Or.inl hb
    · refine Or.inr ⟨fun k v hm => hb.1 k v (by rw [ep1]; exact hm), ?_⟩
      have := hb.2
      unfold Pool.total at this ⊢
      rw [← hsum]; exact this
  obtain ⟨hw, hu, hs, b, hb0, _, hbd⟩ := positions_step hi hd h5 hb'
  have hs' : ∀ w, p'.sumLiq w = p.sumLiq w + w ⟨user, lower, upper⟩ * d := fun w => by rw [hsum, hs]
  have hw' : p'.Whole := fun k v hm => hw k v (by rw [← ep1]; exact hm)
  have htot : p'.total ≤ 2 ^ 52 := by
    rcases hb with hb | hb
    · have h1 : p'.total = p.total + 1 * d := hs' _
      have h2 : (d : ℚ) ≤ 0 := by exact_mod_cast hb
      have := hi.bound
      linarith
    · exact hb.2
  have hbnd : ∀ t, p'.touching t ≤ 2 ^ 53 := by
    intro t
    have := touching_le hw' t
    have h2 : (2 : ℚ) * 2 ^ 52 = 2 ^ 53 := by norm_num
    linarith
  refine ⟨hw', htot, by rw [ep1]; exact hu, ?_⟩
  obtain ⟨_, tk1, et1, ho1, _, _⟩ := Pool.updateTick_ok h7
  obtain ⟨_, tk2, et2, ho2, _, _⟩ := Pool.updateTick_ok h8
  simp only [Pool.mk.injEq, true_and, and_true] at et1 et2
  subst et1 et2
  simp only at ho1 ho2
  intro t
  obtain ⟨g, n, eg, en, hT⟩ := hi.books t
  have hT0 : TickIs { p with positions := pos } t g n := hT
  have hst := touching_step hs' t
  have hse := entering_step hs' t
  simp only at hst hse
  have hbt := hbnd t
  have hn0 := touching_nonneg hw' t
  have hle1 := entering_le hw' t
  have hle2 := neg_entering_le hw' t
  have hp0 := touching_nonneg hi.whole t
  have hpl1 := entering_le hi.whole t
  have hpl2 := neg_entering_le hi.whole t
  rw [eg] at hst hp0 hpl1 hpl2
  rw [en] at hse hpl1 hpl2
  have z1 : 0 ≤ g := by exact_mod_cast hp0
  have z2 : n ≤ g := by exact_mod_cast hpl1
  have z3 : -n ≤ g := by
    have : ((-n : ℤ) : ℚ) ≤ g := by push_cast; exact hpl2
    exact_mod_cast this
  have z4 : g ≤ 2 ^ 53 := by
    have h1 := touching_le hi.whole t
    have h2 := hi.bound
    rw [eg] at h1
    have : (g : ℚ) ≤ ((2 ^ 53 : ℤ) : ℚ) := by push_cast; linarith
    exact_mod_cast this
  by_cases hl : lower = t
  · subst hl
    by_cases huq : upper = lower
    · subst huq
      simp only [if_true] at hst hse
      have a1 : p'.touching upper = ((g + 2 * d : ℤ) : ℚ) := by rw [hst]; push_cast; ring
      have a2 : p'.entering upper = (n : ℚ) := by rw [hse]; ring
      rw [a1] at hbt hn0
      have c1 : g + 2 * d ≤ 2 ^ 53 := by
        have : ((g + 2 * d : ℤ) : ℚ) ≤ ((2 ^ 53 : ℤ) : ℚ) := by push_cast at hbt ⊢; exact hbt
        exact_mod_cast this
      have c2 : 0 ≤ g + 2 * d := by exact_mod_cast hn0
      rw [a1, a2] at hle1 hle2
      have c3 : n ≤ g + 2 * d := by exact_mod_cast hle1
      have c4 : -n ≤ g + 2 * d := by
        have : ((-n : ℤ) : ℚ) ≤ ((g + 2 * d : ℤ) : ℚ) := by rw [Int.cast_neg]; exact hle2
        exact_mod_cast this
      have b53 : (2 : ℤ) ^ 53 = 9007199254740992 := by norm_num
      have r1 := hT0.update hd h7 (by rw [abs_le]; omega) (by
        simp only [Bool.false_eq_true, if_false]; rw [abs_le]; omega) (by
        simp only [Bool.false_eq_true, if_false]; intro; omega)
      simp only [Bool.false_eq_true, if_false] at r1
      have r2 := r1.update hd h8 (by rw [abs_le]; omega) (by
        simp only [if_true]; rw [abs_le]; omega) (by
        simp only [if_true]; intro; omega)
      simp only [if_true] at r2
      refine ⟨g + 2 * d, n, a1, a2, ?_⟩
      have r3 : TickIs p' upper (g + d + d) (n + d + -d) := r2.congr (by rw [ep2])
      have e3 : g + d + d = g + 2 * d := by ring
      have e4 : n + d + -d = n := by ring
      rw [e3, e4] at r3; exact r3
    · simp only [if_true, if_neg huq] at hst hse
      have a1 : p'.touching lower = ((g + d : ℤ) : ℚ) := by rw [hst]; push_cast; ring
      have a2 : p'.entering lower = ((n + d : ℤ) : ℚ) := by rw [hse]; push_cast; ring
      rw [a1] at hbt hn0
      have c1 : g + d ≤ 2 ^ 53 := by
        have : ((g + d : ℤ) : ℚ) ≤ ((2 ^ 53 : ℤ) : ℚ) := by push_cast at hbt ⊢; exact hbt
        exact_mod_cast this
      have c2 : 0 ≤ g + d := by exact_mod_cast hn0
      rw [a1, a2] at hle1 hle2
      have c3 : n + d ≤ g + d := by exact_mod_cast hle1
      have c4 : -(n + d) ≤ g + d := by
        have : ((-(n + d) : ℤ) : ℚ) ≤ ((g + d : ℤ) : ℚ) := by rw [Int.cast_neg]; exact hle2
        exact_mod_cast this
      have b53 : (2 : ℤ) ^ 53 = 9007199254740992 := by norm_num
      have r1 := hT0.update hd h7 (by rw [abs_le]; omega) (by
        simp only [Bool.false_eq_true, if_false]; rw [abs_le]; omega) (by
        simp only [Bool.false_eq_true, if_false]; intro; omega)
      simp only [Bool.false_eq_true, if_false] at r1
      refine ⟨g + d, n + d, a1, a2, ?_⟩
      exact r1.congr (by rw [ep2]; exact ho2 lower (Ne.symm huq))
  · by_cases huq : upper = t
    · subst huq
      simp only [if_true, if_neg hl] at hst hse
      have a1 : p'.touching upper = ((g + d : ℤ) : ℚ) := by rw [hst]; push_cast; ring
      have a2 : p'.entering upper = ((n + -d : ℤ) : ℚ) := by rw [hse]; push_cast; ring
      rw [a1] at hbt hn0
      have c1 : g + d ≤ 2 ^ 53 := by
        have : ((g + d : ℤ) : ℚ) ≤ ((2 ^ 53 : ℤ) : ℚ) := by push_cast at hbt ⊢; exact hbt
        exact_mod_cast this
      have c2 : 0 ≤ g + d := by exact_mod_cast hn0
      rw [a1, a2] at hle1 hle2
      have c3 : n + -d ≤ g + d := by exact_mod_cast hle1
      have c4 : -(n + -d) ≤ g + d := by
        have : ((-(n + -d) : ℤ) : ℚ) ≤ ((g + d : ℤ) : ℚ) := by rw [Int.cast_neg]; exact hle2
        exact_mod_cast this
      have b53 : (2 : ℤ) ^ 53 = 9007199254740992 := by norm_num
      have r0 := hT0.congr (p' := { p with positions := pos, ticks := t1 }) (ho1 upper (Ne.symm hl))
      have r1 := r0.update hd h8 (by rw [abs_le]; omega) (by
        simp only [if_true]; rw [abs_le]; omega) (by
        simp only [if_true]; intro; omega)
      simp only [if_true] at r1
      refine ⟨g + d, n + -d, a1, a2, ?_⟩
      exact r1.congr (by rw [ep2])
    · simp only [if_neg hl, if_neg huq] at hst hse
      refine ⟨g, n, by rw [hst]; ring, by rw [hse]; ring, ?_⟩
      exact hT0.congr (by rw [ep2, ho2 t (Ne.symm huq)]; exact ho1 t (Ne.symm hl))

theorem Inv.kept : Pool.Kept Inv where
  frame p p' h1 h2 _ _ _ _ hi := by
    have hs : ∀ w, p'.sumLiq w = p.sumLiq w := fun w => by unfold Pool.sumLiq; rw [h2]
    refine ⟨fun k v hm => hi.whole k v (by rw [← h2]; exact hm), ?_, by rw [h2]; exact hi.unique, ?_⟩
    · have := hi.bound; unfold Pool.total at this ⊢; rw [hs]; exact this
    · intro t
      obtain ⟨g, n, e1, e2, h⟩ := hi.books t
      unfold Pool.touching Pool.entering at *
      exact ⟨g, n, by rw [hs]; exact e1, by rw [hs]; exact e2, h.congr (by rw [h1])⟩
  cross p p' t d h hi := by
    obtain ⟨ts, new, hg, _, _, _, _, rfl⟩ := Pool.crossTick_ok h
    refine ⟨hi.whole, hi.bound, hi.unique, ?_⟩
    intro j
    obtain ⟨g, n, e1, e2, hT⟩ := hi.books j
    refine ⟨g, n, e1, e2, ?_⟩
    unfold TickIs at hT ⊢
    simp only
    by_cases hj : j = t
    · subst hj
      rw [hg] at hT
      rw [mapGet_set_same]
      exact hT
    · rw [mapGet_set_other hj]; exact hT

theorem WholeReach.inv {m : LibM} {p : Pool} (h : WholeReach m p) : Inv p := by
  induction h with
  | new h =>
    unfold Pool.new at h
    simp only at h
    rw [bind_ok] at h
    obtain ⟨_, _, h⟩ := h
    rw [pure_ok] at h
    subst h
    refine ⟨fun k v hm => absurd hm (by simp), by simp [Pool.total, Pool.sumLiq], by simp [UniqueKeys], ?_⟩
    intro t
    exact ⟨0, 0, by simp [Pool.touching, Pool.sumLiq], by simp [Pool.entering, Pool.sumLiq], by simp [TickIs, mapGet]⟩
  | deposit _ h hb ih =>
    unfold Pool.deposit at h
    simp only at h
    rw [Pool.ite_eq_ok] at h
    rcases h with ⟨_, h⟩ | ⟨_, h⟩
    · exact absurd h (by simp [rpanic])
    rw [Pool.ite_eq_ok] at h
    rcases h with ⟨_, h⟩ | ⟨_, h⟩
    · exact absurd h (by simp [rpanic])
    rw [Pool.ite_eq_ok] at h
    rcases h with ⟨_, h⟩ | ⟨_, h⟩
    · exact absurd h (by simp [rpanic])
    rw [bind_ok] at h
    obtain ⟨⟨q, f⟩, h1, h⟩ := h
    simp only [pure_ok, Prod.mk.injEq] at h
    obtain ⟨rfl, _⟩ := h
    have hbq : q.Bounded := hb
    refine Inv.kept.frame q _ rfl rfl rfl rfl rfl rfl ?_
    -- the liquidity added is finite
    have hfin : ∀ {δ : F64} {user lower upper : Nat} {p : Pool}, p.setPosition user lower upper δ = .ok (q, f) →
        δ.Finite := by
      intro δ user lower upper p h
      obtain ⟨nf, old, base, pos, q1, q2, _, _, _, _, h5, _, h7, h8, h9, _⟩ := Pool.setPosition_ok h
      have ep : q.positions = pos := by
        obtain ⟨_, t, rfl, _⟩ := Pool.updateTick_ok h7
        obtain ⟨_, t, rfl, _⟩ := Pool.updateTick_ok h8
        rcases h9 with ⟨_, _, _, rfl⟩ | ⟨_, rfl⟩ <;> rfl
      rcases Pool.setPositionMap_ok h5 with ⟨hn, hl, rfl, _, rfl⟩ | ⟨poz, hg, _, rfl, hl, hcase⟩
      · exact hbq.1 ⟨user, lower, upper⟩ ⟨δ, Fees.zero⟩ (by
          rw [ep]; exact mapGet_mem' (mapGet_set_same _ _ _))
      · rcases hcase with ⟨he, _⟩ | ⟨_, _, rfl⟩
        · exact (add_finite ⟨_, zero_of_eq he⟩).2
        · exact (add_finite (hbq.1 ⟨user, lower, upper⟩ ⟨add poz.liq δ, nf⟩ (by
            rw [ep]; exact mapGet_mem' (mapGet_set_same _ _ _)))).2
    have hf := hfin h1
    obtain ⟨x, hx⟩ := floor_finite hf
    exact setPosition_inv ih (floor_is hx) h1 (Or.inr hbq)
  | withdraw _ hn h ih =>
    unfold Pool.withdraw at h
    simp only at h
    rw [Pool.ite_eq_ok] at h
    rcases h with ⟨_, h⟩ | ⟨hneg, h⟩
    · exact absurd h (by simp [rpanic])
    rw [bind_ok] at h
    obtain ⟨⟨q, f⟩, h1, h⟩ := h
    simp only [pure_ok, Prod.mk.injEq] at h
    obtain ⟨rfl, _⟩ := h
    refine Inv.kept.frame q _ rfl rfl rfl rfl rfl rfl ?_
    refine setPosition_inv ih (neg_int hn) h1 (Or.inl ?_)
    by_contra hc
    have := (lt_zero_is hn).2 (by exact_mod_cast (by omega : _ < (0 : ℤ)))
    rw [this] at hneg; cases hneg
  | swapX _ h ih => exact Pool.swapX_kept Inv.kept h ih
  | swapY _ h ih => exact Pool.swapY_kept Inv.kept h ih

end Hmm.Flt
