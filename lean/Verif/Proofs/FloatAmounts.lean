import Verif.Model.FloatPool
import Verif.Proofs.FloatNear

/-
Accuracy of the formulas of the floating-point pool.
-/

namespace Hmm.F64

section
attribute [local irreducible] unit limit

theorem Is.not_nan {a : F64} {q : ℚ} (h : a.Is q) : a ≠ nan := by
  obtain ⟨_, _, rfl, _⟩ := h; exact fun h => by cases h

theorem min_eq {a b : F64} {p q : ℚ} (ha : a.Is p) (hb : b.Is q) : F64.min a b = if q < p then b else a := by
  have h : F64.min a b = if lt b a = true then b else a := by
    obtain ⟨_, _, rfl, _⟩ := ha
    obtain ⟨_, _, rfl, _⟩ := hb
    rfl
  rw [h]
  simp only [lt_is hb ha]

theorem max_eq {a b : F64} {p q : ℚ} (ha : a.Is p) (hb : b.Is q) : F64.max a b = if p < q then b else a := by
  have h : F64.max a b = if lt a b = true then b else a := by
    obtain ⟨_, _, rfl, _⟩ := ha
    obtain ⟨_, _, rfl, _⟩ := hb
    rfl
  rw [h]
  simp only [lt_is ha hb]

theorem min_is {a b : F64} {p q : ℚ} (ha : a.Is p) (hb : b.Is q) : (F64.min a b).Is (Min.min p q) := by
  rw [min_eq ha hb]
  split
  · rename_i h; rw [min_eq_right h.le]; exact hb
  · rename_i h; rw [min_eq_left (not_lt.1 h)]; exact ha

theorem max_is {a b : F64} {p q : ℚ} (ha : a.Is p) (hb : b.Is q) : (F64.max a b).Is (Max.max p q) := by
  rw [max_eq ha hb]
  split
  · rename_i h; rw [max_eq_right h.le]; exact hb
  · rename_i h; rw [max_eq_left (not_lt.1 h)]; exact ha

theorem min_rep {a b : F64} {p q : ℚ} (ha : a.Is p) (hb : b.Is q) (ra : a.Rep) (rb : b.Rep) : (F64.min a b).Rep := by
  rw [min_eq ha hb]; split <;> assumption

theorem max_rep {a b : F64} {p q : ℚ} (ha : a.Is p) (hb : b.Is q) (ra : a.Rep) (rb : b.Rep) : (F64.max a b).Rep := by
  rw [max_eq ha hb]; split <;> assumption

theorem Near.min {k : ℕ} {a b : F64} {x y : ℚ} (ha : Near k a x) (hb : Near k b y) :
    Near k (F64.min a b) (Min.min x y) := by
  obtain ⟨r, hr, hr0, h1, h2⟩ := ha.val
  obtain ⟨s, hs, hs0, h3, h4⟩ := hb.val
  have hk := shrink_pow_pos k
  refine ⟨le_min ha.1 hb.1, _, min_is hr hs, le_min ?_ ?_, le_min ?_ ?_⟩
  · exact le_trans (mul_le_mul_of_nonneg_right (min_le_left _ _) hk.le) h1
  · exact le_trans (mul_le_mul_of_nonneg_right (min_le_right _ _) hk.le) h3
  · exact le_trans (mul_le_mul_of_nonneg_right (min_le_left _ _) hk.le) h2
  · exact le_trans (mul_le_mul_of_nonneg_right (min_le_right _ _) hk.le) h4

theorem Tame.nonneg {e : ℕ} {q : ℚ} (h : Tame e q) : 0 ≤ q := by
  rcases h with rfl | h
  · exact le_rfl
  · exact h.pos.le

theorem Tame.mul {d e : ℕ} {p q : ℚ} (hp : Tame d p) (hq : Tame e q) : Tame (d + e) (p * q) := by
  rcases hp with rfl | hp
  · left; ring
  rcases hq with rfl | hq
  · left; ring
  exact Or.inr (hp.mul hq)

theorem Tame.div {d e : ℕ} {p q : ℚ} (hp : Tame d p) (hq : Sized e q) : Tame (d + e) (p / q) := by
  rcases hp with rfl | hp
  · left; simp
  exact Or.inr (hp.div hq)

theorem Tame.mono {d e : ℕ} {q : ℚ} (h : Tame d q) (hde : d ≤ e) : Tame e q := by
  rcases h with rfl | h
  · exact Or.inl rfl
  · exact Or.inr (h.mono hde)

theorem sub_self_is {a : F64} {q : ℚ} (h : a.Is q) : (sub a a).Is 0 := by
  obtain ⟨s, n, rfl, _⟩ := h
  have : sub (fin s n) (fin s n) = F64.zero := by
    unfold sub neg add
    cases s <;> simp
  rw [this]; exact zero_is

/-- Differences of doubles in order. -/
theorem near_sub_le {a b : F64} {p q : ℚ} {e : ℕ} (ha : a.Is p) (hb : b.Is q) (ra : a.Rep) (rb : b.Rep)
    (hp : Sized e p) (hq : Sized e q) (hle : e ≤ 900) (h : q ≤ p) :
    Near 1 (sub a b) (p - q) ∧ Tame (e + 53) (p - q) := by
  rcases eq_or_lt_of_le h with rfl | h
  · rw [sub_self]
    exact ⟨Rounded.near_zero (by have := sub_rounded ha hb; rwa [sub_self] at this), Or.inl rfl⟩
  · exact ⟨near_sub ha hb ra rb hp hq hle h, Or.inr (sized_sub ha hb ra rb hp hq hle h)⟩

end

end Hmm.F64

namespace Hmm.Flt

open F64

section
attribute [local irreducible] unit limit

theorem liqXOnly_near {x rpa rpb : F64} {X a b : ℚ} (hx : x.Is X) (hX : Tame 300 X) (ha : rpa.Is a) (hb : rpb.Is b)
    (ra : rpa.Rep) (rb : rpb.Rep) (sa : Sized 100 a) (sb : Sized 100 b) (h : a < b) :
    Near 4 (liqXOnly x rpa rpb) (X * a * b / (b - a)) ∧ Tame 653 (X * a * b / (b - a)) := by
  have hd := near_sub hb ha rb ra sb sa (by norm_num) h
  have sd := sized_sub hb ha rb ra sb sa (by norm_num) h
  have t1 := hX.mul (Or.inr sa)
  have t2 := t1.mul (Or.inr sb)
  have t3 := t2.div sd
  have n1 := (near_is hx hX.nonneg).mul (near_is ha sa.pos.le) t1 (by norm_num) (by norm_num)
  have n2 := n1.mul (near_is hb sb.pos.le) t2 (by norm_num) (by norm_num)
  exact ⟨n2.div hd sd.pos t3 (by norm_num) (by norm_num), t3⟩

theorem liqYOnly_near {y rpa rpb : F64} {Y a b : ℚ} (hy : y.Is Y) (hY : Tame 300 Y) (ha : rpa.Is a) (hb : rpb.Is b)
    (ra : rpa.Rep) (rb : rpb.Rep) (sa : Sized 100 a) (sb : Sized 100 b) (h : a < b) :
    Near 2 (liqYOnly y rpa rpb) (Y / (b - a)) ∧ Tame 653 (Y / (b - a)) := by
  have hd := near_sub hb ha rb ra sb sa (by norm_num) h
  have sd := sized_sub hb ha rb ra sb sa (by norm_num) h
  have t3 := hY.div sd
  exact ⟨(near_is hy hY.nonneg).div hd sd.pos t3 (by norm_num) (by norm_num), t3.mono (by norm_num)⟩

/-- The liquidity that amounts of X and Y can pay for, exactly. -/
def fullLiq (x y v a b : ℚ) : ℚ :=
  if v ≤ a then x * a * b / (b - a) else if v < b then min (x * v * b / (b - v)) (y / (v - a)) else y / (b - a)

theorem liqFrom_near {x y rp rpa rpb : F64} {X Y v a b : ℚ} (hx : x.Is X) (hy : y.Is Y) (hX : Tame 300 X)
    (hY : Tame 300 Y) (hp : Prices rp rpa rpb v a b) :
    Near 4 (liqFromXYRpRng x y rp rpa rpb) (fullLiq X Y v a b) ∧ Tame 653 (fullLiq X Y v a b) := by
  unfold liqFromXYRpRng fullLiq
  have e1 : (le rp rpa = true) ↔ v ≤ a := le_is hp.iv hp.ia
  have e2 : (lt rp rpb = true) ↔ v < b := lt_is hp.iv hp.ib
  simp only [e1, e2]
  by_cases c1 : v ≤ a
  · simp only [if_pos c1]
    exact liqXOnly_near hx hX hp.ia hp.ib hp.ra hp.rb hp.sa hp.sb hp.lt
  · simp only [if_neg c1]
    by_cases c2 : v < b
    · simp only [if_pos c2]
      obtain ⟨n1, t1⟩ := liqXOnly_near hx hX hp.iv hp.ib hp.rv hp.rb hp.sv hp.sb c2
      obtain ⟨n2, t2⟩ := liqYOnly_near hy hY hp.ia hp.iv hp.ra hp.rv hp.sa hp.sv (not_le.1 c1)
      refine ⟨n1.min (n2.mono (by norm_num)), ?_⟩
      rcases min_choice (X * v * b / (b - v)) (Y / (v - a)) with h | h <;> rw [h] <;> assumption
    · simp only [if_neg c2]
      obtain ⟨n2, t2⟩ := liqYOnly_near hy hY hp.ia hp.ib hp.ra hp.rb hp.sa hp.sb hp.lt
      exact ⟨n2.mono (by norm_num), t2⟩

/-- The price clamped to the range. -/
theorem clamp_is {rp rpa rpb : F64} {v a b : ℚ} (hp : Prices rp rpa rpb v a b) :
    (F64.max (F64.min rp rpb) rpa).Is (max a (min v b)) ∧ (F64.max (F64.min rp rpb) rpa).Rep ∧
    Sized 100 (max a (min v b)) ∧ max a (min v b) ≤ b ∧ a ≤ max a (min v b) := by
  have h1 := min_is hp.iv hp.ib
  have r1 := min_rep hp.iv hp.ib hp.rv hp.rb
  have h2 := max_is h1 hp.ia
  rw [max_comm] at h2
  refine ⟨h2, max_rep h1 hp.ia r1 hp.ra, ?_, max_le hp.lt.le (min_le_right _ _), le_max_left _ _⟩
  have hm : Sized 100 (min v b) := by
    rcases min_choice v b with h | h <;> rw [h]
    · exact hp.sv
    · exact hp.sb
  rcases max_choice a (min v b) with h | h <;> rw [h]
  · exact hp.sa
  · exact hm

theorem xFrom_near {l rp rpa rpb : F64} {L v a b : ℚ} (hl : l.Is L) (hL : Tame 600 L) (hp : Prices rp rpa rpb v a b) :
    Near 4 (xFromLRpRng l rp rpa rpb) (heldX L v a b) ∧ Tame 953 (heldX L v a b) := by
  obtain ⟨hc, rc, sc, hcb, _⟩ := clamp_is hp
  obtain ⟨n1, t1⟩ := near_sub_le hp.ib hc hp.rb rc hp.sb sc (by norm_num) hcb
  have t2 := hL.mul t1
  have n2 := (near_is hl hL.nonneg).mul n1 t2 (by norm_num) (by norm_num)
  have s3 := sc.mul hp.sb
  have n3 := (near_is hc sc.pos.le).mul (near_is hp.ib hp.sb.pos.le) (Or.inr s3) (by norm_num) (by norm_num)
  have t4 := t2.div s3
  have n4 := n2.div n3 s3.pos t4 (by norm_num) (by norm_num)
  have e : L * (b - max a (min v b)) / (max a (min v b) * b) = heldX L v a b := by
    unfold heldX
    have h1 := sc.pos.ne'
    have h2 := hp.sb.pos.ne'
    field_simp
  rw [e] at n4 t4
  exact ⟨n4, t4⟩

theorem yFrom_near {l rp rpa rpb : F64} {L v a b : ℚ} (hl : l.Is L) (hL : Tame 600 L) (hp : Prices rp rpa rpb v a b) :
    Near 2 (yFromLRpRng l rp rpa rpb) (heldY L v a b) ∧ Tame 953 (heldY L v a b) := by
  obtain ⟨hc, rc, sc, _, hac⟩ := clamp_is hp
  obtain ⟨n1, t1⟩ := near_sub_le hc hp.ia rc hp.ra sc hp.sa (by norm_num) hac
  have t2 := hL.mul t1
  exact ⟨(near_is hl hL.nonneg).mul n1 t2 (by norm_num) (by norm_num), t2.mono (by norm_num)⟩

/-! ### Exact amounts -/

theorem heldX_mul (k l v a b : ℚ) : heldX (k * l) v a b = k * heldX l v a b := by unfold heldX; ring

theorem heldY_mul (k l v a b : ℚ) : heldY (k * l) v a b = k * heldY l v a b := by unfold heldY; ring

/-- Liquidity is affordable if it is not more than `fullLiq`. -/
theorem affords {x y v a b l : ℚ} (ha : 0 < a) (hab : a < b) (hx : 0 ≤ x) (hy : 0 ≤ y) :
    (heldX l v a b ≤ x ∧ heldY l v a b ≤ y) ↔ l ≤ fullLiq x y v a b := by
  have hb : 0 < b := ha.trans hab
  unfold heldX heldY fullLiq
  by_cases c1 : v ≤ a
  · have e : max a (min v b) = a := max_eq_left (le_trans (min_le_left _ _) c1)
    rw [e, if_pos c1, sub_self, mul_zero, le_div_iff₀ (sub_pos.2 hab)]
    have e2 : l * (1 / a - 1 / b) = l * (b - a) / (a * b) := by field_simp
    rw [e2, div_le_iff₀ (mul_pos ha hb), ← mul_assoc]
    exact ⟨fun h => h.1, fun h => ⟨h, hy⟩⟩
  · have hav := not_le.1 c1
    rw [if_neg c1]
    by_cases c2 : v < b
    · have e : max a (min v b) = v := by rw [min_eq_left c2.le, max_eq_right hav.le]
      have hv : 0 < v := ha.trans hav
      rw [e, if_pos c2, le_min_iff, le_div_iff₀ (sub_pos.2 c2), le_div_iff₀ (sub_pos.2 hav)]
      have e2 : l * (1 / v - 1 / b) = l * (b - v) / (v * b) := by field_simp
      rw [e2, div_le_iff₀ (mul_pos hv hb), ← mul_assoc]
    · have e : max a (min v b) = b := by rw [min_eq_right (not_lt.1 c2), max_eq_right hab.le]
      rw [e, if_neg c2, sub_self, mul_zero, le_div_iff₀ (sub_pos.2 hab)]
      exact ⟨fun h => h.2, fun h => ⟨hx, h⟩⟩

theorem fullLiq_nonneg {x y v a b : ℚ} (ha : 0 < a) (hab : a < b) (hx : 0 ≤ x) (hy : 0 ≤ y) : 0 ≤ fullLiq x y v a b := by
  rw [← affords ha hab hx hy]
  unfold heldX heldY
  rw [zero_mul, zero_mul]
  exact ⟨hx, hy⟩

end

theorem adj_eq : adjWithdrawal = fin false (9007199254731985 * 2 ^ 1021) := by decide +kernel

section
attribute [local irreducible] unit limit

theorem adj_near : Near 1 adjWithdrawal (1 - 1 / 10 ^ 12) := by
  have h : adjWithdrawal.Is (9007199254731985 / 2 ^ 53 : ℚ) := by
    refine ⟨false, 9007199254731985 * 2 ^ 1021, ?_, ?_⟩
    · have : adjWithdrawal = fin false (9007199254731985 * 2 ^ 1021) := adj_eq
      exact this
    · rw [unit_mul_pow, signed, if_neg (by simp)]
      push_cast
      rw [div_eq_div_iff (by positivity) (by positivity), mul_assoc, ← pow_add]
  refine ⟨by norm_num, _, h, ?_, ?_⟩ <;> unfold shrink <;> norm_num

end

end Hmm.Flt
