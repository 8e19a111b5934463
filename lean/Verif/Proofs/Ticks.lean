import Verif.Model.PoolMath
import Verif.Proofs.Pow
import Verif.Spec.Ticks

/-
Tick prices and the price-to-tick search: helper lemmas.
-/

namespace Hmm.PoolMath

open Decimal

/-- The constant `tick_base_root()` evaluates to. -/
def root : Decimal := ⟨1000049998750, 12, false⟩

theorem tickBaseRoot_eq : tickBaseRoot = .ok root := by decide +kernel

theorem root_mag : root.mag = rootQ := by unfold mag root rootQ; norm_num

theorem root_toRat : root.toRat = rootQ := by rw [toRat_of_nonneg rfl, root_mag]

theorem rootQ_gt : 1 < rootQ := by unfold rootQ; norm_num

theorem rootQ_pow_pos (n : Nat) : 0 < rootQ ^ n := pow_pos (by linarith [rootQ_gt]) n

theorem one_le_rootQ_pow (n : Nat) : 1 ≤ rootQ ^ n := one_le_pow₀ rootQ_gt.le

theorem tickToRp_eq (t : Nat) : tickToRp t = root.powInt t := by
  unfold tickToRp; rw [tickBaseRoot_eq]; rfl

/-! Upper and lower estimates of `rootQ ^ (2^k)` by rounded integer squaring. -/

def csq (v : Nat) : Nat := (v * v + 999999999999) / 1000000000000

def fsq (v : Nat) : Nat := v * v / 1000000000000

def iter (f : Nat → Nat) : Nat → Nat → Nat
  | 0, v => v
  | k + 1, v => iter f k (f v)


theorem csq_ge (v : Nat) : (v : ℚ) * v ≤ (csq v : ℚ) * 10 ^ 12 := by
  have h2 : v * v ≤ csq v * 1000000000000 := by unfold csq; generalize v * v = w; omega
  have : (v : ℚ) * v ≤ (csq v : ℚ) * 1000000000000 := by exact_mod_cast h2
  linarith

theorem fsq_le (v : Nat) : (fsq v : ℚ) * 10 ^ 12 ≤ (v : ℚ) * v := by
  have h2 : fsq v * 1000000000000 ≤ v * v := by unfold fsq; generalize v * v = w; omega
  have : (fsq v : ℚ) * 1000000000000 ≤ (v : ℚ) * v := by exact_mod_cast h2
  linarith

theorem pow_le_ceilSq : ∀ (k v : Nat) (x : ℚ), 0 ≤ x → x ≤ (v : ℚ) / 10 ^ 12 →
    x ^ (2 ^ k) ≤ (iter csq k v : ℚ) / 10 ^ 12 := by
  intro k
  induction k with
  | zero => intro v x _ h; simpa [iter] using h
  | succ k ih =>
    intro v x h0 h
    rw [show 2 ^ (k + 1) = 2 * 2 ^ k by rw [pow_succ, mul_comm], pow_mul, iter]
    apply ih _ _ (by positivity)
    have h1 : x ^ 2 ≤ ((v : ℚ) / 10 ^ 12) ^ 2 := pow_le_pow_left₀ h0 h 2
    refine h1.trans ?_
    have h3 := csq_ge v
    rw [le_div_iff₀ (by norm_num), div_pow]
    rw [div_mul_eq_mul_div, div_le_iff₀ (by norm_num)]
    nlinarith

theorem floorSq_le_pow : ∀ (k v : Nat) (x : ℚ), (v : ℚ) / 10 ^ 12 ≤ x →
    (iter fsq k v : ℚ) / 10 ^ 12 ≤ x ^ (2 ^ k) := by
  intro k
  induction k with
  | zero => intro v x h; simpa [iter] using h
  | succ k ih =>
    intro v x h
    rw [show 2 ^ (k + 1) = 2 * 2 ^ k by rw [pow_succ, mul_comm], pow_mul, iter]
    apply ih
    have h1 : ((v : ℚ) / 10 ^ 12) ^ 2 ≤ x ^ 2 := pow_le_pow_left₀ (by positivity) h 2
    refine le_trans ?_ h1
    have h3 := fsq_le v
    rw [div_le_iff₀ (by norm_num), div_pow, div_mul_eq_mul_div, le_div_iff₀ (by norm_num)]
    nlinarith

/-- `rootQ ^ (2^19)` fits at double scale with room to spare. -/
theorem rootQ_pow19 : rootQ ^ (2 ^ 19) * (10 ^ 12) ^ 2 < 2 ^ 128 := by
  have h := pow_le_ceilSq 19 1000049998750 rootQ (by unfold rootQ; norm_num)
    (by unfold rootQ; norm_num)
  have h2 : iter csq 19 1000049998750 * 10 ^ 12 < 2 ^ 128 := by decide +kernel
  have h3 : (iter csq 19 1000049998750 : ℚ) * 10 ^ 12 < 2 ^ 128 := by exact_mod_cast h2
  generalize rootQ ^ (2 ^ 19) = P at *
  generalize (iter csq 19 1000049998750 : ℚ) = c at *
  rw [le_div_iff₀ (by norm_num)] at h
  nlinarith

theorem rootQ_pow19' : rootQ ^ (2 ^ 19) * 10 ^ 12 * 1000049998750 < 2 ^ 128 := by
  have h := pow_le_ceilSq 19 1000049998750 rootQ (by unfold rootQ; norm_num)
    (by unfold rootQ; norm_num)
  have h2 : iter csq 19 1000049998750 * 1000049998750 < 2 ^ 128 := by decide +kernel
  have h3 : (iter csq 19 1000049998750 : ℚ) * 1000049998750 < 2 ^ 128 := by exact_mod_cast h2
  generalize rootQ ^ (2 ^ 19) = P at *
  generalize (iter csq 19 1000049998750 : ℚ) = c at *
  rw [le_div_iff₀ (by norm_num)] at h
  nlinarith

/-- `rootQ ^ (2^20)` is beyond the range. -/
theorem rootQ_pow20 : 2 ^ 129 < rootQ ^ (2 ^ 20) * (10 ^ 12) ^ 2 := by
  have h := floorSq_le_pow 20 1000049998750 rootQ (by unfold rootQ; norm_num)
  have h2 : 2 ^ 129 < iter fsq 20 1000049998750 * 10 ^ 12 := by decide +kernel
  have h3 : (2 : ℚ) ^ 129 < (iter fsq 20 1000049998750 : ℚ) * 10 ^ 12 := by exact_mod_cast h2
  generalize rootQ ^ (2 ^ 20) = P at *
  generalize (iter fsq 20 1000049998750 : ℚ) = c at *
  rw [div_le_iff₀ (by norm_num)] at h
  nlinarith

theorem tickToRp_returns {t : Nat} (ht : t < 2 ^ 19) : ∃ c, tickToRp t = .ok c := by
  rw [tickToRp_eq, powInt_eq _ (by decide)]
  refine powLoop_returns 19 128 t root _ rootQ (rootQ ^ (2 ^ 19)) (by norm_num) ht rfl
    (by decide) rootQ_gt.le root_mag.le le_rfl ?_ rootQ_pow19
  rw [one_mag, one_mul]
  exact pow_le_pow_right₀ rootQ_gt.le ht.le

theorem tickToRp_lt {t : Nat} {c : Decimal} (hc : tickToRp t = .ok c) : t < 2 ^ 19 := by
  by_contra ht
  rw [tickToRp_eq] at hc
  obtain ⟨_, hl⟩ := powInt_ok hc
  obtain ⟨b', hb'⟩ := powLoop_squares 19 128 t _ _ _ hl (by omega)
  have : sqIter (19 + 1) root = .error .panic := by decide +kernel
  rw [this] at hb'
  cases hb'

theorem tickToRp_panics {t : Nat} (ht : 2 ^ 19 ≤ t) (ht2 : t < 2 ^ 128) : tickToRp t = .error .panic := by
  have hnot : ∀ c, tickToRp t ≠ .ok c := fun c hc => by have := tickToRp_lt hc; omega
  have hl : ∀ (k exp : Nat) (b r : Decimal) (e : Err), exp < 2 ^ k → powLoop k exp b r = .error e → e = .panic := by
    intro k
    induction k with
    | zero =>
      intro exp b r e h hp
      have : exp = 0 := by simpa using h
      subst this
      rw [powLoop_zero] at hp; cases hp
    | succ k ih =>
      intro exp b r e h hp
      by_cases he : exp = 0
      · subst he; rw [powLoop_zero] at hp; cases hp
      rw [powLoop, if_neg he, bind_error] at hp
      rcases hp with hp | ⟨r', _, hp⟩
      · rw [ite_error] at hp
        rcases hp with ⟨_, hp⟩ | ⟨_, hp⟩
        · exact (mul_error.1 hp).1
        · cases hp
      · rw [bind_error] at hp
        rcases hp with hp | ⟨b', _, hp⟩
        · exact (mul_error.1 hp).1
        · exact ih _ _ _ _ (by rw [pow_succ] at h; omega) hp
  cases hc : tickToRp t with
  | ok c => exact absurd hc (hnot c)
  | error e =>
    rw [tickToRp_eq, powInt_eq _ (by decide)] at hc
    rw [hl _ _ _ _ _ ht2 hc]

/-- Bounds of a tick price. -/
theorem tickToRp_bounds {t : Nat} {c : Decimal} (h : tickToRp t = .ok c) :
    c.scale = 12 ∧ c.negative = false ∧ c.mag ≤ rootQ ^ t ∧
    rootQ ^ t * (1 - t * ulp 12) ≤ c.mag := by
  rw [tickToRp_eq] at h
  obtain ⟨_, hl⟩ := powInt_ok h
  obtain ⟨h1, h2⟩ := powLoop_upper _ _ _ _ _ hl
  have hcn : c.negative = false := powLoop_sign_pos _ _ _ _ _ rfl hl
  rw [one_mag, one_mul, root_mag] at h2
  refine ⟨h1, hcn, h2, ?_⟩
  have := powLoop_lower_ge _ _ _ _ _ 1 rootQ 0 0 hl rfl le_rfl rootQ_gt.le le_rfl le_rfl
    (by rw [one_mag]; simp) (by rw [root_mag]; simp)
  have hs : root.scale = 12 := rfl
  rw [hs] at this
  simpa using this

/-- One tick outweighs the accumulated rounding of up to `2^20` ticks. -/
theorem root_step {t : Nat} (ht : t ≤ 2 ^ 20) : rootQ ^ t < rootQ ^ (t + 1) * (1 - ((t + 1 : ℕ) : ℚ) * ulp 12) := by
  have hp := rootQ_pow_pos t
  have ht' : ((t + 1 : ℕ) : ℚ) ≤ 2 ^ 20 + 1 := by exact_mod_cast Nat.succ_le_succ ht
  have hu : ulp 12 = 1 / 10 ^ 12 := rfl
  rw [pow_succ, mul_assoc]
  apply lt_mul_of_one_lt_right hp
  have h1 : 1 - (2 ^ 20 + 1) * ulp 12 ≤ 1 - ((t + 1 : ℕ) : ℚ) * ulp 12 := by
    have := ulp_pos 12
    nlinarith
  have h2 : 1 < rootQ * (1 - (2 ^ 20 + 1) * ulp 12) := by rw [hu]; unfold rootQ; norm_num
  have h3 : 0 < rootQ := by linarith [rootQ_gt]
  nlinarith

/-! ### The search -/

/-- Invariant of the search: the running product at tick `x`. -/
def At (x : Nat) (rez : Decimal) : Prop :=
  rez.scale = 12 ∧ rez.negative = false ∧ rez.mag ≤ rootQ ^ x ∧ rootQ ^ x * (1 - x * ulp 12) ≤ rez.mag

theorem at_start {t : Nat} {c : Decimal} (h : tickToRp t = .ok c) : At t c := tickToRp_bounds h

theorem at_step {x : Nat} {rez rez' : Decimal} (h : At x rez) (hm : rez.mul root = .ok rez') :
    At (x + 1) rez' := by
  obtain ⟨h1, h2, h3, h4⟩ := h
  obtain ⟨m1, m2, m3⟩ := mul_mag hm
  refine ⟨m1.trans h1, by rw [m2, h2]; rfl, ?_, ?_⟩
  · refine (mul_mag_le hm).trans ?_
    rw [root_mag, pow_succ]
    exact mul_le_mul_of_nonneg_right h3 (by linarith [rootQ_gt])
  · have := rel_step (X := rootQ ^ x) (Y := rootQ) (r := rez.mag) (b := rootQ) (p := rez'.mag)
      (u := ulp 12) (α := x) (β := 0) (ulp_pos 12).le (one_le_rootQ_pow x) rootQ_gt.le
      (by positivity) le_rfl (mag_nonneg _) h4 (by simp)
      (by have := mul_mag_gt hm; rw [root_mag, h1] at this; exact this.le)
    rw [pow_succ]
    push_cast
    simpa [add_assoc, add_comm, add_left_comm] using this

/-- At tick `2^20` the product can no longer be continued. -/
theorem at_limit {x : Nat} {rez rez' : Decimal} (h : At x rez) (hx : 2 ^ 20 ≤ x)
    (hx2 : x ≤ 2 ^ 21) : rez.mul root ≠ .ok rez' := by
  intro hm
  obtain ⟨h1, h2, h3, h4⟩ := h
  have hfit := (mul_ok.1 hm).1
  have hv : (rez.value : ℚ) = rez.mag * 10 ^ 12 := by rw [value_eq, h1]
  have hq : (rez.value : ℚ) * 1000049998750 < 2 ^ 128 := by
    have : rez.value * 1000049998750 < 2 ^ 128 := hfit
    exact_mod_cast this
  have h5 : rootQ ^ (2 ^ 20) ≤ rootQ ^ x := pow_le_pow_right₀ rootQ_gt.le hx
  have h6 := rootQ_pow20
  have hxq : (x : ℚ) ≤ 2 ^ 21 := by exact_mod_cast hx2
  have h7 : (1 : ℚ) / 2 ≤ 1 - x * ulp 12 := by
    have hu : ulp 12 = 1 / 10 ^ 12 := rfl
    rw [hu]
    have : (x : ℚ) * (1 / 10 ^ 12) ≤ 2 ^ 21 * (1 / 10 ^ 12) :=
      mul_le_mul_of_nonneg_right hxq (by norm_num)
    norm_num at this ⊢
    linarith
  have hp := rootQ_pow_pos x
  have h8 : rootQ ^ x * (1 / 2) ≤ rez.mag := le_trans (mul_le_mul_of_nonneg_left h7 hp.le) h4
  generalize rootQ ^ (2 ^ 20) = P at *
  generalize rootQ ^ x = Q at *
  rw [hv] at hq
  norm_num at *
  nlinarith

/-- The order used by the search's test. -/
theorem gte_pos {a b : Decimal} (hs : a.scale = b.scale) (ha : a.negative = false) :
    a.gte b = .ok (decide (b.toRat ≤ a.toRat ∨ b.negative = true)) := by
  unfold Decimal.gte
  rw [if_neg (by simp [hs])]
  cases hb : b.negative with
  | true => simp [ha]
  | false =>
    simp only [ha, Bool.false_and, Bool.not_false, Bool.true_and, Bool.false_eq_true, if_false, or_false]
    congr 1
    rw [toRat_of_nonneg ha, toRat_of_nonneg hb]
    unfold mag
    rw [hs]
    congr 1
    rw [div_le_div_iff_of_pos_right (pow10Q_pos _)]
    simp

theorem gte_scale {a b : Decimal} (hs : a.scale ≠ b.scale) :
    unwrap (a.gte b) = .error .panic := by
  unfold Decimal.gte; simp [hs, rerr, unwrap]

theorem search_zero (m rp : Decimal) (ltr : Bool) (x : Nat) (rez : Decimal) :
    rpToTickLoopFrom m rp ltr 0 x rez = (do
      let rez ← rez.mul m
      if (← unwrap (rez.gte rp)) then (if ltr then checkedAdd x 1 else .ok x)
      else rpanic) := rfl

theorem search_succ (m rp : Decimal) (ltr : Bool) (room x : Nat) (rez : Decimal) :
    rpToTickLoopFrom m rp ltr (room + 1) x rez = (do
      let rez ← rez.mul m
      if (← unwrap (rez.gte rp)) then (if ltr then checkedAdd x 1 else .ok x)
      else rpToTickLoopFrom m rp ltr room (x + 1) rez) := rfl

/-- What a result of the search says. -/
theorem search_ok : ∀ (room x : Nat) (rp rez : Decimal) (ltr : Bool) (r : Nat), At x rez →
    rpToTickLoopFrom root rp ltr room x rez = .ok r →
    ∃ r', r = (if ltr then r' + 1 else r') ∧ x ≤ r' ∧ r' ≤ x + room ∧ rp.scale = 12 ∧
      (rp.toRat ≤ rootQ ^ (r' + 1)) ∧
      (x < r' → rootQ ^ r' * (1 - r' * ulp 12) < rp.toRat) := by
  intro room
  induction room with
  | zero =>
    intro x rp rez ltr r hat h
    rw [search_zero, bind_ok] at h
    obtain ⟨rez', h1, h⟩ := h
    have hat' := at_step hat h1
    by_cases hs : rez'.scale = rp.scale
    · rw [gte_pos hs hat'.2.1] at h
      simp only [unwrap, bind, Except.bind] at h
      split at h
      · rename_i hd
        refine ⟨x, ?_, le_rfl, by omega, by rw [← hs, hat'.1], ?_, by omega⟩
        · cases ltr
          · simp at h; simp [h]
          · simp at h; have := (checkedAdd_ok.1 h).2; simp; omega
        · simp only [decide_eq_true_eq] at hd
          rcases hd with hd | hd
          · rw [toRat_of_nonneg hat'.2.1] at hd
            exact hd.trans hat'.2.2.1
          · rw [toRat_of_neg hd]
            have := mag_nonneg rp
            have := rootQ_pow_pos (x + 1)
            linarith
      · cases h
    · rw [gte_scale hs] at h; cases h
  | succ room ih =>
    intro x rp rez ltr r hat h
    rw [search_succ, bind_ok] at h
    obtain ⟨rez', h1, h⟩ := h
    have hat' := at_step hat h1
    by_cases hs : rez'.scale = rp.scale
    · rw [gte_pos hs hat'.2.1] at h
      simp only [unwrap, bind, Except.bind] at h
      split at h
      · rename_i hd
        refine ⟨x, ?_, le_rfl, by omega, by rw [← hs, hat'.1], ?_, by omega⟩
        · cases ltr
          · simp at h; simp [h]
          · simp at h; have := (checkedAdd_ok.1 h).2; simp; omega
        · simp only [decide_eq_true_eq] at hd
          rcases hd with hd | hd
          · rw [toRat_of_nonneg hat'.2.1] at hd
            exact hd.trans hat'.2.2.1
          · rw [toRat_of_neg hd]
            have := mag_nonneg rp
            have := rootQ_pow_pos (x + 1)
            linarith
      · rename_i hd
        obtain ⟨r', g1, g2, g3, g4, g5, g6⟩ := ih (x + 1) rp rez' ltr r hat' h
        refine ⟨r', g1, by omega, by omega, g4, g5, fun _ => ?_⟩
        rcases Nat.eq_or_lt_of_le g2 with he | hlt
        · rw [← he]
          simp only [decide_eq_true_eq, not_or, not_le] at hd
          rw [toRat_of_nonneg hat'.2.1] at hd
          exact lt_of_le_of_lt hat'.2.2.2 hd.1
        · exact g6 hlt
    · rw [gte_scale hs] at h; cases h

/-- The search stops before tick `2^20`, so its room does not matter. -/
theorem search_room : ∀ (n room room2 x : Nat) (rp rez : Decimal) (ltr : Bool), At x rez →
    x + n = 2 ^ 20 → n ≤ room → n ≤ room2 →
    rpToTickLoopFrom root rp ltr room x rez = rpToTickLoopFrom root rp ltr room2 x rez := by
  intro n
  induction n with
  | zero =>
    intro room room2 x rp rez ltr hat hx _ _
    cases hm : rez.mul root with
    | error e =>
      have : ∀ room, rpToTickLoopFrom root rp ltr room x rez = .error e := by
        intro room
        cases room
        · rw [search_zero, hm]; rfl
        · rw [search_succ, hm]; rfl
      rw [this, this]
    | ok rez' => exact absurd hm (at_limit hat (by omega) (by omega))
  | succ n ih =>
    intro room room2 x rp rez ltr hat hx h1 h2
    obtain ⟨q, rfl⟩ : ∃ q, room = q + 1 := ⟨room - 1, by omega⟩
    obtain ⟨q2, rfl⟩ : ∃ q, room2 = q + 1 := ⟨room2 - 1, by omega⟩
    rw [search_succ, search_succ]
    cases hm : rez.mul root with
    | error e => rfl
    | ok rez' =>
      have hat' := at_step hat hm
      simp only [bind, Except.bind]
      cases hg : unwrap (rez'.gte rp) with
      | error e => rfl
      | ok b =>
        cases b with
        | true => rfl
        | false =>
          simp only [Bool.false_eq_true, if_false]
          exact ih q q2 (x + 1) rp rez' ltr hat' (by omega) (by omega) (by omega)

/-- The search returns for every price that leaves room for one more multiplication. -/
theorem search_returns : ∀ (n room x : Nat) (rp rez : Decimal) (ltr : Bool), At x rez →
    x + n = 2 ^ 20 → n ≤ room → rp.scale = 12 → rp.value * 1000049998750 < 2 ^ 128 →
    (rez.mul root ≠ .error .panic) →
    ∃ r, rpToTickLoopFrom root rp ltr room x rez = .ok r := by
  intro n
  induction n with
  | zero =>
    intro room x rp rez ltr hat hx _ hs hv hm
    cases h : rez.mul root with
    | ok rez' => exact absurd h (at_limit hat (by omega) (by omega))
    | error e => exact absurd h (by rw [(mul_error.1 h).1] at h; exact absurd h hm)
  | succ n ih =>
    intro room x rp rez ltr hat hx h1 hs hv hm
    obtain ⟨q, rfl⟩ : ∃ q, room = q + 1 := ⟨room - 1, by omega⟩
    cases h : rez.mul root with
    | error e => exact absurd h (by rw [(mul_error.1 h).1] at h; exact absurd h hm)
    | ok rez' =>
      have hat' := at_step hat h
      have hs' : rez'.scale = rp.scale := by rw [hat'.1, hs]
      rw [search_succ, h]
      simp only [bind, Except.bind]
      rw [gte_pos hs' hat'.2.1]
      simp only [unwrap]
      by_cases hd : rp.toRat ≤ rez'.toRat ∨ rp.negative = true
      · rw [if_pos (by simpa using hd)]
        cases ltr
        · exact ⟨_, rfl⟩
        · refine ⟨x + 1, checkedAdd_ok.2 ⟨?_, rfl⟩⟩
          have : (2 : Nat) ^ 20 + 1 < u128Size := by decide
          omega
      · rw [if_neg (by simpa using hd)]
        refine ih q (x + 1) rp rez' ltr hat' (by omega) (by omega) hs hv ?_
        intro hpan
        push Not at hd
        have hneg : rp.negative = false := by simpa using hd.2
        rw [toRat_of_nonneg hat'.2.1, toRat_of_nonneg hneg] at hd
        have hlt : rez'.value < rp.value := by
          have := hd.1
          unfold mag at this
          rw [hs', div_lt_div_iff_of_pos_right (pow10Q_pos _)] at this
          exact_mod_cast this
        rcases (mul_error.1 hpan).2 with h2 | h2
        · have : rez'.value * 1000049998750 ≤ rp.value * 1000049998750 := Nat.mul_le_mul_right _ hlt.le
          have h3 : u128Size ≤ rez'.value * 1000049998750 := h2
          unfold u128Size at h3
          omega
        · exact absurd h2 (by decide)

/-- The search never gets past tick `2^20`. -/
theorem search_lt : ∀ (room x : Nat) (rp rez : Decimal) (ltr : Bool) (r : Nat), At x rez →
    x ≤ 2 ^ 20 → rpToTickLoopFrom root rp ltr room x rez = .ok r →
    r < (if ltr then 2 ^ 20 + 1 else 2 ^ 20) := by
  intro room
  induction room with
  | zero =>
    intro x rp rez ltr r hat hx h
    rw [search_zero, bind_ok] at h
    obtain ⟨rez', h1, h⟩ := h
    have hlt : x < 2 ^ 20 := by
      by_contra hc
      exact at_limit hat (by omega) (by omega) h1
    rw [bind_ok] at h
    obtain ⟨b, _, h⟩ := h
    cases b
    · cases h
    · cases ltr
      · simp at h ⊢; omega
      · simp at h; have := (checkedAdd_ok.1 h).2; simp; omega
  | succ room ih =>
    intro x rp rez ltr r hat hx h
    rw [search_succ, bind_ok] at h
    obtain ⟨rez', h1, h⟩ := h
    have hlt : x < 2 ^ 20 := by
      by_contra hc
      exact at_limit hat (by omega) (by omega) h1
    rw [bind_ok] at h
    obtain ⟨b, _, h⟩ := h
    cases b
    · simp only [Bool.false_eq_true, if_false] at h
      exact ih (x + 1) rp rez' ltr r (at_step hat h1) (by omega) h
    · cases ltr
      · simp at h ⊢; omega
      · simp at h; have := (checkedAdd_ok.1 h).2; simp; omega

theorem rpToTickLoop_eq (rp : Decimal) (ltr : Bool) (start : Nat) :
    rpToTickLoop rp ltr start = tickToRp start >>= fun rez =>
      rpToTickLoopFrom root rp ltr (u128Size - 1 - start) start rez := by
  unfold rpToTickLoop
  rw [tickBaseRoot_eq, tickToRp_eq]
  rfl

/-! ### The spacing grid -/

theorem tkDown {tick sp r : Nat} (h : tkToPossibleTk tick sp false = .ok r) :
    sp ≠ 0 ∧ r = tick / sp * sp := by
  unfold tkToPossibleTk fromInt at h
  simp only [Bool.false_eq_true, if_false] at h
  rw [bind_ok] at h
  obtain ⟨d, h1, h⟩ := h
  rw [bind_ok] at h1
  obtain ⟨q, h2, h1⟩ := h1
  obtain ⟨_, _, h0, rfl⟩ := div_ok.1 h2
  obtain ⟨_, _, rfl⟩ := mul_ok.1 h1
  cases h
  exact ⟨h0, by simp⟩

theorem tkUp {tick sp r : Nat} (h : tkToPossibleTk tick sp true = .ok r) :
    sp ≠ 0 ∧ r = (tick + sp - 1) / sp * sp := by
  unfold tkToPossibleTk fromInt at h
  simp only [if_true] at h
  rw [bind_ok] at h
  obtain ⟨d, h1, h⟩ := h
  rw [bind_ok] at h1
  obtain ⟨q, h2, h1⟩ := h1
  obtain ⟨_, _, h0, rfl⟩ := divUp_ok.1 h2
  obtain ⟨_, _, rfl⟩ := mul_ok.1 h1
  cases h
  simp only at h0
  refine ⟨h0, ?_⟩
  have : tick + (sp - 1) = tick + sp - 1 := by omega
  simp [this]

theorem tk_returns {tick sp : Nat} (b : Bool) (h0 : sp ≠ 0) (ht : tick + sp ≤ 2 ^ 128) :
    ∃ r, tkToPossibleTk tick sp b = .ok r := by
  have h1 : (1 : ℕ) < u128Size := by decide
  have hu : (2 : ℕ) ^ 128 = u128Size := rfl
  cases b
  · have hd : (fromInt tick).div (fromInt sp) = .ok ⟨tick / sp, 0, false⟩ :=
      div_ok.2 ⟨by unfold fromInt; simp; omega, by unfold fromInt; simpa using h1, h0, by simp [fromInt]⟩
    have hm : (Decimal.mk (tick / sp) 0 false).mul (fromInt sp) = .ok ⟨tick / sp * sp, 0, false⟩ := by
      refine mul_ok.2 ⟨?_, by unfold fromInt; simpa using h1, by simp [fromInt]⟩
      have := Nat.div_mul_le_self tick sp
      unfold fromInt; simp only; omega
    refine ⟨tick / sp * sp, ?_⟩
    unfold tkToPossibleTk
    simp only [Bool.false_eq_true, if_false, hd, bind, Except.bind, hm]
    rfl
  · have hd : (fromInt tick).divUp (fromInt sp) = .ok ⟨(tick + (sp - 1)) / sp, 0, false⟩ :=
      divUp_ok.2 ⟨by unfold fromInt; simp; omega, by unfold fromInt; simpa using h1, h0, by simp [fromInt]⟩
    have hm : (Decimal.mk ((tick + (sp - 1)) / sp) 0 false).mul (fromInt sp) =
        .ok ⟨(tick + (sp - 1)) / sp * sp, 0, false⟩ := by
      refine mul_ok.2 ⟨?_, by unfold fromInt; simpa using h1, by simp [fromInt]⟩
      have := Nat.div_mul_le_self (tick + (sp - 1)) sp
      unfold fromInt; simp only; omega
    refine ⟨(tick + (sp - 1)) / sp * sp, ?_⟩
    unfold tkToPossibleTk
    simp only [if_true, hd, bind, Except.bind, hm]
    rfl

theorem tk_zero (tick : Nat) (b : Bool) : tkToPossibleTk tick 0 b = .error .panic := by
  cases b
  · unfold tkToPossibleTk
    have : (fromInt tick).div (fromInt 0) = .error .panic := div_error.2 ⟨rfl, .inl rfl⟩
    simp only [Bool.false_eq_true, if_false, this, bind, Except.bind]
  · have : (fromInt tick).divUp (fromInt 0) = .error .panic := by
      cases hc : (fromInt tick).divUp (fromInt 0) with
      | ok c => exact absurd rfl (divUp_ok.1 hc).2.2.1
      | error e =>
        have : divUp (fromInt tick) (fromInt 0) = checkedMul tick 1 >>= fun _ => rpanic := rfl
        rw [this, bind_error] at hc
        rcases hc with hc | ⟨_, _, hc⟩
        · rw [(checkedMul_error.1 hc).2]
        · cases hc; rfl
    unfold tkToPossibleTk
    simp only [if_true, this, bind, Except.bind]

end Hmm.PoolMath
