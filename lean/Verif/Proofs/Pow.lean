import Verif.Proofs.Rounding

/-
The binary powering loop: bounds, sign, termination.
-/

namespace Hmm.Decimal

theorem mul_mag_le {a b c : Decimal} (h : a.mul b = .ok c) : c.mag ≤ a.mag * b.mag := by
  rw [(mul_mag h).2.2]; exact floorAt_le (mul_nonneg (mag_nonneg a) (mag_nonneg b))

theorem mul_mag_gt {a b c : Decimal} (h : a.mul b = .ok c) : a.mag * b.mag - ulp a.scale < c.mag := by
  rw [(mul_mag h).2.2]
  have := lt_floorAt_add (s := a.scale) (q := a.mag * b.mag)
  linarith

/-- One round of the loop. -/
theorem powLoop_succ {k exp : Nat} {b r c : Decimal} (he : exp ≠ 0)
    (h : powLoop (k + 1) exp b r = .ok c) :
    ∃ r' b', ((exp % 2 ≠ 0 ∧ r.mul b = .ok r') ∨ (exp % 2 = 0 ∧ r' = r)) ∧ b.mul b = .ok b' ∧
      powLoop k (exp / 2) b' r' = .ok c := by
  rw [powLoop, if_neg he, bind_ok] at h
  obtain ⟨r', h1, h⟩ := h
  rw [bind_ok] at h
  obtain ⟨b', h2, h3⟩ := h
  rw [ite_ok] at h1
  refine ⟨r', b', ?_, h2, h3⟩
  rcases h1 with ⟨h4, h5⟩ | ⟨h4, h5⟩
  · exact .inl ⟨h4, h5⟩
  · refine .inr ⟨by omega, ?_⟩
    cases h5; rfl

theorem powLoop_zero {k : Nat} {b r : Decimal} : powLoop k 0 b r = .ok r := by
  cases k <;> simp [powLoop]

theorem powLoop_upper : ∀ (k exp : Nat) (b r c : Decimal), powLoop k exp b r = .ok c →
    c.scale = r.scale ∧ c.mag ≤ r.mag * b.mag ^ exp := by
  intro k
  induction k with
  | zero =>
    intro exp b r c h
    rw [powLoop] at h
    split at h
    · rename_i h0; cases h; subst h0; simp
    · cases h
  | succ k ih =>
    intro exp b r c h
    by_cases he : exp = 0
    · subst he; rw [powLoop_zero] at h; cases h; simp
    obtain ⟨r', b', h1, h2, h3⟩ := powLoop_succ he h
    obtain ⟨hs, hm⟩ := ih _ _ _ _ h3
    have hb := mul_mag_le h2
    have hb0 := mag_nonneg b
    have hr0 := mag_nonneg r
    have hb'0 := mag_nonneg b'
    have hp : b'.mag ^ (exp / 2) ≤ (b.mag * b.mag) ^ (exp / 2) := pow_le_pow_left₀ hb'0 hb _
    rcases h1 with ⟨ho, hr⟩ | ⟨ho, rfl⟩
    · refine ⟨hs.trans (mul_mag hr).1, hm.trans ?_⟩
      have e : exp = 2 * (exp / 2) + 1 := by omega
      have e2 : r.mag * b.mag ^ exp = (r.mag * b.mag) * (b.mag * b.mag) ^ (exp / 2) := by
        conv_lhs => rw [e, pow_succ, pow_mul, pow_two]
        ring
      rw [e2]
      exact mul_le_mul (mul_mag_le hr) hp (by positivity) (by positivity)
    · refine ⟨hs, hm.trans ?_⟩
      have e : exp = 2 * (exp / 2) := by omega
      have e2 : r'.mag * b.mag ^ exp = r'.mag * (b.mag * b.mag) ^ (exp / 2) := by
        conv_lhs => rw [e, pow_mul, pow_two]
      rw [e2]
      exact mul_le_mul_of_nonneg_left hp hr0

/-- A lower estimate of a truncated product from relative lower estimates of the factors. -/
theorem rel_step {X Y r b p u α β : ℚ} (hu : 0 ≤ u) (hX : 1 ≤ X) (hY : 1 ≤ Y) (hα : 0 ≤ α)
    (hβ : 0 ≤ β) (hp0 : 0 ≤ p) (hr : X * (1 - α * u) ≤ r) (hb : Y * (1 - β * u) ≤ b)
    (hp : r * b - u ≤ p) : X * Y * (1 - (α + β + 1) * u) ≤ p := by
  have hXY : 1 ≤ X * Y := by nlinarith
  by_cases h1 : 1 - α * u ≤ 0
  · have : 1 - (α + β + 1) * u ≤ 0 := by nlinarith [mul_nonneg hβ hu]
    nlinarith
  by_cases h2 : 1 - β * u ≤ 0
  · have : 1 - (α + β + 1) * u ≤ 0 := by nlinarith [mul_nonneg hα hu]
    nlinarith
  push Not at h1 h2
  have hrb : (X * (1 - α * u)) * (Y * (1 - β * u)) ≤ r * b :=
    mul_le_mul hr hb (by positivity) (le_trans (by positivity) hr)
  have h3 : (1 - α * u) * (1 - β * u) ≥ 1 - (α + β) * u := by
    nlinarith [mul_nonneg (mul_nonneg hα hu) (mul_nonneg hβ hu)]
  have h4 : X * Y * ((1 - α * u) * (1 - β * u)) ≥ X * Y * (1 - (α + β) * u) :=
    mul_le_mul_of_nonneg_left h3 (by positivity)
  have h5 : u ≤ X * Y * u := by nlinarith
  calc X * Y * (1 - (α + β + 1) * u) = X * Y * (1 - (α + β) * u) - X * Y * u := by ring
    _ ≤ X * Y * ((1 - α * u) * (1 - β * u)) - u := by linarith
    _ = (X * (1 - α * u)) * (Y * (1 - β * u)) - u := by ring
    _ ≤ p := by linarith

/-- The relative lower bound, for bases of at least one. -/
theorem powLoop_lower_ge : ∀ (k exp : Nat) (b r c : Decimal) (X Y α β : ℚ),
    powLoop k exp b r = .ok c → b.scale = r.scale → 1 ≤ X → 1 ≤ Y → 0 ≤ α → 0 ≤ β →
    X * (1 - α * ulp r.scale) ≤ r.mag → Y * (1 - β * ulp r.scale) ≤ b.mag →
    X * Y ^ exp * (1 - (α + exp * (β + 1)) * ulp r.scale) ≤ c.mag := by
  intro k
  induction k with
  | zero =>
    intro exp b r c X Y α β h _ _ _ _ _ hr _
    rw [powLoop] at h
    split at h
    · rename_i h0; cases h; subst h0; simpa using hr
    · cases h
  | succ k ih =>
    intro exp b r c X Y α β h hs hX hY hα hβ hr hb
    by_cases he : exp = 0
    · subst he; rw [powLoop_zero] at h; cases h; simpa using hr
    obtain ⟨r', b', h1, h2, h3⟩ := powLoop_succ he h
    have hu := (ulp_pos r.scale).le
    have hYY : 1 ≤ Y * Y := by nlinarith
    have hb' : Y * Y * (1 - (β + β + 1) * ulp r.scale) ≤ b'.mag := by
      refine rel_step hu hY hY hβ hβ (mag_nonneg _) hb hb ?_
      have := mul_mag_gt h2
      rw [hs] at this
      exact this.le
    have hbs : b'.scale = r.scale := (mul_mag h2).1.trans hs
    rcases h1 with ⟨ho, hrm⟩ | ⟨ho, rfl⟩
    · have hr' : X * Y * (1 - (α + β + 1) * ulp r.scale) ≤ r'.mag :=
        rel_step hu hX hY hα hβ (mag_nonneg _) hr hb (mul_mag_gt hrm).le
      have hrs : r'.scale = r.scale := (mul_mag hrm).1
      have := ih (exp / 2) b' r' c (X * Y) (Y * Y) (α + β + 1) (β + β + 1) h3 (by rw [hbs, hrs])
        (by nlinarith) hYY (by linarith) (by linarith) (by rw [hrs]; exact hr') (by rw [hrs]; exact hb')
      rw [hrs] at this
      have e : exp = 2 * (exp / 2) + 1 := by omega
      have eq : (exp : ℚ) = 2 * ((exp / 2 : ℕ) : ℚ) + 1 := by exact_mod_cast e
      have e2 : Y ^ exp = Y * (Y * Y) ^ (exp / 2) := by
        conv_lhs => rw [e, pow_succ, pow_mul, pow_two]
        ring
      have e3 : α + β + 1 + ((exp / 2 : ℕ) : ℚ) * (β + β + 1 + 1) = α + exp * (β + 1) := by
        rw [eq]; ring
      rw [e3] at this
      rw [e2, ← mul_assoc]
      exact this
    · have := ih (exp / 2) b' r' c X (Y * Y) α (β + β + 1) h3 hbs hX hYY hα (by linarith) hr hb'
      have e : exp = 2 * (exp / 2) := by omega
      have eq : (exp : ℚ) = 2 * ((exp / 2 : ℕ) : ℚ) := by exact_mod_cast e
      have e2 : Y ^ exp = (Y * Y) ^ (exp / 2) := by
        conv_lhs => rw [e, pow_mul, pow_two]
      have e3 : α + ((exp / 2 : ℕ) : ℚ) * (β + β + 1 + 1) = α + exp * (β + 1) := by
        rw [eq]; ring
      rw [e3] at this
      rw [e2]
      exact this

/-- A lower estimate of a truncated product from absolute lower estimates of factors below one. -/
theorem abs_step {X Y r b p u α β : ℚ} (hu : 0 ≤ u) (hX0 : 0 ≤ X) (hX : X ≤ 1)
    (hα : 0 ≤ α) (hβ : 0 ≤ β) (hb0 : 0 ≤ b) (hb1 : b ≤ 1) (hr : X - α * u ≤ r)
    (hb : Y - β * u ≤ b) (hp : r * b - u ≤ p) : X * Y - (α + β + 1) * u ≤ p := by
  have h1 : (X - r) * b ≤ α * u := by
    have : (X - r) * b ≤ (α * u) * b := mul_le_mul_of_nonneg_right (by linarith) hb0
    nlinarith [mul_nonneg hα hu]
  have h2 : X * (Y - b) ≤ β * u := by
    have : X * (Y - b) ≤ X * (β * u) := mul_le_mul_of_nonneg_left (by linarith) hX0
    nlinarith [mul_nonneg hβ hu]
  nlinarith

/-- The absolute lower bound, for bases of at most one. -/
theorem powLoop_lower_le : ∀ (k exp : Nat) (b r c : Decimal) (X Y α β : ℚ),
    powLoop k exp b r = .ok c → b.scale = r.scale → 0 ≤ X → X ≤ 1 → 0 ≤ Y → Y ≤ 1 →
    0 ≤ α → 0 ≤ β → b.mag ≤ 1 →
    X - α * ulp r.scale ≤ r.mag → Y - β * ulp r.scale ≤ b.mag →
    X * Y ^ exp - (α + exp * (β + 1)) * ulp r.scale ≤ c.mag := by
  intro k
  induction k with
  | zero =>
    intro exp b r c X Y α β h _ _ _ _ _ _ _ _ hr _
    rw [powLoop] at h
    split at h
    · rename_i h0; cases h; subst h0; simpa using hr
    · cases h
  | succ k ih =>
    intro exp b r c X Y α β h hs hX0 hX hY0 hY hα hβ hb1 hr hb
    by_cases he : exp = 0
    · subst he; rw [powLoop_zero] at h; cases h; simpa using hr
    obtain ⟨r', b', h1, h2, h3⟩ := powLoop_succ he h
    have hu := (ulp_pos r.scale).le
    have hYY : Y * Y ≤ 1 := by nlinarith
    have hb0 := mag_nonneg b
    have hb' : Y * Y - (β + β + 1) * ulp r.scale ≤ b'.mag := by
      refine abs_step hu hY0 hY hβ hβ hb0 hb1 hb hb ?_
      have := mul_mag_gt h2
      rw [hs] at this
      exact this.le
    have hb1' : b'.mag ≤ 1 := (mul_mag_le h2).trans (by nlinarith)
    have hbs : b'.scale = r.scale := (mul_mag h2).1.trans hs
    rcases h1 with ⟨ho, hrm⟩ | ⟨ho, rfl⟩
    · have hr' : X * Y - (α + β + 1) * ulp r.scale ≤ r'.mag :=
        abs_step hu hX0 hX hα hβ hb0 hb1 hr hb (mul_mag_gt hrm).le
      have hrs : r'.scale = r.scale := (mul_mag hrm).1
      have := ih (exp / 2) b' r' c (X * Y) (Y * Y) (α + β + 1) (β + β + 1) h3 (by rw [hbs, hrs])
        (by positivity) (by nlinarith) (by positivity) hYY (by linarith) (by linarith) hb1'
        (by rw [hrs]; exact hr') (by rw [hrs]; exact hb')
      rw [hrs] at this
      have e : exp = 2 * (exp / 2) + 1 := by omega
      have eq : (exp : ℚ) = 2 * ((exp / 2 : ℕ) : ℚ) + 1 := by exact_mod_cast e
      have e2 : Y ^ exp = Y * (Y * Y) ^ (exp / 2) := by
        conv_lhs => rw [e, pow_succ, pow_mul, pow_two]
        ring
      have e3 : α + β + 1 + ((exp / 2 : ℕ) : ℚ) * (β + β + 1 + 1) = α + exp * (β + 1) := by
        rw [eq]; ring
      rw [e3] at this
      rw [e2, ← mul_assoc]
      exact this
    · have := ih (exp / 2) b' r' c X (Y * Y) α (β + β + 1) h3 hbs hX0 hX (by positivity) hYY hα
        (by linarith) hb1' hr hb'
      have e : exp = 2 * (exp / 2) := by omega
      have eq : (exp : ℚ) = 2 * ((exp / 2 : ℕ) : ℚ) := by exact_mod_cast e
      have e2 : Y ^ exp = (Y * Y) ^ (exp / 2) := by
        conv_lhs => rw [e, pow_mul, pow_two]
      have e3 : α + ((exp / 2 : ℕ) : ℚ) * (β + β + 1 + 1) = α + exp * (β + 1) := by
        rw [eq]; ring
      rw [e3] at this
      rw [e2]
      exact this

/-- The sign of the loop's result: only the first round can change it. -/
theorem powLoop_sign_pos : ∀ (k exp : Nat) (b r c : Decimal), b.negative = false →
    powLoop k exp b r = .ok c → c.negative = r.negative := by
  intro k
  induction k with
  | zero =>
    intro exp b r c _ h
    rw [powLoop] at h
    split at h
    · cases h; rfl
    · cases h
  | succ k ih =>
    intro exp b r c hb h
    by_cases he : exp = 0
    · subst he; rw [powLoop_zero] at h; cases h; rfl
    obtain ⟨r', b', h1, h2, h3⟩ := powLoop_succ he h
    have hb' : b'.negative = false := by rw [(mul_mag h2).2.1, hb]; rfl
    rw [ih _ _ _ _ hb' h3]
    rcases h1 with ⟨ho, hrm⟩ | ⟨ho, rfl⟩
    · rw [(mul_mag hrm).2.1, hb]; simp
    · rfl

/-- The loop never runs out of rounds for exponents below `2^k`. -/
theorem powLoop_terminates : ∀ (k exp : Nat) (b r : Decimal), exp < 2 ^ k →
    powLoop k exp b r ≠ .error .diverge := by
  intro k
  induction k with
  | zero =>
    intro exp b r h
    have : exp = 0 := by simpa using h
    subst this
    rw [powLoop_zero]; simp
  | succ k ih =>
    intro exp b r h
    by_cases he : exp = 0
    · subst he; rw [powLoop_zero]; simp
    rw [powLoop, if_neg he]
    intro hd
    rw [bind_error] at hd
    rcases hd with hd | ⟨r', _, hd⟩
    · rw [ite_error] at hd
      rcases hd with ⟨_, hd⟩ | ⟨_, hd⟩
      · have := (mul_error.1 hd).1
        simp at this
      · cases hd
    · rw [bind_error] at hd
      rcases hd with hd | ⟨b', _, hd⟩
      · have := (mul_error.1 hd).1
        simp at this
      · exact ih _ _ _ (by rw [pow_succ] at h; omega) hd

/-- The loop forgets signs: the magnitudes evolve as for the absolute values. -/
theorem powLoop_congr_mag : ∀ (k exp : Nat) (b r b2 r2 : Decimal), b.value = b2.value →
    b.scale = b2.scale → r.value = r2.value → r.scale = r2.scale →
    ∀ c, powLoop k exp b r = .ok c → ∃ c2, powLoop k exp b2 r2 = .ok c2 ∧ c2.value = c.value ∧
      c2.scale = c.scale := by
  intro k
  induction k with
  | zero =>
    intro exp b r b2 r2 h1 h2 h3 h4 c h
    rw [powLoop] at h ⊢
    split at h
    · cases h; rename_i h0; rw [if_pos h0]; exact ⟨_, rfl, h3.symm, h4.symm⟩
    · cases h
  | succ k ih =>
    intro exp b r b2 r2 h1 h2 h3 h4 c h
    by_cases he : exp = 0
    · subst he; rw [powLoop_zero] at h ⊢; cases h; exact ⟨_, rfl, h3.symm, h4.symm⟩
    obtain ⟨r', b', g1, g2, g3⟩ := powLoop_succ he h
    obtain ⟨m1, m2, rfl⟩ := mul_ok.1 g2
    have n2 : b2.mul b2 = .ok ⟨b2.value * b2.value / 10 ^ b2.scale, b2.scale, !(b2.negative == b2.negative)⟩ :=
      mul_ok.2 ⟨by rw [← h1]; exact m1, by rw [← h2]; exact m2, rfl⟩
    rw [powLoop, if_neg he]
    rcases g1 with ⟨ho, hrm⟩ | ⟨ho, rfl⟩
    · obtain ⟨q1, q2, rfl⟩ := mul_ok.1 hrm
      have n1 : r2.mul b2 = .ok ⟨r2.value * b2.value / 10 ^ b2.scale, r2.scale, !(r2.negative == b2.negative)⟩ :=
        mul_ok.2 ⟨by rw [← h1, ← h3]; exact q1, by rw [← h2]; exact q2, rfl⟩
      rw [if_pos ho, n1, n2]
      refine ih _ _ _ _ _ ?_ ?_ ?_ ?_ _ g3
      · simp only [h1, h2]
      · exact h2
      · simp only [h1, h2, h3]
      · exact h4
    · rw [if_neg (by omega), n2]
      refine ih _ _ _ _ _ ?_ ?_ h3 h4 _ g3
      · simp only [h1, h2]
      · exact h2

theorem mul_returns {a b : Decimal} {B : ℚ} (hs : b.scale = a.scale) (h38 : a.scale ≤ 38)
    (hm : a.mag * b.mag ≤ B) (hB : B * (10 ^ a.scale) ^ 2 < 2 ^ 128) : ∃ c, a.mul b = .ok c := by
  refine ⟨_, mul_ok.2 ⟨?_, by rw [hs]; exact pow10_lt_iff.2 h38, rfl⟩⟩
  have h10 := pow10Q_pos a.scale
  have : ((a.value * b.value : ℕ) : ℚ) < ((2 ^ 128 : ℕ) : ℚ) := by
    push_cast
    rw [value_eq a, value_eq b, hs]
    calc a.mag * 10 ^ a.scale * (b.mag * 10 ^ a.scale) = (a.mag * b.mag) * (10 ^ a.scale) ^ 2 := by ring
      _ ≤ B * (10 ^ a.scale) ^ 2 := mul_le_mul_of_nonneg_right hm (by positivity)
      _ < 2 ^ 128 := hB
  exact_mod_cast this

/-- The loop returns when the repeated squares and the partial products fit: `j` squarings are made for
an exponent below `2^j`. -/
theorem powLoop_returns : ∀ (j k exp : Nat) (b r : Decimal) (M B : ℚ), j ≤ k → exp < 2 ^ j →
    b.scale = r.scale → r.scale ≤ 38 → 1 ≤ M → b.mag ≤ M → M ^ (2 ^ j) ≤ B →
    r.mag * M ^ exp ≤ B → B * (10 ^ r.scale) ^ 2 < 2 ^ 128 → ∃ c, powLoop k exp b r = .ok c := by
  intro j
  induction j with
  | zero =>
    intro k exp b r M B _ h _ _ _ _ _ _ _
    have : exp = 0 := by simpa using h
    subst this
    rw [powLoop_zero]; exact ⟨_, rfl⟩
  | succ j ih =>
    intro k exp b r M B hk h hs h38 hM hb hB1 hB2 hB
    obtain ⟨k, rfl⟩ : ∃ k', k = k' + 1 := ⟨k - 1, by omega⟩
    by_cases he : exp = 0
    · subst he; rw [powLoop_zero]; exact ⟨_, rfl⟩
    have hb0 := mag_nonneg b
    have hr0 := mag_nonneg r
    have hMM : 1 ≤ M * M := by nlinarith
    have hsq : b.mag * b.mag ≤ M * M := mul_le_mul hb hb hb0 (by linarith)
    have hpow : (M * M) ^ (2 ^ j) ≤ B := by
      refine le_trans (le_of_eq ?_) hB1
      rw [← pow_two, ← pow_mul, pow_succ, mul_comm]
    obtain ⟨b', hb'⟩ := mul_returns (a := b) (b := b) (B := B) rfl (by rw [hs]; exact h38)
      (by
        calc b.mag * b.mag ≤ M * M := hsq
          _ = (M * M) ^ 1 := by ring
          _ ≤ (M * M) ^ (2 ^ j) := pow_le_pow_right₀ hMM Nat.one_le_two_pow
          _ ≤ B := hpow) (by rw [hs]; exact hB)
    have hb'm : b'.mag ≤ M * M := (mul_mag_le hb').trans hsq
    have hb's : b'.scale = r.scale := (mul_mag hb').1.trans hs
    have hj : exp / 2 < 2 ^ j := by rw [pow_succ] at h; omega
    rw [powLoop, if_neg he]
    by_cases ho : exp % 2 ≠ 0
    · obtain ⟨r', hr'⟩ := mul_returns (a := r) (b := b) (B := B) hs h38
        (by
          calc r.mag * b.mag ≤ r.mag * M := mul_le_mul_of_nonneg_left hb hr0
            _ = r.mag * M ^ 1 := by ring
            _ ≤ r.mag * M ^ exp := mul_le_mul_of_nonneg_left (pow_le_pow_right₀ hM (by omega)) hr0
            _ ≤ B := hB2) hB
      have hr's : r'.scale = r.scale := (mul_mag hr').1
      rw [if_pos ho, hr', hb']
      refine ih k (exp / 2) b' r' (M * M) B (by omega) hj (by rw [hb's, hr's])
        (by rw [hr's]; exact h38) hMM hb'm hpow ?_ (by rw [hr's]; exact hB)
      have e : exp = 2 * (exp / 2) + 1 := by omega
      have e2 : r.mag * M ^ exp = (r.mag * M) * (M * M) ^ (exp / 2) := by
        conv_lhs => rw [e, pow_succ, pow_mul, pow_two]
        ring
      refine le_trans ?_ hB2
      rw [e2]
      refine mul_le_mul_of_nonneg_right ?_ (by positivity)
      exact (mul_mag_le hr').trans (mul_le_mul_of_nonneg_left hb hr0)
    · rw [if_neg ho, hb']
      refine ih k (exp / 2) b' r (M * M) B (by omega) hj hb's h38 hMM hb'm hpow ?_ hB
      have e : exp = 2 * (exp / 2) := by omega
      have e2 : M ^ exp = (M * M) ^ (exp / 2) := by
        conv_lhs => rw [e, pow_mul, pow_two]
      rw [← e2]; exact hB2

/-- Repeated truncated squaring. -/
def sqIter : Nat → Decimal → R Decimal
  | 0, b => .ok b
  | j + 1, b => do sqIter j (← b.mul b)

/-- A loop that returns has made all the squarings of its exponent's length. -/
theorem powLoop_squares : ∀ (j k exp : Nat) (b r c : Decimal), powLoop k exp b r = .ok c → 2 ^ j ≤ exp →
    ∃ b', sqIter (j + 1) b = .ok b' := by
  intro j
  induction j with
  | zero =>
    intro k exp b r c h he
    have he0 : exp ≠ 0 := by simp at he; omega
    cases k with
    | zero => rw [powLoop, if_neg he0] at h; cases h
    | succ k =>
      obtain ⟨r', b', _, g2, _⟩ := powLoop_succ he0 h
      exact ⟨b', by simp only [sqIter, g2]; rfl⟩
  | succ j ih =>
    intro k exp b r c h he
    have he0 : exp ≠ 0 := by
      have := Nat.one_le_two_pow (n := j + 1); omega
    cases k with
    | zero => rw [powLoop, if_neg he0] at h; cases h
    | succ k =>
      obtain ⟨r', b', _, g2, g3⟩ := powLoop_succ he0 h
      obtain ⟨b2, hb2⟩ := ih k (exp / 2) b' r' c g3 (by rw [pow_succ] at he; omega)
      refine ⟨b2, ?_⟩
      rw [sqIter, g2]
      exact hb2

/-- `powInt` unfolded. -/
theorem powInt_ok {d c : Decimal} {n : Nat} (h : d.powInt n = .ok c) :
    d.scale ≤ 38 ∧ powLoop 128 n d ⟨10 ^ d.scale, d.scale, d.negative⟩ = .ok c := by
  unfold powInt denominator at h
  rw [bind_ok] at h
  obtain ⟨den, h1, h⟩ := h
  obtain ⟨h2, rfl⟩ := pow10_ok.1 h1
  refine ⟨pow10_lt_iff.1 h2, ?_⟩
  simp only at h
  split at h
  · rename_i h0; subst h0; rw [powLoop_zero]; exact h
  · exact h

theorem powInt_eq {d : Decimal} (n : Nat) (hs : d.scale ≤ 38) :
    d.powInt n = powLoop 128 n d ⟨10 ^ d.scale, d.scale, d.negative⟩ := by
  unfold powInt denominator
  rw [pow10_le hs]
  by_cases h : n = 0
  · subst h; rw [powLoop_zero]; rfl
  · simp only [bind, Except.bind, if_neg h]

theorem one_mag (s : Nat) (n : Bool) : (Decimal.mk (10 ^ s) s n).mag = 1 := by
  unfold mag; push_cast; exact div_self (pow10Q_pos s).ne'

end Hmm.Decimal
