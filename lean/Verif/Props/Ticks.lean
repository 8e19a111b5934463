import Verif.Proofs.Ticks

/-
Properties of tick prices, the price-to-tick search and the spacing grid: C21 - C26.
-/

namespace Hmm

open Decimal PoolMath

/-! ### C21 Tick prices exist exactly for ticks below 2^19 -/

/-- C21: a tick below 2^19 has a price, positive and at scale 12. -/
theorem C21_returns {t : Nat} (ht : t < 2 ^ 19) :
    ∃ c, tickToRp t = .ok c ∧ c.scale = 12 ∧ 0 < c.toRat := by
  obtain ⟨c, hc⟩ := tickToRp_returns ht
  obtain ⟨h1, h2, _, h4⟩ := tickToRp_bounds hc
  refine ⟨c, hc, h1, ?_⟩
  rw [toRat_of_nonneg h2]
  refine lt_of_lt_of_le ?_ h4
  apply mul_pos (rootQ_pow_pos t)
  have htq : (t : ℚ) < 524288 := by exact_mod_cast ht
  have hu : ulp 12 = 1 / 10 ^ 12 := rfl
  rw [hu]
  linarith

/-- C21: every other tick (all of `u128`) panics. -/
theorem C21_panics {t : Nat} (ht : 2 ^ 19 ≤ t) (ht2 : t < 2 ^ 128) :
    tickToRp t = .error .panic := tickToRp_panics ht ht2

-- the last tick with a price, and the first without
example : tickToRp 524287 = .ok ⟨242202237038663908051928, 12, false⟩ := by decide +kernel
example : tickToRp 524288 = .error .panic := by decide +kernel

/-! ### C22 Tick prices are accurate -/

/-- C22: the price of tick `t` is below the exact power of the root by a relative error of at most
`t * 10^-12`; `rootQ_spec` says what the root is. -/
theorem C22_accurate {t : Nat} {c : Decimal} (h : tickToRp t = .ok c) :
    c.toRat ≤ rootQ ^ t ∧ rootQ ^ t * (1 - t / 10 ^ 12) ≤ c.toRat := by
  obtain ⟨_, h2, h3, h4⟩ := tickToRp_bounds h
  rw [toRat_of_nonneg h2]
  refine ⟨h3, ?_⟩
  rw [div_eq_mul_one_div]
  exact h4

-- tick 76012, the one of the repository's tests
example : tickToRp 76012 = .ok ⟨44719511943267, 12, false⟩ := by decide +kernel

/-! ### C23 Tick prices are strictly increasing -/

/-- C23 -/
theorem C23_increasing {s t : Nat} {a b : Decimal} (hst : s < t)
    (ha : tickToRp s = .ok a) (hb : tickToRp t = .ok b) : a.toRat < b.toRat := by
  have ht := tickToRp_lt hb
  obtain ⟨_, a2, a3, _⟩ := tickToRp_bounds ha
  obtain ⟨_, b2, _, b4⟩ := tickToRp_bounds hb
  rw [toRat_of_nonneg a2, toRat_of_nonneg b2]
  obtain ⟨q, rfl⟩ : ∃ q, t = q + 1 := ⟨t - 1, by omega⟩
  calc a.mag ≤ rootQ ^ s := a3
    _ ≤ rootQ ^ q := pow_le_pow_right₀ rootQ_gt.le (by omega)
    _ < rootQ ^ (q + 1) * (1 - ((q + 1 : ℕ) : ℚ) * ulp 12) := root_step (by omega)
    _ ≤ b.mag := b4

-- even for the smallest ticks, where a step is 5 * 10^7 units
example : tickToRp 0 = .ok ⟨1000000000000, 12, false⟩ ∧
    tickToRp 1 = .ok ⟨1000049998750, 12, false⟩ := by decide +kernel

/-! ### C24 The price-to-tick search terminates and brackets the price -/

/-- C24: what a returned tick means.  `s` is the tick found, one less than the result when searching
left to right. -/
theorem C24_brackets {rp : Decimal} {ltr : Bool} {start r : Nat}
    (h : rpToTickLoop rp ltr start = .ok r) :
    ∃ s, r = (if ltr then s + 1 else s) ∧ start ≤ s ∧ s < 2 ^ 20 ∧
      rp.toRat ≤ rootQ ^ (s + 1) ∧
      (start < s → rootQ ^ s * (1 - s / 10 ^ 12) < rp.toRat) := by
  rw [rpToTickLoop_eq, bind_ok] at h
  obtain ⟨rez, h1, h⟩ := h
  have hst : start < 2 ^ 19 := tickToRp_lt h1
  rw [search_room (2 ^ 20 - start) _ (2 ^ 20 - start) start rp rez ltr (at_start h1) (by omega)
    (by have : (2 : ℕ) ^ 128 = u128Size := rfl; omega) le_rfl] at h
  have hlim := search_lt _ _ _ _ _ _ (at_start h1) (by omega) h
  obtain ⟨s, g1, g2, _, _, g5, g6⟩ := search_ok _ _ _ _ _ _ (at_start h1) h
  refine ⟨s, g1, g2, ?_, g5, fun hlt => ?_⟩
  · subst g1; cases ltr <;> simp at hlim <;> omega
  · have := g6 hlt
    rw [div_eq_mul_one_div]
    exact this

/-- C24: the search stops within `2^20` steps whatever the price: giving it more room changes nothing,
so the panic on the exhausted counter is never reached. -/
theorem C24_stops {start room room2 : Nat} {rez : Decimal} (rp : Decimal) (ltr : Bool)
    (hs : tickToRp start = .ok rez) (h1 : 2 ^ 20 ≤ room) (h2 : 2 ^ 20 ≤ room2) :
    rpToTickLoopFrom root rp ltr room start rez = rpToTickLoopFrom root rp ltr room2 start rez := by
  have hst : start < 2 ^ 19 := tickToRp_lt hs
  exact search_room (2 ^ 20 - start) _ _ start rp rez ltr (at_start hs) (by omega) (by omega)
    (by omega)

/-- C24: the search returns for every price at scale 12 up to 3.4 * 10^14 - far above the price of
the last tick - from every start tick below 2^19 - 1 (one more multiplication must fit). -/
theorem C24_returns {rp : Decimal} {start : Nat} (ltr : Bool) (hs : rp.scale = 12)
    (hv : rp.value * 1000049998750 < 2 ^ 128) (hst : start < 2 ^ 19) :
    ∃ r, rpToTickLoop rp ltr start = .ok r := by
  obtain ⟨rez, h1⟩ := tickToRp_returns hst
  rw [rpToTickLoop_eq, h1]
  refine search_returns (2 ^ 20 - start) _ start rp rez ltr (at_start h1) (by omega)
    (by have : (2 : ℕ) ^ 128 = u128Size := rfl; omega) hs hv ?_
  intro hpan
  rcases (mul_error.1 hpan).2 with h2 | h2
  · have h3 : rez.mag ≤ rootQ ^ (2 ^ 19) := (tickToRp_bounds h1).2.2.1.trans
      (pow_le_pow_right₀ rootQ_gt.le hst.le)
    have h4 := rootQ_pow19'
    have h5 : (rez.value : ℚ) = rez.mag * 10 ^ 12 := by rw [value_eq, (tickToRp_bounds h1).1]
    have h6 : (2 : ℚ) ^ 128 ≤ (rez.value : ℚ) * 1000049998750 := by
      have : 2 ^ 128 ≤ rez.value * 1000049998750 := h2
      exact_mod_cast this
    generalize rootQ ^ (2 ^ 19) = P at *
    rw [h5] at h6
    nlinarith
  · exact absurd h2 (by decide)

/-- C24: a price at another scale panics, and so does a start tick without a price. -/
theorem C24_panics {rp : Decimal} {start : Nat} (ltr : Bool)
    (h : rp.scale ≠ 12 ∨ 2 ^ 19 ≤ start) : ∀ r, rpToTickLoop rp ltr start ≠ .ok r := by
  intro r hr
  rw [rpToTickLoop_eq, bind_ok] at hr
  obtain ⟨rez, h1, hr⟩ := hr
  rcases h with h | h
  · obtain ⟨_, _, _, _, g4, _⟩ := search_ok _ _ _ _ _ _ (at_start h1) hr
    exact h g4
  · have := tickToRp_lt h1; omega

-- the root of 4000 lies between ticks 82944 and 82945 (as in the repository's tests)
example : rpToTickLoop ⟨63245553203367, 12, false⟩ false 82900 = .ok 82944 ∧
    rpToTickLoop ⟨63245553203367, 12, false⟩ true 82900 = .ok 82945 := by decide +kernel

/-! ### C25 Tick -> price -> tick round trip -/

/-- C25: the price of tick `t`, searched from any smaller tick, gives `t - 1` or `t` (left to right:
`t` or `t + 1`). -/
theorem C25_round_trip {t start r : Nat} {c : Decimal} (ltr : Bool) (hst : start < t)
    (hc : tickToRp t = .ok c) (h : rpToTickLoop c ltr start = .ok r) :
    r = (if ltr then t else t - 1) ∨ r = (if ltr then t + 1 else t) := by
  obtain ⟨s, g1, g2, g3, g5, g6⟩ := C24_brackets h
  obtain ⟨_, c2, c3, c4⟩ := tickToRp_bounds hc
  have ht := tickToRp_lt hc
  rw [toRat_of_nonneg c2] at g5 g6
  obtain ⟨q, rfl⟩ : ∃ q, t = q + 1 := ⟨t - 1, by omega⟩
  -- not too small
  have hlow : q ≤ s := by
    by_contra hlt
    have h1 : rootQ ^ (s + 1) ≤ rootQ ^ q := pow_le_pow_right₀ rootQ_gt.le (by omega)
    have h2 := root_step (t := q) (by omega)
    linarith
  -- not too large
  have hhigh : s ≤ q + 1 := by
    by_contra hlt
    have h1 := g6 (by omega)
    obtain ⟨p, rfl⟩ : ∃ p, s = p + 1 := ⟨s - 1, by omega⟩
    have h2 : rootQ ^ (q + 1) ≤ rootQ ^ p := pow_le_pow_right₀ rootQ_gt.le (by omega)
    have h3 := root_step (t := p) (by omega)
    rw [div_eq_mul_one_div] at h1
    have hu : ulp 12 = 1 / 10 ^ 12 := rfl
    rw [hu] at h3
    linarith
  subst g1
  cases ltr <;> simp <;> omega

/-- C25: and the search does return. -/
theorem C25_returns {t start : Nat} {c : Decimal} (ltr : Bool) (hst : start < t)
    (hc : tickToRp t = .ok c) : ∃ r, rpToTickLoop c ltr start = .ok r := by
  have ht := tickToRp_lt hc
  refine C24_returns ltr (tickToRp_bounds hc).1 ?_ (by omega)
  have h3 : c.mag ≤ rootQ ^ (2 ^ 19) := (tickToRp_bounds hc).2.2.1.trans
    (pow_le_pow_right₀ rootQ_gt.le ht.le)
  have h4 := rootQ_pow19'
  have h5 : (c.value : ℚ) = c.mag * 10 ^ 12 := by rw [value_eq, (tickToRp_bounds hc).1]
  have h6 : (c.value : ℚ) * 1000049998750 < 2 ^ 128 := by
    generalize rootQ ^ (2 ^ 19) = P at *
    rw [h5]
    nlinarith
  exact_mod_cast h6

-- both answers occur
example : (do rpToTickLoop (← tickToRp 5) false 0) = .ok 4 ∧
    (do rpToTickLoop (← tickToRp 13) false 12) = .ok 13 := by decide +kernel

/-! ### C26 Ticks are snapped to the spacing grid -/

/-- C26: snapping down gives the largest multiple of the spacing not above the tick. -/
theorem C26_down {tick sp r : Nat} (h : tkToPossibleTk tick sp false = .ok r) :
    sp ∣ r ∧ r ≤ tick ∧ ∀ k, sp ∣ k → k ≤ tick → k ≤ r := by
  obtain ⟨h0, rfl⟩ := tkDown h
  refine ⟨⟨tick / sp, mul_comm _ _⟩, Nat.div_mul_le_self _ _, ?_⟩
  rintro k ⟨j, rfl⟩ hk
  rw [mul_comm]
  apply Nat.mul_le_mul_right
  rw [Nat.le_div_iff_mul_le (Nat.pos_of_ne_zero h0), mul_comm]
  exact hk

/-- C26: snapping up gives the smallest multiple of the spacing not below the tick. -/
theorem C26_up {tick sp r : Nat} (h : tkToPossibleTk tick sp true = .ok r) :
    sp ∣ r ∧ tick ≤ r ∧ ∀ k, sp ∣ k → tick ≤ k → r ≤ k := by
  obtain ⟨h0, rfl⟩ := tkUp h
  have hpos := Nat.pos_of_ne_zero h0
  refine ⟨⟨(tick + sp - 1) / sp, mul_comm _ _⟩, ?_, ?_⟩
  · have := Nat.div_add_mod (tick + sp - 1) sp
    have h2 := Nat.mod_lt (tick + sp - 1) hpos
    rw [mul_comm] at this
    omega
  · rintro k ⟨j, rfl⟩ hk
    rw [mul_comm]
    apply Nat.mul_le_mul_left
    apply Nat.le_of_lt_succ
    rw [Nat.div_lt_iff_lt_mul hpos, Nat.succ_mul, mul_comm j]
    omega

/-- C26: multiples of the spacing are unchanged, in both directions. -/
theorem C26_multiples {tick sp r : Nat} (b : Bool) (h : tkToPossibleTk tick sp b = .ok r)
    (hd : sp ∣ tick) : r = tick := by
  cases b
  · obtain ⟨_, h2, h3⟩ := C26_down h
    exact le_antisymm h2 (h3 _ hd le_rfl)
  · obtain ⟨_, h2, h3⟩ := C26_up h
    exact le_antisymm (h3 _ hd le_rfl) h2

/-- C26: snapping returns for every positive spacing as long as the numbers stay in range; spacing
zero panics. -/
theorem C26_returns {tick sp : Nat} (b : Bool) (h0 : sp ≠ 0) (ht : tick + sp ≤ 2 ^ 128) :
    ∃ r, tkToPossibleTk tick sp b = .ok r := tk_returns b h0 ht

theorem C26_zero (tick : Nat) (b : Bool) : tkToPossibleTk tick 0 b = .error .panic := tk_zero tick b

example : tkToPossibleTk 82944 30 false = .ok 82920 ∧ tkToPossibleTk 82944 30 true = .ok 82950 ∧
    tkToPossibleTk 82920 30 true = .ok 82920 := by decide +kernel

end Hmm
