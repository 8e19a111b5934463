import Verif.Proofs.FloatQuiet
import Verif.Props.FloatBooks

/-
C82: withdrawals from the floating-point pool.
-/

namespace Hmm.Flt.Pool

open F64 Sample

section
attribute [local irreducible] unit limit

/-- The difference of two doubles has the right sign. -/
theorem sub_negative {a b : F64} {p q : ℚ} (ha : a.Is p) (hb : b.Is q) (h : p < q) :
    lt (add a b.neg) F64.zero = true := by
  have hR := add_rounded ha (neg_is hb)
  rcases hR.cases with ⟨r, hr⟩ | ⟨h0, _⟩ | ⟨_, h0⟩
  · rw [lt_zero_is hr]
    have he := add_error ha (neg_is hb) hr
    have h1 : |p + -q| = q - p := by rw [abs_of_neg (by linarith)]; ring
    rw [h1] at he
    have h2 := (abs_le.1 he).2
    have h3 : (q - p) / 2 ^ 53 < q - p := by
      rw [div_lt_iff₀ (by norm_num)]
      nlinarith
    linarith
  · linarith
  · rw [h0]; decide

/-- More than the position holds cannot be withdrawn, from any pool whatsoever and with any library. -/
theorem withdraw_more_refused {m : LibM} {p : Pool} {user : Nat} {liq rpa rpb : F64} {q : ℚ} (hq : liq.Is q)
    (h : match mapGet ⟨user, p.rpToPossibleTick m rpa false, p.rpToPossibleTick m rpb false⟩ p.positions with
      | none => 0 < q
      | some v => v.liq.Finite ∧ v.liq.val < q) (p' : Pool) (r : Receipt) :
    p.withdraw m user liq rpa rpb ≠ .ok (p', r) := by
  intro hw
  obtain ⟨lower, upper, _, _, q', f, rfl, rfl, _, _, _, h1, _, _⟩ := withdraw_ok hw
  obtain ⟨nf, old, base, pos, q1, q2, _, _, _, _, h5, _⟩ := setPosition_ok h1
  rcases setPositionMap_ok h5 with ⟨hn, hl, _⟩ | ⟨poz, hg, _, _, _, hc⟩
  · rw [hn] at h
    have := (lt_zero_is (neg_is hq)).2 (by linarith)
    rw [this] at hl; cases hl
  · rw [hg] at h
    have hneg := sub_negative h.1.is hq h.2
    rcases hc with ⟨he, _⟩ | ⟨_, hl, _⟩
    · have hz := zero_of_eq he
      have h2 := (lt_zero_is hz).1 hneg
      simp at h2
    · rw [hneg] at hl; cases hl

/-- C82, full statement: whatever a position holds can be withdrawn. -/
def CanWithdraw : Prop := ∀ (m : LibM) (p : Pool), Reach m p → p.Bounded →
  ∀ (user : Nat) (rpa rpb : F64) (v : PositionState),
    mapGet ⟨user, p.rpToPossibleTick m rpa false, p.rpToPossibleTick m rpb false⟩ p.positions = some v →
    ∃ p' r, p.withdraw m user v.liq rpa rpb = .ok (p', r)

/-- C82 as long as no swap has happened: every whole part of a position can be withdrawn, for every library.
Missing: histories with swaps or with fractional withdrawals, for which the statement is false. -/
theorem withdraw_accepted_partial {m : LibM} {p : Pool} (hp : Quiet m p) {user : Nat} {liq rpa rpb : F64} {n : ℤ}
    {v : PositionState} (hn : liq.IsInt n) (h0 : 0 ≤ n)
    (hv : mapGet ⟨user, p.rpToPossibleTick m rpa false, p.rpToPossibleTick m rpb false⟩ p.positions = some v)
    (hle : (n : ℚ) ≤ v.liq.val) : ∃ p' r, p.withdraw m user liq rpa rpb = .ok (p', r) := by
  have hq := hp.inv
  obtain ⟨b, hb0, hb⟩ := hq.inv.whole _ _ (mapGet_mem' hv)
  rw [IsInt.val hb] at hle
  obtain ⟨q, f, h1⟩ := take_returns hq hv hb hn h0 (by exact_mod_cast hle)
  have hl : lt liq F64.zero = false := by
    cases hc : lt liq F64.zero
    · rfl
    · have := (lt_zero_is hn).1 hc
      have : n < 0 := by exact_mod_cast this
      omega
  unfold withdraw
  rw [hl]
  simp only [Bool.false_eq_true, if_false, h1, bind, Except.bind, pure, Except.pure]
  exact ⟨_, _, rfl⟩

end

/-! ### Witnesses -/

theorem swapX_reach {m : LibM} {p p' : Pool} {o : SwapOutput} {fuel : Nat} {dx oracle : F64} (h0 : Reach m p)
    (h : p.executeSwapFromX m fuel dx oracle = .ok (p', o)) : Reach m p' := .swapX h0 h

/-- User 2 after user 1 has withdrawn 0.7 and then the rest. -/
def rounded : R Pool := do
  let p ← twoDeposits
  let p ← take p 1 (lit 7 10)
  take p 1 (sub (ofNat 487) (lit 7 10))

/-- User 2 cannot withdraw the 487 that user 2 deposited: the records of the ticks have lost `2^-44` to the
roundings of user 1's withdrawals. -/
theorem rounded_stuck : ∃ p, rounded = .ok p ∧ p.boundedB = true ∧
    (mapGet ⟨2, p.rpToPossibleTick libm (rt 1333) false, p.rpToPossibleTick libm (rt 3000) false⟩ p.positions).map (·.liq) =
      some (ofNat 487) ∧
    p.withdraw libm 2 (ofNat 487) (rt 1333) (rt 3000) = .error .panic := by
  have h : (match rounded with
    | .ok p => p.boundedB && decide ((mapGet ⟨2, p.rpToPossibleTick libm (rt 1333) false,
        p.rpToPossibleTick libm (rt 3000) false⟩ p.positions).map (·.liq) = some (ofNat 487)) &&
      (match p.withdraw libm 2 (ofNat 487) (rt 1333) (rt 3000) with
        | .error .panic => true
        | _ => false)
    | .error _ => false) = true := by decide +kernel
  split at h
  · rename_i p hp
    rw [Bool.and_eq_true, Bool.and_eq_true, decide_eq_true_eq] at h
    refine ⟨p, hp, h.1.1, h.1.2, ?_⟩
    have h3 := h.2
    split at h3
    · rename_i he; exact he
    · cases h3
  · cases h

/-- C82 as stated is false. -/
theorem withdraw_accepted_false : ¬ CanWithdraw := by
  intro hall
  obtain ⟨p, hp, hb, hm, hs⟩ := rounded_stuck
  have hr : Reach libm p := by
    unfold rounded at hp
    rw [bind_ok] at hp
    obtain ⟨q, h1, hp⟩ := hp
    rw [bind_ok] at hp
    obtain ⟨q2, h2, hp⟩ := hp
    exact take_reach (take_reach (two_is_reach h1) h2) hp
  cases hv : mapGet ⟨2, p.rpToPossibleTick libm (rt 1333) false, p.rpToPossibleTick libm (rt 3000) false⟩ p.positions with
  | none => rw [hv] at hm; cases hm
  | some v =>
    rw [hv, Option.map_some, Option.some.injEq] at hm
    obtain ⟨p', r, h⟩ := hall libm p hr (bounded_of hb) 2 (rt 1333) (rt 3000) v hv
    rw [hm, hs] at h
    cases h

/-- Whole amounts only, and still user 2, who deposits between sales of 0.2, 0.3 and 0.1 X, can withdraw nothing
at all: the fee growth below and above user 2's lower bound, `b` and `a - b` in doubles, does not add up to `a`,
and `fee_rng` asserts that it does. -/
theorem fees_stuck : ∃ p, WholeReach libm p ∧
    (mapGet ⟨2, p.rpToPossibleTick libm (rt 1500) false, p.rpToPossibleTick libm (rt 2500) false⟩ p.positions).map
      (·.liq) = some (ofNat 72) ∧
    ∀ liq, p.withdraw libm 2 liq (rt 1500) (rt 2500) = .error .panic := by
  have h : (match Pool.new libm (rt 2000) 1 F64.zero (lit 3 1000) with
    | .error _ => false
    | .ok p0 => match p0.deposit libm 1 (ofNat 2) (ofNat 4000) (rt 1333) (rt 3000) with
      | .error _ => false
      | .ok (p1, _) => p1.boundedB && match p1.executeSwapFromX libm 9 (lit 2 10) (rt 2000) with
        | .error _ => false
        | .ok (p2, _) => match p2.deposit libm 2 (lit 2 10) (ofNat 400) (rt 1500) (rt 2500) with
          | .error _ => false
          | .ok (p3, _) => p3.boundedB && match p3.executeSwapFromX libm 9 (lit 3 10) (rt 2000) with
            | .error _ => false
            | .ok (p4, _) => match p4.executeSwapFromX libm 9 (lit 1 10) (rt 2000) with
              | .error _ => false
              | .ok (p5, _) =>
                decide ((mapGet ⟨2, p5.rpToPossibleTick libm (rt 1500) false, p5.rpToPossibleTick libm (rt 2500) false⟩
                  p5.positions).map (·.liq) = some (ofNat 72)) &&
                (match p5.feeRng (·.fx) (p5.rpToPossibleTick libm (rt 1500) false)
                    (p5.rpToPossibleTick libm (rt 2500) false) with
                  | .error .panic => true
                  | _ => false)) = true := by
    decide +kernel
  split at h
  · cases h
  rename_i p0 h0
  split at h
  · cases h
  rename_i p1 r1 h1
  rw [Bool.and_eq_true] at h
  obtain ⟨b1, h⟩ := h
  split at h
  · cases h
  rename_i p2 r2 h2
  split at h
  · cases h
  rename_i p3 r3 h3
  rw [Bool.and_eq_true] at h
  obtain ⟨b3, h⟩ := h
  split at h
  · cases h
  rename_i p4 r4 h4
  split at h
  · cases h
  rename_i p5 r5 h5
  rw [Bool.and_eq_true, decide_eq_true_eq] at h
  obtain ⟨hm, h⟩ := h
  refine ⟨p5, .swapX (.swapX (.deposit (.swapX (.deposit (.new h0) h1 (bounded_of b1)) h2) h3 (bounded_of b3)) h4) h5,
    hm, ?_⟩
  intro liq
  split at h
  · rename_i he
    unfold withdraw setPosition
    simp only [he, bind, Except.bind]
    split <;> rfl
  · cases h

/-- C82 fails for whole amounts too. -/
theorem withdraw_accepted_whole_false : ¬ ∀ (m : LibM) (p : Pool), WholeReach m p →
    ∀ (user : Nat) (rpa rpb : F64) (v : PositionState),
      mapGet ⟨user, p.rpToPossibleTick m rpa false, p.rpToPossibleTick m rpb false⟩ p.positions = some v →
      ∃ p' r, p.withdraw m user v.liq rpa rpb = .ok (p', r) := by
  intro hall
  obtain ⟨p, hp, hm, hs⟩ := fees_stuck
  cases hv : mapGet ⟨2, p.rpToPossibleTick libm (rt 1500) false, p.rpToPossibleTick libm (rt 2500) false⟩ p.positions with
  | none => rw [hv] at hm; cases hm
  | some v =>
    obtain ⟨p', r, h⟩ := hall libm p hp 2 (rt 1500) (rt 2500) v hv
    rw [hs] at h
    cases h

/-- A case meeting the hypotheses of `withdraw_accepted_partial`. -/
theorem withdraw_accepted_case : ∃ p v, Quiet libm p ∧
    mapGet ⟨1, p.rpToPossibleTick libm (rt 1333) false, p.rpToPossibleTick libm (rt 3000) false⟩ p.positions = some v ∧
    v.liq.IsInt 487 := by
  have h : (match Pool.new libm (rt 2000) 1 F64.zero (lit 3 1000) with
    | .error _ => false
    | .ok p0 => match p0.deposit libm 1 (ofNat 2) (ofNat 4000) (rt 1333) (rt 3000) with
      | .error _ => false
      | .ok (p1, _) => p1.boundedB &&
        decide ((mapGet ⟨1, p1.rpToPossibleTick libm (rt 1333) false, p1.rpToPossibleTick libm (rt 3000) false⟩
          p1.positions).map (·.liq) = some (ofNat 487))) = true := by
    decide +kernel
  split at h
  · cases h
  rename_i p0 h0
  split at h
  · cases h
  rename_i p1 r1 h1
  rw [Bool.and_eq_true, decide_eq_true_eq] at h
  cases hv : mapGet ⟨1, p1.rpToPossibleTick libm (rt 1333) false, p1.rpToPossibleTick libm (rt 3000) false⟩
      p1.positions with
  | none => rw [hv] at h; cases h.2
  | some v =>
    rw [hv, Option.map_some, Option.some.injEq] at h
    refine ⟨p1, v, .deposit (.new h0) h1 (bounded_of h.1), hv, ?_⟩
    rw [h.2, isInt_iff]
    exact ⟨false, 487 * unit, by decide +kernel, by rw [signed_whole]; rfl⟩

end Hmm.Flt.Pool
