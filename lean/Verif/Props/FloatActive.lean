import Verif.Proofs.FloatActive
import Verif.Props.FloatFees

/-
C93: the active liquidity of the floating-point pool is that of the positions whose range contains the current
tick.
-/

namespace Hmm.Flt.Pool

open F64 Sample

/-- C93, full statement, for histories with whole liquidity, together at most `2^52`. -/
def ActiveInRange : Prop := ∀ (m : LibM) (p : Pool), WholeReach m p → p.gs.liq.Is p.inRange

/-- C93 for every math library, along histories in which no swap stops on an initialised tick and deposits put
ticks where price and current tick agree about them.  Missing: swaps that stop on an initialised tick, for which
the statement is false (`active_false`), and fractional liquidity, for which see `books_false`. -/
theorem active_partial {m : LibM} {p : Pool} (h : ClearReach m p) : p.gs.liq.Is p.inRange := by
  obtain ⟨a, ea, ha⟩ := h.sound.active
  rw [ea]
  exact ha

/-- Along the same histories price and current tick agree about every initialised tick, before and after every
call. -/
theorem placed_partial {m : LibM} {p : Pool} (h : ClearReach m p) : p.Placed m := h.sound.placed

section
attribute [local irreducible] unit limit

/-- C82 along the same histories, which may contain swaps, for every math library: if some withdrawal from a range
returns for a user, such as one of nothing, so does every withdrawal of a whole part of what the user's position
holds.  Missing as in `withdraw_accepted_partial`: that some withdrawal returns, which `fees_stuck` shows false. -/
theorem withdraw_any_part_partial {m : LibM} {p p1 : Pool} (hp : ClearReach m p) {user : Nat} {liq liq' rpa rpb : F64}
    {r1 : Receipt} {n : ℤ} {v : PositionState} (hw : p.withdraw m user liq' rpa rpb = .ok (p1, r1)) (hn : liq.IsInt n)
    (h0 : 0 ≤ n)
    (hv : mapGet ⟨user, p.rpToPossibleTick m rpa false, p.rpToPossibleTick m rpb false⟩ p.positions = some v)
    (hle : (n : ℚ) ≤ v.liq.val) : ∃ p' r, p.withdraw m user liq rpa rpb = .ok (p', r) := by
  have hs := hp.sound
  obtain ⟨b, hb0, hb⟩ := hs.inv.whole _ _ (mapGet_mem' hv)
  rw [IsInt.val hb] at hle
  obtain ⟨lower, upper, _, _, q', f, rfl, rfl, _, _, _, h1, _, _⟩ := withdraw_ok hw
  obtain ⟨nf, old, base, pos, q1, q2, n1, n2, n3, n4, h5, h6, _⟩ := setPosition_ok h1
  have hold : old = v.fees := by
    rcases setPositionMap_ok h5 with ⟨hn, _⟩ | ⟨poz, hg, rfl, _⟩
    · rw [hv] at hn; cases hn
    · rw [hv, Option.some.injEq] at hg; rw [hg]
  subst hold
  obtain ⟨q, f, h2⟩ := take_returns' hs.inv hs.active ⟨n1, n2, n3, n4, h6⟩ hv hb hn h0 (by exact_mod_cast hle)
  have hl : lt liq F64.zero = false := by
    cases hc : lt liq F64.zero
    · rfl
    · have := (lt_zero_is hn).1 hc
      have : n < 0 := by exact_mod_cast this
      omega
  unfold withdraw
  rw [hl]
  simp only [Bool.false_eq_true, if_false, h2, bind, Except.bind, pure, Except.pure]
  exact ⟨_, _, rfl⟩

end

/-- ETH at 2000 without fees; user 1 provides liquidity of 487 between 1333 and 3000, user 2 of 305 between 1000
and 4000. -/
def twoRanges : R Pool := do
  let p ← eth F64.zero F64.zero
  return (← p.deposit libm 2 (ofNat 2) (ofNat 4000) (rt 1000) (rt 4000)).1

/-- Check of the conditions on a deposit in `ClearReach`. -/
def depositB (p p' : Pool) (rpa rpb : F64) : Bool :=
  decide (rpToPossibleTk libm rpa p.spacing false ≤ rpToPossibleTk libm rpb p.spacing false) && p'.boundedB &&
    decide (p'.Placed libm)

/-- A history meeting the hypotheses: the ranges of two users, one inside the other; a sale of X that leaves the inner range
below, a withdrawal of 100 and a sale of Y that enters it again and leaves it above. -/
theorem active_case : ∃ p q r, ClearReach libm p ∧ p.gs.liq = ofNat 305 ∧ p.gs.tick < 71955 ∧
    ClearReach libm q ∧ q.gs.liq = ofNat 205 ∧ ClearReach libm r ∧ r.gs.liq = ofNat 205 ∧ 80067 < r.gs.tick ∧
    ((mapGet ⟨1, 71955, 80067⟩ r.positions).map (·.liq) = some (ofNat 487) ∧
      ∃ r' rec, r.withdraw libm 1 F64.zero (rt 1333) (rt 3000) = .ok (r', rec)) := by
  have h : (match Pool.new libm (rt 2000) 1 F64.zero F64.zero with
    | .error _ => false
    | .ok p0 => match p0.deposit libm 1 (ofNat 2) (ofNat 4000) (rt 1333) (rt 3000) with
      | .error _ => false
      | .ok (p1, _) => depositB p0 p1 (rt 1333) (rt 3000) &&
        match p1.deposit libm 2 (ofNat 2) (ofNat 4000) (rt 1000) (rt 4000) with
        | .error _ => false
        | .ok (p2, _) => depositB p1 p2 (rt 1000) (rt 4000) && match p2.executeSwapFromX libm 9 (ofNat 4) (rt 2000) with
          | .error _ => false
          | .ok (p3, _) => decide (∀ rp ∈ stopsX libm (ofNat 4) (rt 2000) 9 p2 p2.acc0, p2.Clear libm rp) &&
            match p3.withdraw libm 2 (ofNat 100) (rt 1000) (rt 4000) with
            | .error _ => false
            | .ok (p4, _) => match p4.executeSwapFromY libm 9 (ofNat 13000) (rt 2000) with
              | .error _ => false
              | .ok (p5, _) => decide (∀ rp ∈ stopsY libm (ofNat 13000) (rt 2000) 9 p4 p4.acc0, p4.Clear libm rp) &&
                decide (p3.gs.liq = ofNat 305) && decide (p3.gs.tick < 71955) && decide (p4.gs.liq = ofNat 205) &&
                decide (p5.gs.liq = ofNat 205) && decide (80067 < p5.gs.tick) &&
                decide ((mapGet ⟨1, 71955, 80067⟩ p5.positions).map (·.liq) = some (ofNat 487)) &&
                (match p5.withdraw libm 1 F64.zero (rt 1333) (rt 3000) with | .ok _ => true | .error _ => false)) = true := by
    decide +kernel
  split at h
  · cases h
  rename_i p0 h0
  split at h
  · cases h
  rename_i p1 r1 h1
  rw [Bool.and_eq_true] at h
  obtain ⟨b1, h⟩ := h
  split at h
  · cases h
  rename_i p2 r2 h2
  rw [Bool.and_eq_true] at h
  obtain ⟨b2, h⟩ := h
  split at h
  · cases h
  rename_i p3 r3 h3
  rw [Bool.and_eq_true] at h
  obtain ⟨b3, h⟩ := h
  split at h
  · cases h
  rename_i p4 r4 h4
  split at h
  · cases h
  rename_i p5 r5 h5
  unfold depositB at b1 b2
  simp only [Bool.and_eq_true, decide_eq_true_eq] at h b1 b2
  have b3 := of_decide_eq_true b3
  have hn : (ofNat 100).IsInt 100 := by
    rw [isInt_iff]; exact ⟨false, 100 * unit, by decide +kernel, by rw [signed_whole]; rfl⟩
  have c2 : ClearReach libm p2 := .deposit (.deposit (.new (by decide) h0) b1.1.1 h1 (bounded_of b1.1.2) b1.2)
    b2.1.1 h2 (bounded_of b2.1.2) b2.2
  have c3 : ClearReach libm p3 := .swapX c2 h3 b3
  have c4 : ClearReach libm p4 := .withdraw c3 hn h4
  obtain ⟨⟨⟨⟨⟨⟨⟨e1, e2⟩, e3⟩, e4⟩, e5⟩, e6⟩, e7⟩, e8⟩ := h
  refine ⟨p3, p4, p5, c3, e2, e3, c4, e4, .swapY c4 h5 e1, e5, e6, e7, ?_⟩
  split at e8
  · rename_i r' he; exact ⟨r'.1, r'.2, he⟩
  · cases e8

/-- What must be sold of X to bring the price of `p` to the root price of tick `t`, and `10^-15` more. -/
def edge (p : Pool) (t : Nat) : F64 := add (dxFromLDrp p.gs.liq p.gs.rp (tickToRp libm t)) (lit 1 1000000000000000)

/-- The pool `twoRanges` after a sale that reaches the lower bound of the inner range with `10^-15` left. -/
def edged : R Pool := do
  let p ← twoRanges
  return (← p.executeSwapFromX libm 9 (edge p 71955) (rt 2000)).1

/-- The sale has left the inner range, with liquidity 305 active, and yet the current tick is the lower bound of
the inner range, which belongs to the range: the rest of the sale is too small to move the price, and the tick
is computed from the price again.  User 1 can then not withdraw, and no sale of 0.01 X or of 8000 Y returns. -/
theorem edged_pool : ∃ p, edged = .ok p ∧ WholeReach libm p ∧ p.gs.tick = 71955 ∧ p.gs.liq = ofNat 305 ∧
    p.inRange = 792 ∧ p.withdraw libm 1 (ofNat 487) (rt 1333) (rt 3000) = .error .panic ∧
    p.executeSwapFromX libm 9 (lit 1 100) (rt 2000) = .error .panic ∧
    p.executeSwapFromY libm 9 (ofNat 8000) (rt 2000) = .error .panic := by
  have h : (match Pool.new libm (rt 2000) 1 F64.zero F64.zero with
    | .error _ => false
    | .ok p0 => match p0.deposit libm 1 (ofNat 2) (ofNat 4000) (rt 1333) (rt 3000) with
      | .error _ => false
      | .ok (p1, _) => p1.boundedB && match p1.deposit libm 2 (ofNat 2) (ofNat 4000) (rt 1000) (rt 4000) with
        | .error _ => false
        | .ok (p2, _) => p2.boundedB && match p2.executeSwapFromX libm 9 (edge p2 71955) (rt 2000) with
          | .error _ => false
          | .ok (p, _) => decide (p.gs.tick = 71955) && decide (p.gs.liq = ofNat 305) && decide (p.inRange = 792) &&
            (match p.withdraw libm 1 (ofNat 487) (rt 1333) (rt 3000) with | .error e => decide (e = .panic) | .ok _ => false) &&
            (match p.executeSwapFromX libm 9 (lit 1 100) (rt 2000) with | .error e => decide (e = .panic) | .ok _ => false) &&
            (match p.executeSwapFromY libm 9 (ofNat 8000) (rt 2000) with | .error e => decide (e = .panic) | .ok _ => false))
      = true := by decide +kernel
  split at h
  · cases h
  rename_i p0 h0
  split at h
  · cases h
  rename_i p1 r1 h1
  rw [Bool.and_eq_true] at h
  obtain ⟨b1, h⟩ := h
  split at h
  · cases h
  rename_i p2 r2 h2
  rw [Bool.and_eq_true] at h
  obtain ⟨b2, h⟩ := h
  split at h
  · cases h
  rename_i p3 r3 h3
  simp only [Bool.and_eq_true, decide_eq_true_eq] at h
  obtain ⟨⟨⟨⟨⟨e1, e2⟩, e3⟩, e4⟩, e5⟩, e6⟩ := h
  have he : edged = .ok p3 := by
    unfold edged twoRanges eth
    rw [h0, ok_bind, h1, ok_bind, pure_bind, h2, ok_bind, pure_bind, h3, ok_bind]
    rfl
  refine ⟨p3, he, .swapX (.deposit (.deposit (.new h0) h1 (bounded_of b1)) h2 (bounded_of b2)) h3, e1, e2, e3, ?_, ?_, ?_⟩
  · split at e4
    · rename_i e he'; rw [of_decide_eq_true e4] at he'; exact he'
    · cases e4
  · split at e5
    · rename_i e he'; rw [of_decide_eq_true e5] at he'; exact he'
    · cases e5
  · split at e6
    · rename_i e he'; rw [of_decide_eq_true e6] at he'; exact he'
    · cases e6

/-- C93 as stated is false. -/
theorem active_false : ¬ ActiveInRange := by
  intro hall
  obtain ⟨p, _, hw, _, e1, e2, _⟩ := edged_pool
  have h := hall libm p hw
  rw [e1, e2] at h
  have h305 : (ofNat 305).Is 305 := by
    have : (ofNat 305).IsInt 305 := by
      rw [isInt_iff]; exact ⟨false, 305 * unit, by decide +kernel, by rw [signed_whole]; rfl⟩
    exact_mod_cast this
  exact absurd (h.unique h305) (by norm_num)

end Hmm.Flt.Pool
