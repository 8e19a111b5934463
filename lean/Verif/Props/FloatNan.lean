import Verif.Props.FloatFees

/-
C84: amounts taken by deposits into the floating-point pool, and what a single bad deposit does to it.
-/

namespace Hmm.Flt.Pool

open F64 Sample

/-- C84, full statement: a deposit of finite amounts takes at most those amounts and leaves both reserves
finite. -/
def DepositTakesOffer : Prop := ∀ (m : LibM) (p p' : Pool) (user : Nat) (x y rpa rpb : F64) (r : Receipt),
  Reach m p → p.x.Finite → p.y.Finite → x.Finite → y.Finite → p.deposit m user x y rpa rpb = .ok (p', r) →
  le r.x x = true ∧ le r.y y = true ∧ p'.x.Finite ∧ p'.y.Finite

/-- C84 where the amounts computed are numbers: in every pool and with every library, a deposit takes at most
what was offered.  Missing: computed amounts that are not finite (`deposit_takes_offer_false`). -/
theorem deposit_takes_offer_partial {m : LibM} {p p' : Pool} {user : Nat} {x y rpa rpb : F64} {r : Receipt}
    {X Y A B : ℚ} (h : p.deposit m user x y rpa rpb = .ok (p', r)) (hx : x.Is X) (hy : y.Is Y) (ha : r.x.Is A)
    (hb : r.y.Is B) : A ≤ X ∧ B ≤ Y := by
  obtain ⟨_, _, _, _, _, _, _, _, _, _, _, _, _, _, h1, h2, _⟩ := deposit_ok h
  constructor
  · by_contra hc
    rw [(lt_is hx ha).2 (not_le.1 hc)] at h1; cases h1
  · by_contra hc
    rw [(lt_is hy hb).2 (not_le.1 hc)] at h2; cases h2

/-- Both reserves are not numbers. -/
def Dead (p : Pool) : Prop := p.x = nan ∧ p.y = nan

theorem nan_add (a : F64) : add nan a = nan := by cases a <;> rfl

theorem nan_sub (a : F64) : sub nan a = nan := nan_add _

theorem not_le_nan : le F64.zero nan = false := by decide

theorem stepX_dead {m : LibM} {dx o : F64} {p p' : Pool} {a a' : SwapAcc} {gtk : Nat} (hp : Dead p) :
    stepX m dx o p a gtk ≠ .ok (p', a') := by
  intro h
  obtain ⟨r, _, h2, _⟩ := stepX_ok h
  rw [hp.2, nan_add, nan_sub, not_le_nan] at h2
  cases h2

theorem stepY_dead {m : LibM} {dx o : F64} {p p' : Pool} {a a' : SwapAcc} {gtk : Nat} (hp : Dead p) :
    stepY m dx o p a gtk ≠ .ok (p', a') := by
  intro h
  obtain ⟨r, _, h2, _⟩ := stepY_ok h
  rw [hp.1, nan_add, nan_sub, not_le_nan] at h2
  cases h2

/-- With reserves that are not numbers a sale of X that returns exchanges nothing. -/
theorem dead_swapX {m : LibM} {fuel : Nat} {p p' : Pool} {dx o : F64} {out : SwapOutput} (hp : Dead p)
    (h : p.executeSwapFromX m fuel dx o = .ok (p', out)) : Dead p' ∧ out.recv = F64.zero ∧ out.send = F64.zero := by
  unfold executeSwapFromX at h
  rw [ite_eq_ok] at h
  rcases h with ⟨_, h⟩ | ⟨_, h⟩
  · exact absurd h (by simp [rpanic])
  cases fuel with
  | zero => exact absurd h (by simp [loopX])
  | succ fuel =>
    rcases loopX_succ h with ⟨_, h⟩ | ⟨_, q, goal, rp, hq, h⟩
    · obtain ⟨rfl, h1, h2, _⟩ := finishX_ok h
      exact ⟨hp, h1, h2⟩
    · have hd : Dead q := by
        rcases hq with ⟨_, rfl, _⟩ | ⟨_, hq⟩
        · exact hp
        · obtain ⟨_, _, _, _, rfl⟩ := tryGetInRange_frame hq
          exact hp
      rcases h with ⟨_, h⟩ | ⟨gtk, q', a', _, h1, _⟩
      · obtain ⟨rfl, h1, h2, _⟩ := finishX_ok h
        exact ⟨hd, h1, h2⟩
      · exact absurd h1 (stepX_dead hd)

/-- With reserves that are not numbers a sale of Y that returns exchanges nothing. -/
theorem dead_swapY {m : LibM} {fuel : Nat} {p p' : Pool} {dx o : F64} {out : SwapOutput} (hp : Dead p)
    (h : p.executeSwapFromY m fuel dx o = .ok (p', out)) : Dead p' ∧ out.recv = F64.zero ∧ out.send = F64.zero := by
  unfold executeSwapFromY at h
  rw [ite_eq_ok] at h
  rcases h with ⟨_, h⟩ | ⟨_, h⟩
  · exact absurd h (by simp [rpanic])
  cases fuel with
  | zero => exact absurd h (by simp [loopY])
  | succ fuel =>
    rcases loopY_succ h with ⟨_, h⟩ | ⟨_, q, goal, rp, hq, h⟩
    · obtain ⟨rfl, h1, h2, _⟩ := finishY_ok h
      exact ⟨hp, h1, h2⟩
    · have hd : Dead q := by
        rcases hq with ⟨_, rfl, _⟩ | ⟨_, hq⟩
        · exact hp
        · obtain ⟨_, _, _, _, rfl⟩ := tryGetInRange_frame hq
          exact hp
      rcases h with ⟨_, h⟩ | ⟨gtk, q', a', _, h1, _⟩
      · obtain ⟨rfl, h1, h2, _⟩ := finishY_ok h
        exact ⟨hd, h1, h2⟩
      · exact absurd h1 (stepY_dead hd)

/-- Nothing anybody does afterwards makes the reserves numbers again, and no swap ever exchanges anything. -/
theorem dead_forever {m : LibM} {p q : Pool} (hp : Dead p) (h : Later m p q) : Dead q := by
  induction h with
  | refl => exact hp
  | deposit _ h ih =>
    obtain ⟨_, _, _, _, _, q, f, _, _, _, _, _, _, _, _, _, h1, rfl, _⟩ := deposit_ok h
    obtain ⟨_, _, _, rfl, _⟩ := setPosition_frame h1
    exact ⟨by unfold payFees; simp only; rw [ih.1, nan_add], by unfold payFees; simp only; rw [ih.2, nan_add]⟩
  | withdraw _ h ih =>
    obtain ⟨_, _, _, _, q, f, _, _, _, _, _, h1, rfl, _⟩ := withdraw_ok h
    obtain ⟨_, _, _, rfl, _⟩ := setPosition_frame h1
    exact ⟨by unfold payFees; simp only; rw [ih.1, nan_sub], by unfold payFees; simp only; rw [ih.2, nan_sub]⟩
  | swapX _ h ih => exact (dead_swapX ih h).1
  | swapY _ h ih => exact (dead_swapY ih h).1

/-- Check of `Finite`. -/
def isFin : F64 → Bool
  | .fin _ _ => true
  | _ => false

theorem finite_of {a : F64} (h : isFin a = true) : a.Finite := by
  cases a with
  | fin s n => exact finite_fin s n
  | nan => cases h
  | inf s => cases h

/-- The pool of the tests after a deposit of nothing at all into an empty range above the price. -/
theorem empty_deposit : ∃ p p' r, eth F64.zero (lit 3 1000) = .ok p ∧ p.x.Finite ∧ p.y.Finite ∧
    p.deposit libm 2 F64.zero F64.zero (rt 4000) (rt 4000) = .ok (p', r) ∧ Dead p' := by
  have h : (match eth F64.zero (lit 3 1000) with
    | .error _ => false
    | .ok p => isFin p.x && isFin p.y &&
      match p.deposit libm 2 F64.zero F64.zero (rt 4000) (rt 4000) with
      | .error _ => false
      | .ok (p', _) => decide (p'.x = nan) && decide (p'.y = nan)) = true := by decide +kernel
  split at h
  · cases h
  rename_i p hp
  rw [Bool.and_eq_true] at h
  obtain ⟨h1, h⟩ := h
  split at h
  · cases h
  rename_i p' r hd
  simp only [Bool.and_eq_true, decide_eq_true_eq] at h h1
  exact ⟨p, p', r, hp, finite_of h1.1, finite_of h1.2, hd, h⟩

/-- C84 as stated is false: depositing nothing into an empty range turns both reserves into NaN. -/
theorem deposit_takes_offer_false : ¬ DepositTakesOffer := by
  intro hall
  obtain ⟨p, p', r, hp, hx, hy, hd, hD⟩ := empty_deposit
  have := (hall libm p p' 2 F64.zero F64.zero (rt 4000) (rt 4000) r (eth_reach hp) hx hy ⟨_, zero_is⟩ ⟨_, zero_is⟩ hd).2.2.1
  rw [hD.1] at this
  exact not_finite_nan this

/-- One such deposit stops all trading for good: whatever is called afterwards, no swap exchanges anything. -/
theorem empty_deposit_stops_trading : ∃ p p' r, Reach libm p ∧
    p.deposit libm 2 F64.zero F64.zero (rt 4000) (rt 4000) = .ok (p', r) ∧
    ∀ q, Later libm p' q → ∀ fuel d o q' out,
      (q.executeSwapFromX libm fuel d o = .ok (q', out) ∨ q.executeSwapFromY libm fuel d o = .ok (q', out)) →
      out.recv = F64.zero ∧ out.send = F64.zero := by
  obtain ⟨p, p', r, hp, _, _, hd, hD⟩ := empty_deposit
  refine ⟨p, p', r, eth_reach hp, hd, ?_⟩
  intro q hq fuel d o q' out h
  have hdead := dead_forever hD hq
  rcases h with h | h
  · exact (dead_swapX hdead h).2
  · exact (dead_swapY hdead h).2

/-- A case meeting the hypotheses of `deposit_takes_offer_partial`: the deposit of the tests. -/
theorem deposit_takes_offer_case : ∃ p p' r, Pool.new libm (rt 2000) 1 F64.zero (lit 3 1000) = .ok p ∧
    p.deposit libm 1 (ofNat 2) (ofNat 4000) (rt 1333) (rt 3000) = .ok (p', r) ∧
    lt (lit 199 100) r.x = true ∧ lt r.x (ofNat 2) = true ∧ lt (ofNat 3998) r.y = true ∧ lt r.y (ofNat 4000) = true := by
  have h : (match Pool.new libm (rt 2000) 1 F64.zero (lit 3 1000) with
    | .error _ => false
    | .ok p => match p.deposit libm 1 (ofNat 2) (ofNat 4000) (rt 1333) (rt 3000) with
      | .error _ => false
      | .ok (_, r) => lt (lit 199 100) r.x && lt r.x (ofNat 2) && lt (ofNat 3998) r.y && lt r.y (ofNat 4000)) = true := by
    decide +kernel
  split at h
  · cases h
  rename_i p hp
  split at h
  · cases h
  rename_i p' r hd
  simp only [Bool.and_eq_true] at h
  exact ⟨p, p', r, hp, hd, h.1.1.1, h.1.1.2, h.1.2, h.2⟩

end Hmm.Flt.Pool
