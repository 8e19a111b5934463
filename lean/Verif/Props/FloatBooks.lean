import Verif.Proofs.FloatBooks
import Verif.Tests.FloatSample

/-
C81: the tick records of the floating-point pool and its positions.
-/

namespace Hmm.Flt.Pool

open F64 Sample

/-- C81, full statement: along every history in which all positions have finite liquidity, together at most
`2^52`, the tick records are those of the positions. -/
def BooksKept : Prop := ∀ (m : LibM) (p : Pool), Reach m p → p.Bounded → p.Books

/-- C81 for whole withdrawals, for every math library.  Missing: withdrawals of fractional liquidity, for
which the statement is false (`books_false`), and liquidity above `2^52`. -/
theorem books_partial {m : LibM} {p : Pool} (h : WholeReach m p) : p.Books := by
  intro t
  obtain ⟨g, n, e1, e2, hT⟩ := h.inv.books t
  unfold TickIs at hT
  rw [e1, e2]
  split
  · rename_i he
    rw [he] at hT
    obtain ⟨rfl, rfl⟩ := hT
    exact ⟨Int.cast_zero, Int.cast_zero⟩
  · rename_i ts he
    rw [he] at hT
    exact ⟨hT.1, hT.2.1, by exact_mod_cast hT.2.2⟩

/-- Once every position is withdrawn, no tick is left. -/
theorem no_positions_no_ticks_partial {m : LibM} {p : Pool} (h : WholeReach m p) (h0 : p.positions = []) :
    ∀ t, mapGet t p.ticks = none := by
  intro t
  have := books_partial h t
  cases hg : mapGet t p.ticks with
  | none => rfl
  | some ts =>
    rw [hg] at this
    have h1 : p.touching t = 0 := by simp [touching, sumLiq, h0]
    rw [h1] at this
    exact absurd this.2.2 (lt_irrefl _)

/-- Two equal deposits. -/
def twoDeposits : R Pool := do
  let p ← eth F64.zero (lit 3 1000)
  return (← p.deposit libm 2 (ofNat 2) (ofNat 4000) (rt 1333) (rt 3000)).1

theorem two_is_reach {p : Pool} (h : twoDeposits = .ok p) : Reach libm p := by
  unfold twoDeposits eth at h
  rw [bind_ok] at h
  obtain ⟨q, h1, h⟩ := h
  rw [bind_ok] at h1
  obtain ⟨q0, h2, h1⟩ := h1
  rw [bind_ok] at h1
  obtain ⟨⟨q1, r⟩, h3, h1⟩ := h1
  rw [pure_ok] at h1; subst h1
  rw [bind_ok] at h
  obtain ⟨⟨q2, r2⟩, h4, h⟩ := h
  rw [pure_ok] at h; subst h
  exact .deposit (.deposit (.new h2) h3) h4

/-- `user` withdraws `liq` from the range 1333 to 3000. -/
def take (p : Pool) (user : Nat) (liq : F64) : R Pool := do
  return (← p.withdraw libm user liq (rt 1333) (rt 3000)).1

theorem take_reach {p p' : Pool} {user : Nat} {liq : F64} (h0 : Reach libm p) (h : take p user liq = .ok p') :
    Reach libm p' := by
  unfold take at h
  rw [bind_ok] at h
  obtain ⟨⟨q, r⟩, h1, h⟩ := h
  rw [pure_ok] at h; subst h
  exact .withdraw h0 h1

/-- Everything is withdrawn again, by one user in two parts. -/
def emptied : R Pool := do
  let p ← twoDeposits
  let p ← take p 1 (lit 3 10)
  let p ← take p 1 (sub (ofNat 487) (lit 3 10))
  take p 2 (ofNat 487)

theorem emptied_reach {p : Pool} (h : emptied = .ok p) : Reach libm p := by
  unfold emptied at h
  rw [bind_ok] at h
  obtain ⟨q, h1, h⟩ := h
  rw [bind_ok] at h
  obtain ⟨q2, h2, h⟩ := h
  rw [bind_ok] at h
  obtain ⟨q3, h3, h⟩ := h
  exact take_reach (take_reach (take_reach (two_is_reach h1) h2) h3) h

/-- No position is left, yet two ticks are. -/
theorem emptied_ticks : ∃ p, emptied = .ok p ∧ p.positions = [] ∧ (mapGet 71955 p.ticks).isSome := by
  have h : (match emptied with
    | .ok p => decide (p.positions = []) && (mapGet 71955 p.ticks).isSome
    | .error _ => false) = true := by decide +kernel
  cases he : emptied with
  | error e => rw [he] at h; cases h
  | ok p =>
    rw [he] at h
    simp only [Bool.and_eq_true, decide_eq_true_eq] at h
    exact ⟨p, rfl, h⟩

/-- C81 as stated is false: two users deposit the same liquidity of 487, one withdraws 0.3 and then the rest,
the other everything.  The rounding of `974 - 0.3` leaves `2^-44` of gross liquidity at ticks that no position
uses. -/
theorem books_false : ¬ BooksKept := by
  intro hall
  obtain ⟨p, hp, h0, hs⟩ := emptied_ticks
  have := hall libm p (emptied_reach hp) ⟨by rw [h0]; simp, by simp [total, sumLiq, h0]⟩ 71955
  have h1 : p.touching 71955 = 0 := by simp [touching, sumLiq, h0]
  cases hg : mapGet 71955 p.ticks with
  | none => rw [hg] at hs; cases hs
  | some ts =>
    rw [hg] at this
    rw [h1] at this
    exact absurd this.2.2 (lt_irrefl _)

/-- Check of `Bounded`. -/
def boundedB (p : Pool) : Bool :=
  p.positions.all (fun e => match e.2.liq with | .fin _ _ => true | _ => false) && decide (p.total ≤ 2 ^ 52)

theorem bounded_of {p : Pool} (h : p.boundedB = true) : p.Bounded := by
  unfold boundedB at h
  rw [Bool.and_eq_true, List.all_eq_true, decide_eq_true_eq] at h
  refine ⟨fun k v hm => ?_, h.2⟩
  have := h.1 (k, v) hm
  simp only at this
  cases hv : v.liq with
  | fin s n => exact finite_fin s n
  | nan => rw [hv] at this; cases this
  | inf s => rw [hv] at this; cases this

/-- A history meeting the hypotheses of the theorems: two deposits, a sale of X, a withdrawal of 100. -/
theorem books_case : ∃ p, WholeReach libm p ∧ p.positions.length = 2 ∧ p.gs.tick < 76012 ∧
    (mapGet 71955 p.ticks).map (·.liqGross) = some (ofNat 874) ∧ (mapGet 80067 p.ticks).map (·.liqNet) = some (ofNat 874).neg := by
  have h : (match Pool.new libm (rt 2000) 1 F64.zero (lit 3 1000) with
    | .error _ => false
    | .ok p0 => match p0.deposit libm 1 (ofNat 2) (ofNat 4000) (rt 1333) (rt 3000) with
      | .error _ => false
      | .ok (p1, _) => p1.boundedB && match p1.deposit libm 2 (ofNat 2) (ofNat 4000) (rt 1333) (rt 3000) with
        | .error _ => false
        | .ok (p2, _) => p2.boundedB && match p2.executeSwapFromX libm 9 (ofNat 1) (rt 2000) with
          | .error _ => false
          | .ok (p3, _) => match p3.withdraw libm 1 (ofNat 100) (rt 1333) (rt 3000) with
            | .error _ => false
            | .ok (p4, _) => decide (p4.positions.length = 2) && decide (p4.gs.tick < 76012) &&
              decide ((mapGet 71955 p4.ticks).map (·.liqGross) = some (ofNat 874)) &&
              decide ((mapGet 80067 p4.ticks).map (·.liqNet) = some (ofNat 874).neg)) = true := by
    decide +kernel
  split at h
  · cases h
  rename_i p0 h0
  split at h
  · cases h
  rename_i p1 r1 h1
  rw [Bool.and_eq_true] at h
  obtain ⟨b1, h⟩ := h
  split at h
  · cases h
  rename_i p2 r2 h2
  rw [Bool.and_eq_true] at h
  obtain ⟨b2, h⟩ := h
  split at h
  · cases h
  rename_i p3 r3 h3
  split at h
  · cases h
  rename_i p4 r4 h4
  simp only [Bool.and_eq_true, decide_eq_true_eq] at h
  have hn : (ofNat 100).IsInt 100 := by
    rw [isInt_iff]; exact ⟨false, 100 * unit, by decide +kernel, by rw [signed_whole]; rfl⟩
  exact ⟨p4, .withdraw (.swapX (.deposit (.deposit (.new h0) h1 (bounded_of b1)) h2 (bounded_of b2)) h3) hn h4,
    h.1.1.1, h.1.1.2, h.1.2, h.2⟩

end Hmm.Flt.Pool
