import Verif.Proofs.FloatPool
import Verif.Proofs.FloatTicks
import Mathlib.Tactic.Positivity

/-
Amounts taken by one round of a swap of the floating-point pool.
-/

namespace Hmm.Flt

open F64

attribute [local irreducible] unit limit

theorem nonneg_iff {a : F64} : le F64.zero a = true ↔ a = inf false ∨ ∃ q, a.Is q ∧ 0 ≤ q := by
  cases a with
  | nan => exact ⟨fun h => absurd h (by decide), fun h => by
      rcases h with h | ⟨q, h, _⟩
      · cases h
      · exact absurd ⟨q, h⟩ not_finite_nan⟩
  | inf s =>
    cases s with
    | false => exact ⟨fun _ => Or.inl rfl, fun _ => by decide⟩
    | true => exact ⟨fun h => absurd h (by decide), fun h => by
        rcases h with h | ⟨q, h, _⟩
        · cases h
        · exact absurd ⟨q, h⟩ not_finite_inf⟩
  | fin s n =>
    obtain ⟨q, hq⟩ := finite_fin s n
    rw [le_is zero_is hq]
    constructor
    · exact fun h => Or.inr ⟨q, hq, h⟩
    · rintro (h | ⟨q', h, h0⟩)
      · cases h
      · rwa [hq.unique h]

/-- Not negative, and not NaN. -/
theorem nonneg_of {a : F64} (h : lt a F64.zero = false) (hn : a ≠ nan) : le F64.zero a = true := by
  cases a with
  | nan => exact absurd rfl hn
  | inf s => cases s <;> revert h <;> decide
  | fin s n =>
    obtain ⟨q, hq⟩ := finite_fin s n
    rw [le_is zero_is hq]
    by_contra hc
    rw [(lt_zero_is hq).2 (not_le.1 hc)] at h
    cases h

theorem not_lt_zero {a : F64} (h : le F64.zero a = true) : lt a F64.zero = false := by
  cases hl : lt a F64.zero with
  | false => rfl
  | true =>
    rcases nonneg_iff.1 h with rfl | ⟨q, hq, h0⟩
    · revert hl; decide
    · have := (lt_zero_is hq).1 hl
      linarith

theorem le_not_nan {a b : F64} (h : le a b = true) : a ≠ nan ∧ b ≠ nan := by
  constructor <;> rintro rfl
  · cases b <;> cases h
  · cases a <;> exact absurd h (by simp [le, lt, F64.eq])

theorem lt_not_nan {a b : F64} (h : lt a b = true) : a ≠ nan ∧ b ≠ nan := by
  constructor <;> rintro rfl
  · cases b <;> cases h
  · cases a <;> exact absurd h (by simp [lt])

theorem add_nan_left {a : F64} : add nan a = nan := by cases a <;> rfl

theorem add_nan_right {a : F64} : add a nan = nan := by cases a <;> rfl

/-- Sums of non-negative doubles are non-negative and not below the first. -/
theorem add_nonneg {a b : F64} (ha : le F64.zero a = true) (hb : le F64.zero b = true) :
    le F64.zero (add a b) = true := by
  rcases nonneg_iff.1 ha with rfl | ⟨p, hp, h0⟩
  · rcases nonneg_iff.1 hb with rfl | ⟨q, hq, h1⟩
    · decide
    · obtain ⟨s, n, rfl, _⟩ := hq; rfl
  · rcases nonneg_iff.1 hb with rfl | ⟨q, hq, h1⟩
    · obtain ⟨s, n, rfl, _⟩ := hp; rfl
    · rw [nonneg_iff]
      rcases (add_rounded hp hq).cases with ⟨r, hr⟩ | ⟨_, h⟩ | ⟨h, _⟩
      · right
        refine ⟨r, hr, ?_⟩
        have he := add_error hp hq hr
        rw [abs_of_nonneg (show 0 ≤ p + q by linarith)] at he
        have := (abs_le.1 he).1
        have h2 : (p + q) / 2 ^ 53 ≤ p + q := div_le_self (by linarith) (by norm_num)
        linarith
      · exact Or.inl h
      · linarith

/-- A double is its own rounding. -/
theorem rounded_self {a : F64} {q : ℚ} (h : a.Is q) (hr : a.Rep) : ∃ b, Rounded q b ∧ b.Is q := by
  have h1 := add_rounded h zero_is
  rw [add_zero] at h1
  exact ⟨_, h1, h1.exact h hr⟩

theorem add_ge {a b r : F64} {p q : ℚ} (hp : a.Is p) (ha : a.Rep) (hb : le F64.zero b = true) (hr : r = add a b)
    (hq : r.Is q) : p ≤ q := by
  subst hr
  rcases nonneg_iff.1 hb with rfl | ⟨z, hz, h0⟩
  · obtain ⟨s, n, rfl, _⟩ := hp
    exact absurd ⟨q, hq⟩ not_finite_inf
  · obtain ⟨c, hc, hc'⟩ := rounded_self hp ha
    exact hc.mono (add_rounded hp hz) hc' hq (by linarith)

/-- Parts of a sum that is not NaN are not NaN. -/
theorem add_parts {a b : F64} (h : add a b ≠ nan) : a ≠ nan ∧ b ≠ nan := by
  constructor
  · rintro rfl; exact h add_nan_left
  · rintro rfl; exact h add_nan_right

/-- One round that takes the rest of the offer: what is still missing afterwards is a rounding error, and after
a second such round nothing is. -/
theorem fill_rest {dx recv M : F64} (hd : dx.Rep) (hl : lt recv dx = true)
    (h0 : le F64.zero recv = true) (hM : lt M F64.zero = false)
    (hF : lt (sub (sub dx recv) M) F64.zero = false)
    (hS : le (add M (sub (sub dx recv) M)) (sub dx recv) = true)
    (hl' : lt (add recv (add M (sub (sub dx recv) M))) dx = true) :
    ∃ D r r', dx.Is D ∧ recv.Is r ∧ (add recv (add M (sub (sub dx recv) M))).Is r' ∧ r < D ∧
      D * (1 - 4 / 2 ^ 53) ≤ r' ∧ r < D * (1 - 4 / 2 ^ 53) := by
  obtain ⟨hSn, hdn⟩ := le_not_nan hS
  obtain ⟨hMn, hFn⟩ := add_parts hSn
  have hM' := nonneg_of hM hMn
  have hF' := nonneg_of hF hFn
  -- what has been received is finite
  obtain ⟨r, hr, hr0⟩ : ∃ q, recv.Is q ∧ 0 ≤ q := by
    rcases nonneg_iff.1 h0 with rfl | h
    · cases dx with
      | nan => cases hl
      | inf s => cases s <;> cases hl
      | fin s n => cases hl
    · exact h
  -- so is the offer
  have hDx : dx.Finite := by
    cases dx with
    | nan => obtain ⟨s, n, rfl, _⟩ := hr; cases hl
    | fin s n => exact finite_fin s n
    | inf s =>
      exfalso
      obtain ⟨s', n, rfl, _⟩ := hr
      cases s with
      | true => cases hl
      | false =>
        cases M with
        | nan => exact hMn rfl
        | inf t =>
          cases t with
          | false => exact hFn rfl
          | true => cases hM
        | fin t k => cases hl'
  obtain ⟨D, hD⟩ := hDx
  have hrD : r < D := (lt_is hr hD).1 hl
  -- the rest
  have hvR := sub_rounded hD hr
  obtain ⟨v, hv⟩ : (sub dx recv).Finite := hvR.finite hD hd (by
    rw [abs_of_nonneg (by linarith), abs_of_nonneg (by linarith)]; linarith)
  have hve := sub_error hD hr hv
  rw [abs_of_pos (show 0 < D - r by linarith)] at hve
  -- the fee
  obtain ⟨F, hFi, hF0⟩ : ∃ q, (sub (sub dx recv) M).Is q ∧ 0 ≤ q := by
    rcases nonneg_iff.1 hF' with h | h
    · exfalso
      obtain ⟨s, n, hfin, _⟩ := hv
      rw [hfin] at h hS
      cases M with
      | nan => exact hMn rfl
      | inf t =>
        cases t with
        | false => cases h
        | true => cases hM
      | fin t k =>
        rw [h] at hS
        cases hS
    · exact h
  obtain ⟨Mv, hMi, hM0⟩ : ∃ q, M.Is q ∧ 0 ≤ q := by
    rcases nonneg_iff.1 hM' with rfl | h
    · obtain ⟨s, n, hfin, _⟩ := hv
      rw [hfin] at hFi
      exact absurd ⟨_, hFi⟩ not_finite_inf
    · exact h
  have hFe := sub_error hv hMi hFi
  have hMv : Mv ≤ v := by
    by_contra hc
    have h1 : |v - Mv| = Mv - v := by rw [abs_of_neg (by linarith)]; ring
    rw [h1] at hFe
    have := (abs_le.1 hFe).2
    have h2 : (Mv - v) / 2 ^ 53 < Mv - v := by
      rw [div_lt_iff₀ (by norm_num)]; nlinarith
    linarith
  rw [abs_of_nonneg (show 0 ≤ v - Mv by linarith)] at hFe
  -- the sum of both
  obtain ⟨S, hSi⟩ : (add M (sub (sub dx recv) M)).Finite := by
    rcases (add_rounded hMi hFi).cases with h | ⟨_, h⟩ | ⟨h, _⟩
    · exact h
    · exfalso
      rw [h] at hS
      obtain ⟨s, n, hfin, _⟩ := hv
      rw [hfin] at hS
      cases hS
    · linarith
  have hSe := add_error hMi hFi hSi
  rw [abs_of_nonneg (show 0 ≤ Mv + F by linarith)] at hSe
  have hSv : S ≤ v := (le_is hSi hv).1 hS
  -- the new total
  have hR' := add_rounded hr hSi
  have hS0 : 0 ≤ S := by
    have := (abs_le.1 hSe).1
    have h2 : (Mv + F) / 2 ^ 53 ≤ Mv + F := div_le_self (by linarith) (by norm_num)
    linarith
  obtain ⟨r', hr'⟩ : (add recv (add M (sub (sub dx recv) M))).Finite := by
    rcases hR'.cases with h | ⟨_, h⟩ | ⟨h, _⟩
    · exact h
    · exfalso
      rw [h] at hl'
      obtain ⟨s, n, rfl, _⟩ := hD
      cases hl'
    · linarith
  have hre := add_error hr hSi hr'
  rw [abs_of_nonneg (show 0 ≤ r + S by linarith)] at hre
  have hr'D : r' < D := (lt_is hr' hD).1 hl'
  have hve1 := (abs_le.1 hve).1
  have hve2 := (abs_le.1 hve).2
  have hFe1 := (abs_le.1 hFe).1
  have hSe1 := (abs_le.1 hSe).1
  have hre1 := (abs_le.1 hre).1
  have hsum : D - 3 / 2 ^ 53 * (D - r) ≤ r + S := by
    norm_num at hve1 hFe1 hSe1 ⊢
    nlinarith
  refine ⟨D, r, r', hD, hr, hr', hrD, ?_, ?_⟩
  · have h1 : D * (1 - 3 / 2 ^ 53) ≤ r + S := by
      norm_num at hsum ⊢
      nlinarith
    norm_num at h1 hre1 ⊢
    nlinarith
  · by_contra hc
    rw [not_lt] at hc
    have hup : r + S ≤ D + 4 / 2 ^ 106 * D := by
      norm_num at hc hve2 ⊢
      nlinarith
    have hlo : D - 12 / 2 ^ 106 * D ≤ r + S := by
      norm_num at hc hsum ⊢
      nlinarith
    have hn := hR'.nearest hr' dx D hd hD
    have h2 : |r + S - D| ≤ 12 / 2 ^ 106 * D := by
      rw [abs_le]; constructor <;> norm_num at hup hlo ⊢ <;> nlinarith
    have h3 := (abs_le.1 (le_trans hn h2)).2
    have h5 := (abs_le.1 (le_trans hn h2)).1
    have hD0 : 0 < D := by linarith
    have h4 : D - r' < D / 2 ^ 53 := by
      norm_num at h3 hlo ⊢
      nlinarith
    have hr'0 : 0 ≤ r' := by
      norm_num at h4
      linarith
    have := eq_of_close hr' hD (add_rep _ _) hd hr'0 hr'D.le h4
    linarith

end Hmm.Flt
