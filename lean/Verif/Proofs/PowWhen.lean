import Verif.Proofs.Pow
import Verif.Spec.Pow

/-
Exactly when an integer power is returned.
-/

namespace Hmm.Decimal

theorem le_square {v s : Nat} (h : 10 ^ s ≤ v) : v ≤ v * v / 10 ^ s := by
  rw [Nat.le_div_iff_mul_le (by positivity)]
  exact Nat.mul_le_mul_left _ h

theorem le_squared {s : Nat} (k : Nat) : ∀ {v : Nat}, 10 ^ s ≤ v → v ≤ squared v s k := by
  induction k with
  | zero => intro v _; exact le_rfl
  | succ k ih =>
    intro v h
    have := le_square h
    exact this.trans (ih (h.trans this))

theorem log2_half {n : Nat} (h : 2 ≤ n) : Nat.log2 n = Nat.log2 (n / 2) + 1 := by
  rw [Nat.log2_def, if_pos h]

theorem log2_one : Nat.log2 1 = 0 := by decide

theorem mul_eq {a b : Decimal} (hv : a.value * b.value < u128Size) (hs : b.scale ≤ 38) :
    a.mul b = .ok ⟨a.value * b.value / 10 ^ b.scale, a.scale, !(a.negative == b.negative)⟩ :=
  mul_ok.2 ⟨hv, pow10_lt_iff.2 hs, rfl⟩

/-- Bases of at least one. -/
theorem powLoop_large : ∀ (k exp : Nat) (b r : Decimal), exp < 2 ^ k → b.scale ≤ 38 → 10 ^ b.scale ≤ b.value →
    r.value ≤ b.value → ((∃ c, powLoop k exp b r = .ok c) ↔
      (exp = 0 ∨ squared b.value b.scale (Nat.log2 exp) * squared b.value b.scale (Nat.log2 exp) < u128Size)) := by
  intro k
  induction k with
  | zero =>
    intro exp b r he _ _ _
    have : exp = 0 := by simpa using he
    subst this
    exact ⟨fun _ => .inl rfl, fun _ => ⟨r, powLoop_zero⟩⟩
  | succ k ih =>
    intro exp b r he hs hb hr
    by_cases h0 : exp = 0
    · subst h0
      exact ⟨fun _ => .inl rfl, fun _ => ⟨r, powLoop_zero⟩⟩
    have hk : exp / 2 < 2 ^ k := by rw [pow_succ] at he; omega
    have hsq := le_square hb
    -- what is left after one round
    have rest : ∀ (n : Bool) (r' : Decimal), r'.value ≤ b.value * b.value / 10 ^ b.scale →
        ((∃ c, powLoop k (exp / 2) ⟨b.value * b.value / 10 ^ b.scale, b.scale, n⟩ r' = .ok c) ↔
          (exp / 2 = 0 ∨ squared (b.value * b.value / 10 ^ b.scale) b.scale (Nat.log2 (exp / 2)) *
            squared (b.value * b.value / 10 ^ b.scale) b.scale (Nat.log2 (exp / 2)) < u128Size)) :=
      fun n r' h => ih (exp / 2) ⟨b.value * b.value / 10 ^ b.scale, b.scale, n⟩ r' hk hs (hb.trans hsq) h
    constructor
    · rintro ⟨c, h⟩
      obtain ⟨r', b', h1, h2, h3⟩ := powLoop_succ h0 h
      obtain ⟨m1, _, rfl⟩ := mul_ok.1 h2
      have hr' : r'.value ≤ b.value * b.value / 10 ^ b.scale := by
        rcases h1 with ⟨_, h1⟩ | ⟨_, rfl⟩
        · obtain ⟨_, _, rfl⟩ := mul_ok.1 h1
          exact Nat.div_le_div_right (Nat.mul_le_mul_right _ hr)
        · exact hr.trans hsq
      right
      rcases (rest _ r' hr').1 ⟨c, h3⟩ with e | e
      · have : exp = 1 := by omega
        subst this
        rw [log2_one]
        exact m1
      · by_cases h2 : 2 ≤ exp
        · rw [log2_half h2]; exact e
        · have : exp = 1 := by omega
          subst this
          rw [log2_one]
          exact m1
    · rintro (h | h)
      · exact absurd h h0
      have m1 : b.value * b.value < u128Size := by
        refine lt_of_le_of_lt ?_ h
        have := le_squared (s := b.scale) (Nat.log2 exp) hb
        exact Nat.mul_le_mul this this
      have m2 : r.value * b.value < u128Size := lt_of_le_of_lt (Nat.mul_le_mul_right _ hr) m1
      have hl : exp / 2 = 0 ∨ squared (b.value * b.value / 10 ^ b.scale) b.scale (Nat.log2 (exp / 2)) *
            squared (b.value * b.value / 10 ^ b.scale) b.scale (Nat.log2 (exp / 2)) < u128Size := by
        by_cases h2 : 2 ≤ exp
        · rw [log2_half h2] at h
          exact .inr h
        · left; omega
      rw [powLoop, if_neg h0]
      by_cases ho : exp % 2 ≠ 0
      · obtain ⟨c, hc⟩ := (rest _ ⟨r.value * b.value / 10 ^ b.scale, r.scale, !(r.negative == b.negative)⟩
          (Nat.div_le_div_right (Nat.mul_le_mul_right _ hr))).2 hl
        refine ⟨c, bind_ok.2 ⟨_, by rw [if_pos ho]; exact mul_eq m2 hs, bind_ok.2 ⟨_, mul_eq m1 hs, hc⟩⟩⟩
      · obtain ⟨c, hc⟩ := (rest _ r (hr.trans hsq)).2 hl
        refine ⟨c, bind_ok.2 ⟨_, by rw [if_neg ho], bind_ok.2 ⟨_, mul_eq m1 hs, hc⟩⟩⟩

theorem square_le {v s : Nat} (h : v ≤ 10 ^ s) : v * v / 10 ^ s ≤ v := by
  refine Nat.div_le_of_le_mul ?_
  exact Nat.mul_le_mul_right _ h

/-- Bases of at most one, once both products fit. -/
theorem powLoop_small : ∀ (k exp : Nat) (b r : Decimal), exp < 2 ^ k → b.scale ≤ 38 → b.value ≤ 10 ^ b.scale →
    b.value * b.value < u128Size → r.value * b.value < u128Size → ∃ c, powLoop k exp b r = .ok c := by
  intro k
  induction k with
  | zero =>
    intro exp b r he _ _ _ _
    have : exp = 0 := by simpa using he
    subst this
    exact ⟨r, powLoop_zero⟩
  | succ k ih =>
    intro exp b r he hs hb m1 m2
    by_cases h0 : exp = 0
    · subst h0; exact ⟨r, powLoop_zero⟩
    have hk : exp / 2 < 2 ^ k := by rw [pow_succ] at he; omega
    have hsq := square_le hb
    have rest : ∀ (n : Bool) (r' : Decimal), r'.value ≤ r.value →
        ∃ c, powLoop k (exp / 2) ⟨b.value * b.value / 10 ^ b.scale, b.scale, n⟩ r' = .ok c := fun n r' hr' =>
      ih (exp / 2) ⟨b.value * b.value / 10 ^ b.scale, b.scale, n⟩ r' hk hs (hsq.trans hb)
        (lt_of_le_of_lt (Nat.mul_le_mul hsq hsq) m1) (lt_of_le_of_lt (Nat.mul_le_mul hr' hsq) m2)
    rw [powLoop, if_neg h0]
    by_cases ho : exp % 2 ≠ 0
    · obtain ⟨c, hc⟩ := rest _ ⟨r.value * b.value / 10 ^ b.scale, r.scale, !(r.negative == b.negative)⟩ (by
        refine Nat.div_le_of_le_mul ?_
        rw [Nat.mul_comm]
        exact Nat.mul_le_mul_right _ hb)
      exact ⟨c, bind_ok.2 ⟨_, by rw [if_pos ho]; exact mul_eq m2 hs, bind_ok.2 ⟨_, mul_eq m1 hs, hc⟩⟩⟩
    · obtain ⟨c, hc⟩ := rest _ r le_rfl
      exact ⟨c, bind_ok.2 ⟨_, by rw [if_neg ho], bind_ok.2 ⟨_, mul_eq m1 hs, hc⟩⟩⟩

theorem sq_lt_u128 {x : Nat} : x * x < u128Size ↔ x < 2 ^ 64 := by
  rw [show u128Size = 2 ^ 64 * 2 ^ 64 by norm_num [u128Size]]
  exact Nat.mul_self_lt_mul_self_iff

end Hmm.Decimal
