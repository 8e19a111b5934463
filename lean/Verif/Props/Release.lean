import Verif.Props.World
import Verif.Proofs.Release
import Verif.Proofs.Charge

/-
C114, C115: the program as it is deployed, without overflow checks.
-/

namespace Hmm

namespace OnChain.World

open World.Sample

/-- C114: whatever the ledger, an instruction of the deployed program, in which overflows wrap, does and returns exactly what
it does with overflow checks on; errors included. -/
theorem C114_exec {w : World} (h : Reachable w) (i : Instr) : Release.World.exec w i = w.exec i :=
  Release.World.exec_eq h i

/-- C114: and a deposit or a withdrawal moves the same amounts. -/
theorem C114_moved {w : World} (h : Reachable w) (lp : Nat) (c : Accounts) (lower upper current x y n : Nat) :
    Release.World.deposit w lp c lower upper current x y = w.deposit lp c lower upper current x y ∧
    Release.World.withdraw w lp c lower upper current n = w.withdraw lp c lower upper current n :=
  ⟨Release.World.deposit_eq h .., Release.World.withdraw_eq h ..⟩

/-- C114: the ledgers that the deployed program can produce are those of the checked one, so every theorem about the latter
holds of the former. -/
theorem C114_reachable (w : World) : Release.World.Reachable w ↔ Reachable w := by
  constructor
  · intro h
    induction h with
    | empty => exact .empty
    | step _ hs ih =>
      cases hs with
      | program i hi => exact ih.step (.program i (by rw [← Release.World.exec_eq ih]; exact hi))
      | token who i hi => exact ih.step (.token who i hi)
  · intro h
    induction h with
    | empty => exact .empty
    | step hr hs ih =>
      cases hs with
      | program i hi => exact ih.step (.program i (by rw [Release.World.exec_eq hr]; exact hi))
      | token who i hi => exact ih.step (.token who i hi)

/-- With fees on record the two would differ: 2^127 twice is a panic with overflow checks and nothing without. -/
example : feeTerm (2 ^ 127) (2 ^ 127) 12 12 = .error .panic ∧ Release.feeTerm (2 ^ 127) (2 ^ 127) 12 12 = .ok ⟨0, 12, false⟩ := by
  decide +kernel

/-- A deposit and a withdrawal of the deployed program. -/
example : ∃ w, Reachable w ∧ ∃ v u m, Release.World.deposit w 100 (user 1 1 2 3) 10 30 20 100 100 = .ok (v, ⟨99, 99, 199860⟩) ∧
    Release.World.withdraw v 100 (user 1 1 2 3) 10 30 20 100000 = .ok (u, m) ∧ m = ⟨49, 50, 100000⟩ := by
  obtain ⟨w, h, e⟩ := holds_reachable (as := start) (p := fun w =>
    match Release.World.deposit w 100 (user 1 1 2 3) 10 30 20 100 100 with
    | .ok (v, m) => m == ⟨99, 99, 199860⟩ && (match Release.World.withdraw v 100 (user 1 1 2 3) 10 30 20 100000 with
      | .ok (_, m) => m == ⟨49, 50, 100000⟩
      | .error _ => false)
    | .error _ => false) (by decide +kernel)
  split at e
  · next v m hv =>
    rw [Bool.and_eq_true, beq_iff_eq] at e
    obtain ⟨rfl, e⟩ := e
    split at e
    · next u m hu => exact ⟨w, h, v, u, m, hv, hu, by rwa [beq_iff_eq] at e⟩
    · cases e
  · cases e

end OnChain.World

open Decimal PoolMath

/-- C115, the claim: without overflow checks too a product is right to the last place, and rescaling upward exact, or there is
a panic. -/
def C115_statement : Prop :=
  (∀ a b c : Decimal, a.WF → b.WF → Release.mul a b = .ok c → |c.toRat - a.toRat * b.toRat| < ulp a.scale) ∧
  (∀ (d c : Decimal) (s : Nat), d.WF → s < 256 → d.scale ≤ s → Release.toScale d s = .ok c → c.toRat = d.toRat)

/-- C115 is false: without overflow checks one rescaled to 128 places becomes zero. -/
theorem C115_false : ¬ C115_statement := by
  rintro ⟨_, h⟩
  have := h ⟨1, 0, false⟩ ⟨0, 128, false⟩ 128 (by decide) (by decide) (by decide) (by decide +kernel)
  simp [toRat] at this

/-- C115 is false of products alone: with 86 places they come out 45 units too large. -/
theorem C115_false_mul : ∃ a b c : Decimal, a.WF ∧ b.WF ∧ Release.mul a b = .ok c ∧ c.toRat = 45 ∧ a.toRat * b.toRat < 1 / 10 ^ 40 := by
  refine ⟨⟨2 ^ 64 - 1, 0, false⟩, ⟨2 ^ 64 - 1, 86, false⟩, ⟨45, 0, false⟩, by decide, by decide, by decide +kernel, ?_, ?_⟩
  · simp [toRat]
  · unfold toRat
    norm_num

/-- C115 for scales up to 38: every operation is the same with and without overflow checks. -/
theorem C115_same_partial (a b : Decimal) (s n : Nat) (ha : a.scale ≤ 38) (hb : b.scale ≤ 38) (hs : s ≤ 38) :
    Release.mul a b = a.mul b ∧ Release.mulUp a b = a.mulUp b ∧ Release.div a b = a.div b ∧ Release.divUp a b = a.divUp b ∧
    Release.toScale a s = a.toScale s ∧ Release.toScaleUp a s = a.toScaleUp s ∧ Release.abs a = a.abs ∧
    Release.sqrt a = a.sqrt ∧ Release.powInt a n = a.powInt n ∧
    (s + b.scale ≤ a.scale + 38 → Release.divToScale a b s = a.divToScale b s) :=
  ⟨Release.mul_eq hb, Release.mulUp_eq hb, Release.div_eq hb, Release.divUp_eq hb,
    Release.toScale_eq (by omega) (by omega), Release.toScaleUp_eq (by omega) (by omega), Release.abs_eq ha,
    Release.sqrt_eq ha, Release.powInt_eq ha n, fun h => Release.divToScale_eq (by omega) h⟩

/-- C115 for scales up to 38: products and quotients are right to the last place, rescaling upward is exact. -/
theorem C115_right_partial {a b c : Decimal} (hb : b.scale ≤ 38) :
    (Release.mul a b = .ok c → |c.toRat - a.toRat * b.toRat| < ulp a.scale) ∧
    (Release.div a b = .ok c → |c.toRat - a.toRat / b.toRat| < ulp a.scale) ∧
    (∀ s, s ≤ 38 → b.scale ≤ s → Release.toScale b s = .ok c → c.toRat = b.toRat) := by
  refine ⟨fun h => mul_err (by rw [← Release.mul_eq hb]; exact h), fun h => div_err (by rw [← Release.div_eq hb]; exact h), ?_⟩
  intro s hs h1 h
  rw [Release.toScale_eq (by omega) (by omega)] at h
  obtain ⟨_, hn, hm⟩ := toScale_up_mag h1 h
  unfold toRat
  unfold mag at hm
  rw [hn, hm]

/-- `10^k` modulo `2^128` is zero exactly from the 128th power on. -/
theorem Release.pow10_zero {k : Nat} : Release.pow10 k = 0 ↔ 128 ≤ k := by
  unfold Release.pow10 u128Size
  rw [← Nat.dvd_iff_mod_eq_zero]
  constructor
  · intro h
    rw [show (10 : Nat) = 2 * 5 from rfl, mul_pow] at h
    have h1 : (2 : Nat) ^ 128 ∣ 2 ^ k := (Nat.Coprime.pow 128 k (by decide : Nat.Coprime 2 5)).dvd_of_dvd_mul_right h
    exact (Nat.pow_dvd_pow_iff_le_right (by norm_num)).1 h1
  · intro h
    rw [show (10 : Nat) = 2 * 5 from rfl, mul_pow]
    exact Dvd.dvd.mul_right (pow_dvd_pow 2 h) _

/-- C115: exactly when a product differs from the checked one, which panics then: the scale of the second factor is between
39 and 127, and the product of the two values fits. -/
theorem C115_mul_when (a b : Decimal) : Release.mul a b = a.mul b ↔
    b.scale ≤ 38 ∨ 128 ≤ b.scale ∨ 2 ^ 128 ≤ a.value * b.value := by
  by_cases h38 : b.scale ≤ 38
  · simp [Release.mul_eq h38, h38]
  have hc : a.mul b = .error .panic := by
    unfold Decimal.mul Decimal.denominator
    have : pow10 b.scale = .error .panic := pow10_error.2 ⟨by rw [← not_lt, pow10_lt_iff]; exact h38, rfl⟩
    rw [this]
    unfold checkedMul u128
    split <;> rfl
  rw [hc]
  unfold Release.mul checkedMul u128
  by_cases hf : a.value * b.value < u128Size
  · have hf' : ¬ 2 ^ 128 ≤ a.value * b.value := by unfold u128Size at hf; omega
    rw [if_pos hf, bind_eq]
    unfold checkedDiv Release.denominator
    by_cases hz : 128 ≤ b.scale
    · rw [if_pos (Release.pow10_zero.2 hz)]
      exact ⟨fun _ => .inr (.inl hz), fun _ => rfl⟩
    · rw [if_neg (fun h => hz (Release.pow10_zero.1 h)), bind_eq]
      simp only [h38, hz, hf', or_self, iff_false]
      rintro ⟨⟩
  · have hf' : 2 ^ 128 ≤ a.value * b.value := by unfold u128Size at hf; omega
    rw [if_neg hf]
    exact ⟨fun _ => .inr (.inr hf'), fun _ => rfl⟩

/-- C115: without overflow checks any decimal rescaled upward by 128 places or more is zero, and so is any quotient by a
decimal with 128 places or more. -/
theorem C115_zero (a b : Decimal) (s : Nat) :
    (a.scale + 128 ≤ s → Release.toScale a s = .ok ⟨0, s, a.negative⟩) ∧
    (128 ≤ b.scale → b.value ≠ 0 → Release.div a b = .ok ⟨0, a.scale, !(a.negative == b.negative)⟩) := by
  constructor
  · intro h
    unfold Release.toScale
    rw [if_neg (by omega), Release.pow10_zero.2 (by omega)]
    rfl
  · intro h hv
    unfold Release.div Release.denominator
    rw [Release.pow10_zero.2 h]
    show (do let v ← checkedDiv 0 b.value; return _) = _
    unfold checkedDiv
    rw [if_neg hv, bind_eq, Nat.zero_div]
    rfl

/-- A product with twelve and with 38 places, and one that differs. -/
example : Release.mul ⟨3 * 10 ^ 12, 12, false⟩ ⟨5 * 10 ^ 11, 12, true⟩ = .ok ⟨15 * 10 ^ 11, 12, true⟩ ∧
    Release.mul ⟨3, 0, false⟩ ⟨10 ^ 38, 38, false⟩ = .ok ⟨3, 0, false⟩ ∧
    Release.mul ⟨2 ^ 128 - 1, 0, false⟩ ⟨1, 39, false⟩ = .ok ⟨1, 0, false⟩ ∧
    (Decimal.mk (2 ^ 128 - 1) 0 false).mul ⟨1, 39, false⟩ = .error .panic := by decide +kernel

/-- Six divided by three with 128 places is zero. -/
example : Release.div ⟨6, 0, false⟩ ⟨3, 128, false⟩ = .ok ⟨0, 0, false⟩ := by decide +kernel

/-- The bitmap: for every tick the two builds agree, panics included. -/
theorem C114_bitmap (b : Bitmap) (t : Int) (h1 : -2 ^ 31 ≤ t) (h2 : t < 2 ^ 31) :
    Release.activateTick b t = b.activateTick t ∧ Release.unsetTick b t = b.unsetTick t ∧
    Release.tickIsActive b t = b.tickIsActive t :=
  ⟨Release.activateTick_eq h1 h2, Release.unsetTick_eq h1 h2, Release.tickIsActive_eq h1 h2⟩

end Hmm
