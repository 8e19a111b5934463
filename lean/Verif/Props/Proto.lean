import Verif.Proofs.ProtoLoop
import Verif.Tests.ProtoSample

/-
C127: sales in the Python prototype and in the Rust twin are the same.
-/

namespace Hmm.Proto

open F64

section
attribute [local irreducible] unit limit

theorem Twin.of {p : Flt.Pool} {q : Pool} (h : Twin p q) {p' : Flt.Pool} {q' : Pool} (e : q' = of p' q.positions)
    (hp : p'.positions = p.positions) : Twin p' q' := by
  subst e
  exact ⟨rfl, rfl, rfl, rfl, rfl, rfl, by rw [hp]; exact h.positions, rfl, rfl, rfl, rfl, rfl, rfl, rfl, rfl⟩

/-- C127: a sale of X that the prototype carries out is carried out by the Rust code with the same amounts, leaving the same
pool; or the Rust code panics, which it does only on pools that are not `Calm`. -/
theorem C127_x {m m' : LibM} {p : Flt.Pool} {q q' : Pool} (ht : Twin p q) (hf : Fits p) (ho : Ordinary m')
    (ha : Alike p.c m m') {fuel : Nat} {dx o : F64} {out : Pool.Output}
    (h : Pool.executeSwapFromX m' fuel dx (some o) q = .ok out q') :
    (∃ p' r, p.executeSwapFromX m fuel dx o = .ok (p', r) ∧ Twin p' q' ∧ Fits p' ∧ SameOut m' p'.gs.rp r out) ∨
      (¬ Calm p ∧ p.executeSwapFromX m fuel dx o = .error .panic) := by
  rw [ht.eq] at h
  rcases executeX_of ho hf ha (G := Calm p) id h with ⟨⟨p', r⟩, e, hE⟩ | h
  · exact .inl ⟨p', r, e, ht.of hE.pool hE.kept.positions, hE.kept.fits, hE.out⟩
  · exact .inr h

/-- C127: the same for sales of Y. -/
theorem C127_y {m m' : LibM} {p : Flt.Pool} {q q' : Pool} (ht : Twin p q) (hf : Fits p) (ho : Ordinary m')
    (ha : Alike p.c m m') {fuel : Nat} {dy o : F64} {out : Pool.Output}
    (h : Pool.executeSwapFromY m' fuel dy (some o) q = .ok out q') :
    (∃ p' r, p.executeSwapFromY m fuel dy o = .ok (p', r) ∧ Twin p' q' ∧ Fits p' ∧ SameOut m' p'.gs.rp r out) ∨
      (¬ Calm p ∧ p.executeSwapFromY m fuel dy o = .error .panic) := by
  rw [ht.eq] at h
  rcases executeY_of ho hf ha (G := Calm p) id h with ⟨⟨p', r⟩, e, hE⟩ | h
  · exact .inl ⟨p', r, e, ht.of hE.pool hE.kept.positions, hE.kept.fits, hE.out⟩
  · exact .inr h

theorem toU32_lt (a : F64) : a.toU32 < 2 ^ 32 := by
  unfold toU32
  split
  · norm_num
  · split <;> norm_num
  · split
    · norm_num
    · rename_i n _
      have : Nat.min (n / F64.unit) (2 ^ 32 - 1) ≤ 2 ^ 32 - 1 := Nat.min_le_right _ _
      omega

theorem tabled_of {m : LibM} {a b : F64} (hb : NotWhole b) : (tabled m).powf a b = m.powf a b := by
  unfold tabled
  simp only
  rw [if_neg]
  rintro ⟨_, h⟩
  exact hb _ (toU32_lt b) h

/-- C127: such a library exists for every pool whose `C` is 0 or 1 or for which neither `C` nor `C - 1` is whole: that of the
prototype with its own prices of ticks. -/
theorem C127_library (m : LibM) {c : F64}
    (hc : F64.eq c zero = true ∨ F64.eq c one = true ∨ NotWhole c ∧ NotWhole (sub one c) ∧ NotWhole (sub one c).neg) :
    Alike c (tabled m) m := by
  have hw : Powers c → NotWhole c ∧ NotWhole (sub one c) ∧ NotWhole (sub one c).neg := by
    rintro ⟨h1, h2⟩
    rcases hc with h | h | h
    · rw [h] at h1; cases h1
    · rw [h] at h2; cases h2
    · exact h
  refine ⟨fun t ht => ?_, fun _ => rfl, fun h a => tabled_of (hw h).1, fun h a => tabled_of (hw h).2.1,
    fun h a => tabled_of (hw h).2.2⟩
  have h3 : t ≤ 2 ^ 53 := by omega
  have hi : (ofNat t).IsInt (t : ℤ) := by
    unfold IsInt
    have := Flt.ofNat_is h3
    exact_mod_cast this
  have hu : (ofNat t).toU32 = t := by rw [Flt.toU32_int hi, min_eq_left (by omega)]
  unfold Flt.tickToRp tabled
  simp only
  rw [hu, if_pos ⟨trivial, rfl⟩]

end

/-! ### The hypotheses can be met -/

section
open Sample
open Flt.Sample (libm rt get)

private theorem lnRoot : le (lit 1 65536) (libm.ln Flt.tickBase.sqrt) = true ∧
    le (libm.ln Flt.tickBase.sqrt) one = true := by decide +kernel

private theorem root_ne : Flt.tickBase.sqrt ≠ nan := by decide +kernel

private theorem root_one : div (libm.ln Flt.tickBase.sqrt) (libm.ln Flt.tickBase.sqrt) = one := by decide +kernel

private theorem litIs : (lit 1 65536).Is (1 / 65536) := by
  refine ⟨false, 2 ^ 1058, by decide +kernel, ?_⟩
  unfold signed
  simp only [Bool.false_eq_true, if_false]
  have : (F64.unit : ℚ) = 2 ^ 1058 * 65536 := by
    have : F64.unit = 2 ^ 1058 * 65536 := by decide +kernel
    rw [this]; push_cast; rfl
  rw [this]
  push_cast
  field_simp

private theorem above_safe : ∀ t : Nat, t < 2 ^ 32 → le one (priceOf safe t) = true := by
  intro t _
  have h1 : le one Flt.tickBase.sqrt = true := by decide +kernel
  have h2 : le one one = true := by decide +kernel
  unfold priceOf safe
  simp only
  generalize div (ofNat t) (ofNat 2) = e
  split
  · exact h1
  · split
    · exact h2
    · rename_i h
      rw [not_and, Bool.not_eq_false] at h
      exact h trivial

section
attribute [local irreducible] F64.unit limit

private theorem quotient {v v0 : F64} (h0 : le zero v = true) (h1 : le v (ofNat 710) = true) (h2 : le (lit 1 65536) v0 = true)
    (h3 : le v0 one = true) {q : ℚ} (hq : (div v v0).Is q) : 0 ≤ q ∧ q < 2 ^ 32 := by
  have k710 := Flt.ofNat_is (k := 710) (by norm_num)
  have fin_of : ∀ {a b c : F64} {x y : ℚ}, a.Is x → c.Is y → le a b = true → le b c = true → b.Finite := by
    rintro a b c x y ⟨_, _, rfl, _⟩ ⟨_, _, rfl, _⟩ hab hbc
    cases b with
    | nan => cases hbc
    | inf w => cases w <;> [cases hbc; cases hab]
    | fin w n => exact finite_fin w n
  obtain ⟨x, hx⟩ := fin_of zero_is k710 h0 h1
  obtain ⟨y, hy⟩ := fin_of litIs one_is h2 h3
  have x0 := (le_is zero_is hx).1 h0
  have x1 := (le_is hx k710).1 h1
  have y0 := (le_is litIs hy).1 h2
  have yp : 0 < y := lt_of_lt_of_le (by norm_num) y0
  have hr := div_rounded hx hy yp.ne'
  have hz : Rounded 0 (F64.add zero zero) := by simpa using add_rounded zero_is zero_is
  have hzi : (F64.add zero zero).Is 0 := by
    rw [show F64.add zero zero = zero from by decide +kernel]; exact zero_is
  have hB := Flt.ofNat_is (k := 46530560) (by norm_num)
  obtain ⟨b, hb, hbi⟩ := Flt.rounded_self hB (ofRatio_rep _ _ _)
  refine ⟨hz.mono hr hzi hq (by positivity), ?_⟩
  have : q ≤ (46530560 : ℕ) := hr.mono hb hq hbi (by
    rw [div_le_iff₀ yp]
    push_cast at x1 ⊢
    linarith)
  push_cast at this
  linarith

theorem ordinary_safe : Ordinary safe where
  root := by
    show (if _ then _ else _) = _
    rw [if_pos ⟨rfl, rfl⟩]
  above := above_safe
  nan := rfl
  ticks := by
    intro rp q hle hq
    have hn : rp ≠ nan := by rintro rfl; revert hle; decide +kernel
    have hroot : safe.ln Flt.tickBase.sqrt = libm.ln Flt.tickBase.sqrt := by
      show (if _ then _ else _) = _
      rw [if_neg root_ne, if_pos rfl]
    rw [hroot] at hq
    by_cases hr : rp = Flt.tickBase.sqrt
    · rw [hr, hroot, root_one] at hq
      have : q = 1 := Is.unique hq one_is
      rw [this]; norm_num
    · have : safe.ln rp = if (le zero (libm.ln rp) && (le (libm.ln rp) (ofNat 710) || decide (libm.ln rp = inf false))) = true
          then libm.ln rp else zero := by
        show (if _ then _ else _) = _
        rw [if_neg hn, if_neg hr, if_pos hle]
      rw [this] at hq
      split at hq
      · rename_i hc
        rw [Bool.and_eq_true, Bool.or_eq_true, decide_eq_true_eq] at hc
        obtain ⟨h0, h1 | h1⟩ := hc
        · exact quotient h0 h1 lnRoot.1 lnRoot.2 hq
        · exfalso
          rw [h1] at hq
          have h2 := lnRoot.2
          obtain ⟨s, n, h, _⟩ := hq
          generalize libm.ln Flt.tickBase.sqrt = z at h h2
          cases z with
          | nan => cases h
          | inf w => cases h
          | fin w n => cases h
      · exact quotient (by decide +kernel) (by decide +kernel) lnRoot.1 lnRoot.2 hq

end

/-- The pool of the notebooks, in both. -/
theorem twin_eth : Twin (rsEth (lit 1 2) (lit 3 1000)) (pyEth (lit 1 2) (lit 3 1000)) :=
  ⟨by decide +kernel, by decide +kernel, by decide +kernel, by decide +kernel, by decide +kernel, by decide +kernel,
   by decide +kernel, by decide +kernel, by decide +kernel, by decide +kernel, by decide +kernel, by decide +kernel,
   by decide +kernel, by decide +kernel, by decide +kernel⟩

theorem fits_eth : Fits (rsEth (lit 1 2) (lit 3 1000)) :=
  ⟨by decide +kernel, by decide +kernel, by decide +kernel, by decide +kernel⟩

theorem alike_eth : Alike (rsEth (lit 1 2) (lit 3 1000)).c table safe := by
  have h : (rsEth (lit 1 2) (lit 3 1000)).c = lit 1 2 := by decide +kernel
  rw [h]
  refine C127_library _ (.inr (.inr ?_))
  have key : ∀ b : F64, b.floor ≠ b ∨ lt b zero = true → NotWhole b := by
    intro b hb t ht e
    have h3 : t ≤ 2 ^ 53 := by omega
    have hi := Flt.ofNat_is h3
    rcases hb with hb | hb
    · apply hb
      rw [e]
      unfold ofNat lit
      rw [ofRatio_whole h3]
      unfold F64.floor
      simp only
      rw [if_pos (Nat.mul_mod_left _ _)]
    · rw [e, lt_zero_is hi] at hb
      have : (0 : ℚ) ≤ t := by positivity
      linarith
  exact ⟨key _ (.inl (by decide +kernel)), key _ (.inl (by decide +kernel)), key _ (.inr (by decide +kernel))⟩

/-- A sale that reaches the oracle's price and goes on beyond the end of the only range, and the one back. -/
example : fine (pyEth (lit 1 2) (lit 3 1000)) (Pool.executeSwapFromX safe 10 (ofNat 3) (some (rt 1700))) = true ∧
    lt zero (told (pyEth (lit 1 2) (lit 3 1000)) (Pool.executeSwapFromX safe 10 (ofNat 3) (some (rt 1700)))).adj = true ∧
    (kept (pyEth (lit 1 2) (lit 3 1000)) (Pool.executeSwapFromX safe 10 (ofNat 3) (some (rt 1700)))).tick = 71954 ∧
    fine (kept (pyEth (lit 1 2) (lit 3 1000)) (Pool.executeSwapFromX safe 10 (ofNat 3) (some (rt 1700))))
      (Pool.executeSwapFromY safe 10 (ofNat 300) (some (rt 2200))) = true := by decide +kernel

/-- So the Rust code carries out that sale too, or panics. -/
example : (∃ p' r, (rsEth (lit 1 2) (lit 3 1000)).executeSwapFromX table 10 (ofNat 3) (rt 1700) = .ok (p', r)) ∨
    (rsEth (lit 1 2) (lit 3 1000)).executeSwapFromX table 10 (ofNat 3) (rt 1700) = .error .panic := by
  have hfine : fine (pyEth (lit 1 2) (lit 3 1000)) (Pool.executeSwapFromX safe 10 (ofNat 3) (some (rt 1700))) = true := by
    decide +kernel
  unfold fine at hfine
  split at hfine
  · rename_i out q' h
    rcases C127_x twin_eth fits_eth ordinary_safe alike_eth h with ⟨p', r, h, _⟩ | ⟨_, h⟩
    · exact .inl ⟨p', r, h⟩
    · exact .inr h
  · cases hfine

/-- A pool on which it cannot panic. -/
example : Calm (rsEth zero (lit 3 1000)) ∧ Fits (rsEth zero (lit 3 1000)) ∧
    Alike (rsEth zero (lit 3 1000)).c table safe ∧
    fine (pyEth zero (lit 3 1000)) (Pool.executeSwapFromX safe 10 (ofNat 3) (some (rt 1700))) = true :=
  ⟨⟨by decide +kernel, by decide +kernel, by decide +kernel⟩,
   ⟨by decide +kernel, by decide +kernel, by decide +kernel, by decide +kernel⟩,
   C127_library _ (.inl (by decide +kernel)), by decide +kernel⟩

/-- C127: with one and the same library for both they are not the same: the prices of ticks are computed differently. -/
theorem C127_prices_false : ¬ ∀ t : Nat, t < 2 ^ 32 → Flt.tickToRp libm t = priceOf libm t := by
  intro h
  have := h 76012 (by norm_num)
  revert this
  decide +kernel

/-- A provider whose range begins at tick zero. -/
def low : Pool := kept (get (Pool.new safe (lit 11 10) 1 zero zero))
  (Pool.deposit safe 1 (ofNat 1000) (ofNat 1000) one (lit 12 10))

def rsLow : Flt.Pool := get (do
  let p ← Flt.Pool.new table (lit 11 10) 1 zero zero
  return (← p.deposit table 1 (ofNat 1000) (ofNat 1000) one (lit 12 10)).1)

/-- C127: the Rust code does panic where the prototype goes on: here a sale goes past a range that ends at tick zero. -/
theorem C127_panics : Twin rsLow low ∧ Fits rsLow ∧
    fine low (Pool.executeSwapFromX safe 10 (ofNat 3000) (some one)) = true ∧
    (kept low (Pool.executeSwapFromX safe 10 (ofNat 3000) (some one))).tick = -1 ∧
    rsLow.executeSwapFromX table 10 (ofNat 3000) one = .error .panic := by
  refine ⟨⟨?_, ?_, ?_, ?_, ?_, ?_, ?_, ?_, ?_, ?_, ?_, ?_, ?_, ?_, ?_⟩, ⟨?_, ?_, ?_, ?_⟩, ?_, ?_, ?_⟩ <;> decide +kernel

end

end Hmm.Proto
