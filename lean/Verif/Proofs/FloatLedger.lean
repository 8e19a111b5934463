import Verif.Spec.FloatLedger
import Verif.Proofs.FloatStage

/-
Sums of doubles, and the books of the floating-point pool.
-/

namespace Hmm.Flt

open F64

attribute [local irreducible] unit limit

/-! ### Sums -/

theorem not_lt_is {a b : F64} {p q : ℚ} (ha : a.Is p) (hb : b.Is q) (h : lt a b = false) : q ≤ p := by
  by_contra hc
  have := (lt_is ha hb).2 (not_le.1 hc)
  rw [this] at h; cases h

/-- Adding something that is not negative does not decrease a double. -/
theorem add_grows {a b : F64} {p q r : ℚ} (ha : a.Is p) (ra : a.Rep) (hb : b.Is q) (hq : 0 ≤ q) (hr : (add a b).Is r) :
    p ≤ r := by
  have h0 : Rounded (p + 0) (add a F64.zero) := add_rounded ha zero_is
  have h1 : (add a F64.zero).Is p := by
    have := h0.exact (d := a) (by rw [add_zero]; exact ha) ra
    rwa [add_zero] at this
  exact h0.mono (add_rounded ha hb) h1 hr (by linarith)

theorem add_shrinks {a b : F64} {p q r : ℚ} (ha : a.Is p) (ra : a.Rep) (hb : b.Is q) (hq : q ≤ 0) (hr : (add a b).Is r) :
    r ≤ p := by
  have h0 : Rounded (p + 0) (add a F64.zero) := add_rounded ha zero_is
  have h1 : (add a F64.zero).Is p := by
    have := h0.exact (d := a) (by rw [add_zero]; exact ha) ra
    rwa [add_zero] at this
  exact (add_rounded ha hb).mono h0 hr h1 (by linarith)

/-- The rounding error of a sum in terms of the result. -/
theorem add_error_le {a b : F64} {p q r M : ℚ} (ha : a.Is p) (hb : b.Is q) (hr : (add a b).Is r) (hM : |r| ≤ M) :
    |r - (p + q)| ≤ M / 2 ^ 52 ∧ |p + q| ≤ 2 * M := by
  have he := add_error ha hb hr
  have h0 : 0 ≤ |p + q| := abs_nonneg _
  have h1 : |p + q| ≤ |r| + |r - (p + q)| := by
    have := abs_sub_abs_le_abs_sub (p + q) r
    rw [abs_sub_comm] at this
    linarith
  have h2 : |p + q| ≤ 2 * M := by
    have : |p + q| / 2 ^ 53 ≤ |p + q| / 2 := div_le_div_of_nonneg_left h0 (by norm_num) (by norm_num)
    linarith
  refine ⟨he.trans ?_, h2⟩
  rw [div_le_div_iff₀ (by positivity) (by positivity)]
  nlinarith

theorem sub_error_le {a b : F64} {p q r M : ℚ} (ha : a.Is p) (hb : b.Is q) (hr : (sub a b).Is r) (hM : |r| ≤ M) :
    |r - (p - q)| ≤ M / 2 ^ 52 ∧ |p - q| ≤ 2 * M := by
  have := add_error_le ha (neg_is hb) hr hM
  rw [← sub_eq_add_neg] at this; exact this

theorem sub_finite {a b : F64} (h : (sub a b).Finite) : a.Finite ∧ b.Finite := by
  obtain ⟨h1, h2⟩ := add_finite h
  exact ⟨h1, neg_finite.1 h2⟩

/-- The exact sum. -/
def exactly (f : Stage → F64) (ts : List Stage) : ℚ := (ts.map fun t => (f t).val).sum

theorem total_rep {f : Stage → F64} : ∀ (ts : List Stage) {z : F64}, z.Rep → (total f z ts).Rep
  | [], _, h => h
  | _ :: ts, _, _ => total_rep ts (add_rep _ _)

theorem total_finite {f : Stage → F64} : ∀ (ts : List Stage) {z : F64}, (total f z ts).Finite →
    z.Finite ∧ ∀ t ∈ ts, (f t).Finite
  | [], _, h => ⟨h, by simp⟩
  | t :: ts, z, h => by
    obtain ⟨h1, h2⟩ := total_finite ts (z := add z (f t)) h
    obtain ⟨h3, h4⟩ := add_finite h1
    refine ⟨h3, fun u hu => ?_⟩
    rcases List.mem_cons.1 hu with rfl | hu
    · exact h4
    · exact h2 u hu

/-- A sum of terms of one sign goes in one direction. -/
theorem total_direction {f : Stage → F64} : ∀ (ts : List Stage) {z : F64}, z.Rep → (total f z ts).Finite →
    ((∀ t ∈ ts, lt (f t) F64.zero = false) → z.val ≤ (total f z ts).val) ∧
    ((∀ t ∈ ts, lt F64.zero (f t) = false) → (total f z ts).val ≤ z.val)
  | [], z, _, _ => ⟨fun _ => le_refl z.val, fun _ => le_refl z.val⟩
  | t :: ts, z, hz, h => by
    obtain ⟨h1, h2⟩ := total_direction ts (z := add z (f t)) (add_rep _ _) h
    obtain ⟨h3, _⟩ := total_finite ts (z := add z (f t)) h
    obtain ⟨h4, h5⟩ := add_finite h3
    refine ⟨fun hp => ?_, fun hp => ?_⟩
    · have := h1 fun u hu => hp u (List.mem_cons_of_mem _ hu)
      exact le_trans (add_grows h4.is hz h5.is (not_lt_is h5.is zero_is (hp t List.mem_cons_self)) h3.is) this
    · have := h2 fun u hu => hp u (List.mem_cons_of_mem _ hu)
      exact le_trans this (add_shrinks h4.is hz h5.is (not_lt_is zero_is h5.is (hp t List.mem_cons_self)) h3.is)

/-- The error of a sum of terms of one sign, and the size of the terms. -/
theorem total_error {f : Stage → F64} {M : ℚ} : ∀ (ts : List Stage) {z : F64}, z.Rep → (total f z ts).Finite →
    ((∀ t ∈ ts, lt (f t) F64.zero = false) ∨ (∀ t ∈ ts, lt F64.zero (f t) = false)) →
    |z.val| ≤ M → |(total f z ts).val| ≤ M →
    |(total f z ts).val - (z.val + exactly f ts)| ≤ ts.length * (M / 2 ^ 52) ∧ ∀ t ∈ ts, |(f t).val| ≤ 3 * M
  | [], z, _, _, _, _, _ => by
    refine ⟨?_, by simp⟩
    have : (total f z []).val - (z.val + exactly f []) = 0 := by
      show z.val - (z.val + 0) = 0
      ring
    rw [this]; simp
  | t :: ts, z, hz, h, hs, hM, hM' => by
    obtain ⟨h3, h2⟩ := total_finite ts (z := add z (f t)) h
    obtain ⟨h4, h5⟩ := add_finite h3
    obtain ⟨d1, d2⟩ := total_direction ts (z := add z (f t)) (add_rep _ _) h
    have hmid : |(add z (f t)).val| ≤ M := by
      rw [_root_.abs_le] at hM hM' ⊢
      rcases hs with hp | hp
      · have e1 := d1 fun u hu => hp u (List.mem_cons_of_mem _ hu)
        have e2 := add_grows h4.is hz h5.is (not_lt_is h5.is zero_is (hp t List.mem_cons_self)) h3.is
        exact ⟨by linarith, le_trans e1 hM'.2⟩
      · have e1 := d2 fun u hu => hp u (List.mem_cons_of_mem _ hu)
        have e2 := add_shrinks h4.is hz h5.is (not_lt_is zero_is h5.is (hp t List.mem_cons_self)) h3.is
        exact ⟨le_trans hM'.1 e1, by linarith⟩
    obtain ⟨i1, i2⟩ := total_error (M := M) ts (z := add z (f t)) (add_rep _ _) h
      (hs.imp (fun hp u hu => hp u (List.mem_cons_of_mem _ hu)) (fun hp u hu => hp u (List.mem_cons_of_mem _ hu))) hmid hM'
    obtain ⟨e1, e2⟩ := add_error_le h4.is h5.is h3.is hmid
    constructor
    · have : (total f z (t :: ts)).val - (z.val + exactly f (t :: ts)) =
          ((total f (add z (f t)) ts).val - ((add z (f t)).val + exactly f ts)) + ((add z (f t)).val - (z.val + (f t).val)) := by
        show (total f (add z (f t)) ts).val - (z.val + ((f t).val + exactly f ts)) = _
        ring
      rw [this]
      refine (abs_add_le _ _).trans ?_
      have : ((t :: ts).length : ℚ) = ts.length + 1 := by simp
      rw [this]
      linarith
    · intro u hu
      rcases List.mem_cons.1 hu with rfl | hu
      · have : |(f u).val| ≤ |z.val + (f u).val| + |z.val| := by
          have := abs_sub (z.val + (f u).val) z.val
          rwa [add_sub_cancel_left] at this
        linarith
      · exact i2 u hu

theorem exactly_diff {f g h : Stage → F64} {ε : ℚ} {s : ℚ} : ∀ (ts : List Stage),
    (∀ t ∈ ts, |(h t).val - ((f t).val + s * (g t).val)| ≤ ε) →
    |exactly h ts - (exactly f ts + s * exactly g ts)| ≤ ts.length * ε
  | [], _ => by simp [exactly]
  | t :: ts, hd => by
    have ih := exactly_diff ts fun u hu => hd u (List.mem_cons_of_mem _ hu)
    have h0 := hd t List.mem_cons_self
    have : exactly h (t :: ts) - (exactly f (t :: ts) + s * exactly g (t :: ts)) =
        (exactly h ts - (exactly f ts + s * exactly g ts)) + ((h t).val - ((f t).val + s * (g t).val)) := by
      unfold exactly; simp only [List.map_cons, List.sum_cons]; ring
    rw [this]
    refine (abs_add_le _ _).trans ?_
    have : ((t :: ts).length : ℚ) = ts.length + 1 := by simp
    rw [this]; linarith

/-! ### Swaps -/

/-- Three sums: the parts `f` and `g` are added up separately, and their rounded sums `h` in one. -/
theorem three_sums {f g h : Stage → F64} {ts : List Stage} {zf zg zh : F64} {s B : ℚ} {n : ℕ} (hn : ts.length ≤ n)
    (rf : zf.Rep) (rg : zg.Rep) (rh : zh.Rep)
    (kf : UpTo B zf) (kf' : UpTo B (total f zf ts)) (kg : UpTo B zg) (kg' : UpTo B (total g zg ts))
    (kh : UpTo B zh) (kh' : UpTo B (total h zh ts))
    (sf : (∀ t ∈ ts, lt (f t) F64.zero = false) ∨ (∀ t ∈ ts, lt F64.zero (f t) = false))
    (sg : (∀ t ∈ ts, lt (g t) F64.zero = false) ∨ (∀ t ∈ ts, lt F64.zero (g t) = false))
    (sh : (∀ t ∈ ts, lt (h t) F64.zero = false) ∨ (∀ t ∈ ts, lt F64.zero (h t) = false))
    (hs : |s| ≤ 1) (hd : ∀ t ∈ ts, |(h t).val| ≤ 3 * B → |(h t).val - ((f t).val + s * (g t).val)| ≤ 3 * B / 2 ^ 52) :
    |((total h zh ts).val - zh.val) - (((total f zf ts).val - zf.val) + s * ((total g zg ts).val - zg.val))| ≤
      n * (B / 2 ^ 49) := by
  have hB : 0 ≤ B := (abs_nonneg _).trans kf.2
  obtain ⟨f1, _⟩ := total_error ts rf kf'.1 sf kf.2 kf'.2
  obtain ⟨g1, _⟩ := total_error ts rg kg'.1 sg kg.2 kg'.2
  obtain ⟨h1, h2⟩ := total_error ts rh kh'.1 sh kh.2 kh'.2
  have h3 := exactly_diff (f := f) (g := g) (h := h) (s := s) ts fun t ht => hd t ht (h2 t ht)
  have g2 : |s * ((total g zg ts).val - (zg.val + exactly g ts))| ≤ ts.length * (B / 2 ^ 52) := by
    rw [abs_mul]
    have : |s| * |(total g zg ts).val - (zg.val + exactly g ts)| ≤ 1 * |(total g zg ts).val - (zg.val + exactly g ts)| :=
      mul_le_mul_of_nonneg_right hs (abs_nonneg _)
    linarith
  have hn' : (ts.length : ℚ) ≤ n := by exact_mod_cast hn
  have hb2 : (ts.length : ℚ) * (B / 2 ^ 49) ≤ n * (B / 2 ^ 49) := mul_le_mul_of_nonneg_right hn' (by positivity)
  refine le_trans ?_ hb2
  have hl : (0 : ℚ) ≤ ts.length := by positivity
  have hlb : 0 ≤ (ts.length : ℚ) * (B / 2 ^ 52) := by positivity
  have e3 : (ts.length : ℚ) * (3 * B / 2 ^ 52) = 3 * (ts.length * (B / 2 ^ 52)) := by ring
  have e4 : (ts.length : ℚ) * (B / 2 ^ 49) = 8 * (ts.length * (B / 2 ^ 52)) := by ring
  rw [e3] at h3
  rw [e4]
  generalize (ts.length : ℚ) * (B / 2 ^ 52) = K at *
  rw [_root_.abs_le] at *
  constructor <;> linarith [f1.1, f1.2, g2.1, g2.2, h1.1, h1.2, h3.1, h3.2]

/-- The difference of something that is not positive and something that is not negative. -/
theorem sub_not_pos {a b : F64} (h : (sub a b).Finite) (ha : lt F64.zero a = false) (hb : lt b F64.zero = false) :
    lt F64.zero (sub a b) = false := by
  obtain ⟨f1, f2⟩ := sub_finite h
  have h1 := not_lt_is zero_is f1.is ha
  have h2 := not_lt_is f2.is zero_is hb
  have h0 : Rounded (0 - 0) (sub F64.zero F64.zero) := sub_rounded zero_is zero_is
  have h3 : (sub F64.zero F64.zero).Is (0 - 0) := h0.exact (d := F64.zero) (by rw [sub_zero]; exact zero_is) zero_rep
  have h4 := (sub_rounded f1.is f2.is).mono h0 h.is h3 (by linarith)
  cases hc : lt F64.zero (sub a b)
  · rfl
  · have := (zero_lt_is h.is).1 hc
    linarith

theorem add_not_neg {a b : F64} (h : (add a b).Finite) (ha : lt a F64.zero = false) (hb : lt b F64.zero = false) :
    lt (add a b) F64.zero = false := by
  obtain ⟨f1, f2⟩ := add_finite h
  have h1 := not_lt_is f1.is zero_is ha
  have h2 := not_lt_is f2.is zero_is hb
  have h0 : Rounded (0 - 0) (sub F64.zero F64.zero) := sub_rounded zero_is zero_is
  have h3 : (sub F64.zero F64.zero).Is (0 - 0) := h0.exact (d := F64.zero) (by rw [sub_zero]; exact zero_is) zero_rep
  have h4 := h0.mono (add_rounded f1.is f2.is) h3 h.is (by linarith)
  cases hc : lt (add a b) F64.zero
  · rfl
  · have := (lt_zero_is h.is).1 hc
    linarith

theorem within_signs {r : SwapWithinResult} {recv send : F64} {endTick : Nat} {endRp : F64} {cross : Bool} {adj fee : F64}
    (h : SwapWithinResult.new recv send endTick endRp cross adj fee = .ok r) :
    lt r.recv F64.zero = false ∧ lt F64.zero r.send = false ∧ lt r.sendHmmAdj F64.zero = false ∧ lt r.recvFee F64.zero = false := by
  unfold SwapWithinResult.new at h
  rw [Pool.ite_eq_ok] at h
  rcases h with ⟨_, h⟩ | ⟨h1, h⟩
  · exact absurd h (by simp [rpanic])
  rw [Pool.ite_eq_ok] at h
  rcases h with ⟨_, h⟩ | ⟨h2, h⟩
  · exact absurd h (by simp [rpanic])
  rw [Pool.ite_eq_ok] at h
  rcases h with ⟨_, h⟩ | ⟨h3, h⟩
  · exact absurd h (by simp [rpanic])
  rw [Pool.ite_eq_ok] at h
  rcases h with ⟨_, h⟩ | ⟨_, h⟩
  · exact absurd h (by simp [rpanic])
  rw [ok_inj] at h
  subst h
  rw [Bool.or_eq_false_iff] at h3
  exact ⟨h1, h2, h3.1, h3.2⟩

theorem swapWithinX_signs {m : LibM} {p : Pool} {s liq dx o : F64} {g : Nat} {r : SwapWithinResult}
    (h : p.swapWithinX m s g liq dx o = .ok r) :
    lt r.recv F64.zero = false ∧ lt F64.zero r.send = false ∧ lt r.sendHmmAdj F64.zero = false ∧ lt r.recvFee F64.zero = false := by
  unfold Pool.swapWithinX at h
  rw [Pool.ite_eq_ok] at h
  rcases h with ⟨_, h⟩ | ⟨_, h⟩
  · exact absurd h (by simp [rpanic])
  rw [bind_ok] at h
  obtain ⟨⟨_, _, _, _, _⟩, _, h⟩ := h
  simp only at h
  rw [bind_ok] at h
  obtain ⟨_, _, h⟩ := h
  rw [Pool.ite_eq_ok] at h
  rcases h with ⟨_, h⟩ | ⟨_, h⟩
  · exact absurd h (by simp [rpanic])
  rw [Pool.ite_eq_ok] at h
  rcases h with ⟨_, h⟩ | ⟨_, h⟩
  · exact absurd h (by simp [rpanic])
  rw [Pool.ite_eq_ok] at h
  rcases h with ⟨_, h⟩ | ⟨_, h⟩
  · exact absurd h (by simp [rpanic])
  exact within_signs h

theorem swapWithinY_signs {m : LibM} {p : Pool} {s liq dx o : F64} {g : Nat} {r : SwapWithinResult}
    (h : p.swapWithinY m s g liq dx o = .ok r) :
    lt r.recv F64.zero = false ∧ lt F64.zero r.send = false ∧ lt r.sendHmmAdj F64.zero = false ∧ lt r.recvFee F64.zero = false := by
  unfold Pool.swapWithinY at h
  rw [Pool.ite_eq_ok] at h
  rcases h with ⟨_, h⟩ | ⟨_, h⟩
  · exact absurd h (by simp [rpanic])
  rw [bind_ok] at h
  obtain ⟨⟨_, _, _, _, _⟩, _, h⟩ := h
  simp only at h
  rw [bind_ok] at h
  obtain ⟨_, _, h⟩ := h
  rw [Pool.ite_eq_ok] at h
  rcases h with ⟨_, h⟩ | ⟨_, h⟩
  · exact absurd h (by simp [rpanic])
  rw [Pool.ite_eq_ok] at h
  rcases h with ⟨_, h⟩ | ⟨_, h⟩
  · exact absurd h (by simp [rpanic])
  rw [Pool.ite_eq_ok] at h
  rcases h with ⟨_, h⟩ | ⟨_, h⟩
  · exact absurd h (by simp [rpanic])
  exact within_signs h

/-- What is paid for a sale goes to a reserve and to a pot. -/
theorem sums_in {ts : List Stage} {n : ℕ} (hn : ts.length ≤ n) {zx zf : F64} {B : ℚ} (rx : zx.Rep) (rf : zf.Rep)
    (kx : UpTo B zx) (kx' : UpTo B (total (·.recv) zx ts)) (kf : UpTo B zf) (kf' : UpTo B (total (·.fee) zf ts))
    (ko : UpTo B (total (fun t => add t.recv t.fee) F64.zero ts))
    (hs : ∀ t ∈ ts, lt t.recv F64.zero = false ∧ lt t.fee F64.zero = false) :
    |(total (fun t => add t.recv t.fee) F64.zero ts).val -
      (((total (·.recv) zx ts).val - zx.val) + ((total (·.fee) zf ts).val - zf.val))| ≤ n * (B / 2 ^ 49) := by
  have hB : 0 ≤ B := (abs_nonneg _).trans kx.2
  have hz : F64.zero.val = 0 := Is.val zero_is
  obtain ⟨_, hfin⟩ := total_finite ts ko.1
  have := three_sums (f := (·.recv)) (g := (·.fee)) (h := fun t => add t.recv t.fee) (zh := F64.zero) (s := 1) hn rx rf zero_rep kx kx' kf kf'
    ⟨⟨_, zero_is⟩, by rw [hz, abs_zero]; exact hB⟩ ko (Or.inl fun t ht => (hs t ht).1) (Or.inl fun t ht => (hs t ht).2)
    (Or.inl fun t ht => add_not_neg (hfin t ht) (hs t ht).1 (hs t ht).2) (by norm_num) (fun t ht hb => by
      obtain ⟨f1, f2⟩ := add_finite (hfin t ht)
      rw [one_mul]
      exact (add_error_le f1.is f2.is (hfin t ht).is hb).1)
  rw [hz, sub_zero, one_mul] at this
  exact this

/-- What is paid out in a sale, and the part held back, leave a reserve. -/
theorem sums_out {ts : List Stage} {n : ℕ} (hn : ts.length ≤ n) {zy za : F64} {B : ℚ} (ry : zy.Rep) (ra : za.Rep)
    (ky : UpTo B zy) (ky' : UpTo B (total (fun t => sub t.send t.adj) zy ts)) (ka : UpTo B za) (ka' : UpTo B (total (·.adj) za ts))
    (ko : UpTo B (total (·.send) F64.zero ts))
    (hs : ∀ t ∈ ts, lt F64.zero t.send = false ∧ lt t.adj F64.zero = false) :
    |(total (·.send) F64.zero ts).val -
      (((total (fun t => sub t.send t.adj) zy ts).val - zy.val) + ((total (·.adj) za ts).val - za.val))| ≤ n * (B / 2 ^ 49) := by
  have hB : 0 ≤ B := (abs_nonneg _).trans ky.2
  have hz : F64.zero.val = 0 := Is.val zero_is
  obtain ⟨_, hfin⟩ := total_finite ts ky'.1
  have := three_sums (f := (·.send)) (g := (·.adj)) (h := fun t => sub t.send t.adj) (zf := F64.zero) (s := -1) hn zero_rep ra ry
    ⟨⟨_, zero_is⟩, by rw [hz, abs_zero]; exact hB⟩ ko ka ka' ky ky'
    (Or.inr fun t ht => (hs t ht).1) (Or.inl fun t ht => (hs t ht).2)
    (Or.inr fun t ht => sub_not_pos (hfin t ht) (hs t ht).1 (hs t ht).2) (by norm_num) (fun t ht hb => by
      obtain ⟨f1, f2⟩ := sub_finite (hfin t ht)
      have := (sub_error_le f1.is f2.is (hfin t ht).is hb).1
      rw [show t.send.val + -1 * t.adj.val = t.send.val - t.adj.val by ring]
      exact this)
  rw [hz] at this
  rw [abs_sub_comm]
  convert this using 2
  ring

/-! ### Deposits and withdrawals -/

/-- A deposit of `a` from which `f` and `h` are paid out. -/
theorem paid_in {x a xf f xh h : F64} {B : ℚ} (kx : UpTo B x) (kx' : UpTo B (add x a)) (kf : UpTo B xf)
    (kf' : UpTo B (sub xf f)) (kh : UpTo B xh) (kh' : UpTo B (sub xh h)) (ko : UpTo B (sub (sub a f) h)) :
    |((add x a).val - x.val) + ((sub xf f).val - xf.val) + ((sub xh h).val - xh.val) - (sub (sub a f) h).val| ≤ B / 2 ^ 48 := by
  have hB : 0 ≤ B := (abs_nonneg _).trans kx.2
  obtain ⟨_, fa⟩ := add_finite kx'.1
  obtain ⟨_, ff⟩ := sub_finite kf'.1
  obtain ⟨_, fh⟩ := sub_finite kh'.1
  obtain ⟨fi, _⟩ := sub_finite ko.1
  obtain ⟨e1, _⟩ := add_error_le kx.1.is fa.is kx'.1.is kx'.2
  obtain ⟨e2, _⟩ := sub_error_le kf.1.is ff.is kf'.1.is kf'.2
  obtain ⟨e3, b3⟩ := sub_error_le kh.1.is fh.is kh'.1.is kh'.2
  obtain ⟨e4, b4⟩ := sub_error_le fi.is fh.is ko.1.is ko.2
  have hh : |h.val| ≤ 3 * B := by
    have := abs_sub xh.val (xh.val - h.val)
    rw [sub_sub_cancel] at this
    linarith [kh.2]
  have hi : |(sub a f).val| ≤ 5 * B := by
    have := abs_add_le ((sub a f).val - h.val) h.val
    rw [sub_add_cancel] at this
    linarith
  obtain ⟨e5, _⟩ := sub_error_le fa.is ff.is fi.is hi
  have e6 : 5 * B / 2 ^ 52 = 5 * (B / 2 ^ 52) := by ring
  have e7 : B / 2 ^ 48 = 16 * (B / 2 ^ 52) := by ring
  have e8 : 0 ≤ B / 2 ^ 52 := by positivity
  rw [e6] at e5
  rw [e7]
  generalize B / 2 ^ 52 = K at *
  rw [_root_.abs_le] at *
  constructor <;> linarith [e1.1, e1.2, e2.1, e2.2, e3.1, e3.2, e4.1, e4.2, e5.1, e5.2]

/-- A withdrawal of `a` together with `f` and `h`. -/
theorem paid_out {x a xf f xh h : F64} {B : ℚ} (kx : UpTo B x) (kx' : UpTo B (sub x a)) (kf : UpTo B xf)
    (kf' : UpTo B (sub xf f)) (kh : UpTo B xh) (kh' : UpTo B (sub xh h)) (ko : UpTo B (add (add a f) h)) :
    |((sub x a).val - x.val) + ((sub xf f).val - xf.val) + ((sub xh h).val - xh.val) + (add (add a f) h).val| ≤ B / 2 ^ 48 := by
  have hB : 0 ≤ B := (abs_nonneg _).trans kx.2
  obtain ⟨_, fa⟩ := sub_finite kx'.1
  obtain ⟨_, ff⟩ := sub_finite kf'.1
  obtain ⟨_, fh⟩ := sub_finite kh'.1
  obtain ⟨fi, _⟩ := add_finite ko.1
  obtain ⟨e1, _⟩ := sub_error_le kx.1.is fa.is kx'.1.is kx'.2
  obtain ⟨e2, _⟩ := sub_error_le kf.1.is ff.is kf'.1.is kf'.2
  obtain ⟨e3, b3⟩ := sub_error_le kh.1.is fh.is kh'.1.is kh'.2
  obtain ⟨e4, b4⟩ := add_error_le fi.is fh.is ko.1.is ko.2
  have hh : |h.val| ≤ 3 * B := by
    have := abs_sub xh.val (xh.val - h.val)
    rw [sub_sub_cancel] at this
    linarith [kh.2]
  have hi : |(add a f).val| ≤ 5 * B := by
    have := abs_sub ((add a f).val + h.val) h.val
    rw [add_sub_cancel_right] at this
    linarith
  obtain ⟨e5, _⟩ := add_error_le fa.is ff.is fi.is hi
  have e6 : 5 * B / 2 ^ 52 = 5 * (B / 2 ^ 52) := by ring
  have e7 : B / 2 ^ 48 = 16 * (B / 2 ^ 52) := by ring
  have e8 : 0 ≤ B / 2 ^ 52 := by positivity
  rw [e6] at e5
  rw [e7]
  generalize B / 2 ^ 52 = K at *
  rw [_root_.abs_le] at *
  constructor <;> linarith [e1.1, e1.2, e2.1, e2.2, e3.1, e3.2, e4.1, e4.2, e5.1, e5.2]

/-! ### Histories -/

/-- Reserves and pots are doubles. -/
structure Doubles (p : Pool) : Prop where
  x : p.x.Rep
  y : p.y.Rep
  xFee : p.xFee.Rep
  yFee : p.yFee.Rep
  xAdj : p.xAdj.Rep
  yAdj : p.yAdj.Rep

theorem sub_rep (a b : F64) : (sub a b).Rep := add_rep _ _

theorem new_empty {m : LibM} {rp c fee : F64} {spacing : Nat} {p : Pool} (h : Pool.new m rp spacing c fee = .ok p) :
    p.x = F64.zero ∧ p.y = F64.zero ∧ p.xFee = F64.zero ∧ p.yFee = F64.zero ∧ p.xAdj = F64.zero ∧ p.yAdj = F64.zero := by
  unfold Pool.new at h
  simp only at h
  rw [bind_ok] at h
  obtain ⟨g, h1, h⟩ := h
  rw [pure_ok] at h
  subst h
  exact ⟨rfl, rfl, rfl, rfl, rfl, rfl⟩

theorem Ledger.doubles {m : LibM} {B : ℚ} {p : Pool} {ix iy : ℚ} {n : ℕ} (h : Ledger m B p ix iy n) : Doubles p := by
  induction h with
  | new h =>
    obtain ⟨h1, h2, h3, h4, h5, h6⟩ := new_empty h
    exact ⟨h1 ▸ zero_rep, h2 ▸ zero_rep, h3 ▸ zero_rep, h4 ▸ zero_rep, h5 ▸ zero_rep, h6 ▸ zero_rep⟩
  | deposit _ h _ _ _ _ =>
    obtain ⟨_, _, _, _, _, q, f, _, _, _, _, _, _, _, _, _, _, rfl, _⟩ := Pool.deposit_ok h
    exact ⟨add_rep _ _, add_rep _ _, sub_rep _ _, sub_rep _ _, sub_rep _ _, sub_rep _ _⟩
  | withdraw _ h _ _ _ _ =>
    obtain ⟨_, _, _, _, q, f, _, _, _, _, _, _, rfl, _⟩ := Pool.withdraw_ok h
    exact ⟨sub_rep _ _, sub_rep _ _, sub_rep _ _, sub_rep _ _, sub_rep _ _, sub_rep _ _⟩
  | swapX _ h _ _ _ ih =>
    unfold Pool.executeSwapFromX at h
    rw [Pool.ite_eq_ok] at h
    rcases h with ⟨_, h⟩ | ⟨_, h⟩
    · exact absurd h (by simp [rpanic])
    obtain ⟨ts, w, _⟩ := Pool.loopX_walk rfl h
    exact ⟨w.x ▸ total_rep ts ih.x, w.y ▸ total_rep ts ih.y, w.xFee ▸ total_rep ts ih.xFee, w.yFee ▸ ih.yFee, w.xAdj ▸ ih.xAdj,
      w.yAdj ▸ total_rep ts ih.yAdj⟩
  | swapY _ h _ _ _ ih =>
    unfold Pool.executeSwapFromY at h
    rw [Pool.ite_eq_ok] at h
    rcases h with ⟨_, h⟩ | ⟨_, h⟩
    · exact absurd h (by simp [rpanic])
    obtain ⟨ts, w, _⟩ := Pool.loopY_walk rfl h
    exact ⟨w.x ▸ total_rep ts ih.x, w.y ▸ total_rep ts ih.y, w.xFee ▸ ih.xFee, w.yFee ▸ total_rep ts ih.yFee,
      w.xAdj ▸ total_rep ts ih.xAdj, w.yAdj ▸ ih.yAdj⟩

theorem Ledger.upTo {m : LibM} {B : ℚ} {p : Pool} {ix iy : ℚ} {n : ℕ} (h : Ledger m B p ix iy n) (hB : 0 ≤ B) : p.UpTo B := by
  have hz : UpTo B F64.zero := ⟨⟨_, zero_is⟩, by rw [Is.val zero_is, abs_zero]; exact hB⟩
  cases h with
  | new h =>
    obtain ⟨h1, h2, h3, h4, h5, h6⟩ := new_empty h
    exact ⟨h1 ▸ hz, h2 ▸ hz, h3 ▸ hz, h4 ▸ hz, h5 ▸ hz, h6 ▸ hz⟩
  | deposit _ _ h => exact h
  | withdraw _ _ h => exact h
  | swapX _ _ h => exact h
  | swapY _ _ h => exact h

theorem UpTo.nonneg {B : ℚ} {a : F64} (h : UpTo B a) : 0 ≤ B := (abs_nonneg _).trans h.2

theorem swapX_books {m : LibM} {B : ℚ} {p p' : Pool} {fuel : Nat} {dx o : F64} {out : SwapOutput} (hd : Doubles p)
    (hp : p.UpTo B) (h : p.executeSwapFromX m fuel dx o = .ok (p', out)) (hp' : p'.UpTo B) (hx : UpTo B out.recv)
    (hy : UpTo B out.send) :
    |(p'.holdsX - p.holdsX) - out.recv.val| ≤ fuel * (B / 2 ^ 49) ∧ |(p'.holdsY - p.holdsY) - out.send.val| ≤ fuel * (B / 2 ^ 49) := by
  unfold Pool.executeSwapFromX at h
  rw [Pool.ite_eq_ok] at h
  rcases h with ⟨_, h⟩ | ⟨_, h⟩
  · exact absurd h (by simp [rpanic])
  obtain ⟨ts, w, hn⟩ := Pool.loopX_walk rfl h
  have hs : ∀ t ∈ ts, lt t.recv F64.zero = false ∧ lt F64.zero t.send = false ∧ lt t.adj F64.zero = false ∧ lt t.fee F64.zero = false := by
    intro t ht
    obtain ⟨q, g, d, r, _, _, e2, e3⟩ := w.move t ht
    rw [e3]
    exact swapWithinX_signs e2
  obtain ⟨k1, k2, k3, k4, k5, k6⟩ := hp
  obtain ⟨l1, l2, l3, l4, l5, l6⟩ := hp'
  have w1 : out.recv = Flt.total (fun t => add t.recv t.fee) F64.zero ts := w.recv
  have w2 : out.send = Flt.total (·.send) F64.zero ts := w.send
  constructor
  · have := sums_in hn hd.x hd.xFee k1 (w.x ▸ l1) k3 (w.xFee ▸ l3) (w1 ▸ hx) fun t ht => ⟨(hs t ht).1, (hs t ht).2.2.2⟩
    rw [← w1, ← w.x, ← w.xFee] at this
    unfold Pool.holdsX
    rw [w.xAdj, abs_sub_comm]
    convert this using 2
    ring
  · have := sums_out hn hd.y hd.yAdj k2 (w.y ▸ l2) k6 (w.yAdj ▸ l6) (w2 ▸ hy) fun t ht => ⟨(hs t ht).2.1, (hs t ht).2.2.1⟩
    rw [← w2, ← w.y, ← w.yAdj] at this
    unfold Pool.holdsY
    rw [w.yFee, abs_sub_comm]
    convert this using 2
    ring

theorem swapY_books {m : LibM} {B : ℚ} {p p' : Pool} {fuel : Nat} {dy o : F64} {out : SwapOutput} (hd : Doubles p)
    (hp : p.UpTo B) (h : p.executeSwapFromY m fuel dy o = .ok (p', out)) (hp' : p'.UpTo B) (hx : UpTo B out.recv)
    (hy : UpTo B out.send) :
    |(p'.holdsX - p.holdsX) - out.send.val| ≤ fuel * (B / 2 ^ 49) ∧ |(p'.holdsY - p.holdsY) - out.recv.val| ≤ fuel * (B / 2 ^ 49) := by
  unfold Pool.executeSwapFromY at h
  rw [Pool.ite_eq_ok] at h
  rcases h with ⟨_, h⟩ | ⟨_, h⟩
  · exact absurd h (by simp [rpanic])
  obtain ⟨ts, w, hn⟩ := Pool.loopY_walk rfl h
  have hs : ∀ t ∈ ts, lt t.recv F64.zero = false ∧ lt F64.zero t.send = false ∧ lt t.adj F64.zero = false ∧ lt t.fee F64.zero = false := by
    intro t ht
    obtain ⟨q, g, d, r, _, _, e2, e3⟩ := w.move t ht
    rw [e3]
    exact swapWithinY_signs e2
  obtain ⟨k1, k2, k3, k4, k5, k6⟩ := hp
  obtain ⟨l1, l2, l3, l4, l5, l6⟩ := hp'
  have w1 : out.recv = Flt.total (fun t => add t.recv t.fee) F64.zero ts := w.recv
  have w2 : out.send = Flt.total (·.send) F64.zero ts := w.send
  constructor
  · have := sums_out hn hd.x hd.xAdj k1 (w.x ▸ l1) k5 (w.xAdj ▸ l5) (w2 ▸ hy) fun t ht => ⟨(hs t ht).2.1, (hs t ht).2.2.1⟩
    rw [← w2, ← w.x, ← w.xAdj] at this
    unfold Pool.holdsX
    rw [w.xFee, abs_sub_comm]
    convert this using 2
    ring
  · have := sums_in hn hd.y hd.yFee k2 (w.y ▸ l2) k4 (w.yFee ▸ l4) (w1 ▸ hx) fun t ht => ⟨(hs t ht).1, (hs t ht).2.2.2⟩
    rw [← w1, ← w.y, ← w.yFee] at this
    unfold Pool.holdsY
    rw [w.yAdj, abs_sub_comm]
    convert this using 2
    ring

theorem deposit_books {m : LibM} {B : ℚ} {p p' : Pool} {user : Nat} {x y rpa rpb : F64} {r : Pool.Receipt}
    (hp : p.UpTo B) (h : p.deposit m user x y rpa rpb = .ok (p', r)) (hp' : p'.UpTo B) (hx : UpTo B r.totalX)
    (hy : UpTo B r.totalY) :
    |(p'.holdsX - p.holdsX) - r.totalX.val| ≤ B / 2 ^ 48 ∧ |(p'.holdsY - p.holdsY) - r.totalY.val| ≤ B / 2 ^ 48 := by
  obtain ⟨_, _, _, _, _, q, f, _, _, _, _, _, _, _, _, _, h1, rfl, hr⟩ := Pool.deposit_ok h
  obtain ⟨_, _, _, rfl, _⟩ := Pool.setPosition_frame h1
  obtain ⟨k1, k2, k3, k4, k5, k6⟩ := hp
  obtain ⟨l1, l2, l3, l4, l5, l6⟩ := hp'
  have ex : r.totalX = sub (sub r.x f.fx) f.hx := congrArg Pool.Receipt.totalX hr
  have ey : r.totalY = sub (sub r.y f.fy) f.hy := congrArg Pool.Receipt.totalY hr
  rw [ex] at hx ⊢
  rw [ey] at hy ⊢
  constructor
  · have := paid_in k1 l1 k3 l3 k5 l5 hx
    convert this using 2
    simp only [Pool.holdsX, Pool.payFees]
    ring
  · have := paid_in k2 l2 k4 l4 k6 l6 hy
    convert this using 2
    simp only [Pool.holdsY, Pool.payFees]
    ring

theorem withdraw_books {m : LibM} {B : ℚ} {p p' : Pool} {user : Nat} {liq rpa rpb : F64} {r : Pool.Receipt}
    (hp : p.UpTo B) (h : p.withdraw m user liq rpa rpb = .ok (p', r)) (hp' : p'.UpTo B) (hx : UpTo B r.totalX)
    (hy : UpTo B r.totalY) :
    |(p'.holdsX - p.holdsX) + r.totalX.val| ≤ B / 2 ^ 48 ∧ |(p'.holdsY - p.holdsY) + r.totalY.val| ≤ B / 2 ^ 48 := by
  obtain ⟨_, _, _, _, q, f, _, _, _, _, _, h1, rfl, hr⟩ := Pool.withdraw_ok h
  obtain ⟨_, _, _, rfl, _⟩ := Pool.setPosition_frame h1
  obtain ⟨k1, k2, k3, k4, k5, k6⟩ := hp
  obtain ⟨l1, l2, l3, l4, l5, l6⟩ := hp'
  have ex : r.totalX = add (add r.x f.fx) f.hx := congrArg Pool.Receipt.totalX hr
  have ey : r.totalY = add (add r.y f.fy) f.hy := congrArg Pool.Receipt.totalY hr
  rw [ex] at hx ⊢
  rw [ey] at hy ⊢
  constructor
  · have := paid_out k1 l1 k3 l3 k5 l5 hx
    convert this using 2
    simp only [Pool.holdsX, Pool.payFees]
    ring
  · have := paid_out k2 l2 k4 l4 k6 l6 hy
    convert this using 2
    simp only [Pool.holdsY, Pool.payFees]
    ring

/-- Over a history. -/
theorem Ledger.books {m : LibM} {B : ℚ} {p : Pool} {ix iy : ℚ} {n : ℕ} (h : Ledger m B p ix iy n) :
    |p.holdsX - ix| ≤ n * (B / 2 ^ 48) ∧ |p.holdsY - iy| ≤ n * (B / 2 ^ 48) := by
  have one : ∀ {a a' i d K : ℚ} {n k : ℕ}, |a - i| ≤ n * K → |(a' - a) - d| ≤ k * K → |a' - (i + d)| ≤ ((n + k : ℕ) : ℚ) * K := by
    intro a a' i d K n k h1 h2
    have : a' - (i + d) = (a - i) + ((a' - a) - d) := by ring
    rw [this]
    refine (abs_add_le _ _).trans ?_
    push_cast
    linarith
  have half : ∀ {B a : ℚ} {k : ℕ}, 0 ≤ B → |a| ≤ k * (B / 2 ^ 49) → |a| ≤ k * (B / 2 ^ 48) := by
    intro B a k hB h
    refine h.trans (mul_le_mul_of_nonneg_left ?_ (by positivity))
    rw [div_le_div_iff₀ (by positivity) (by positivity)]
    nlinarith
  have single : ∀ {B a : ℚ}, |a| ≤ B / 2 ^ 48 → |a| ≤ ((1 : ℕ) : ℚ) * (B / 2 ^ 48) := by
    intro B a h; rw [Nat.cast_one, one_mul]; exact h
  induction h with
  | new h =>
    obtain ⟨h1, h2, h3, h4, h5, h6⟩ := new_empty h
    have hz : F64.zero.val = 0 := Is.val zero_is
    unfold Pool.holdsX Pool.holdsY
    rw [h1, h2, h3, h4, h5, h6, hz]
    simp
  | deposit h0 h hp hx hy ih =>
    obtain ⟨b1, b2⟩ := deposit_books (h0.upTo hx.nonneg) h hp hx hy
    exact ⟨one ih.1 (single b1), one ih.2 (single b2)⟩
  | @withdraw p p' r _ _ _ _ ix iy n h0 h hp hx hy ih =>
    obtain ⟨b1, b2⟩ := withdraw_books (h0.upTo hx.nonneg) h hp hx hy
    have e1 : (p'.holdsX - p.holdsX) + r.totalX.val = (p'.holdsX - p.holdsX) - -r.totalX.val := by ring
    have e2 : (p'.holdsY - p.holdsY) + r.totalY.val = (p'.holdsY - p.holdsY) - -r.totalY.val := by ring
    rw [e1] at b1
    rw [e2] at b2
    rw [sub_eq_add_neg ix, sub_eq_add_neg iy]
    exact ⟨one ih.1 (single b1), one ih.2 (single b2)⟩
  | swapX h0 h hp hx hy ih =>
    obtain ⟨b1, b2⟩ := swapX_books h0.doubles (h0.upTo hx.nonneg) h hp hx hy
    exact ⟨one ih.1 (half hx.nonneg b1), one ih.2 (half hx.nonneg b2)⟩
  | swapY h0 h hp hx hy ih =>
    obtain ⟨b1, b2⟩ := swapY_books h0.doubles (h0.upTo hx.nonneg) h hp hx hy
    exact ⟨one ih.1 (half hx.nonneg b1), one ih.2 (half hx.nonneg b2)⟩

end Hmm.Flt
