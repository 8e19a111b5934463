import Verif.Proofs.FloatLedger
import Verif.Props.FloatBooks

/-
C94: the floating-point pool holds what users have paid into it, less what they got.
-/

namespace Hmm.Flt.Pool

open F64 Sample

section
attribute [local irreducible] unit limit

/-- C94.  Along every history in which reserves, pots and reported amounts stay below `B`, what the pool holds of X
in its reserve and its two pots is what users were told they paid of X less what they were told they got, up to
`B / 2^48` for each deposit, withdrawal and round of a swap; and the same for Y.  For every math library. -/
theorem conserved {m : LibM} {B : ℚ} {p : Pool} {ix iy : ℚ} {n : ℕ} (h : Ledger m B p ix iy n) :
    |p.holdsX - ix| ≤ n * (B / 2 ^ 48) ∧ |p.holdsY - iy| ≤ n * (B / 2 ^ 48) :=
  h.books

/-- In particular users together get at most what they paid in, up to these errors, as long as reserve and pots
are not negative. -/
theorem no_minting {m : LibM} {B : ℚ} {p : Pool} {ix iy : ℚ} {n : ℕ} (h : Ledger m B p ix iy n)
    (hx : 0 ≤ p.holdsX) (hy : 0 ≤ p.holdsY) : -(n * (B / 2 ^ 48)) ≤ ix ∧ -(n * (B / 2 ^ 48)) ≤ iy := by
  obtain ⟨h1, h2⟩ := conserved h
  rw [_root_.abs_le] at h1 h2
  constructor <;> linarith [h1.2, h2.2]

end

/-- Check of `Flt.UpTo`. -/
def numB (B : ℕ) : F64 → Bool
  | .fin _ n => decide (n ≤ B * unit)
  | _ => false

/-- Check of `UpTo`. -/
def upToB (p : Pool) (B : ℕ) : Bool :=
  numB B p.x && numB B p.y && numB B p.xFee && numB B p.yFee && numB B p.xAdj && numB B p.yAdj

section
attribute [local irreducible] unit limit

theorem num_of {B : ℕ} {a : F64} (h : numB B a = true) : Flt.UpTo B a := by
  unfold numB at h
  split at h
  · rename_i s n
    have h := of_decide_eq_true h
    refine ⟨finite_fin s n, ?_⟩
    have hu : (0 : ℚ) < unit := by exact_mod_cast unit_pos
    have hq : (n : ℚ) ≤ B * unit := by exact_mod_cast h
    rw [Is.val (is_fin s n), abs_div, abs_of_pos hu, div_le_iff₀ hu]
    cases s <;> simpa [signed] using hq
  · cases h

theorem upTo_of {p : Pool} {B : ℕ} (h : p.upToB B = true) : p.UpTo B := by
  unfold upToB at h
  simp only [Bool.and_eq_true] at h
  obtain ⟨⟨⟨⟨⟨h1, h2⟩, h3⟩, h4⟩, h5⟩, h6⟩ := h
  exact ⟨num_of h1, num_of h2, num_of h3, num_of h4, num_of h5, num_of h6⟩

end

/-- A history of the theorems: two deposits, a sale of X and one of Y with fees and oracle adjustments, and a withdrawal
with fees.  What the pool holds differs from what users paid, but by less than `2^-27`. -/
theorem conserved_case : ∃ p ix iy, Ledger libm 100000 p ix iy 17 ∧ 0 < p.xFee.val ∧ 0 < p.yFee.val ∧ 0 < p.yAdj.val ∧
    p.holdsX ≠ ix ∧ |p.holdsX - ix| ≤ 1 / 2 ^ 27 := by
  have h : (match Pool.new libm (rt 2000) 1 (ofNat 2) (lit 3 1000) with
    | .error _ => false
    | .ok p0 => match p0.deposit libm 1 (ofNat 2) (ofNat 4000) (rt 1333) (rt 3000) with
      | .error _ => false
      | .ok (p1, r1) => match p1.deposit libm 2 (ofNat 2) (ofNat 4000) (rt 1000) (rt 4000) with
        | .error _ => false
        | .ok (p2, r2) => match p2.executeSwapFromX libm 7 (ofNat 1) (rt 1900) with
          | .error _ => false
          | .ok (p3, o3) => match p3.executeSwapFromY libm 7 (ofNat 1000) (rt 2000) with
            | .error _ => false
            | .ok (p4, o4) => match p4.withdraw libm 2 (ofNat 100) (rt 1000) (rt 4000) with
              | .error _ => false
              | .ok (p5, r5) => p1.upToB 100000 && p2.upToB 100000 && p3.upToB 100000 && p4.upToB 100000 && p5.upToB 100000 &&
                numB 100000 r1.totalX && numB 100000 r1.totalY && numB 100000 r2.totalX && numB 100000 r2.totalY &&
                numB 100000 o3.recv && numB 100000 o3.send && numB 100000 o4.recv && numB 100000 o4.send &&
                numB 100000 r5.totalX && numB 100000 r5.totalY && decide (0 < p5.xFee.val) && decide (0 < p5.yFee.val) &&
                decide (0 < p5.yAdj.val) &&
                decide (p5.holdsX ≠ 0 + r1.totalX.val + r2.totalX.val + o3.recv.val + o4.send.val - r5.totalX.val)) = true := by
    decide +kernel
  split at h
  · cases h
  rename_i p0 h0
  split at h
  · cases h
  rename_i p1 r1 h1
  split at h
  · cases h
  rename_i p2 r2 h2
  split at h
  · cases h
  rename_i p3 o3 h3
  split at h
  · cases h
  rename_i p4 o4 h4
  split at h
  · cases h
  rename_i p5 r5 h5
  simp only [Bool.and_eq_true] at h
  obtain ⟨⟨⟨⟨⟨⟨⟨⟨⟨⟨⟨⟨⟨⟨⟨⟨⟨⟨b1, b2⟩, b3⟩, b4⟩, b5⟩, c1⟩, c2⟩, c3⟩, c4⟩, c5⟩, c6⟩, c7⟩, c8⟩, c9⟩, c10⟩, d1⟩, d2⟩, d3⟩, d4⟩ := h
  have l : Ledger libm (100000 : ℕ) p5 _ _ 17 := .withdraw (.swapY (.swapX (.deposit (.deposit (.new h0) h1 (upTo_of b1) (num_of c1) (num_of c2)) h2
    (upTo_of b2) (num_of c3) (num_of c4)) h3 (upTo_of b3) (num_of c5) (num_of c6)) h4 (upTo_of b4) (num_of c7) (num_of c8)) h5
    (upTo_of b5) (num_of c9) (num_of c10)
  rw [show ((100000 : ℕ) : ℚ) = 100000 by norm_num] at l
  refine ⟨p5, _, _, l, of_decide_eq_true d1, of_decide_eq_true d2, of_decide_eq_true d3, of_decide_eq_true d4, ?_⟩
  exact (conserved l).1.trans (by norm_num)

end Hmm.Flt.Pool
