import Verif.Proofs.ProtoNamed
import Verif.Props.ProtoCalls

/-
Who somebody is does not matter to the prototype.
-/

namespace Hmm.Proto

open F64

variable {σ : Nat → Nat} {m : LibM}

/-! ### C153: who somebody is does not matter to the prototype -/

/-- C153, deposits: what comes of a deposit would be the same if everybody were called by another name, and so would what an
exception leaves behind. -/
theorem C153_deposit (hσ : Function.Injective σ) (p : Pool) (user : Nat) (x y rpa rpb : F64) :
    Pool.deposit m (σ user) x y rpa rpb (p.named σ) = leaving (Pool.named σ) (Pool.deposit m user x y rpa rpb p) :=
  Pool.named_deposit hσ user x y rpa rpb p

/-- C153, withdrawals: the same. -/
theorem C153_withdraw (hσ : Function.Injective σ) (p : Pool) (user : Nat) (liq : Num) (rpa rpb : F64) :
    Pool.withdraw m (σ user) liq rpa rpb (p.named σ) = leaving (Pool.named σ) (Pool.withdraw m user liq rpa rpb p) :=
  Pool.named_withdraw hσ user liq rpa rpb p

/-- C153, sales: what comes of a sale does not depend on who holds which positions, or on how many there are. -/
theorem C153_sellX (p : Pool) (ps : List (Key × PositionState)) (n : Nat) (dx : F64) (o : Option F64) :
    Pool.executeSwapFromX m n dx o (p.ownedBy ps) = leaving (·.ownedBy ps) (Pool.executeSwapFromX m n dx o p) :=
  Pool.held_sellX (f := fun _ => ps) n dx o p

theorem C153_sellY (p : Pool) (ps : List (Key × PositionState)) (n : Nat) (dy : F64) (o : Option F64) :
    Pool.executeSwapFromY m n dy o (p.ownedBy ps) = leaving (·.ownedBy ps) (Pool.executeSwapFromY m n dy o p) :=
  Pool.held_sellY (f := fun _ => ps) n dy o p

theorem seen_leaving {α : Type} (g : α → Answer) (h : Pool → Pool) (r : EStateM.Result Err Pool α) :
    seen g (leaving h r) = (h (seen g r).1, (seen g r).2) := by cases r <;> rfl

theorem call_named (hσ : Function.Injective σ) (n : Nat) (p : Pool) (a : Ask) :
    (a.named σ).call m n (p.named σ) = ((a.call m n p).1.named σ, (a.call m n p).2) := by
  cases a with
  | deposit u x y rpa rpb => exact (congrArg _ (C153_deposit hσ p u x y rpa rpb)).trans (seen_leaving _ _ _)
  | withdraw u l rpa rpb => exact (congrArg _ (C153_withdraw hσ p u l rpa rpb)).trans (seen_leaving _ _ _)
  | sellX dx o => exact (congrArg _ (Pool.held_sellX (f := Pool.namedTable σ) n dx o p)).trans (seen_leaving _ _ _)
  | sellY dy o => exact (congrArg _ (Pool.held_sellY (f := Pool.namedTable σ) n dy o p)).trans (seen_leaving _ _ _)

/-- C153: in a whole session, exceptions included, people of other names see the same. -/
theorem C153_session (hσ : Function.Injective σ) (n : Nat) (as : List Ask) : ∀ p : Pool,
    session m n (p.named σ) (as.map (Ask.named σ)) = ((session m n p as).1.named σ, (session m n p as).2) := by
  induction as with
  | nil => exact fun _ => rfl
  | cons a as ih =>
    intro p
    simp only [List.map_cons, session, call_named hσ, ih]

open Sample
open Flt.Sample (libm rt)

/-- The third and the seventh user exchange their names. -/
def exchanged (u : Nat) : Nat := if u = 3 then 7 else if u = 7 then 3 else u

theorem exchanged_inj : Function.Injective exchanged := fun a b h => by
  unfold exchanged at h
  split_ifs at h <;> omega

/-- A case: the deposit of the third user that raises and the withdrawal that is paid, of C129, made by a seventh user. -/
example : raises (stage3.named exchanged) (Pool.deposit libm 7 (ofNat 2) (ofNat 4000) (rt 1800) (rt 3000)) = true ∧
    lt (ofNat 2) (result (stage7.named exchanged) (Pool.withdraw libm 7 (.int 479) (rt 1800) (rt 3000))).totalX = true := by
  have h := C129_false
  have k1 := C153_deposit (m := libm) exchanged_inj stage3 3 (ofNat 2) (ofNat 4000) (rt 1800) (rt 3000)
  have k2 := C153_withdraw (m := libm) exchanged_inj stage7 3 (.int 479) (rt 1800) (rt 3000)
  refine ⟨?_, ?_⟩
  · have h1 := h.1
    unfold raises at h1 ⊢
    rw [show (7 : Nat) = exchanged 3 from rfl, k1]
    cases hr : Pool.deposit libm 3 (ofNat 2) (ofNat 4000) (rt 1800) (rt 3000) stage3 with
    | ok _ _ => rw [hr] at h1; cases h1
    | error _ _ => rfl
  · have h2 := h.2.2.2.2.2.2.1
    unfold result at h2 ⊢
    rw [show (7 : Nat) = exchanged 3 from rfl, k2]
    cases hr : Pool.withdraw libm 3 (.int 479) (rt 1800) (rt 3000) stage7 with
    | ok _ _ => rw [hr] at h2; exact h2
    | error _ _ => rw [hr] at h2; exact h2

end Hmm.Proto
