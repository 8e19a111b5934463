import Verif.Proofs.FloatNamed
import Verif.Props.FloatFrame

/-
Who somebody is does not matter to the floating-point pool.
-/

namespace Hmm.Flt.Pool

open F64 Sample
open Hmm.Pool (img)

theorem img_map {α β : Type} (g : α → β) (x : R α) : img g x = x.map g := by cases x <;> rfl

variable {σ : Nat → Nat} {m : LibM}

/-! ### C152: who somebody is does not matter -/

/-- C152, deposits: what comes of a deposit, refusal or success, would be the same if everybody were called by another
name. -/
theorem C152_deposit (hσ : Function.Injective σ) (p : Pool) (user : Nat) (x y rpa rpb : F64) :
    (p.named σ).deposit m (σ user) x y rpa rpb = (p.deposit m user x y rpa rpb).map fun r => (r.1.named σ, r.2) := by
  rw [← img_map]
  exact named_deposit hσ p user x y rpa rpb

/-- C152, withdrawals: the same. -/
theorem C152_withdraw (hσ : Function.Injective σ) (p : Pool) (user : Nat) (liq rpa rpb : F64) :
    (p.named σ).withdraw m (σ user) liq rpa rpb = (p.withdraw m user liq rpa rpb).map fun r => (r.1.named σ, r.2) := by
  rw [← img_map]
  exact named_withdraw hσ p user liq rpa rpb

/-- C152, sales: what comes of a sale does not depend on who holds which positions, or on how many there are. -/
theorem C152_sellX (p : Pool) (ps : List (PositionKey × PositionState)) (n : Nat) (dx o : F64) :
    (p.ownedBy ps).executeSwapFromX m n dx o = (p.executeSwapFromX m n dx o).map fun r => (r.1.ownedBy ps, r.2) := by
  rw [← img_map]
  exact held_sellX (f := fun _ => ps) p n dx o

theorem C152_sellY (p : Pool) (ps : List (PositionKey × PositionState)) (n : Nat) (dy o : F64) :
    (p.ownedBy ps).executeSwapFromY m n dy o = (p.executeSwapFromY m n dy o).map fun r => (r.1.ownedBy ps, r.2) := by
  rw [← img_map]
  exact held_sellY (f := fun _ => ps) p n dy o

theorem map_ok {α β : Type} {g : α → β} {x : R α} {a : α} (h : x = .ok a) : x.map g = .ok (g a) := by rw [h]; rfl

/-- C152: so the whole history of a pool could have been that of users called by other names. -/
theorem C152_history (hσ : Function.Injective σ) {p : Pool} (h : Reach m p) : Reach m (p.named σ) := by
  induction h with
  | @new rp c fee spacing p h =>
    have : p.named σ = p := by
      unfold Pool.new at h
      simp only at h
      cases hg : GlobalState.new F64.zero (tickToRp m (rpToPossibleTk m rp spacing false)) (rpToPossibleTk m rp spacing false)
          Fees.zero with
      | error e => rw [hg] at h; cases h
      | ok g => rw [hg] at h; cases h; rfl
    rw [this]
    exact .new h
  | deposit _ h ih => exact .deposit ih ((C152_deposit hσ _ _ _ _ _ _).trans (map_ok h))
  | withdraw _ h ih => exact .withdraw ih ((C152_withdraw hσ _ _ _ _ _).trans (map_ok h))
  | swapX _ h ih => exact .swapX ih ((held_sellX (f := namedTable σ) _ _ _ _).trans ((img_map _ _).trans (map_ok h)))
  | swapY _ h ih => exact .swapY ih ((held_sellY (f := namedTable σ) _ _ _ _).trans ((img_map _ _).trans (map_ok h)))

/-- The third and the seventh user exchange their names. -/
def third (u : Nat) : Nat := if u = 3 then 7 else if u = 7 then 3 else u

/-- A case: the deposit, the sale and the withdrawal of `frame_case`, made by a seventh user instead of the third; the
first two keep their names. -/
example : ∃ p p1 p2 p3 r1 r3 out, eth F64.zero (lit 3 1000) = .ok p ∧
    (p.named third).deposit libm 7 (ofNat 2) (ofNat 4000) (rt 1950) (rt 2100) =
      .ok (p1, r1) ∧
    p1.executeSwapFromX libm 9 (ofNat 4) (rt 2000) = .ok (p2, out) ∧
    p2.withdraw libm 7 (ofNat 10) (rt 1950) (rt 2100) = .ok (p3, r3) ∧ lt F64.zero r3.fees.fx = true := by
  obtain ⟨p, p1, p2, p3, r1, r3, out, h0, h1, h2, h3, _, h4⟩ := frame_case
  have hσ : Function.Injective third := fun a b h => by
    unfold third at h
    split_ifs at h <;> omega
  have k1 := (C152_deposit (m := libm) hσ p 3 (ofNat 2) (ofNat 4000) (rt 1950) (rt 2100)).trans (map_ok h1)
  have k2 := (C152_sellX (m := libm) p1 (namedTable third p1.positions) 9 (ofNat 4) (rt 2000)).trans (map_ok h2)
  have e : p2.ownedBy (namedTable third p1.positions) =
      p2.named third := by
    unfold Pool.ownedBy Pool.named
    rw [(swap_frame (.inl h2)).positions]
  have k3 := (C152_withdraw (m := libm) hσ p2 3 (ofNat 10) (rt 1950) (rt 2100)).trans (map_ok h3)
  rw [← e] at k3
  exact ⟨p, _, _, _, r1, r3, out, h0, k1, k2, k3, h4⟩

end Hmm.Flt.Pool
