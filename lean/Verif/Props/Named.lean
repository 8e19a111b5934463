import Verif.Proofs.Named
import Verif.Props.AsBefore

/-
Who somebody is does not matter.
-/

namespace Hmm.Pool

open Decimal PoolMath
open Sample hiding pool

variable {σ : Nat → Nat}

theorem img_of {α β : Type} {g : α → β} {x : R α} {a : α} (h : x = .ok a) : img g x = .ok (g a) := by rw [h]; rfl

theorem Does.named (hσ : Function.Injective σ) {p p' : Pool} (hr : Reachable p) {d : Deal} {b : Bill} (h : Does p d b p') :
    Does (p.named σ) (d.named σ) b (p'.named σ) := by
  cases h with
  | deposit h => exact .deposit ((named_deposit hσ p _ _ _ _ _).trans (img_of h))
  | withdraw h => exact .withdraw ((named_withdraw hσ p _ _ _ _).trans (img_of h))
  | sellX h => exact .sellX ((named_sellX (liqOk_of hr) _ _ _).trans (img_of h))
  | sellY h => exact .sellY ((named_sellY (liqOk_of hr) _ _ _).trans (img_of h))

theorem Does.unnamed (hσ : Function.Injective σ) {p q : Pool} (hr : Reachable p) {d : Deal} {b : Bill}
    (h : Does (p.named σ) (d.named σ) b q) : ∃ p', Does p d b p' ∧ q = p'.named σ := by
  cases d with
  | deposit o =>
    cases h with
    | deposit h =>
      obtain ⟨⟨p', r⟩, h1, h2⟩ := img_ok ((named_deposit hσ p o.user o.x o.y o.rpa o.rpb).symm.trans h)
      cases h2
      exact ⟨p', .deposit h1, rfl⟩
  | withdraw o =>
    cases h with
    | withdraw h =>
      obtain ⟨⟨p', r⟩, h1, h2⟩ := img_ok ((named_withdraw hσ p o.user o.liq o.rpa o.rpb).symm.trans h)
      cases h2
      exact ⟨p', .withdraw h1, rfl⟩
  | sellX fl dx o =>
    cases h with
    | sellX h =>
      obtain ⟨⟨p', r⟩, h1, h2⟩ := img_ok ((named_sellX (σ := σ) (liqOk_of hr) fl dx o).symm.trans h)
      cases h2
      exact ⟨p', .sellX h1, rfl⟩
  | sellY fl dy o =>
    cases h with
    | sellY h =>
      obtain ⟨⟨p', r⟩, h1, h2⟩ := img_ok ((named_sellY (σ := σ) (liqOk_of hr) fl dy o).symm.trans h)
      cases h2
      exact ⟨p', .sellY h1, rfl⟩

theorem Step.does {p p' : Pool} (h : Step p p') : ∃ d b, Does p d b p' := by
  cases h with
  | deposit h => exact ⟨.deposit ⟨_, _, _, _, _⟩, _, .deposit h⟩
  | withdraw h => exact ⟨.withdraw ⟨_, _, _, _⟩, _, .withdraw h⟩
  | sellX h => exact ⟨_, _, .sellX h⟩
  | sellY h => exact ⟨_, _, .sellY h⟩

theorem Reachable.named (hσ : Function.Injective σ) {p : Pool} (h : Reachable p) : Reachable (p.named σ) := by
  induction h with
  | @new rp spacing c fee p h =>
    have : p.named σ = p := by
      obtain ⟨tk, q, _, _, _, _, _, rfl⟩ := new_ok h
      rfl
    rw [this]
    exact .new h
  | step hr hs ih =>
    obtain ⟨d, b, hd⟩ := hs.does
    exact .step ih (hd.named hσ hr).step

/-! ### C151: who somebody is does not matter -/

/-- C151: whatever happens in a pool would happen in the same way, with the same bills, if everybody were called by
another name. -/
theorem C151_names (hσ : Function.Injective σ) {p p' : Pool} (hr : Reachable p) {ds : List (Deal × Bill)}
    (h : Deals p ds p') : Reachable (p.named σ) ∧ Deals (p.named σ) (ds.map fun e => (e.1.named σ, e.2)) (p'.named σ) := by
  refine ⟨hr.named hσ, ?_⟩
  induction h with
  | nil => exact .nil
  | cons h _ ih => exact .cons (h.named hσ hr) (ih (.step hr h.step))

/-- C151: and what is refused would be refused. -/
theorem C151_refused (hσ : Function.Injective σ) {p : Pool} (hr : Reachable p) (d : Deal) :
    (∃ b q, Does (p.named σ) (d.named σ) b q) ↔ ∃ b p', Does p d b p' := by
  constructor
  · rintro ⟨b, q, h⟩
    obtain ⟨p', h1, _⟩ := h.unnamed hσ hr
    exact ⟨b, p', h1⟩
  · rintro ⟨b, p', h⟩
    exact ⟨b, _, h.named hσ hr⟩

/-- The names of two users exchanged. -/
def exchanged (u v : Nat) (n : Nat) : Nat := if n = u then v else if n = v then u else n

theorem exchanged_twice (u v n : Nat) : exchanged u v (exchanged u v n) = n := by
  unfold exchanged
  split_ifs <;> omega

theorem exchanged_inj (u v : Nat) : Function.Injective (exchanged u v) := fun a b h => by
  have := congrArg (exchanged u v) h
  rwa [exchanged_twice, exchanged_twice] at this

theorem named_newcomers {p : Pool} {u v : Nat} (hu : Newcomer p u) (hv : Newcomer p v) : p.named (exchanged u v) = p := by
  unfold Pool.named
  have : (p.positions.map fun e => (e.1.named (exchanged u v), e.2)) = p.positions := by
    conv_rhs => rw [← List.map_id p.positions]
    refine List.map_congr_left fun e he => ?_
    obtain ⟨⟨w, l, r⟩, s⟩ := e
    have h1 := hu _ he
    have h2 := hv _ he
    simp only at h1 h2
    simp [PositionKey.named, exchanged, h1, h2]
  rw [this]

/-- C151: of two users who hold nothing yet either could take the place of the other, with the same bills for
everybody. -/
theorem C151_newcomers {p p' : Pool} (hr : Reachable p) {u v : Nat} (hu : Newcomer p u) (hv : Newcomer p v)
    {ds : List (Deal × Bill)} (h : Deals p ds p') :
    Deals p (ds.map fun e => (e.1.named (exchanged u v), e.2)) (p'.named (exchanged u v)) := by
  have := (C151_names (exchanged_inj u v) hr h).2
  rwa [named_newcomers hu hv] at this

theorem AlikeToTraders.canon {p q : Pool} (rp : Reachable p) (rq : Reachable q) (h : AlikeToTraders p q) : q.canon = p.canon := by
  have e : mapVals TickState.canon q.ticks = mapVals TickState.canon p.ticks := by
    refine ascending_ext ?_ ?_ fun t => ?_
    · unfold Ascending; rw [mapVals_keys]; exact (Booked.reachable rq).asc
    · unfold Ascending; rw [mapVals_keys]; exact (Booked.reachable rp).asc
    · rw [mapGet_vals, mapGet_vals]
      have := h.ticks t
      unfold atTick at this
      cases h1 : mapGet t q.ticks <;> cases h2 : mapGet t p.ticks <;> rw [h1, h2] at this <;>
        simp only [Option.map_some, Option.map_none, Option.some.injEq, Prod.mk.injEq, reduceCtorEq] at this
      · next a b =>
        obtain ⟨e1, e2, e3⟩ := this
        have s1 := ((Tidy.reachable rq).tick t _ h1).2.2
        have s2 := ((Tidy.reachable rp).tick t _ h2).2.2
        simp only [Option.map_some, Option.some.injEq, TickState.canon]
        rw [unsigned_ext (s1.trans s2.symm) e1, e2, e3]
  unfold Pool.canon
  rw [e, h.spacing, h.gs, h.x, h.y, h.xAdj, h.yAdj, h.xFee, h.yFee, h.c, h.feeRate]

theorem AlikeToTraders.of_canon {p q : Pool} (h : q.canon = p.canon) : AlikeToTraders p q := by
  have ht : mapVals TickState.canon q.ticks = mapVals TickState.canon p.ticks := congrArg Pool.ticks h
  have e : ∀ {β : Type} (f : Pool → β), f q.canon = f p.canon := fun f => congrArg f h
  refine ⟨e Pool.spacing, e Pool.gs, fun t => ?_, e Pool.x, e Pool.y, e Pool.xAdj, e Pool.yAdj, e Pool.xFee, e Pool.yFee,
    e Pool.c, e Pool.feeRate⟩
  have := mapGet_vals TickState.canon t q.ticks
  rw [ht, mapGet_vals] at this
  unfold atTick
  cases h1 : mapGet t q.ticks <;> cases h2 : mapGet t p.ticks <;> rw [h1, h2] at this <;>
    simp only [Option.map_some, Option.map_none, Option.some.injEq, reduceCtorEq, TickState.canon, TickState.mk.injEq] at this
  · next a b =>
    simp only [Option.map_some, Option.some.injEq, Prod.mk.injEq]
    refine ⟨?_, this.2.1.symm, this.2.2.symm⟩
    rw [← unsigned_toRat, ← this.1, unsigned_toRat]

theorem AlikeToTraders.does {p q p' : Pool} (rp : Reachable p) (rq : Reachable q) (h : AlikeToTraders p q) {d : Deal} {b : Bill}
    (hs : d.Sale) (hd : Does p d b p') : ∃ q', Does q d b q' ∧ AlikeToTraders p' q' := by
  cases hd with
  | deposit _ => exact hs.elim
  | withdraw _ => exact hs.elim
  | @sellX fl d o r _ hd =>
    have e1 := canon_sellX (liqOk_of rp) fl d o
    have e2 := canon_sellX (liqOk_of rq) fl d o
    rw [h.canon rp rq, e1, hd] at e2
    obtain ⟨⟨q', r'⟩, k1, k2⟩ := img_ok e2.symm
    simp only [Prod.mk.injEq] at k2
    obtain ⟨k2, rfl⟩ := k2
    exact ⟨q', .sellX k1, .of_canon k2⟩
  | @sellY fl d o r _ hd =>
    have e1 := canon_sellY (liqOk_of rp) fl d o
    have e2 := canon_sellY (liqOk_of rq) fl d o
    rw [h.canon rp rq, e1, hd] at e2
    obtain ⟨⟨q', r'⟩, k1, k2⟩ := img_ok e2.symm
    simp only [Prod.mk.injEq] at k2
    obtain ⟨k2, rfl⟩ := k2
    exact ⟨q', .sellY k1, .of_canon k2⟩

/-- C151: what traders get does not depend on who holds the positions, or on how many positions the liquidity is divided
into: two pools with the same liquidity at every tick make the same sales, and have the same records of it after. -/
theorem C151_owners {ds : List (Deal × Bill)} : ∀ {p q p' : Pool}, Reachable p → Reachable q → AlikeToTraders p q →
    (∀ d ∈ ds, d.1.Sale) → Deals p ds p' → ∃ q', Deals q ds q' ∧ AlikeToTraders p' q' := by
  induction ds with
  | nil => intro p q p' _ _ h _ hd; cases hd; exact ⟨q, .nil, h⟩
  | cons e ds ih =>
    intro p q p' rp rq h hs hd
    cases hd with
    | cons h1 h2 =>
      obtain ⟨q1, k1, k2⟩ := h.does rp rq (hs _ (List.mem_cons_self ..)) h1
      obtain ⟨q', k3, k4⟩ := ih (.step rp h1.step) (.step rq k1.step) k2 (fun d hd => hs d (List.mem_cons_of_mem _ hd)) h2
      exact ⟨q', .cons k1 k3, k4⟩

/-! ### Examples -/

theorem newcomer_of {p : Pool} {u : Nat} (h : (p.positions.all fun e => decide (e.1.user ≠ u)) = true) : Newcomer p u :=
  fun e he => of_decide_eq_true (List.all_eq_true.1 h e he)

/-- The third and the fourth user hold nothing yet.  The third deposits, somebody sells, the third withdraws everything:
it could as well have been the fourth, with fees collected in both cases. -/
example : ∃ p1 p2 p3 r t r', Reachable sold ∧ Newcomer sold 3 ∧ Newcomer sold 4 ∧
    Deals sold [(.deposit fresh, .receipt r), (.sellY fl (D 1) zero, .output t), (.withdraw whole3, .receipt r')] p3 ∧
    Does sold (.deposit fresh) (.receipt r) p1 ∧ Does p1 (.sellY fl (D 1) zero) (.output t) p2 ∧
    (Deal.withdraw whole3).named (exchanged 3 4) = .withdraw { whole3 with user := 4 } ∧ 0 < r'.fees.fy.value := by
  have h1 := take_ok (p := sold) (o := fresh) (by decide +kernel)
  have h2 := buyBack_ok (p := (Hmm.Sample.get (take sold fresh)).1) (by decide +kernel)
  have h3 := meet_ok (p := (Hmm.Sample.get (buyBack (Hmm.Sample.get (take sold fresh)).1)).1) (o := whole3) (by decide +kernel)
  exact ⟨_, _, _, _, _, _, sold_ok, newcomer_of (by decide +kernel), newcomer_of (by decide +kernel),
    .cons (.deposit h1) (.cons (.sellY h2) (.cons (.withdraw h3) .nil)), .deposit h1, .sellY h2, rfl, by decide +kernel⟩

/-- Half of what the third user will hold, and the same for a fourth. -/
def half3 : Offer := ⟨3, D 2, D 2, mid 12, mid 30⟩

def half4 : Offer := ⟨4, D 2, D 2, mid 12, mid 30⟩

theorem alike_of {p q : Pool} (h : ({ q with positions := [] } : Pool) = { p with positions := [] }) : AlikeToTraders p q := by
  cases p
  cases q
  simp only [Pool.mk.injEq] at h
  obtain ⟨h1, h2, h3, _, h5, h6, h7, h8, h9, h10, h11, h12⟩ := h
  exact ⟨h1, h2, fun t => by unfold atTick; simp only [h3], h5, h6, h7, h8, h9, h10, h11, h12⟩

/-- The same liquidity held in one position or in two. -/
example : ∃ a p1 q1 r r1 r2, Reachable p1 ∧ Reachable q1 ∧ Does Sample.pool (.deposit half3) (.receipt r) a ∧
    Does a (.deposit half3) (.receipt r1) p1 ∧ Does a (.deposit half4) (.receipt r2) q1 ∧ AlikeToTraders p1 q1 ∧
    p1.positions.length + 1 = q1.positions.length ∧ ∃ t p2, Does p1 (.sellY fl (D 1) zero) (.output t) p2 ∧ 0 < t.send.value := by
  have h0 := take_ok (p := Sample.pool) (o := half3) (by decide +kernel)
  have h1 := take_ok (p := (Hmm.Sample.get (take Sample.pool half3)).1) (o := half3) (by decide +kernel)
  have h2 := take_ok (p := (Hmm.Sample.get (take Sample.pool half3)).1) (o := half4) (by decide +kernel)
  have hr : Reachable (Hmm.Sample.get (take Sample.pool half3)).1 := .step (two_reachable pool_ok.1) (.deposit h0)
  exact ⟨_, _, _, _, _, _, .step hr (.deposit h1), .step hr (.deposit h2), .deposit h0, .deposit h1, .deposit h2,
    alike_of (by decide +kernel), by decide +kernel, _, _, .sellY (buyBack_ok (by decide +kernel)), by decide +kernel⟩

end Hmm.Pool
