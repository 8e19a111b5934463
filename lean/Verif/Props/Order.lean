import Verif.Proofs.OrderDeposits

/-
C136: deposits for different positions can be made in any order.
-/

namespace Hmm.Pool

open Decimal PoolMath
open Hmm.Sample hiding get

theorem Apart.symm {p : Pool} {o o' : Offer} (h : Apart p o o') : Apart p o' o := fun k hk => h k hk.symm

theorem Apart.congr {p q : Pool} {o o' : Offer} (h : Apart p o o') (e : q.spacing = p.spacing) : Apart q o o' :=
  fun k hk => h k ⟨For.congr hk.1 e.symm, For.congr hk.2 e.symm⟩

theorem Deposits.reachable {p p' : Pool} {os : List (Offer × Receipt)} (h : Deposits p os p') (hr : Reachable p) :
    Reachable p' := by
  induction h with
  | nil => exact hr
  | cons h _ ih => exact ih (.step hr (.deposit h))

/-- Pools with the same records take the same lists of offers. -/
theorem Deposits.same {p p' : Pool} {os : List (Offer × Receipt)} (h : Deposits p os p') : ∀ {q : Pool}, Reachable p →
    Reachable q → SameRecords p q → ∃ q', Deposits q os q' ∧ SameRecords p' q' := by
  induction h with
  | nil => intro q _ _ hs; exact ⟨q, .nil, hs⟩
  | cons h _ ih =>
    intro q rp rq hs
    obtain ⟨q1, h1, hs1⟩ := hs.deposit rp rq h
    obtain ⟨q', h2, hs2⟩ := ih (.step rp (.deposit h)) (.step rq (.deposit h1)) hs1
    exact ⟨q', .cons h1 h2, hs2⟩

/-- C136: if offers for different positions are taken up one after the other, then they are also taken up in any
other order.  Every offer gets the same receipt, and the pool ends with the same records. -/
theorem C136_any_order {p p' : Pool} (hr : Reachable p) {os os' : List (Offer × Receipt)} (hperm : os.Perm os')
    (hap : os.Pairwise fun a b => Apart p a.1 b.1) (h : Deposits p os p') :
    ∃ q', Deposits p os' q' ∧ SameRecords p' q' := by
  induction hperm generalizing p p' with
  | nil => exact ⟨p', h, .refl p'⟩
  | cons a _ ih =>
    cases h with
    | cons h1 h2 =>
      obtain ⟨_, _, _, m⟩ := deposit_moved hr h1
      have hap' := (List.pairwise_cons.1 hap).2.imp fun h => Apart.congr h m.kin.spacing
      obtain ⟨q', g1, g2⟩ := ih (.step hr (.deposit h1)) hap' h2
      exact ⟨q', .cons h1 g1, g2⟩
  | swap a b l =>
    cases h with
    | cons h1 h2 =>
      cases h2 with
      | cons h2 h3 =>
        obtain ⟨hb, _⟩ := List.pairwise_cons.1 hap
        obtain ⟨q1, q2, g1, g2, gs⟩ := deposit_swap hr (hb _ (List.mem_cons_self ..)) h1 h2
        obtain ⟨q', g3, g4⟩ := h3.same (.step (.step hr (.deposit h1)) (.deposit h2))
          (.step (.step hr (.deposit g1)) (.deposit g2)) gs
        exact ⟨q', .cons g1 (.cons g2 g3), g4⟩
  | trans h12 _ ih1 ih2 =>
    obtain ⟨q1, g1, s1⟩ := ih1 hr hap h
    obtain ⟨q2, g2, s2⟩ := ih2 hr ((h12.pairwise_iff fun h => Apart.symm h).1 hap) g1
    exact ⟨q2, g2, s1.trans s2⟩

/-- C136: no order of the same offers is refused when another goes through. -/
theorem C136_refused {p : Pool} (hr : Reachable p) {o o' : Offer} (hap : Apart p o o') :
    (∃ q q' r r', p.deposit o.user o.x o.y o.rpa o.rpb = .ok (q, r) ∧
      q.deposit o'.user o'.x o'.y o'.rpa o'.rpb = .ok (q', r')) ↔
    ∃ q q' r r', p.deposit o'.user o'.x o'.y o'.rpa o'.rpb = .ok (q, r') ∧
      q.deposit o.user o.x o.y o.rpa o.rpb = .ok (q', r) := by
  constructor
  · rintro ⟨q, q', r, r', h1, h2⟩
    obtain ⟨q1, q2, g1, g2, _⟩ := deposit_swap hr hap h1 h2
    exact ⟨q1, q2, r, r', g1, g2⟩
  · rintro ⟨q, q', r, r', h1, h2⟩
    obtain ⟨q1, q2, g1, g2, _⟩ := deposit_swap hr hap.symm h1 h2
    exact ⟨q1, q2, r, r', g1, g2⟩

/-! ### An example -/

/-- The first user adds to their position in a pool with fees to collect. -/
def more : Offer := ⟨1, D 5, D 5, mid 10, mid 30⟩

/-- A third user opens a position that ends at the same tick and begins at an unused one. -/
def fresh : Offer := ⟨3, D 4, D 4, mid 12, mid 30⟩

/-- The second user adds to theirs. -/
def again : Offer := ⟨2, D 2, D 3, mid 15, mid 25⟩

/-- The deposit of an offer, for the sample. -/
def take (p : Pool) (o : Offer) : R (Pool × Receipt) := p.deposit o.user o.x o.y o.rpa o.rpb

theorem apart_of {p : Pool} {o o' : Offer} (h : o.user ≠ o'.user) : Apart p o o' :=
  fun _ hk => h (hk.1.1.symm.trans hk.2.1)

theorem take_ok {p : Pool} {o : Offer} (h : (take p o).isOk = true) :
    p.deposit o.user o.x o.y o.rpa o.rpb = .ok ((Hmm.Sample.get (take p o)).1, (Hmm.Sample.get (take p o)).2) := by
  show take p o = _
  cases hx : take p o with
  | ok a => rfl
  | error e => rw [hx] at h; cases h

/-- Three deposits of different users; the first collects fees. -/
example : ∃ p' r1 r2 r3, Deposits sold [(more, r1), (fresh, r2), (again, r3)] p' ∧ 0 < r1.fees.fx.value ∧
    List.Pairwise (fun a b : Offer × Receipt => Apart sold a.1 b.1) [(more, r1), (fresh, r2), (again, r3)] := by
  refine ⟨_, _, _, _, .cons (take_ok (by decide +kernel)) (.cons (take_ok (by decide +kernel))
    (.cons (take_ok (by decide +kernel)) .nil)), by decide +kernel, ?_⟩
  simp only [List.pairwise_cons, List.mem_cons, List.not_mem_nil, or_false, forall_eq_or_imp, forall_eq,
    List.Pairwise.nil, and_true, false_imp_iff, implies_true]
  exact ⟨⟨apart_of (by decide), apart_of (by decide)⟩, apart_of (by decide)⟩

/-- For one and the same position the order does matter: whoever comes first collects the fees. -/
theorem C136_same_position : ∃ (o o' : Offer) (p1 p2 q1 q2 : Pool) (r r' s s' : Receipt), Reachable sold ∧
    sold.deposit o.user o.x o.y o.rpa o.rpb = .ok (p1, r) ∧ p1.deposit o'.user o'.x o'.y o'.rpa o'.rpb = .ok (p2, r') ∧
    sold.deposit o'.user o'.x o'.y o'.rpa o'.rpb = .ok (q1, s') ∧ q1.deposit o.user o.x o.y o.rpa o.rpb = .ok (q2, s) ∧
    r.fees ≠ s.fees :=
  ⟨more, { more with x := D 1, y := D 1 }, _, _, _, _, _, _, _, _, sold_ok, take_ok (by decide +kernel),
    take_ok (by decide +kernel), take_ok (by decide +kernel), take_ok (by decide +kernel), by decide +kernel⟩

end Hmm.Pool
