import Verif.Proofs.OrderWithdrawals
import Verif.Props.Order

/-
C137: withdrawals from different positions can be made in any order.
-/

namespace Hmm.Pool

open Decimal PoolMath
open Hmm.Sample hiding get

theorem Request.Apart.symm {p : Pool} {o o' : Request} (h : o.Apart p o') : o'.Apart p o := fun k hk => h k hk.symm

theorem Request.Apart.congr {p q : Pool} {o o' : Request} (h : o.Apart p o') (e : q.spacing = p.spacing) :
    o.Apart q o' := fun k hk => h k ⟨Request.congr hk.1 e.symm, Request.congr hk.2 e.symm⟩

/-- A withdrawal leaves liquidity in other positions. -/
theorem Request.Held.keep {p p' : Pool} (hr : Reachable p) {o o' : Request} {r : Receipt} (h : o'.Held p)
    (hap : o.Apart p o') (hw : p.withdraw o.user o.liq o.rpa o.rpb = .ok (p', r)) : o'.Held p' := by
  obtain ⟨key, d, hf, m⟩ := withdraw_left hr hw
  intro k hk
  have hk' := Request.congr hk m.spacing.symm
  rw [m.others k fun e => hap key ⟨hf, e ▸ hk'⟩]
  exact h k hk'

theorem Withdrawals.same {p p' : Pool} {os : List (Request × Receipt)} (h : Withdrawals p os p') : ∀ {q : Pool},
    Reachable p → Reachable q → SameRecords p q → ∃ q', Withdrawals q os q' ∧ SameRecords p' q' := by
  induction h with
  | nil => intro q _ _ hs; exact ⟨q, .nil, hs⟩
  | cons h _ ih =>
    intro q rp rq hs
    obtain ⟨q1, h1, hs1⟩ := hs.withdraw rp rq h
    obtain ⟨q', h2, hs2⟩ := ih (.step rp (.withdraw h)) (.step rq (.withdraw h1)) hs1
    exact ⟨q', .cons h1 h2, hs2⟩

/-- C137: if withdrawals from different positions that hold liquidity are made one after the other, then they can also
be made in any other order.  Every one gets the same receipt, and the pool ends with the same records. -/
theorem C137_any_order {p p' : Pool} (hr : Reachable p) {os os' : List (Request × Receipt)} (hperm : os.Perm os')
    (hap : os.Pairwise fun a b => a.1.Apart p b.1) (hheld : ∀ a ∈ os, a.1.Held p) (h : Withdrawals p os p') :
    ∃ q', Withdrawals p os' q' ∧ SameRecords p' q' := by
  induction hperm generalizing p p' with
  | nil => exact ⟨p', h, .refl p'⟩
  | cons a _ ih =>
    cases h with
    | cons h1 h2 =>
      obtain ⟨_, _, _, m⟩ := withdraw_left hr h1
      obtain ⟨ha, hap⟩ := List.pairwise_cons.1 hap
      have hap' := hap.imp fun h => Request.Apart.congr h m.spacing
      obtain ⟨q', g1, g2⟩ := ih (.step hr (.withdraw h1)) hap'
        (fun b hb => (hheld b (List.mem_cons_of_mem _ hb)).keep hr (ha b hb) h1) h2
      exact ⟨q', .cons h1 g1, g2⟩
  | swap a b l =>
    cases h with
    | cons h1 h2 =>
      cases h2 with
      | cons h2 h3 =>
        obtain ⟨hb, _⟩ := List.pairwise_cons.1 hap
        obtain ⟨q1, q2, g1, g2, gs⟩ := withdraw_swap hr (hb _ (List.mem_cons_self ..))
          (hheld _ (List.mem_cons_self ..)) (hheld _ (List.mem_cons_of_mem _ (List.mem_cons_self ..))) h1 h2
        obtain ⟨q', g3, g4⟩ := h3.same (.step (.step hr (.withdraw h1)) (.withdraw h2))
          (.step (.step hr (.withdraw g1)) (.withdraw g2)) gs
        exact ⟨q', .cons g1 (.cons g2 g3), g4⟩
  | trans h12 _ ih1 ih2 =>
    obtain ⟨q1, g1, s1⟩ := ih1 hr hap hheld h
    obtain ⟨q2, g2, s2⟩ := ih2 hr ((h12.pairwise_iff fun h => Request.Apart.symm h).1 hap)
      (fun a ha => hheld a (h12.mem_iff.2 ha)) g1
    exact ⟨q2, g2, s1.trans s2⟩

/-- C137: no order of the same requests is refused when another is met. -/
theorem C137_refused {p : Pool} (hr : Reachable p) {o o' : Request} (hap : o.Apart p o') (ho : o.Held p)
    (ho' : o'.Held p) :
    (∃ q q' r r', p.withdraw o.user o.liq o.rpa o.rpb = .ok (q, r) ∧
      q.withdraw o'.user o'.liq o'.rpa o'.rpb = .ok (q', r')) ↔
    ∃ q q' r r', p.withdraw o'.user o'.liq o'.rpa o'.rpb = .ok (q, r') ∧
      q.withdraw o.user o.liq o.rpa o.rpb = .ok (q', r) := by
  constructor
  · rintro ⟨q, q', r, r', h1, h2⟩
    obtain ⟨q1, q2, g1, g2, _⟩ := withdraw_swap hr hap ho ho' h1 h2
    exact ⟨q1, q2, r, r', g1, g2⟩
  · rintro ⟨q, q', r, r', h1, h2⟩
    obtain ⟨q1, q2, g1, g2, _⟩ := withdraw_swap hr hap.symm ho' ho h1 h2
    exact ⟨q1, q2, r, r', g1, g2⟩

/-! ### An example -/

/-- A third user has joined a pool with fees to collect. -/
def joined : Pool := (Hmm.Sample.get (take sold fresh)).1

theorem joined_ok : Reachable joined := .step sold_ok (.deposit (take_ok (o := fresh) (by decide +kernel)))

/-- The first user withdraws some liquidity, the third all of theirs, the second some. -/
def some1 : Request := ⟨1, D 1, mid 10, mid 30⟩

/-- The liquidity of the third user. -/
def all3 : Decimal := (((mapGet ⟨3, 12, 30⟩ joined.positions).map (·.liq)).getD PoolMath.zero)

def whole3 : Request := ⟨3, all3, mid 12, mid 30⟩

def some2 : Request := ⟨2, D 2, mid 15, mid 25⟩

/-- The withdrawal requested, for the sample. -/
def meet (p : Pool) (o : Request) : R (Pool × Receipt) := p.withdraw o.user o.liq o.rpa o.rpb

theorem request_apart {p : Pool} {o o' : Request} (h : o.user ≠ o'.user) : o.Apart p o' :=
  fun _ hk => h (hk.1.1.symm.trans hk.2.1)

theorem meet_ok {p : Pool} {o : Request} (h : (meet p o).isOk = true) :
    p.withdraw o.user o.liq o.rpa o.rpb = .ok ((Hmm.Sample.get (meet p o)).1, (Hmm.Sample.get (meet p o)).2) := by
  show meet p o = _
  cases hx : meet p o with
  | ok a => rfl
  | error e => rw [hx] at h; cases h

theorem held_of {p : Pool} {o : Request} {k : PositionKey} {s : PositionState} (hk : o.For p k)
    (hm : mapGet k p.positions = some s) (h : 0 < s.liq.toRat) : o.Held p :=
  fun _ hk' => Request.unique hk hk' ▸ ⟨s, hm, h⟩

theorem held_key {p : Pool} {o : Request} (k : PositionKey) (hk : o.user = k.user ∧
    p.rpToPossibleTick o.rpa false 0 = .ok k.lower ∧ p.rpToPossibleTick o.rpb false k.lower = .ok k.upper)
    (hm : ((mapGet k p.positions).map fun s => (s.liq.value, s.liq.negative)).any
      (fun v => decide (0 < v.1) && !v.2) = true) : o.Held p := by
  cases h : mapGet k p.positions with
  | none => rw [h] at hm; cases hm
  | some s =>
    rw [h] at hm
    simp only [Option.map_some, Option.any_some, Bool.and_eq_true, decide_eq_true_eq, Bool.not_eq_true'] at hm
    refine held_of ⟨hk.1.symm, hk.2⟩ h ?_
    rw [toRat_of_nonneg hm.2]
    unfold mag
    have : (0 : ℚ) < s.liq.value := by exact_mod_cast hm.1
    positivity

/-- Three withdrawals of different users; one takes everything out, and one collects fees. -/
example : ∃ p' r1 r2 r3, Withdrawals joined [(some1, r1), (whole3, r2), (some2, r3)] p' ∧ 0 < r1.fees.fx.value ∧
    mapGet ⟨3, 12, 30⟩ p'.positions = none ∧ mapGet 12 p'.ticks = none ∧
    List.Pairwise (fun a b : Request × Receipt => a.1.Apart joined b.1) [(some1, r1), (whole3, r2), (some2, r3)] ∧
    ∀ a ∈ [(some1, r1), (whole3, r2), (some2, r3)], a.1.Held joined := by
  refine ⟨_, _, _, _, .cons (meet_ok (by decide +kernel)) (.cons (meet_ok (by decide +kernel))
    (.cons (meet_ok (by decide +kernel)) .nil)), by decide +kernel, by decide +kernel, by decide +kernel, ?_, ?_⟩
  · simp only [List.pairwise_cons, List.mem_cons, List.not_mem_nil, or_false, forall_eq_or_imp, forall_eq,
      List.Pairwise.nil, and_true, false_imp_iff, implies_true]
    exact ⟨⟨request_apart (by decide), request_apart (by decide)⟩, request_apart (by decide)⟩
  · simp only [List.mem_cons, List.not_mem_nil, or_false, forall_eq_or_imp, forall_eq]
    exact ⟨held_key ⟨1, 10, 30⟩ (by decide +kernel) (by decide +kernel),
      held_key ⟨3, 12, 30⟩ (by decide +kernel) (by decide +kernel),
      held_key ⟨2, 15, 25⟩ (by decide +kernel) (by decide +kernel)⟩

/-- From one and the same position the order does matter: whoever comes first collects the fees. -/
theorem C137_same_position : ∃ (o o' : Request) (p1 p2 q1 q2 : Pool) (r r' s s' : Receipt), Reachable sold ∧
    sold.withdraw o.user o.liq o.rpa o.rpb = .ok (p1, r) ∧ p1.withdraw o'.user o'.liq o'.rpa o'.rpb = .ok (p2, r') ∧
    sold.withdraw o'.user o'.liq o'.rpa o'.rpb = .ok (q1, s') ∧ q1.withdraw o.user o.liq o.rpa o.rpb = .ok (q2, s) ∧
    r.fees ≠ s.fees :=
  ⟨some1, { some1 with liq := D 2 }, _, _, _, _, _, _, _, _, sold_ok, meet_ok (by decide +kernel),
    meet_ok (by decide +kernel), meet_ok (by decide +kernel), meet_ok (by decide +kernel), by decide +kernel⟩

end Hmm.Pool
