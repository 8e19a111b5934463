import Verif.Proofs.SwapSame
import Verif.Props.OrderLeave

/-
Pools with the same records go on alike.
-/

namespace Hmm.Pool

open Decimal PoolMath
open Sample hiding pool

/-! ### C149: the records are all that matters -/

theorem Does.step {p p' : Pool} {d : Deal} {b : Bill} (h : Does p d b p') : Step p p' := by
  cases h with
  | deposit h => exact .deposit h
  | withdraw h => exact .withdraw h
  | sellX h => exact .sellX h
  | sellY h => exact .sellY h

theorem SameRecords.symm {p q : Pool} (h : SameRecords p q) : SameRecords q p :=
  ⟨h.spacing.symm, h.gs.symm, fun t => (h.ticks t).symm, fun k => (h.positions k).symm, h.x.symm, h.y.symm, h.xAdj.symm,
    h.yAdj.symm, h.xFee.symm, h.yFee.symm, h.c.symm, h.feeRate.symm⟩

theorem SameRecords.does {p q p' : Pool} (rp : Reachable p) (rq : Reachable q) (h : SameRecords p q) {d : Deal} {b : Bill}
    (hd : Does p d b p') : ∃ q', Does q d b q' ∧ SameRecords p' q' := by
  cases hd with
  | deposit hd => obtain ⟨q', h1, h2⟩ := h.deposit rp rq hd; exact ⟨q', .deposit h1, h2⟩
  | withdraw hd => obtain ⟨q', h1, h2⟩ := h.withdraw rp rq hd; exact ⟨q', .withdraw h1, h2⟩
  | sellX hd => obtain ⟨q', h1, h2⟩ := h.sellX rp rq hd; exact ⟨q', .sellX h1, h2⟩
  | sellY hd => obtain ⟨q', h1, h2⟩ := h.sellY rp rq hd; exact ⟨q', .sellY h1, h2⟩

/-- C149: whatever is done with a pool can be done with any other pool that has the same records.  Everybody is told the
same, and the records are the same after. -/
theorem C149_alike {ds : List (Deal × Bill)} : ∀ {p q p' : Pool}, Reachable p → Reachable q → SameRecords p q →
    Deals p ds p' → ∃ q', Deals q ds q' ∧ SameRecords p' q' := by
  induction ds with
  | nil => intro p q p' _ _ h hd; cases hd; exact ⟨q, .nil, h⟩
  | cons e ds ih =>
    intro p q p' rp rq h hd
    cases hd with
    | cons h1 h2 =>
      obtain ⟨q1, k1, k2⟩ := h.does rp rq h1
      obtain ⟨q', k3, k4⟩ := ih (.step rp h1.step) (.step rq k1.step) k2 h2
      exact ⟨q', .cons k1 k3, k4⟩

/-- C149: what one of them refuses the other refuses. -/
theorem C149_refused {p q : Pool} (rp : Reachable p) (rq : Reachable q) (h : SameRecords p q) (d : Deal) :
    (∃ b p', Does p d b p') ↔ ∃ b q', Does q d b q' := by
  constructor
  · rintro ⟨b, p', hd⟩
    obtain ⟨q', k, _⟩ := h.does rp rq hd
    exact ⟨b, q', k⟩
  · rintro ⟨b, q', hd⟩
    obtain ⟨p', k, _⟩ := h.symm.does rq rp hd
    exact ⟨b, p', k⟩

theorem Withdrawals.reachable {p p' : Pool} {os : List (Request × Receipt)} (h : Withdrawals p os p') :
    Reachable p → Reachable p' := by
  induction h with
  | nil => exact id
  | cons h _ ih => exact fun hr => ih (.step hr (.withdraw h))

/-- C149: the order of deposits for different positions does not matter to anybody, ever after. -/
theorem C149_deposits {p p1 p2 : Pool} (hr : Reachable p) {os os' : List (Offer × Receipt)} (hperm : os.Perm os')
    (hap : os.Pairwise fun a b => Apart p a.1 b.1) (h : Deposits p os p1) {ds : List (Deal × Bill)} (hd : Deals p1 ds p2) :
    ∃ q1 q2, Deposits p os' q1 ∧ Deals q1 ds q2 ∧ SameRecords p2 q2 := by
  obtain ⟨q1, h1, h2⟩ := C136_any_order hr hperm hap h
  obtain ⟨q2, h3, h4⟩ := C149_alike (h.reachable hr) (h1.reachable hr) h2 hd
  exact ⟨q1, q2, h1, h3, h4⟩

/-- C149: neither does the order of withdrawals from different positions. -/
theorem C149_withdrawals {p p1 p2 : Pool} (hr : Reachable p) {os os' : List (Request × Receipt)} (hperm : os.Perm os')
    (hap : os.Pairwise fun a b => a.1.Apart p b.1) (hheld : ∀ a ∈ os, a.1.Held p) (h : Withdrawals p os p1)
    {ds : List (Deal × Bill)} (hd : Deals p1 ds p2) :
    ∃ q1 q2, Withdrawals p os' q1 ∧ Deals q1 ds q2 ∧ SameRecords p2 q2 := by
  obtain ⟨q1, h1, h2⟩ := C137_any_order hr hperm hap hheld h
  obtain ⟨q2, h3, h4⟩ := C149_alike (h.reachable hr) (h1.reachable hr) h2 hd
  exact ⟨q1, q2, h1, h3, h4⟩

/-! ### An example -/

/-- A fourth user opens a position. -/
def fourth : Offer := ⟨4, D 3, D 2, mid 11, mid 29⟩

/-- A sale of one Y, for the sample. -/
def buyBack (p : Pool) : R (Pool × SwapOutput) := p.executeSwapFromY fl (D 1) zero

theorem buyBack_ok {p : Pool} (h : (buyBack p).isOk = true) :
    p.executeSwapFromY fl (D 1) zero = .ok ((Hmm.Sample.get (buyBack p)).1, (Hmm.Sample.get (buyBack p)).2) := by
  show buyBack p = _
  cases hx : buyBack p with
  | ok a => rfl
  | error e => rw [hx] at h; cases h

theorem orders_same {p a b p1 q1 : Pool} (hr : Reachable p) {o o' : Offer} {r r' s s' : Receipt} (hap : Apart p o o')
    (h1 : p.deposit o.user o.x o.y o.rpa o.rpb = .ok (a, r)) (h2 : a.deposit o'.user o'.x o'.y o'.rpa o'.rpb = .ok (p1, r'))
    (g1 : p.deposit o'.user o'.x o'.y o'.rpa o'.rpb = .ok (b, s')) (g2 : b.deposit o.user o.x o.y o.rpa o.rpb = .ok (q1, s)) :
    SameRecords p1 q1 := by
  obtain ⟨b', q', k1, k2, k3⟩ := deposit_swap hr hap h1 h2
  rw [g1] at k1
  cases k1
  rw [g2] at k2
  cases k2
  exact k3

/-- Two deposits into new positions in two orders, after which the pools are different but have the same records, and
a sale after them. -/
example : ∃ a b p1 q1 r r' s s' p2 t, Reachable p1 ∧ Reachable q1 ∧
    Does sold (.deposit fresh) (.receipt r) a ∧ Does a (.deposit fourth) (.receipt r') p1 ∧
    Does sold (.deposit fourth) (.receipt s') b ∧ Does b (.deposit fresh) (.receipt s) q1 ∧ SameRecords p1 q1 ∧
    p1.positions ≠ q1.positions ∧ Deals p1 [(.sellY fl (D 1) zero, .output t)] p2 ∧ 0 < t.send.value := by
  have h1 := take_ok (p := sold) (o := fresh) (by decide +kernel)
  have h2 := take_ok (p := (Hmm.Sample.get (take sold fresh)).1) (o := fourth) (by decide +kernel)
  have g1 := take_ok (p := sold) (o := fourth) (by decide +kernel)
  have g2 := take_ok (p := (Hmm.Sample.get (take sold fourth)).1) (o := fresh) (by decide +kernel)
  exact ⟨_, _, _, _, _, _, _, _, _, _, .step (.step sold_ok (.deposit h1)) (.deposit h2),
    .step (.step sold_ok (.deposit g1)) (.deposit g2), .deposit h1, .deposit h2, .deposit g1, .deposit g2,
    orders_same sold_ok (apart_of (by decide)) h1 h2 g1 g2, by decide +kernel,
    .cons (.sellY (buyBack_ok (by decide +kernel))) .nil, by decide +kernel⟩

end Hmm.Pool
