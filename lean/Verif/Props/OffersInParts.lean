import Verif.Proofs.OffersInParts
import Verif.Props.OrderLeave

/-
C147: a deposit made in parts gets no more and pays no more.
-/

namespace Hmm.Pool

open Decimal PoolMath Sample
open Hmm.OnChain.World (Super)

/-! ### C147: deposits in parts -/

theorem sum_units : ∀ {os : List (Offer × Receipt)} {f : Offer → Decimal}, (∀ d ∈ os, (f d.1).Amount 12) →
    (os.map fun d => (f d.1).toRat).sum = ((os.map fun d => (f d.1).value).sum : ℚ) / 10 ^ 12
  | [], _, _ => by simp
  | d :: os, f, h => by
    rw [List.map_cons, List.sum_cons, List.map_cons, List.sum_cons, sum_units fun d hd => h d (List.mem_cons_of_mem _ hd)]
    obtain ⟨v, e⟩ := (h d (List.mem_cons_self ..)).eq
    rw [e, units]
    push_cast
    ring

theorem le_units {m n : Nat} (h : (m : ℚ) / 10 ^ 12 ≤ (n : ℚ) / 10 ^ 12) : m ≤ n := by
  rw [div_le_div_iff_of_pos_right (by norm_num)] at h
  exact_mod_cast h

theorem units_le {m n : Nat} (h : m ≤ n) : (m : ℚ) / 10 ^ 12 ≤ (n : ℚ) / 10 ^ 12 := by
  have : (m : ℚ) ≤ n := by exact_mod_cast h
  exact div_le_div_of_nonneg_right this (by norm_num)

/-- C147: take an offer that is accepted, and offers for the same range that are accepted one after the other, by
whomever, and together offer no more X and no more Y.  Together they get no more liquidity and pay no more X and
no more Y into the reserves. -/
theorem C147_not_more {p p' q : Pool} (rp : Reachable p) {o : Offer} {r : Receipt}
    (h : p.deposit o.user o.x o.y o.rpa o.rpb = .ok (p', r)) {os : List (Offer × Receipt)} (g : Deposits p os q)
    {key : PositionKey} (hk : o.For p key) (hr : ∀ d ∈ os, Names p key d.1.rpa d.1.rpb)
    (hox : o.x.Amount 12) (hoy : o.y.Amount 12) (hos : ∀ d ∈ os, d.1.x.Amount 12 ∧ d.1.y.Amount 12)
    (hx : (os.map fun d => d.1.x.toRat).sum ≤ o.x.toRat) (hy : (os.map fun d => d.1.y.toRat).sum ≤ o.y.toRat) :
    q.totalLiq ≤ p'.totalLiq ∧ (os.map fun d => d.2.x.toRat).sum ≤ r.x.toRat ∧
      (os.map fun d => d.2.y.toRat).sum ≤ r.y.toRat ∧ q.x.toRat ≤ p'.x.toRat ∧ q.y.toRat ≤ p'.y.toRat := by
  obtain ⟨lower, upper, a, b, _, _, _, _, _, _, _, _, _, g1, g2, hlu, g3, g4, _⟩ := deposit_ok h
  rw [hk.2.1] at g1; cases g1
  rw [hk.2.2] at g2; cases g2
  obtain ⟨av, rfl⟩ := (tickToRp_pos g3).1.eq
  obtain ⟨bv, rfl⟩ := (tickToRp_pos g4).1.eq
  obtain ⟨rv, er⟩ := (Amount.of_scale (Owned.reachable rp).rp (by linarith [rp_ge_one rp])).eq
  obtain ⟨q1, q2, q3, q4, q5, _⟩ := deposit_quote (o := o) (key := key) rp h hk.2 hox hoy er g3 g4
  obtain ⟨ls, i1, i2, i3, i4, i5, i6⟩ := deposits_quote (key := key) g rp hr hos er g3 g4
  rw [sum_units (f := fun o => o.x) fun d hd => (hos d hd).1] at hx
  rw [sum_units (f := fun o => o.y) fun d hd => (hos d hd).2] at hy
  obtain ⟨xv, ex⟩ := hox.eq
  obtain ⟨yv, ey⟩ := hoy.eq
  rw [ex, ey] at q1 q2 q3
  rw [ex, units] at hx
  rw [ey, units] at hy
  have hx' := le_units hx
  have hy' := le_units hy
  simp only at q1 q2 q3
  have key1 := fun K => memLiq_mono K rv av bv hx' hy'
  have tot := i1.trans (key1 _)
  have sx := ((super_memX (10 ^ 12) rv av bv).sum ls).trans ((super_memX (10 ^ 12) rv av bv).mono tot)
  have sy := ((super_memY (10 ^ 12) rv av bv).sum ls).trans ((super_memY (10 ^ 12) rv av bv).mono tot)
  have tx : (os.map fun d => d.2.x.toRat).sum ≤ r.x.toRat := by
    rw [i2, q1, units]; exact units_le sx
  have ty : (os.map fun d => d.2.y.toRat).sum ≤ r.y.toRat := by
    rw [i3, q2, units]; exact units_le sy
  refine ⟨?_, tx, ty, by linarith, by linarith⟩
  rw [i4, q3, units]
  have := units_le tot
  linarith

/-! ### An example -/

/-- The first user offers as much of X and of Y for their range. -/
def both (n : Nat) : Offer := ⟨1, D n, D n, mid 10, mid 30⟩

theorem both_for : (both 2).For sold ⟨1, 10, 30⟩ := ⟨rfl, by decide +kernel, by decide +kernel⟩

/-- Two and three in place of five. -/
example : ∃ p' r p1 r1 p2 r2, Reachable sold ∧ take sold (both 5) = .ok (p', r) ∧ take sold (both 2) = .ok (p1, r1) ∧
    take p1 (both 3) = .ok (p2, r2) ∧ 0 < r1.x.value ∧ p2.totalLiq ≤ p'.totalLiq ∧
    r1.x.toRat + r2.x.toRat ≤ r.x.toRat ∧ r1.y.toRat + r2.y.toRat ≤ r.y.toRat := by
  have h := take_ok (p := sold) (o := both 5) (by decide +kernel)
  have h1 := take_ok (p := sold) (o := both 2) (by decide +kernel)
  have h2 := take_ok (p := (Hmm.Sample.get (take sold (both 2))).1) (o := both 3) (by decide +kernel)
  have am : ∀ n, (D n).Amount 12 := fun n => ⟨rfl, rfl⟩
  have k := C147_not_more sold_ok h (.cons h1 (.cons h2 .nil)) (key := ⟨1, 10, 30⟩) ⟨rfl, both_for.2⟩
    (fun d hd => by
      simp only [List.mem_cons, List.not_mem_nil, or_false] at hd
      rcases hd with rfl | rfl <;> exact both_for.2)
    (am 5) (am 5)
    (fun d hd => by
      simp only [List.mem_cons, List.not_mem_nil, or_false] at hd
      rcases hd with rfl | rfl <;> exact ⟨am _, am _⟩)
    (by simp [both, D, toRat]; norm_num) (by simp [both, D, toRat]; norm_num)
  simp only [List.map_cons, List.map_nil, List.sum_cons, List.sum_nil, add_zero] at k
  exact ⟨_, _, _, _, _, _, sold_ok, h, h1, h2, by decide +kernel, k.1, k.2.1, k.2.2.1⟩

/-- C147: the parts may get less: twice one pays two units less of X and a unit less of Y than two. -/
theorem C147_less : ∃ p' r p1 r1 p2 r2, Reachable sold ∧ sold.deposit 1 (D 2) (D 2) (mid 10) (mid 30) = .ok (p', r) ∧
    sold.deposit 1 (D 1) (D 1) (mid 10) (mid 30) = .ok (p1, r1) ∧
    p1.deposit 1 (D 1) (D 1) (mid 10) (mid 30) = .ok (p2, r2) ∧
    r1.x.value + r2.x.value + 2 = r.x.value ∧ r1.y.value + r2.y.value + 1 = r.y.value :=
  ⟨_, _, _, _, _, _, sold_ok, take_ok (o := both 2) (by decide +kernel), take_ok (o := both 1) (by decide +kernel),
    take_ok (o := both 1) (by decide +kernel), by decide +kernel, by decide +kernel⟩

/-- Whether a deposit panics. -/
def panics : R (Pool × Receipt) → Bool
  | .error .panic => true
  | _ => false

theorem panics_eq {x : R (Pool × Receipt)} (h : panics x = true) : x = .error .panic := by
  unfold panics at h
  split at h
  · rfl
  · cases h

theorem seven : sold.deposit 1 (D 7) (D 7) (mid 10) (mid 30) = .error .panic := panics_eq (by decide +kernel)

/-- C147: an offer may be refused as a whole and accepted in parts: the liquidity for seven X needs a unit of the last
decimal more than seven (see C28), that for three and for four does not. -/
theorem C147_refused : ∃ p1 r1 p2 r2, Reachable sold ∧
    sold.deposit 1 (D 7) (D 7) (mid 10) (mid 30) = .error .panic ∧
    sold.deposit 1 (D 3) (D 3) (mid 10) (mid 30) = .ok (p1, r1) ∧
    p1.deposit 1 (D 4) (D 4) (mid 10) (mid 30) = .ok (p2, r2) := by
  refine ⟨_, _, _, _, sold_ok, seven, take_ok (o := both 3) (by decide +kernel), take_ok (o := both 4) (by decide +kernel)⟩

end Hmm.Pool
