import Verif.Proofs.InParts
import Verif.Props.OrderLeave

/-
C146: a withdrawal can be made in parts.
-/

namespace Hmm.Pool

open Decimal PoolMath Sample

/-! ### C146: a withdrawal in parts -/

theorem withdraw_scale {p p' : Pool} (rp : Reachable p) {user : Nat} {liq rpa rpb : Decimal} {r : Receipt}
    (h : p.withdraw user liq rpa rpb = .ok (p', r)) : liq.scale = 12 := by
  obtain ⟨lower, upper, a, b, p1, p2, x0, y0, adj, px, py, _, _, _, _, _, _, h1, _⟩ := withdraw_ok h
  have := delta_scale (Tidy.reachable rp) h1
  rwa [neg_scale] at this

theorem two_of {liq m : Decimal} (hl : liq.scale = 12) (hm : m.scale = 12) (h0 : 0 < m.toRat)
    (h : m.toRat < liq.toRat) : ∃ a b, a ≠ 0 ∧ b ≠ 0 ∧ m = ⟨a, 12, false⟩ ∧ liq = ⟨a + b, 12, false⟩ := by
  obtain ⟨a, rfl⟩ := (Amount.of_scale hm h0).eq
  obtain ⟨c, rfl⟩ := (Amount.of_scale hl (h0.trans h)).eq
  rw [toRat_lt_mk] at h
  refine ⟨a, c - a, ?_, by omega, rfl, by rw [Nat.add_sub_cancel' h.le]⟩
  rintro rfl
  rw [toRat_mk] at h0
  simp at h0

/-- What is said of a withdrawal made in two parts: the fees come with the first, the second gets none; the two
together get no more, and hardly less, than the whole; and the records are the same after. -/
theorem C146_two {p p' : Pool} (rp : Reachable p) {user : Nat} {liq a b rpa rpb : Decimal} {r : Receipt}
    (h : p.withdraw user liq rpa rpb = .ok (p', r)) (ha : a.scale = 12) (hb : b.scale = 12) (ha0 : 0 < a.toRat)
    (hb0 : 0 < b.toRat) (hab : a.toRat + b.toRat = liq.toRat) :
    ∃ p1 r1 p2 r2, p.withdraw user a rpa rpb = .ok (p1, r1) ∧ p1.withdraw user b rpa rpb = .ok (p2, r2) ∧
      r1.fees = r.fees ∧ (∀ k, (r2.fees.at k).toRat = 0) ∧
      r1.x.toRat + r2.x.toRat ≤ r.x.toRat ∧ r.x.toRat ≤ r1.x.toRat + r2.x.toRat + 3 * ulp 12 ∧
      r1.y.toRat + r2.y.toRat ≤ r.y.toRat ∧ r.y.toRat ≤ r1.y.toRat + r2.y.toRat + 2 * ulp 12 ∧
      SameRecords p' { p2 with x := p'.x, y := p'.y } := by
  obtain ⟨l, l', h1, h2, rfl, rfl⟩ := two_of (withdraw_scale rp h) ha ha0 (by linarith)
  have : b = ⟨l', 12, false⟩ := (Amount.of_scale hb hb0).ext (amount_mk _ _) (by
    rw [toRat_mk, toRat_mk] at hab
    rw [toRat_mk]
    push_cast at hab
    linarith)
  subst this
  exact withdraw_two rp h1 h2 h

/-- C146: a withdrawal that goes through can be made in any number of parts instead.  Together they get the same fees
and adjustments (all with the first part) and no more X and Y: less by at most three units of the last decimal for
every further part, which stay in the reserves.  Everything else recorded is the same after. -/
theorem C146_in_parts {user : Nat} {rpa rpb : Decimal} : ∀ {ls : List Decimal} {p p' : Pool} {liq : Decimal} {r : Receipt},
    Reachable p → p.withdraw user liq rpa rpb = .ok (p', r) → (∀ m ∈ ls, m.scale = 12 ∧ 0 < m.toRat) → ls ≠ [] →
    (ls.map toRat).sum = liq.toRat →
    ∃ first rest q, Withdrawals p ((ls.map fun m => ⟨user, m, rpa, rpb⟩).zip (first :: rest)) q ∧
      (first :: rest).length = ls.length ∧ first.fees = r.fees ∧ (∀ s ∈ rest, ∀ k, (s.fees.at k).toRat = 0) ∧
      ((first :: rest).map fun s => s.x.toRat).sum ≤ r.x.toRat ∧
      r.x.toRat ≤ ((first :: rest).map fun s => s.x.toRat).sum + 3 * rest.length * ulp 12 ∧
      ((first :: rest).map fun s => s.y.toRat).sum ≤ r.y.toRat ∧
      r.y.toRat ≤ ((first :: rest).map fun s => s.y.toRat).sum + 2 * rest.length * ulp 12 ∧
      q.x.toRat = p.x.toRat - ((first :: rest).map fun s => s.x.toRat).sum ∧
      q.y.toRat = p.y.toRat - ((first :: rest).map fun s => s.y.toRat).sum ∧
      SameRecords p' { q with x := p'.x, y := p'.y } := by
  intro ls
  induction ls with
  | nil => intro p p' liq r _ _ _ h _; exact absurd rfl h
  | cons m ls ih =>
    intro p p' liq r rp h hls _ hsum
    obtain ⟨hm, hm0⟩ := hls m (by simp)
    simp only [List.map_cons, List.sum_cons] at hsum
    cases ls with
    | nil =>
      simp only [List.map_nil, List.sum_nil, add_zero] at hsum
      have : liq = m := (Amount.of_scale (withdraw_scale rp h) (hsum ▸ hm0)).ext (Amount.of_scale hm hm0) hsum.symm
      subst this
      obtain ⟨_, _, _, lf⟩ := withdraw_left rp (o := ⟨user, liq, rpa, rpb⟩) h
      refine ⟨r, [], p', .cons h .nil, rfl, rfl, by simp, by simp, by simp, by simp, by simp, by simpa using lf.x,
        by simpa using lf.y, ?_⟩
      exact .refl _
    | cons m' ls =>
      have hrest : 0 < ((m' :: ls).map toRat).sum := by
        obtain ⟨_, h0⟩ := hls m' (by simp)
        have : 0 ≤ (ls.map toRat).sum := List.sum_nonneg fun v hv => by
          obtain ⟨u, hu, rfl⟩ := List.mem_map.1 hv
          exact (hls u (by simp [hu])).2.le
        simp only [List.map_cons, List.sum_cons]
        linarith
      obtain ⟨l, l', h1, h2, rfl, rfl⟩ := two_of (withdraw_scale rp h) hm hm0 (by linarith)
      obtain ⟨p1, r1, p2, r2, w1, w2, k1, k2, k3, k4, k5, k6, k7⟩ := withdraw_two rp h1 h2 h
      have rp1 : Reachable p1 := .step rp (.withdraw w1)
      obtain ⟨first, rest, q, i1, i2, i3, i4, i5, i6, i7, i8, i9, i10, i11⟩ := ih rp1 w2
        (fun u hu => hls u (by simp only [List.mem_cons] at hu ⊢; exact .inr hu)) (by simp) (by
          rw [toRat_mk, toRat_mk] at hsum
          rw [toRat_mk]
          push_cast at hsum
          linarith)
      obtain ⟨_, _, _, lf⟩ := withdraw_left rp (o := ⟨user, ⟨l, 12, false⟩, rpa, rpb⟩) w1
      have lx := lf.x
      have ly := lf.y
      simp only [List.map_cons, List.sum_cons, List.length_cons] at *
      refine ⟨r1, first :: rest, q, .cons w1 i1, by simp [i2], k1, fun s hs k => ?_, ?_, ?_, ?_, ?_, ?_, ?_, ?_⟩
      · simp only [List.mem_cons] at hs
        rcases hs with rfl | hs
        · rw [i3]; exact k2 k
        · exact i4 s hs k
      · simp only [List.map_cons, List.sum_cons]; linarith
      · simp only [List.map_cons, List.sum_cons, List.length_cons]; push_cast; linarith
      · simp only [List.map_cons, List.sum_cons]; linarith
      · simp only [List.map_cons, List.sum_cons, List.length_cons]; push_cast; linarith
      · simp only [List.map_cons, List.sum_cons]; linarith
      · simp only [List.map_cons, List.sum_cons]; linarith
      · exact ⟨i11.spacing.trans k7.spacing, i11.gs.trans k7.gs, fun t => (i11.ticks t).trans (k7.ticks t),
          fun k => (i11.positions k).trans (k7.positions k), rfl, rfl, i11.xAdj.trans k7.xAdj, i11.yAdj.trans k7.yAdj,
          i11.xFee.trans k7.xFee, i11.yFee.trans k7.yFee, i11.c.trans k7.c, i11.feeRate.trans k7.feeRate⟩

/-! ### An example -/

/-- The whole position of the first user, and two parts of it. -/
def whole1 : Request := ⟨1, ⟨19986005718851637, 12, false⟩, mid 10, mid 30⟩

def firstPart : Request := ⟨1, ⟨5000000000000000, 12, false⟩, mid 10, mid 30⟩

def secondPart : Request := ⟨1, ⟨14986005718851637, 12, false⟩, mid 10, mid 30⟩

theorem sum_parts : firstPart.liq.toRat + secondPart.liq.toRat = whole1.liq.toRat := by
  norm_num [toRat, firstPart, secondPart, whole1]

/-- The whole position, with fees to collect, can be withdrawn in two parts. -/
example : ∃ p' r p1 r1 p2 r2, Reachable joined ∧ meet joined whole1 = .ok (p', r) ∧ 0 < r.fees.fx.value ∧
    mapGet ⟨1, 10, 30⟩ p'.positions = none ∧ meet joined firstPart = .ok (p1, r1) ∧ meet p1 secondPart = .ok (p2, r2) ∧
    r1.fees = r.fees ∧ mapGet ⟨1, 10, 30⟩ p2.positions = none := by
  have h := meet_ok (p := joined) (o := whole1) (by decide +kernel)
  have h0 : mapGet ⟨1, 10, 30⟩ (Hmm.Sample.get (meet joined whole1)).1.positions = none := by decide +kernel
  obtain ⟨p1, r1, p2, r2, w1, w2, k1, _, _, _, _, _, k2⟩ := C146_two joined_ok (a := firstPart.liq) (b := secondPart.liq) h
    rfl rfl (by norm_num [toRat, firstPart]) (by norm_num [toRat, secondPart]) sum_parts
  exact ⟨_, _, p1, r1, p2, r2, joined_ok, h, by decide +kernel, h0, w1, w2, k1, (k2.positions _).trans h0⟩

/-- C146: the parts may get less of both: here a unit of the last decimal each. -/
theorem C146_less : ∃ p' r p1 r1 p2 r2, Reachable joined ∧
    joined.withdraw 1 whole1.liq whole1.rpa whole1.rpb = .ok (p', r) ∧
    joined.withdraw 1 firstPart.liq whole1.rpa whole1.rpb = .ok (p1, r1) ∧
    p1.withdraw 1 secondPart.liq whole1.rpa whole1.rpb = .ok (p2, r2) ∧
    firstPart.liq.toRat + secondPart.liq.toRat = whole1.liq.toRat ∧
    r1.x.value + r2.x.value + 1 = r.x.value ∧ r1.y.value + r2.y.value + 1 = r.y.value :=
  ⟨_, _, _, _, _, _, joined_ok, meet_ok (o := whole1) (by decide +kernel), meet_ok (o := firstPart) (by decide +kernel),
    meet_ok (o := secondPart) (by decide +kernel), sum_parts, by decide +kernel, by decide +kernel⟩

end Hmm.Pool
