import Verif.Proofs.FloatInside
import Verif.Props.FloatFees
import Verif.Proofs.FloatActive

/-
C112: what a position of the floating-point pool is paid.
-/

namespace Hmm.Flt.Pool

open F64 Sample

section
attribute [local irreducible] unit limit

/-- C112 in every history: a deposit to or a withdrawal from an existing position whose two ticks are initialised pays
its liquidity times the growth inside its range since the last record, up to `L * growth / 2^49 + 2^-1000`.  The
record itself lies between zero and twice the growth. -/
theorem C112_paid {m : LibM} {p p' : Pool} (hp : Reach m p) (hm : p.Moderate) {user lower upper : Nat} {rpa rpb : F64}
    {r : Receipt} (hl : lower = p.rpToPossibleTick m rpa false) (hu : upper = p.rpToPossibleTick m rpb false)
    (h : (∃ x y, p.deposit m user x y rpa rpb = .ok (p', r)) ∨ (∃ l, p.withdraw m user l rpa rpb = .ok (p', r)))
    {v : PositionState} (hv : mapGet ⟨user, lower, upper⟩ p.positions = some v) {L : ℚ} (hL : v.liq.Is L) (hL0 : 0 ≤ L)
    (hL1 : L ≤ 2 ^ 64) (tl : (mapGet lower p.ticks).isSome) (tu : (mapGet upper p.ticks).isSome) (k : Kind) :
    (∃ pay, (r.fees.at k).Is pay ∧ 0 ≤ pay ∧
      |pay - L * (p.growthInside k lower upper - (v.fees.at k).val)| ≤ L * p.growth k / 2 ^ 49 + 1 / 2 ^ 1000) ∧
    ∃ o, (v.fees.at k).Is o ∧ 0 ≤ o ∧ o ≤ 2 * p.growth k := by
  obtain ⟨hr, hg⟩ := hp.grown
  refine ⟨?_, (hg hm).position _ _ k hv⟩
  rcases h with ⟨x, y, h⟩ | ⟨l, h⟩
  · obtain ⟨_, _, _, _, liq, q, f, rfl, rfl, _, _, _, _, _, _, _, h1, _, hr'⟩ := deposit_ok h
    rw [hr']
    subst hl; subst hu
    exact paid_near hm hr (hg hm) h1 hv hL hL0 hL1 tl tu k
  · obtain ⟨_, _, _, _, q, f, rfl, rfl, _, _, _, h1, _, hr'⟩ := withdraw_ok h
    rw [hr']
    subst hl; subst hu
    exact paid_near hm hr (hg hm) h1 hv hL hL0 hL1 tl tu k

/-- C112 when all withdrawals were of whole liquidity: the ticks of every position are then initialised and its
liquidity is bounded. -/
theorem C112_whole {m : LibM} {p p' : Pool} (hp : WholeReach m p) (hm : p.Moderate) {user lower upper : Nat}
    {rpa rpb : F64} {r : Receipt} (hl : lower = p.rpToPossibleTick m rpa false)
    (hu : upper = p.rpToPossibleTick m rpb false)
    (h : (∃ x y, p.deposit m user x y rpa rpb = .ok (p', r)) ∨ (∃ l, p.withdraw m user l rpa rpb = .ok (p', r)))
    {v : PositionState} (hv : mapGet ⟨user, lower, upper⟩ p.positions = some v) {L : ℚ} (hL : v.liq.Is L) (hL0 : L ≠ 0)
    (k : Kind) :
    ∃ pay, (r.fees.at k).Is pay ∧ 0 ≤ pay ∧
      |pay - L * (p.growthInside k lower upper - (v.fees.at k).val)| ≤ L * p.growth k / 2 ^ 49 + 1 / 2 ^ 1000 := by
  have hi := hp.inv
  have hmem := mapGet_mem' hv
  obtain ⟨t1, t2⟩ := hi.initialised hmem (by rw [hL.val]; exact hL0)
  have h0 : 0 ≤ L := by rw [← hL.val]; exact hi.whole.val_nonneg hmem
  have h1 : L ≤ 2 ^ 64 := by
    have h2 : v.liq.val ≤ p.total := by
      unfold total
      rw [sumLiq_eq]
      have := le_mapSum (f := fun (_ : PositionKey) (v : PositionState) => (1 : ℚ) * v.liq.val) (m := p.positions)
        (fun k v hm => by rw [one_mul]; exact hi.whole.val_nonneg hm) hmem
      rw [one_mul] at this
      exact this
    have h3 := hi.bound
    rw [hL.val] at h2
    have : (2 : ℚ) ^ 52 ≤ 2 ^ 64 := by norm_num
    linarith
  unfold Pool.keys at t1 t2
  rw [← mapGet_isSome] at t1 t2
  exact (C112_paid hp.reach hm hl hu h hv hL h0 h1 t1 t2 k).1

/-- C112, records: growth is never negative, a tick records at most all of it, a position at most twice as much. -/
theorem C112_records {m : LibM} {p : Pool} (hp : Reach m p) (hm : p.Moderate) (k : Kind) :
    0 ≤ p.growth k ∧
    (∀ t ts, mapGet t p.ticks = some ts → ∃ l, (ts.fees.at k).Is l ∧ 0 ≤ l ∧ l ≤ p.growth k) ∧
    ∀ key v, mapGet key p.positions = some v → ∃ o, (v.fees.at k).Is o ∧ 0 ≤ o ∧ o ≤ 2 * p.growth k :=
  have hg := hp.grown.2 hm
  ⟨hg.growth k, fun t ts => hg.tick t ts k, fun key v => hg.position key v k⟩

end

/-- A case meeting the hypotheses, at the edge of the range: user 2 has liquidity 487 from the current tick 76012 up;
1 Y is sold within that tick; user 2 withdraws 100 and is paid fees of about 0.0015 Y, half of all. -/
theorem C112_case : ∃ (p p' : Pool) (r : Receipt) (v : PositionState), WholeReach libm p ∧ p.Moderate ∧ p.gs.tick = 76012 ∧
    p.rpToPossibleTick libm (rt 2000) false = 76012 ∧ p.rpToPossibleTick libm (rt 3000) false = 80067 ∧
    p.withdraw libm 2 (ofNat 100) (rt 2000) (rt 3000) = .ok (p', r) ∧
    mapGet ⟨2, 76012, 80067⟩ p.positions = some v ∧ v.liq.Is 487 ∧
    lt (lit 149 100000) r.fees.fy = true ∧ lt r.fees.fy (lit 151 100000) = true := by
  have h : (match Pool.new libm (rt 2000) 1 F64.zero (lit 3 1000) with
    | .error _ => false
    | .ok p0 => match p0.deposit libm 1 (ofNat 2) (ofNat 4000) (rt 1333) (rt 3000) with
      | .error _ => false
      | .ok (p1, _) => p1.boundedB && match p1.deposit libm 2 (ofNat 2) (ofNat 4000) (rt 2000) (rt 3000) with
        | .error _ => false
        | .ok (p2, _) => p2.boundedB && match p2.executeSwapFromY libm 9 (ofNat 1) (rt 2000) with
          | .error _ => false
          | .ok (p, _) => match p.withdraw libm 2 (ofNat 100) (rt 2000) (rt 3000) with
            | .error _ => false
            | .ok (_, r) => match mapGet ⟨2, 76012, 80067⟩ p.positions with
              | none => false
              | some v => decide (p.gs.tick = 76012) && decide (p.rpToPossibleTick libm (rt 2000) false = 76012) &&
                decide (p.rpToPossibleTick libm (rt 3000) false = 80067) && decide (v.liq = fin false (487 * unit)) &&
                lt (lit 149 100000) r.fees.fy && lt r.fees.fy (lit 151 100000) &&
                lt p.gs.fees.fx F64.one && lt p.gs.fees.fy F64.one && lt p.gs.fees.hx F64.one && lt p.gs.fees.hy F64.one &&
                le F64.zero p.gs.fees.fx && le F64.zero p.gs.fees.fy && le F64.zero p.gs.fees.hx && le F64.zero p.gs.fees.hy)
      = true := by decide +kernel
  split at h
  · cases h
  rename_i p0 h0
  split at h
  · cases h
  rename_i p1 r1 h1
  rw [Bool.and_eq_true] at h
  obtain ⟨b1, h⟩ := h
  split at h
  · cases h
  rename_i p2 r2 h2
  rw [Bool.and_eq_true] at h
  obtain ⟨b2, h⟩ := h
  split at h
  · cases h
  rename_i p3 r3 h3
  split at h
  · cases h
  rename_i p4 r4 h4
  split at h
  · cases h
  rename_i v hv
  simp only [Bool.and_eq_true, decide_eq_true_eq] at h
  obtain ⟨⟨⟨⟨⟨⟨⟨⟨⟨⟨⟨⟨⟨e1, e2⟩, e3⟩, e4⟩, e5⟩, e6⟩, l1⟩, l2⟩, l3⟩, l4⟩, g1⟩, g2⟩, g3⟩, g4⟩ := h
  have small : ∀ a : F64, lt a F64.one = true → le F64.zero a = true → a.Finite ∧ a.val ≤ 2 ^ 900 := by
    intro a ha hb
    cases a with
    | nan => cases ha
    | inf s => cases s <;> [cases ha; cases hb]
    | fin s n =>
      refine ⟨finite_fin s n, ?_⟩
      rw [(is_fin s n).val]
      exact le_trans ((lt_is (is_fin s n) one_is).1 ha).le (one_le_pow₀ (by norm_num))
  refine ⟨p3, p4, r4, v, .swapY (.deposit (.deposit (.new h0) h1 (bounded_of b1)) h2 (bounded_of b2)) h3, ?_, e1, e2, e3,
    h4, hv, ?_, e5, e6⟩
  · intro k
    cases k
    · exact small _ l1 g1
    · exact small _ l2 g2
    · exact small _ l3 g3
    · exact small _ l4 g4
  · rw [e4]
    have := whole_is 487
    exact_mod_cast this

end Hmm.Flt.Pool
