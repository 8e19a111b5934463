import Verif.Props.Active

/-
C76: what deposits and withdrawals leave alone.
-/

namespace Hmm.Pool

open Decimal PoolMath
open Hmm.Sample hiding get

/-- Two pools with the same market: price, tick, growth records and parameters, and the same tick records
except for the liquidity of two ticks. -/
structure SameBut (lower upper : Nat) (p p' : Pool) : Prop where
  rp : p'.gs.rp = p.gs.rp
  tick : p'.gs.tick = p.gs.tick
  growth : p'.gs.fees = p.gs.fees
  spacing : p'.spacing = p.spacing
  c : p'.c = p.c
  feeRate : p'.feeRate = p.feeRate
  other : ∀ t, t ≠ lower → t ≠ upper → mapGet t p'.ticks = mapGet t p.ticks
  record : ∀ t s s', mapGet t p.ticks = some s → mapGet t p'.ticks = some s' → s'.fees = s.fees

theorem updateTick_kept {p p' : Pool} {t : Nat} {d : Decimal} {upper : Bool} (h : p.updateTick t d upper = .ok p') :
    (∀ j, j ≠ t → mapGet j p'.ticks = mapGet j p.ticks) ∧
      ∀ j s s', mapGet j p.ticks = some s → mapGet j p'.ticks = some s' → s'.fees = s.fees := by
  obtain ⟨net, gross, _, _, _, _, rfl⟩ := updateTick_ok h
  have h1 : ∀ j, j ≠ t → mapGet j (if gross.isZero then mapErase t (p.ticksWith t)
      else mapSet t ⟨net, gross, (p.tickOrNew t).fees⟩ (p.ticksWith t)) = mapGet j p.ticks := by
    intro j hj
    split
    · rw [mapGet_erase_other hj, ticksWith_other hj]
    · rw [mapGet_set_other hj, ticksWith_other hj]
  refine ⟨h1, fun j s s' hs hs' => ?_⟩
  by_cases hj : j = t
  · subst hj
    simp only at hs'
    split at hs'
    · rw [mapGet_erase_same] at hs'; cases hs'
    · rw [mapGet_set_same] at hs'; cases hs'
      simp [tickOrNew, hs]
  · have := h1 j hj
    rw [this, hs] at hs'; cases hs'; rfl

theorem SameBut.setPosition {p p' : Pool} {user lower upper : Nat} {d : Decimal} {f : Fees} (hlu : lower ≠ upper)
    (h : p.setPosition user lower upper d = .ok (p', f)) : SameBut lower upper p p' := by
  have hf := setPosition_frame h
  obtain ⟨nf, ps', old, base, fu, p1, p2, _, _, _, _, _, _, _, _, _, _, h1, h2, h3, _⟩ := setPosition_ok h
  obtain ⟨a1, a2⟩ := updateTick_kept h1
  obtain ⟨b1, b2⟩ := updateTick_kept h2
  have ht : p'.ticks = p2.ticks := by
    rw [ite_ok] at h3
    rcases h3 with ⟨_, h3⟩ | ⟨_, h3⟩
    · obtain ⟨n, _, _, rfl⟩ := addGlblLiq_ok.1 h3; rfl
    · cases h3; rfl
  refine ⟨by rw [hf], by rw [hf], by rw [hf], by rw [hf], by rw [hf], by rw [hf], fun t h1 h2 => ?_, fun t s s' hs hs' => ?_⟩
  · rw [ht, b1 t h2, a1 t h1]
  · rw [ht] at hs'
    by_cases htu : t = upper
    · have : mapGet t p1.ticks = some s := by rw [a1 t (by rw [htu]; exact hlu.symm)]; exact hs
      exact b2 t s s' this hs'
    · rw [b1 t htu] at hs'
      exact a2 t s s' hs hs'

/-- C76 for deposits. -/
theorem C76_deposit {p p' : Pool} {user : Nat} {x y rpa rpb : Decimal} {r : Receipt}
    (h : p.deposit user x y rpa rpb = .ok (p', r)) :
    ∃ lower upper, p.rpToPossibleTick rpa false 0 = .ok lower ∧ p.rpToPossibleTick rpb false lower = .ok upper ∧
      SameBut lower upper p p' ∧
      p'.xFee.toRat = p.xFee.toRat - r.fees.fx.toRat ∧ p'.yFee.toRat = p.yFee.toRat - r.fees.fy.toRat ∧
      p'.xAdj.toRat = p.xAdj.toRat - r.fees.hx.toRat ∧ p'.yAdj.toRat = p.yAdj.toRat - r.fees.hy.toRat := by
  obtain ⟨lower, upper, a, b, liq, p1, p2, px, py, _, _, _, _, g1, g2, g3, _, _, _, _, _, _, _, _, h1, _, _, h2, h3,
    h4, rfl⟩ := deposit_ok h
  have k := SameBut.setPosition (by omega) h1
  have hf := setPosition_frame h1
  obtain ⟨xf, xa, yf, ya, _, _, _, _, e1, e2, e3, e4, rfl⟩ := payFees_ok h4
  have d1 := sub_toRat e1
  have d2 := sub_toRat e2
  have d3 := sub_toRat e3
  have d4 := sub_toRat e4
  rw [hf] at d1 d2 d3 d4
  exact ⟨lower, upper, g1, g2, ⟨k.rp, k.tick, k.growth, k.spacing, k.c, k.feeRate, k.other, k.record⟩, d1, d3, d2, d4⟩

/-- C76 for withdrawals. -/
theorem C76_withdraw {p p' : Pool} {user : Nat} {liq rpa rpb : Decimal} {r : Receipt}
    (h : p.withdraw user liq rpa rpb = .ok (p', r)) :
    ∃ lower upper, p.rpToPossibleTick rpa false 0 = .ok lower ∧ p.rpToPossibleTick rpb false lower = .ok upper ∧
      SameBut lower upper p p' ∧
      p'.xFee.toRat = p.xFee.toRat - r.fees.fx.toRat ∧ p'.yFee.toRat = p.yFee.toRat - r.fees.fy.toRat ∧
      p'.xAdj.toRat = p.xAdj.toRat - r.fees.hx.toRat ∧ p'.yAdj.toRat = p.yAdj.toRat - r.fees.hy.toRat := by
  obtain ⟨lower, upper, a, b, p1, p2, x0, y0, adj, px, py, _, g1, g2, g3, _, _, h1, _, _, _, _, _, _, _, _, _, _, _,
    h4, rfl⟩ := withdraw_ok h
  have k := SameBut.setPosition (by omega) h1
  have hf := setPosition_frame h1
  obtain ⟨xf, xa, yf, ya, _, _, _, _, e1, e2, e3, e4, rfl⟩ := payFees_ok h4
  have d1 := sub_toRat e1
  have d2 := sub_toRat e2
  have d3 := sub_toRat e3
  have d4 := sub_toRat e4
  rw [hf] at d1 d2 d3 d4
  exact ⟨lower, upper, g1, g2, ⟨k.rp, k.tick, k.growth, k.spacing, k.c, k.feeRate, k.other, k.record⟩, d1, d3, d2, d4⟩

/-- A deposit that starts a new tick and uses an old one, and a withdrawal. -/
example : (∃ p' r, pool.deposit 3 (D 1) (D 1) (mid 15) (mid 28) = .ok (p', r) ∧
      p'.ticks.map (·.1) = [10, 15, 25, 28, 30]) ∧
    ∃ p' r, pool.withdraw 2 (D 1000) (mid 15) (mid 25) = .ok (p', r) ∧ p'.gs.liq.value < pool.gs.liq.value :=
  ⟨⟨(Sample.get (pool.deposit 3 (D 1) (D 1) (mid 15) (mid 28))).1,
      (Sample.get (pool.deposit 3 (D 1) (D 1) (mid 15) (mid 28))).2, by decide +kernel, by decide +kernel⟩,
    (Sample.get (pool.withdraw 2 (D 1000) (mid 15) (mid 25))).1,
    (Sample.get (pool.withdraw 2 (D 1000) (mid 15) (mid 25))).2, by decide +kernel, by decide +kernel⟩

end Hmm.Pool
