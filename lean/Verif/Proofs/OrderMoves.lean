import Verif.Proofs.Order

/-
A deposit that goes through for one pool goes through for another with the same price and growth and enough room.
-/

namespace Hmm.Pool

open Decimal PoolMath

/-! ### Sums and differences -/

theorem value_of_nonneg {b : Decimal} (hs : b.scale = 12) (h : 0 ≤ b.toRat) : b.toRat = (b.value : ℚ) / 10 ^ 12 := by
  have := abs_toRat b
  rw [abs_of_nonneg h] at this
  rw [this]
  unfold mag
  rw [hs]

theorem add_fits {a b : Decimal} (ha : a.Amount 12) (hs : b.scale = 12) (hb : 0 ≤ b.toRat)
    (h : (a.toRat + b.toRat) * 10 ^ 12 < 2 ^ 128) : a.value + b.value < u128Size := by
  rw [value_of_nonneg ha.1 ha.nonneg, value_of_nonneg hs hb, ← add_div, div_mul_cancel₀ _ (by norm_num)] at h
  exact_mod_cast h

theorem add_goes {a b : Decimal} (ha : a.Amount 12) (hs : b.scale = 12) (hb : 0 ≤ b.toRat)
    (h : (a.toRat + b.toRat) * 10 ^ 12 < 2 ^ 128) : ∃ c, a.add b = .ok c :=
  add_returns (ha.1.trans hs.symm) (add_fits ha hs hb h)

theorem stored_rat {a : Decimal} (ha : a.Amount 12) (hv : a.value < u128Size) : a.toRat * 10 ^ 12 < 2 ^ 128 := by
  rw [value_of_nonneg ha.1 ha.nonneg, div_mul_cancel₀ _ (by norm_num)]
  exact_mod_cast hv

theorem take_goes {a b : Decimal} (ha : a.Amount 12) (hv : a.value < u128Size) (hs : b.scale = 12) (hb : 0 ≤ b.toRat)
    (h : b.toRat ≤ a.toRat) : a.lt b = .ok false ∧ ∃ c, a.sub b = .ok c := by
  cases hn : b.negative with
  | false => exact amount_lt ha ⟨hs, hn⟩ h
  | true =>
    obtain ⟨v, rfl⟩ := ha.eq
    have h0 : b.value = 0 := by
      rw [toRat_of_neg hn] at hb
      have hm := mag_nonneg b
      have : b.mag = 0 := by linarith
      unfold mag at this
      rw [div_eq_zero_iff] at this
      rcases this with this | this
      · exact_mod_cast this
      · exact absurd this (by positivity)
    obtain ⟨bv, bs, bn⟩ := b
    simp only at hs hn h0
    subst hs hn h0
    refine ⟨rfl, ⟨v + 0, 12, false⟩, ?_⟩
    unfold Decimal.sub
    exact add_nn_eq hv

/-! ### Ticks -/

theorem updateTick_goes {p : Pool} (ht : Tidy p) {t : Nat} {d : Decimal} {u : Bool} (hs : d.scale = 12)
    (hd : 0 ≤ d.toRat) (hroom : ((p.tickOrNew t).liqGross.toRat + d.toRat) * 10 ^ 12 < 2 ^ 128)
    (hnet : (p.tickOrNew t).liqNet.value ≤ (p.tickOrNew t).liqGross.value) : ∃ p', p.updateTick t d u = .ok p' := by
  obtain ⟨k1, k2, k3⟩ := ht.tickOrNew t
  have hstart : ∃ q : Pool, (match mapGet t p.ticks with
      | none => p.initializeTick t
      | some _ => .ok p) = .ok q ∧ mapGet t q.ticks = some (p.tickOrNew t) := by
    cases hm : mapGet t p.ticks with
    | some ts => exact ⟨p, rfl, by unfold Pool.tickOrNew; rw [hm]; rfl⟩
    | none =>
      have hn := not_anyNegative k1
      refine ⟨{ p with ticks := treeInsert t (p.tickOrNew t) p.ticks }, initializeTick_ok.2 ?_, mapGet_treeInsert_same _ _ _⟩
      unfold Pool.tickOrNew at hn ⊢
      rw [hm] at hn ⊢
      exact ⟨hn, rfl⟩
  obtain ⟨q, h1, h2⟩ := hstart
  have hfit := add_fits k2 hs hd hroom
  obtain ⟨g, hg⟩ := add_goes k2 hs hd hroom
  have hgn : g.isNegative = false := by
    rw [not_isNegative, add_toRat hg]
    exact add_nonneg k2.nonneg hd
  obtain ⟨n, hn⟩ : ∃ n, (p.tickOrNew t).liqNet.add (if u then d.neg else d) = .ok n := by
    refine add_returns ?_ ?_
    · rw [k3]; split
      · rw [neg_scale, hs]
      · rw [hs]
    · have : (if u then d.neg else d).value = d.value := by
        unfold Decimal.neg; (repeat' split) <;> rfl
      rw [this]; omega
  unfold updateTick
  refine bind_returns h1 ?_
  rw [h2]
  simp only
  unfold TickState.addLiqNet
  refine bind_returns (a := { p.tickOrNew t with liqNet := n }) (by rw [hn]; rfl) ?_
  unfold TickState.addLiqGross
  refine bind_returns (a := ⟨n, g, (p.tickOrNew t).fees⟩) ?_ ?_
  · simp only
    rw [hg, unwrap_eq, bind_eq, if_neg (by rw [hgn]; simp)]
    rfl
  simp only
  split <;> exact ⟨_, rfl⟩

/-! ### Positions -/

theorem setPositionMap_goes {ps qs ps' : List (PositionKey × PositionState)} {key : PositionKey} {d base : Decimal}
    {nf old : Fees} (e : mapGet key qs = mapGet key ps) (h : setPositionMap ps key d nf = .ok (ps', old, base)) :
    ∃ qs', setPositionMap qs key d nf = .ok (qs', old, base) ∧ mapGet key qs' = mapGet key ps' := by
  unfold setPositionMap at h ⊢
  rw [e]
  cases hg : mapGet key ps with
  | none =>
    rw [hg] at h
    simp only at h ⊢
    split at h
    · simp [rpanic] at h
    · rename_i h0
      rw [if_neg h0]
      rw [bind_ok] at h
      obtain ⟨s, h1, h⟩ := h
      simp only [pure_ok, Prod.mk.injEq] at h
      obtain ⟨rfl, rfl, rfl⟩ := h
      exact ⟨mapSet key s qs, bind_of h1 rfl, by rw [mapGet_set_same, mapGet_set_same]⟩
  | some poz =>
    rw [hg] at h
    simp only at h ⊢
    split at h
    · simp [rpanic] at h
    · rename_i h0
      rw [if_neg h0]
      rw [bind_ok] at h
      obtain ⟨n, h1, h⟩ := h
      rw [h1, bind_eq]
      split at h
      · simp [rpanic] at h
      · rename_i h2
        rw [if_neg h2]
        split at h
        · rename_i h3
          rw [if_pos h3]
          simp only [pure_ok, Prod.mk.injEq] at h
          obtain ⟨rfl, rfl, rfl⟩ := h
          exact ⟨_, rfl, by rw [mapGet_erase_same, mapGet_erase_same]⟩
        · rename_i h3
          rw [if_neg h3]
          rw [bind_ok] at h
          obtain ⟨s, h4, h⟩ := h
          simp only [pure_ok, Prod.mk.injEq] at h
          obtain ⟨rfl, rfl, rfl⟩ := h
          exact ⟨_, bind_of h4 rfl, by rw [mapGet_set_same, mapGet_set_same]⟩

/-- A change of position carries over to another pool with the same price and growth, the same record for that
position and enough room. -/
theorem setPosition_goes {p q p' : Pool} (tp : Tidy p) (tq : Tidy q) (kin : Kin p q) {user lower upper : Nat}
    {d : Decimal} {f : Fees} (hlu : lower < upper) (hd : 0 ≤ d.toRat)
    (e : mapGet ⟨user, lower, upper⟩ q.positions = mapGet ⟨user, lower, upper⟩ p.positions)
    (h : p.setPosition user lower upper d = .ok (p', f))
    (hliq : lower ≤ p.gs.tick ∧ p.gs.tick < upper → (q.gs.liq.toRat + d.toRat) * 10 ^ 12 < 2 ^ 128)
    (hlo : ((q.tickOrNew lower).liqGross.toRat + d.toRat) * 10 ^ 12 < 2 ^ 128)
    (hup : ((q.tickOrNew upper).liqGross.toRat + d.toRat) * 10 ^ 12 < 2 ^ 128)
    (hnet : ∀ t, (q.tickOrNew t).liqNet.value ≤ (q.tickOrNew t).liqGross.value) :
    ∃ q', q.setPosition user lower upper d = .ok (q', f) ∧
      mapGet ⟨user, lower, upper⟩ q'.positions = mapGet ⟨user, lower, upper⟩ p'.positions := by
  have hs := delta_scale tp h
  have hf := setPosition_frame h
  obtain ⟨nf, ps', old, base, fu, p1, p2, n1, n2, n3, n4, h0, s1, s2, s3, s4, hneg, h1, h2, h3, m1, m2, m3, m4⟩ :=
    setPosition_ok h
  have hpp : p'.positions = ps' := by
    have e1 := updateTick_frame h1
    have e2 := updateTick_frame h2
    rw [ite_ok] at h3
    rcases h3 with ⟨_, h3⟩ | ⟨_, h3⟩
    · obtain ⟨n, _, _, rfl⟩ := addGlblLiq_ok.1 h3
      rw [e2, e1]
    · cases h3
      rw [e2, e1]
  obtain ⟨qs', hqs, eqs⟩ := setPositionMap_goes e h0
  have t0 : Tidy { q with positions := qs' } := tq.congr rfl rfl rfl rfl rfl rfl rfl rfl rfl
  obtain ⟨q1, hq1⟩ := updateTick_goes t0 (t := lower) (u := false) hs hd hlo (hnet lower)
  have t1 := t0.updateTick hq1
  have e1 := updateTick_frame hq1
  have et : q1.tickOrNew upper = q.tickOrNew upper := by
    have := (updateTick_get hq1).1 upper (by omega)
    unfold Pool.tickOrNew
    rw [this, e1]
  obtain ⟨q2, hq2⟩ := updateTick_goes t1 (t := upper) (u := true) hs hd (by rw [et]; exact hup)
    (by rw [et]; exact hnet upper)
  have e2 := updateTick_frame hq2
  have eg : q2.gs = q.gs := by rw [e2, e1]
  obtain ⟨q3, hq3⟩ : ∃ q3, (if q2.gs.tick ≥ lower ∧ q2.gs.tick < upper then q2.addGlblLiq d else .ok q2) = .ok q3 := by
    split
    · rename_i hin
      rw [eg, kin.tick] at hin
      obtain ⟨n, hn⟩ := add_goes tq.liq hs hd (hliq hin)
      refine ⟨_, addGlblLiq_ok.2 ⟨n, by rw [eg]; exact hn, ?_, rfl⟩⟩
      rw [not_isNegative, add_toRat hn]
      exact add_nonneg tq.liq.nonneg hd
    · exact ⟨_, rfl⟩
  have eq3 : q3.positions = qs' := by
    rw [ite_ok] at hq3
    rcases hq3 with ⟨_, hq3⟩ | ⟨_, hq3⟩
    · obtain ⟨n, _, _, rfl⟩ := addGlblLiq_ok.1 hq3
      rw [e2, e1]
    · cases hq3
      rw [e2, e1]
  simp only [Fees.anyNegative, Bool.or_eq_false_iff] at hneg
  refine ⟨q3, ?_, by rw [eq3, eqs, hpp]⟩
  unfold setPosition
  refine bind_of ((feeRng_kin tp tq kin .fx lower upper).trans n1) ?_
  refine bind_of ((feeRng_kin tp tq kin .fy lower upper).trans n2) ?_
  refine bind_of ((feeRng_kin tp tq kin .hx lower upper).trans n3) ?_
  refine bind_of ((feeRng_kin tp tq kin .hy lower upper).trans n4) ?_
  refine bind_of hqs ?_
  simp only
  refine bind_of (unwrap_ok.2 s1) (bind_of (unwrap_ok.2 s2) (bind_of (unwrap_ok.2 s3) (bind_of (unwrap_ok.2 s4) ?_)))
  refine bind_of (rassert_ok (u := ()).2 (by rw [hneg.1.1.1]; rfl)) ?_
  refine bind_of (rassert_ok (u := ()).2 (by rw [hneg.1.1.2]; rfl)) ?_
  refine bind_of (rassert_ok (u := ()).2 (by rw [hneg.1.2]; rfl)) ?_
  refine bind_of (rassert_ok (u := ()).2 (by rw [hneg.2]; rfl)) ?_
  refine bind_of hq1 (bind_of hq2 (bind_of hq3 ?_))
  exact bind_of m1 (bind_of m2 (bind_of m3 (bind_of m4 rfl)))

/-! ### Pots -/

theorem payFees_goes {q : Pool} (tq : Tidy q) (sq : Stored q) {f : Fees} (hs : ∀ k, (f.at k).scale = 12)
    (h0 : ∀ k, 0 ≤ (f.at k).toRat) (h : ∀ k, (f.at k).toRat ≤ (q.pot k).toRat) : ∃ q', q.payFees f = .ok q' := by
  obtain ⟨a1, c1, d1⟩ := take_goes tq.xFee sq.xFee (hs .fx) (h0 .fx) (h .fx)
  obtain ⟨a2, c2, d2⟩ := take_goes tq.yFee sq.yFee (hs .fy) (h0 .fy) (h .fy)
  obtain ⟨a3, c3, d3⟩ := take_goes tq.xAdj sq.xAdj (hs .hx) (h0 .hx) (h .hx)
  obtain ⟨a4, c4, d4⟩ := take_goes tq.yAdj sq.yAdj (hs .hy) (h0 .hy) (h .hy)
  simp only [Fees.at] at a1 a2 a3 a4 d1 d2 d3 d4
  refine ⟨{ q with xFee := c1, yFee := c2, xAdj := c3, yAdj := c4 }, ?_⟩
  unfold payFees
  rw [a1, a2, a3, a4, d1, d2, d3, d4]
  rfl

theorem fees_nonneg {p p' : Pool} {user lower upper : Nat} {d : Decimal} {f : Fees}
    (h : p.setPosition user lower upper d = .ok (p', f)) (k : Kind) : 0 ≤ (f.at k).toRat := by
  obtain ⟨nf, ps', old, base, fu, p1, p2, n1, n2, n3, n4, h0, s1, s2, s3, s4, hneg, h1, h2, h3, m1, m2, m3, m4⟩ :=
    setPosition_ok h
  have hb : 0 ≤ base.toRat := by
    rcases setPositionMap_ok h0 with ⟨_, _, _, _, rfl⟩ | ⟨poz, n, _, hb, rfl, _⟩
    · rw [zero_toRat]
    · exact hb
  simp only [Fees.anyNegative, Bool.or_eq_false_iff, not_isNegative] at hneg
  cases k
  · exact (mul_down m1 (mul_nonneg hb hneg.1.1.1)).1
  · exact (mul_down m2 (mul_nonneg hb hneg.1.1.2)).1
  · exact (mul_down m3 (mul_nonneg hb hneg.1.2)).1
  · exact (mul_down m4 (mul_nonneg hb hneg.2)).1

end Hmm.Pool
