import Verif.Proofs.Tidy

/-
When deposits are accepted.
-/

namespace Hmm.Pool

open Decimal PoolMath

theorem bind_returns {α β : Type} {x : R α} {f : α → R β} {a : α} (h : x = .ok a) (h' : ∃ b, f a = .ok b) :
    ∃ b, (x >>= f) = .ok b := by rw [h]; exact h'

theorem add_returns {a b : Decimal} (hs : a.scale = b.scale) (hv : a.value + b.value < u128Size) :
    ∃ c, a.add b = .ok c := by
  rw [add_cases, if_pos hs]
  split
  · exact ⟨_, by unfold checkedAdd u128; rw [if_pos hv]; rfl⟩
  · split
    · exact ⟨_, rfl⟩
    · split <;> exact ⟨_, rfl⟩

theorem add_nn_eq {a b s : Nat} (h : a + b < u128Size) :
    (Decimal.mk a s false).add ⟨b, s, false⟩ = .ok ⟨a + b, s, false⟩ := by
  rw [add_cases, if_pos rfl, if_pos rfl]
  unfold checkedAdd u128
  rw [if_pos h]; rfl

/-- The growth below and above a tick, when it is an amount. -/
theorem feeBelowAbove_returns {p : Pool} (ht : Tidy p) (hr : Recorded p) (k : Kind) (t : Nat) :
    ∃ b a : Nat, p.feeBelowAbove (fun f => f.at k) t = .ok (⟨b, 12, false⟩, ⟨a, 12, false⟩) ∧
      p.gs.fees.at k = ⟨b + a, 12, false⟩ ∧ b + a < u128Size ∧ (b : ℚ) / 10 ^ 12 = p.est k t := by
  obtain ⟨g, hg⟩ := (ht.growth k).1.eq
  have hgv := (ht.growth k).2
  rw [hg] at hgv
  unfold feeBelowAbove est Pool.below Pool.growth Pool.recorded
  simp only [hg]
  cases hm : mapGet t p.ticks with
  | none =>
    refine ⟨g, 0, rfl, rfl, hgv, ?_⟩
    rw [if_neg (mapGet_none.1 hm), toRat_mk]
  | some ts =>
    obtain ⟨f, hf⟩ := ((ht.tick t ts hm).1 k).eq
    have hle := (hr.tick t ts hm k).2
    unfold Pool.growth at hle
    rw [hf, hg, toRat_le_mk] at hle
    simp only [hf, Option.elim]
    rw [if_pos (mapGet_isSome.1 (by rw [hm]; rfl)), sub_nn_le 12 hle, unwrap_eq, bind_eq]
    by_cases hb : p.gs.tick ≥ t
    · rw [if_pos hb, if_pos hb]
      refine ⟨f, g - f, rfl, by rw [Nat.add_sub_cancel' hle], by simp only at hgv; omega, ?_⟩
      rw [toRat_mk]
    · rw [if_neg hb, if_neg (by omega)]
      refine ⟨g - f, f, rfl, by rw [Nat.sub_add_cancel hle], by simp only at hgv; omega, ?_⟩
      rw [toRat_mk, toRat_mk, Nat.cast_sub hle]
      ring

theorem feeRng_returns {p : Pool} (ht : Tidy p) (hr : Recorded p) (k : Kind) {lower upper : Nat}
    (h : p.est k lower ≤ p.est k upper) :
    ∃ e : Decimal, p.feeRng (fun f => f.at k) lower upper = .ok e ∧ e.Amount 12 := by
  obtain ⟨b1, a1, h1, g1, s1, e1⟩ := feeBelowAbove_returns ht hr k lower
  obtain ⟨b2, a2, h2, g2, s2, e2⟩ := feeBelowAbove_returns ht hr k upper
  rw [g1] at g2
  have hsum : b1 + a1 = b2 + a2 := by injection g2
  have hle : b1 ≤ b2 := by
    rw [← e1, ← e2, div_le_div_iff_of_pos_right (by norm_num)] at h
    exact_mod_cast h
  unfold feeRng
  rw [h1, bind_eq]
  simp only
  rw [h2, bind_eq]
  simp only
  rw [add_nn_eq s1, unwrap_eq, bind_eq, add_nn_eq s2, unwrap_eq, bind_eq, hsum, decide_eq_true rfl]
  refine ⟨⟨b2 + a2 - b1 - a2, 12, false⟩, ?_, amount_mk _ _⟩
  rw [show rassert true = .ok () from rfl, bind_eq, sub_nn_le 12 (by omega), unwrap_eq, bind_eq,
    sub_nn_le 12 (by omega), unwrap_eq, bind_eq]
  rfl

theorem amount_not_negative {s : Nat} {d : Decimal} (h : d.Amount s) : d.isNegative = false := by
  obtain ⟨v, rfl⟩ := h.eq
  unfold isNegative
  simp

theorem not_anyNegative {f : Fees} (h : ∀ k, (f.at k).Amount 12) : f.anyNegative = false := by
  unfold Fees.anyNegative
  have h1 := amount_not_negative (h .fx)
  have h2 := amount_not_negative (h .fy)
  have h3 := amount_not_negative (h .hx)
  have h4 := amount_not_negative (h .hy)
  simp only [Fees.at] at h1 h2 h3 h4
  rw [h1, h2, h3, h4]
  rfl

/-- A tick takes more liquidity as long as the sum fits. -/
theorem updateTick_returns {p : Pool} (ht : Tidy p) {t : Nat} {d : Decimal} {u : Bool} (hd : d.Amount 12)
    (hroom : (p.tickOrNew t).liqGross.value + d.value < u128Size)
    (hnet : (p.tickOrNew t).liqNet.value ≤ (p.tickOrNew t).liqGross.value) : ∃ p', p.updateTick t d u = .ok p' := by
  obtain ⟨k1, k2, k3⟩ := ht.tickOrNew t
  have hstart : ∃ q : Pool, (match mapGet t p.ticks with
      | none => p.initializeTick t
      | some _ => .ok p) = .ok q ∧ mapGet t q.ticks = some (p.tickOrNew t) := by
    cases hm : mapGet t p.ticks with
    | some ts => exact ⟨p, rfl, by unfold Pool.tickOrNew; rw [hm]; rfl⟩
    | none =>
      have hn := not_anyNegative k1
      refine ⟨{ p with ticks := treeInsert t (p.tickOrNew t) p.ticks }, initializeTick_ok.2 ?_, mapGet_treeInsert_same _ _ _⟩
      unfold Pool.tickOrNew at hn ⊢
      rw [hm] at hn ⊢
      exact ⟨hn, rfl⟩
  obtain ⟨q, h1, h2⟩ := hstart
  obtain ⟨dv, rfl⟩ := hd.eq
  obtain ⟨gv, hg⟩ := k2.eq
  rw [hg] at hroom hnet
  simp only at hroom hnet
  obtain ⟨n, hn⟩ : ∃ n, (p.tickOrNew t).liqNet.add (if u then (⟨dv, 12, false⟩ : Decimal).neg else ⟨dv, 12, false⟩) = .ok n := by
    refine add_returns ?_ ?_
    · rw [k3]; unfold Decimal.neg; (repeat' split) <;> rfl
    · have : (if u then (⟨dv, 12, false⟩ : Decimal).neg else ⟨dv, 12, false⟩).value = dv := by
        unfold Decimal.neg; (repeat' split) <;> rfl
      rw [this]; omega
  unfold updateTick
  refine bind_returns h1 ?_
  rw [h2]
  simp only
  unfold TickState.addLiqNet
  refine bind_returns (a := { p.tickOrNew t with liqNet := n }) (by rw [hn]; rfl) ?_
  unfold TickState.addLiqGross
  refine bind_returns (a := ⟨n, ⟨gv + dv, 12, false⟩, (p.tickOrNew t).fees⟩) ?_ ?_
  · simp only
    rw [hg, add_nn_eq hroom, unwrap_eq, bind_eq, if_neg (by rw [amount_not_negative (amount_mk _ _)]; simp)]
    rfl
  simp only
  split <;> exact ⟨_, rfl⟩

theorem setPosition_returns {p : Pool} (ht : Tidy p) (hr : Recorded p) {user lower upper : Nat}
    {d : Decimal} (hlu : lower < upper) (hd : d.Amount 12)
    (hnew : mapGet ⟨user, lower, upper⟩ p.positions = none)
    (hliq : p.gs.liq.value + d.value < u128Size)
    (hlo : (p.tickOrNew lower).liqGross.value + d.value < u128Size)
    (hup : (p.tickOrNew upper).liqGross.value + d.value < u128Size)
    (hnet : ∀ t, (p.tickOrNew t).liqNet.value ≤ (p.tickOrNew t).liqGross.value)
    (hest : ∀ k, p.est k lower ≤ p.est k upper) :
    ∃ p', p.setPosition user lower upper d = .ok (p', Fees.zero) := by
  obtain ⟨n1, h1, a1⟩ := feeRng_returns ht hr .fx (hest .fx)
  obtain ⟨n2, h2, a2⟩ := feeRng_returns ht hr .fy (hest .fy)
  obtain ⟨n3, h3, a3⟩ := feeRng_returns ht hr .hx (hest .hx)
  obtain ⟨n4, h4, a4⟩ := feeRng_returns ht hr .hy (hest .hy)
  obtain ⟨v1, rfl⟩ := a1.eq
  obtain ⟨v2, rfl⟩ := a2.eq
  obtain ⟨v3, rfl⟩ := a3.eq
  obtain ⟨v4, rfl⟩ := a4.eq
  have hz : ∀ v : Nat, (⟨v, 12, false⟩ : Decimal).sub PoolMath.zero = .ok ⟨v, 12, false⟩ := fun v =>
    sub_nn_le 12 (Nat.zero_le v)
  have hm : ∀ v : Nat, PoolMath.zero.mul ⟨v, 12, false⟩ = .ok PoolMath.zero := fun v =>
    mul_ok.2 ⟨by show 0 * v < _; rw [Nat.zero_mul]; decide, by show 10 ^ 12 < _; decide, by
      show (⟨0, 12, false⟩ : Decimal) = ⟨0 * v / _, 12, false⟩
      rw [Nat.zero_mul, Nat.zero_div]⟩
  have hnn : ∀ v : Nat, (!(⟨v, 12, false⟩ : Decimal).isNegative) = true := fun v => by
    rw [amount_not_negative (amount_mk _ _)]; rfl
  obtain ⟨ps', hps⟩ : ∃ ps', setPositionMap p.positions ⟨user, lower, upper⟩ d
      ⟨⟨v1, 12, false⟩, ⟨v2, 12, false⟩, ⟨v3, 12, false⟩, ⟨v4, 12, false⟩⟩ = .ok (ps', Fees.zero, PoolMath.zero) := by
    unfold setPositionMap PositionState.new
    rw [hnew]
    simp only
    have := amount_not_negative hd
    rw [if_neg (by rw [this]; simp), if_neg (by rw [this]; simp), if_neg (by decide)]
    exact ⟨_, rfl⟩
  have t0 : Tidy { p with positions := ps' } := ht.congr rfl rfl rfl rfl rfl rfl rfl rfl rfl
  obtain ⟨p1, hp1⟩ := updateTick_returns t0 (t := lower) (u := false) hd hlo (hnet lower)
  have t1 := t0.updateTick hp1
  have e1 := updateTick_frame hp1
  have et : p1.tickOrNew upper = p.tickOrNew upper := by
    have := (updateTick_get hp1).1 upper (by omega)
    unfold Pool.tickOrNew
    rw [this, e1]
  obtain ⟨p2, hp2⟩ := updateTick_returns t1 (t := upper) (u := true) hd (by rw [et]; exact hup) (by rw [et]; exact hnet upper)
  have e2 := updateTick_frame hp2
  have hl2 : p2.gs.liq = p.gs.liq := by rw [e2, e1]
  obtain ⟨p3, hp3⟩ : ∃ p3, (if p2.gs.tick ≥ lower ∧ p2.gs.tick < upper then p2.addGlblLiq d else .ok p2) = .ok p3 := by
    split
    · obtain ⟨dv, rfl⟩ := hd.eq
      obtain ⟨lv, hlv⟩ := ht.liq.eq
      rw [hlv] at hliq hl2
      exact ⟨_, addGlblLiq_ok.2 ⟨_, by rw [hl2]; exact add_nn_eq hliq, amount_not_negative (amount_mk _ _), rfl⟩⟩
    · exact ⟨_, rfl⟩
  refine ⟨p3, ?_⟩
  unfold setPosition
  simp only [Fees.at] at h1 h2 h3 h4
  rw [h1, bind_eq, h2, bind_eq, h3, bind_eq, h4, bind_eq, hps, bind_eq]
  simp only [Fees.zero]
  rw [hz, unwrap_eq, bind_eq, hz, unwrap_eq, bind_eq, hz, unwrap_eq, bind_eq, hz, unwrap_eq, bind_eq, hnn, hnn, hnn,
    hnn, show rassert true = .ok () from rfl, bind_eq, bind_eq, bind_eq, bind_eq, hp1, bind_eq, hp2, bind_eq, hp3,
    bind_eq, hm, bind_eq, hm, bind_eq, hm, bind_eq, hm, bind_eq]
  rfl

end Hmm.Pool
