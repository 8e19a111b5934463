import Verif.Spec.Leave
import Verif.Props.Availability
import Verif.Props.Earned
import Verif.Props.Shares

/-
When withdrawals go through.
-/

namespace Hmm.Pool

open Decimal PoolMath

/-! ### The scale of the price -/

theorem tryLeft_scale : ∀ {tks : List Nat} {p p' : Pool} {goal : Option Nat} {rp : Decimal},
    tryInRangeLeft tks p = .ok (p', goal, rp) → p.gs.rp.scale = 12 → p'.gs.rp.scale = 12 := by
  intro tks
  induction tks with
  | nil =>
    intro p p' goal rp h h1
    simp only [tryInRangeLeft, ok_inj, Prod.mk.injEq] at h
    obtain ⟨rfl, rfl, rfl⟩ := h
    exact h1
  | cons tk tks ih =>
    intro p p' goal rp h h1
    unfold tryInRangeLeft at h
    rw [ite_ok] at h
    rcases h with ⟨_, h⟩ | ⟨htk, h⟩
    · exact ih h h1
    rw [bind_ok] at h; obtain ⟨rp1, hrp, h⟩ := h
    rw [bind_ok] at h; obtain ⟨p1, h2, h⟩ := h
    rw [bind_ok] at h; obtain ⟨g1, h3, h⟩ := h
    rw [ite_ok] at h; rcases h with ⟨_, h⟩ | ⟨_, h⟩; · simp [rpanic] at h
    have hp1 : p1.gs.rp.scale = 12 := by
      rw [(crossTick_frame h2).2.2.2.2.2.2.2.2.2.2.2.1]
      exact (tickToRp_pos hrp).1.1
    rw [ite_ok] at h
    rcases h with ⟨_, h⟩ | ⟨_, h⟩
    · simp only [pure_ok, Prod.mk.injEq] at h
      obtain ⟨rfl, rfl, rfl⟩ := h
      exact hp1
    · exact ih h hp1

theorem tryRight_scale : ∀ {tks : List Nat} {p p' : Pool} {goal : Option Nat} {rp : Decimal},
    tryInRangeRight tks p = .ok (p', goal, rp) → p.gs.rp.scale = 12 → p'.gs.rp.scale = 12 := by
  intro tks
  induction tks with
  | nil =>
    intro p p' goal rp h h1
    simp only [tryInRangeRight, ok_inj, Prod.mk.injEq] at h
    obtain ⟨rfl, rfl, rfl⟩ := h
    exact h1
  | cons tk tks ih =>
    intro p p' goal rp h h1
    unfold tryInRangeRight at h
    rw [ite_ok] at h
    rcases h with ⟨_, h⟩ | ⟨htk, h⟩
    · exact ih h h1
    rw [bind_ok] at h; obtain ⟨rp1, hrp, h⟩ := h
    rw [bind_ok] at h; obtain ⟨p1, h2, h⟩ := h
    rw [bind_ok] at h; obtain ⟨g1, h3, h⟩ := h
    rw [ite_ok] at h; rcases h with ⟨_, h⟩ | ⟨_, h⟩; · simp [rpanic] at h
    have hp1 : p1.gs.rp.scale = 12 := by
      rw [(crossTick_frame h2).2.2.2.2.2.2.2.2.2.2.2.1]
      exact (tickToRp_pos hrp).1.1
    rw [ite_ok] at h
    rcases h with ⟨_, h⟩ | ⟨_, h⟩
    · simp only [pure_ok, Prod.mk.injEq] at h
      obtain ⟨rfl, rfl, rfl⟩ := h
      exact hp1
    · exact ih h hp1

/-- What stays as it is in a swap, and the price has twelve decimals. -/
def Plain (p0 p : Pool) : Prop :=
  p.gs.rp.scale = 12 ∧ p.spacing = p0.spacing ∧ p.positions = p0.positions

theorem Plain.sellX {fl : FloatEnv} {p p' : Pool} {dx o : Decimal} {r : SwapOutput}
    (h : p.executeSwapFromX fl dx o = .ok (p', r)) (h0 : p.gs.rp.scale = 12) : Plain p p' := by
  refine sellX_inv (P := Plain p) h ⟨h0, rfl, rfl⟩ (fun hp hg => ?_) (fun hp hs => ?_)
  · obtain ⟨sb, _, _, _, ⟨rfl, rfl, _, _⟩ | ⟨_, h2, h3⟩⟩ := goalX_ok hg
    · exact hp
    · exact ⟨tryLeft_scale h3 hp.1, sb.spacing.trans hp.2.1, sb.positions.trans hp.2.2⟩
  · obtain ⟨rem, r, ysum, newY, c1, chk, rs, newX, xFee, yAdj, fees, p1, _, h2, _, _, _, _, _, _, _, _,
      _, _, _, _, hr, _, _, _, _, hp1, hc⟩ := stepX_ok hs
    obtain ⟨_, _, _, hf, _⟩ := swapWithinX_ok h2
    obtain ⟨g, _, _, _, hg, _, _, _, _, _, ⟨_, _, _, _, e, _⟩ | ⟨_, _, _, _, _, _, _, _, e⟩⟩ := fillX_ok hf
    all_goals
      have e1 : p1.gs.rp.scale = 12 := by
        rw [hp1]; simp only
        first
        | (rw [e]; exact (tickToRp_pos hg).1.1)
        | (rw [(lt_le e).1]; exact (tickToRp_pos hg).1.1)
      have e2 : Plain p p1 := ⟨e1, by rw [hp1]; exact hp.2.1, by rw [hp1]; exact hp.2.2⟩
      rcases hc with ⟨_, _, _, hc⟩ | ⟨_, _, _, rfl⟩ | ⟨_, rfl⟩
      · have k := crossTick_frame hc
        exact ⟨by rw [k.2.2.2.2.2.2.2.2.2.2.2.1]; exact e1, by rw [k.2.2.2.2.2.2.2.1]; exact e2.2.1, by rw [k.2.2.2.2.2.2.1]; exact e2.2.2⟩
      · exact e2
      · exact e2

theorem Plain.sellY {fl : FloatEnv} {p p' : Pool} {dy o : Decimal} {r : SwapOutput}
    (h : p.executeSwapFromY fl dy o = .ok (p', r)) (h0 : p.gs.rp.scale = 12) : Plain p p' := by
  refine sellY_inv (P := Plain p) h ⟨h0, rfl, rfl⟩ (fun hp hg => ?_) (fun hp hs => ?_)
  · obtain ⟨sb, _, _, _, ⟨rfl, rfl, _, _⟩ | ⟨_, h2, h3⟩⟩ := goalY_ok hg
    · exact hp
    · exact ⟨tryRight_scale h3 hp.1, sb.spacing.trans hp.2.1, sb.positions.trans hp.2.2⟩
  · obtain ⟨rem, r, ysum, newY, c1, chk, rs, newX, xFee, yAdj, fees, p1, _, h2, _, _, _, _, _, _, _, _,
      _, _, _, _, hr, _, _, _, _, hp1, hc⟩ := stepY_ok hs
    obtain ⟨_, _, _, hf, _⟩ := swapWithinY_ok h2
    obtain ⟨g, _, _, _, hg, _, _, _, _, _, ⟨_, _, _, _, e, _⟩ | ⟨_, _, _, _, _, _, _, _, e⟩⟩ := fillY_ok hf
    all_goals
      have e1 : p1.gs.rp.scale = 12 := by
        rw [hp1]; simp only
        first
        | (rw [e]; exact (tickToRp_pos hg).1.1)
        | (rw [(gt_le e).1]; exact (tickToRp_pos hg).1.1)
      have e2 : Plain p p1 := ⟨e1, by rw [hp1]; exact hp.2.1, by rw [hp1]; exact hp.2.2⟩
      rcases hc with ⟨_, _, _, hc⟩ | ⟨_, _, _, rfl⟩ | ⟨_, rfl⟩
      · have k := crossTick_frame hc
        exact ⟨by rw [k.2.2.2.2.2.2.2.2.2.2.2.1]; exact e1, by rw [k.2.2.2.2.2.2.2.1]; exact e2.2.1, by rw [k.2.2.2.2.2.2.1]; exact e2.2.2⟩
      · exact e2
      · exact e2

/-! ### What is in the position map -/

/-- The price has twelve decimals, and so has everything noted for a position; every position was named by some
prices. -/
structure Owned (p : Pool) : Prop where
  rp : p.gs.rp.scale = 12
  pos : ∀ key s, mapGet key p.positions = some s → s.liq.scale = 12 ∧ (∀ k, (s.fees.at k).Amount 12) ∧
    ∃ rpa rpb, Names p key rpa rpb

theorem Names.congr {p p' : Pool} {key : PositionKey} {rpa rpb : Decimal} (h : Names p key rpa rpb)
    (e : p'.spacing = p.spacing) : Names p' key rpa rpb := by
  unfold Names; rw [snap_congr e, snap_congr e]; exact h

theorem delta_scale {p p' : Pool} (ht : Tidy p) {user lower upper : Nat} {d : Decimal} {f : Fees}
    (h : p.setPosition user lower upper d = .ok (p', f)) : d.scale = 12 := by
  obtain ⟨nf, ps', old, base, fu, p1, p2, _, _, _, _, _, _, _, _, _, _, h1, _⟩ := setPosition_ok h
  obtain ⟨net, gross, _, g2, _⟩ := updateTick_ok h1
  rw [← (add_ok.1 g2).1]
  unfold tickOrNew
  cases hm : mapGet lower p.ticks with
  | none => simp only [Option.getD_none]; rfl
  | some ts => simp only [Option.getD_some]; exact (ht.tick lower ts hm).2.1.1

theorem setPosition_rng {p p' : Pool} {user lower upper : Nat} {d : Decimal} {f : Fees}
    (h : p.setPosition user lower upper d = .ok (p', f)) :
    ∃ nf old base, p.feeRng (·.fx) lower upper = .ok nf.fx ∧ p.feeRng (·.fy) lower upper = .ok nf.fy ∧
      p.feeRng (·.hx) lower upper = .ok nf.hx ∧ p.feeRng (·.hy) lower upper = .ok nf.hy ∧
      setPositionMap p.positions ⟨user, lower, upper⟩ d nf = .ok (p'.positions, old, base) := by
  obtain ⟨nf, ps', old, base, fu, p1, p2, n1, n2, n3, n4, h0, _, _, _, _, _, h1, h2, h3, _⟩ := setPosition_ok h
  have e1 := updateTick_frame h1
  have e2 := updateTick_frame h2
  have hps : p'.positions = ps' := by
    rw [ite_ok] at h3
    rcases h3 with ⟨_, h3⟩ | ⟨_, h3⟩
    · obtain ⟨n, _, _, rfl⟩ := addGlblLiq_ok.1 h3
      rw [e2, e1]
    · cases h3
      rw [e2, e1]
  exact ⟨nf, old, base, n1, n2, n3, n4, hps ▸ h0⟩

theorem Owned.set {p p1 p' : Pool} (ho : Owned p) (ht : Tidy p) (hr : Recorded p) {user lower upper : Nat} {d : Decimal}
    {f : Fees} {rpa rpb : Decimal} (h : p.setPosition user lower upper d = .ok (p1, f))
    (hn : Names p ⟨user, lower, upper⟩ rpa rpb) (e1 : p'.positions = p1.positions) (e2 : p'.gs = p1.gs)
    (e3 : p'.spacing = p.spacing) : Owned p' := by
  have hd := delta_scale ht h
  obtain ⟨nf, old, base, n1, n2, n3, n4, h0⟩ := setPosition_rng h
  have hnf : ∀ k, (nf.at k).Amount 12 := fun k => feeRng_amount ht hr (k := k) (l := lower) (u := upper) (by
    cases k <;> assumption)
  have hnp : ∃ rpa rpb, Names p' ⟨user, lower, upper⟩ rpa rpb := ⟨rpa, rpb, hn.congr e3⟩
  refine ⟨by rw [e2, setPosition_frame h]; exact ho.rp, fun key s hs => ?_⟩
  rw [e1] at hs
  by_cases hk : key = ⟨user, lower, upper⟩
  · subst hk
    rcases setPositionMap_ok h0 with ⟨_, _, em, _⟩ | ⟨poz, n, e, _, _, _, ha, _, ⟨_, em⟩ | ⟨_, em⟩⟩
    · rw [em, mapGet_set_same] at hs; cases hs
      exact ⟨hd, fun k => (zero_fit k).1, hnp⟩
    · rw [em, mapGet_erase_same] at hs; cases hs
    · rw [em, mapGet_set_same] at hs; cases hs
      exact ⟨by simp only; rw [(add_ok.1 ha).2.2.1]; exact (ho.pos _ _ e).1, hnf, hnp⟩
  · rw [setPositionMap_other h0 hk] at hs
    obtain ⟨a, b, rpa', rpb', c⟩ := ho.pos key s hs
    exact ⟨a, b, rpa', rpb', c.congr e3⟩

theorem Owned.swap {p p' : Pool} (ho : Owned p) (h : Plain p p') : Owned p' :=
  ⟨h.1, fun key s hs => by
    rw [h.2.2] at hs
    obtain ⟨a, b, rpa, rpb, c⟩ := ho.pos key s hs
    exact ⟨a, b, rpa, rpb, c.congr h.2.1⟩⟩

theorem Owned.reachable {p : Pool} (h : Reachable p) : Owned p := by
  induction h with
  | new h =>
    obtain ⟨_, _, _, _, _, _, hq, rfl⟩ := new_ok h
    exact ⟨(tickToRp_pos hq).1.1, fun key s hs => by simp [mapGet] at hs⟩
  | step hp h ih =>
    have ht := Tidy.reachable hp
    have hr := Recorded.reachable hp
    cases h with
    | deposit h =>
      obtain ⟨_, _, _, _, _, _, _, _, _, _, _, _, _, g1, g2, _, _, _, _, _, _, _, _, _, hs, _, _, _, _, hf, rfl⟩ := deposit_ok h
      obtain ⟨e1, e2, e3, e4, _⟩ := payFees_frame hf
      exact ih.set ht hr hs ⟨g1, g2⟩ e1 e3 (by show _ = _; rw [← (show _ = _ from congrArg Pool.spacing (setPosition_frame hs))]; exact e4)
    | withdraw h =>
      obtain ⟨_, _, _, _, _, _, _, _, _, _, _, _, g1, g2, _, _, _, hs, _, _, _, _, _, _, _, _, _, _, _, hf, rfl⟩ := withdraw_ok h
      obtain ⟨e1, e2, e3, e4, _⟩ := payFees_frame hf
      exact ih.set ht hr hs ⟨g1, g2⟩ e1 e3 (by show _ = _; rw [← (show _ = _ from congrArg Pool.spacing (setPosition_frame hs))]; exact e4)
    | sellX h => exact ih.swap (.sellX h ih.rp)
    | sellY h => exact ih.swap (.sellY h ih.rp)

/-! ### Taking liquidity away -/

/-- Taking an amount from a larger one. -/
theorem add_neg_le {a b : Nat} (h : b ≤ a) :
    (Decimal.mk a 12 false).add ⟨b, 12, true⟩ = .ok ⟨a - b, 12, false⟩ := by
  rw [add_cases, if_pos rfl, if_neg (by simp)]
  simp only
  split
  · rfl
  · rw [if_neg (by omega), show a - b = 0 by omega]

theorem neg_mk {v : Nat} (h : v ≠ 0) : (Decimal.mk v 12 false).neg = ⟨v, 12, true⟩ := by
  unfold Decimal.neg isNegative isPositive isZero
  simp [h]

theorem neg_mk' {v : Nat} (h : v ≠ 0) : (Decimal.mk v 12 true).neg = ⟨v, 12, false⟩ := by
  unfold Decimal.neg isNegative isPositive isZero
  simp [h]

/-- A tick gives up liquidity as long as there is enough. -/
theorem updateTick_less {p : Pool} (ht : Tidy p) {t v : Nat} {u : Bool} (hv : v ≠ 0)
    (hle : v ≤ (p.tickOrNew t).liqGross.value) (hmem : t ∈ p.ticks.map (·.1))
    (hnet : (p.tickOrNew t).liqNet.value + v < u128Size) : ∃ p', p.updateTick t ⟨v, 12, true⟩ u = .ok p' := by
  obtain ⟨k1, k2, k3⟩ := ht.tickOrNew t
  obtain ⟨ts, hm⟩ := Option.isSome_iff_exists.1 (mapGet_isSome.2 hmem)
  have et : p.tickOrNew t = ts := by unfold Pool.tickOrNew; rw [hm]; rfl
  rw [et] at hle hnet k2 k3
  obtain ⟨gv, hg⟩ := k2.eq
  rw [hg] at hle
  obtain ⟨n, hn⟩ : ∃ n, ts.liqNet.add (if u then (⟨v, 12, true⟩ : Decimal).neg else ⟨v, 12, true⟩) = .ok n := by
    refine add_returns ?_ ?_
    · rw [k3]; split
      · rw [neg_mk' hv]
      · rfl
    · split
      · rw [neg_mk' hv]; exact hnet
      · exact hnet
  unfold updateTick
  rw [hm]
  simp only
  rw [bind_eq, hm]
  simp only
  unfold TickState.addLiqNet
  refine bind_returns (a := { ts with liqNet := n }) (by rw [hn]; rfl) ?_
  unfold TickState.addLiqGross
  refine bind_returns (a := ⟨n, ⟨gv - v, 12, false⟩, ts.fees⟩) ?_ ?_
  · simp only
    rw [hg, add_neg_le hle, unwrap_eq, bind_eq, if_neg (by rw [amount_not_negative (amount_mk _ _)]; simp)]
    rfl
  simp only
  split <;> exact ⟨_, rfl⟩

theorem liqOf_le {p : Pool} (hs : Sound p) {w : PositionKey → ℚ} (hw : ∀ k, 0 ≤ w k) (key : PositionKey) :
    w key * liqOf p.positions key ≤ sumPos w p.positions := by
  rw [← sumPos_single hs.booked.unique]
  unfold sumPos
  refine List.sum_le_sum fun e he => ?_
  have h2 := (hs.booked.pos e.1 e.2 (get_of_mem hs.booked.unique he)).1
  refine mul_le_mul_of_nonneg_right ?_ h2
  simp only
  split
  · rename_i e; subst e; exact le_rfl
  · exact hw _

theorem sum_le_total {p : Pool} (hs : Sound p) {w : PositionKey → ℚ} (hw : ∀ k, w k ≤ 1) :
    sumPos w p.positions ≤ p.totalLiq := by
  unfold totalLiq sumPos
  refine List.sum_le_sum fun e he => ?_
  have h2 := (hs.booked.pos e.1 e.2 (get_of_mem hs.booked.unique he)).1
  exact mul_le_mul_of_nonneg_right (hw _) h2

theorem toRat_lt_top {v : Nat} (h : (⟨v, 12, false⟩ : Decimal).toRat < top) : v * 10 ^ 12 < u128Size := by
  unfold top at h
  rw [toRat_mk, lt_div_iff₀ (by norm_num), show (v : ℚ) / 10 ^ 12 * 10 ^ 24 = v * 10 ^ 12 by ring] at h
  unfold u128Size
  exact_mod_cast h

theorem mul_lt_top {v w : Nat} (h : (⟨v, 12, false⟩ : Decimal).toRat * (⟨w, 12, false⟩ : Decimal).toRat < top) :
    v * w < u128Size := by
  unfold top at h
  rw [toRat_mk, toRat_mk, div_mul_div_comm, show (10 : ℚ) ^ 12 * 10 ^ 12 = 10 ^ 24 by norm_num,
    div_lt_div_iff_of_pos_right (by norm_num)] at h
  unfold u128Size
  exact_mod_cast h

/-- In good order, an open position can be reduced. -/
theorem setPosition_less {p : Pool} (hreach : Reachable p) (hs : Sound p) (hn : NotAhead p) (hsm : Small p)
    (hdue : ∀ k, p.unclaimed k ≤ (p.pot k).toRat) {key : PositionKey} (hk : 0 < liqOf p.positions key) {v : Nat}
    (hv : v ≠ 0) (hle : (⟨v, 12, false⟩ : Decimal).toRat ≤ liqOf p.positions key) :
    ∃ p' f, p.setPosition key.user key.lower key.upper ⟨v, 12, true⟩ = .ok (p', f) := by
  have ht := Tidy.reachable hreach
  have hr := Recorded.reachable hreach
  have ho := Owned.reachable hreach
  obtain ⟨hlu, i1, i2⟩ := hs.ends hk
  obtain ⟨s, hm⟩ : ∃ s, mapGet key p.positions = some s := by
    unfold liqOf at hk
    cases hm : mapGet key p.positions with
    | none => rw [hm] at hk; exact absurd hk (lt_irrefl _)
    | some s => exact ⟨s, rfl⟩
  have hL : liqOf p.positions key = s.liq.toRat := by unfold liqOf; rw [hm]; rfl
  have hnoted : ∀ k, noted p.positions key k = (s.fees.at k).toRat := fun k => by unfold noted; rw [hm]; rfl
  obtain ⟨o1, o2, _⟩ := ho.pos key s hm
  have hla : s.liq.Amount 12 := .of_scale o1 (hL ▸ hk)
  obtain ⟨L, el⟩ := hla.eq
  rw [hL, el, toRat_le_mk] at hle
  have hL' : liqOf p.positions key = (⟨L, 12, false⟩ : Decimal).toRat := by rw [hL, el]
  have fee : ∀ k, ∃ e o : Nat, p.feeRng (fun f => f.at k) key.lower key.upper = .ok ⟨e, 12, false⟩ ∧
      s.fees.at k = ⟨o, 12, false⟩ ∧ o ≤ e ∧ L * (e - o) < u128Size := by
    intro k
    have hi := hs.inside_est hk (k := k)
    have hnk := hn key hk k
    have hno := (o2 k).nonneg
    rw [hi, hnoted k] at hnk
    obtain ⟨e, h1, a1⟩ := feeRng_returns ht hr k (lower := key.lower) (upper := key.upper) (by linarith)
    obtain ⟨ev, rfl⟩ := a1.eq
    obtain ⟨ov, eo⟩ := (o2 k).eq
    obtain ⟨_, g2⟩ := feeRng_at h1
    have g3 : (⟨ev, 12, false⟩ : Decimal).toRat = p.est k key.upper - p.est k key.lower := g2
    rw [eo, ← g3, toRat_le_mk] at hnk
    refine ⟨ev, ov, h1, eo, hnk, ?_⟩
    have h3 := due_le hs hn key k
    have h4 := hdue k
    have h5 := hsm.pots k
    rw [hi, hnoted, eo, ← g3, hL'] at h3
    refine mul_lt_top ?_
    rw [toRat_mk (ev - ov), Nat.cast_sub hnk, sub_div, ← toRat_mk, ← toRat_mk]
    linarith
  obtain ⟨e1, w1, r1, c1, d1, m1⟩ := fee .fx
  obtain ⟨e2, w2, r2, c2, d2, m2⟩ := fee .fy
  obtain ⟨e3, w3, r3, c3, d3, m3⟩ := fee .hx
  obtain ⟨e4, w4, r4, c4, d4, m4⟩ := fee .hy
  simp only [Fees.at] at r1 r2 r3 r4 c1 c2 c3 c4
  have hnn : ∀ v : Nat, (!(⟨v, 12, false⟩ : Decimal).isNegative) = true := fun v => by
    rw [amount_not_negative (amount_mk _ _)]; rfl
  have hnn' : ∀ v : Nat, ¬ (⟨v, 12, false⟩ : Decimal).isNegative = true := fun v => by
    rw [amount_not_negative (amount_mk _ _)]; simp
  obtain ⟨ps', hps⟩ : ∃ ps', setPositionMap p.positions key ⟨v, 12, true⟩
      ⟨⟨e1, 12, false⟩, ⟨e2, 12, false⟩, ⟨e3, 12, false⟩, ⟨e4, 12, false⟩⟩ = .ok (ps', s.fees, ⟨L, 12, false⟩) := by
    unfold setPositionMap
    rw [hm]
    simp only
    rw [el, if_neg (hnn' _), add_neg_le hle, unwrap_eq, bind_eq, if_neg (by simp [amount_not_negative (amount_mk _ _)])]
    split
    · exact ⟨_, rfl⟩
    · unfold PositionState.addLiq
      rw [el, add_neg_le hle, unwrap_eq, bind_eq, if_neg (by simp [amount_not_negative (amount_mk _ _)])]
      exact ⟨_, rfl⟩
  have gross : ∀ t, t = key.lower ∨ t = key.upper → v ≤ (p.tickOrNew t).liqGross.value ∧
      (p.tickOrNew t).liqNet.value + v < u128Size := by
    intro t ht'
    obtain ⟨_, k2, _⟩ := ht.tickOrNew t
    have hg := tickOrNew_gross hreach t
    have hnet := tickOrNew_net hreach t
    obtain ⟨g, eg⟩ := k2.eq
    rw [eg] at hg hnet ⊢
    simp only at hnet ⊢
    have n1 : 0 ≤ p.startingAt t := sumPos_nonneg (by intro k; split <;> simp) hs.booked.unique (fun q s hs' => (hs.booked.pos q s hs').1)
    have n2 : 0 ≤ p.endingAt t := sumPos_nonneg (by intro k; split <;> simp) hs.booked.unique (fun q s hs' => (hs.booked.pos q s hs').1)
    have u1 : p.startingAt t ≤ p.totalLiq := sum_le_total hs (by intro k; split <;> simp)
    have u2 : p.endingAt t ≤ p.totalLiq := sum_le_total hs (by intro k; split <;> simp)
    have b1 : liqOf p.positions key ≤ p.startingAt t + p.endingAt t := by
      rcases ht' with rfl | rfl
      · have := liqOf_le hs (w := fun k => if k.lower = key.lower then 1 else 0) (by intro k; split <;> simp) key
        simp only [if_true, one_mul] at this
        unfold startingAt
        linarith
      · have := liqOf_le hs (w := fun k => if k.upper = key.upper then 1 else 0) (by intro k; split <;> simp) key
        simp only [if_true, one_mul] at this
        unfold endingAt
        linarith
    rw [hL', ← hg, toRat_le_mk] at b1
    have hgt : (⟨g, 12, false⟩ : Decimal).toRat < 2 * top := by rw [hg]; linarith [hsm.total]
    have : g * 10 ^ 12 < 2 * u128Size := by
      unfold top at hgt
      rw [toRat_mk, mul_div_assoc', lt_div_iff₀ (by norm_num), show (g : ℚ) / 10 ^ 12 * 10 ^ 24 = g * 10 ^ 12 by ring] at hgt
      unfold u128Size
      exact_mod_cast hgt
    generalize u128Size = U at *
    exact ⟨by omega, by omega⟩
  have t0 : Tidy { p with positions := ps' } := ht.congr rfl rfl rfl rfl rfl rfl rfl rfl rfl
  obtain ⟨p1, hp1⟩ := updateTick_less t0 (u := false) hv (gross _ (.inl rfl)).1 i1 (gross _ (.inl rfl)).2
  have t1 := t0.updateTick hp1
  have f1 := updateTick_frame hp1
  have eg := (updateTick_get hp1).1 key.upper (by omega)
  have et : p1.tickOrNew key.upper = p.tickOrNew key.upper := by
    unfold Pool.tickOrNew
    rw [eg, f1]
  obtain ⟨p2, hp2⟩ := updateTick_less t1 (t := key.upper) (u := true) hv (by rw [et]; exact (gross _ (.inr rfl)).1)
    (mapGet_isSome.1 (by rw [eg]; exact mapGet_isSome.2 i2)) (by rw [et]; exact (gross _ (.inr rfl)).2)
  have f2 := updateTick_frame hp2
  have hl2 : p2.gs = p.gs := by rw [f2, f1]
  obtain ⟨p3, hp3⟩ : ∃ p3, (if p2.gs.tick ≥ key.lower ∧ p2.gs.tick < key.upper then p2.addGlblLiq ⟨v, 12, true⟩ else .ok p2) =
      .ok p3 := by
    split
    · rename_i hin
      rw [hl2] at hin
      obtain ⟨lv, hlv⟩ := ht.liq.eq
      have ha := hs.active
      have := liqOf_le hs (w := fun k => if k.lower ≤ p.gs.tick ∧ p.gs.tick < k.upper then 1 else 0)
        (by intro k; split <;> simp) key
      simp only [if_pos hin, one_mul] at this
      unfold inRange at ha
      rw [← ha, hL', hlv, toRat_le_mk] at this
      exact ⟨_, addGlblLiq_ok.2 ⟨_, by rw [hl2, hlv]; exact add_neg_le (by omega), amount_not_negative (amount_mk _ _), rfl⟩⟩
    · exact ⟨_, rfl⟩
  have hmul : ∀ {e w : Nat}, L * (e - w) < u128Size → (⟨L, 12, false⟩ : Decimal).mul ⟨e - w, 12, false⟩ =
      .ok ⟨L * (e - w) / 10 ^ 12, 12, false⟩ := fun h => mul_ok.2 ⟨h, by show 10 ^ 12 < u128Size; decide, rfl⟩
  refine ⟨p3, ⟨⟨L * (e1 - w1) / 10 ^ 12, 12, false⟩, ⟨L * (e2 - w2) / 10 ^ 12, 12, false⟩,
    ⟨L * (e3 - w3) / 10 ^ 12, 12, false⟩, ⟨L * (e4 - w4) / 10 ^ 12, 12, false⟩⟩, ?_⟩
  unfold setPosition
  rw [r1, bind_eq, r2, bind_eq, r3, bind_eq, r4, bind_eq, hps, bind_eq]
  simp only
  rw [c1, sub_nn_le 12 d1, unwrap_eq, bind_eq, c2, sub_nn_le 12 d2, unwrap_eq, bind_eq, c3, sub_nn_le 12 d3, unwrap_eq,
    bind_eq, c4, sub_nn_le 12 d4, unwrap_eq, bind_eq, hnn, hnn, hnn,
    hnn, show rassert true = .ok () from rfl, bind_eq, bind_eq, bind_eq, bind_eq, hp1, bind_eq, hp2, bind_eq, hp3,
    bind_eq, hmul m1, bind_eq, hmul m2, bind_eq, hmul m3, bind_eq, hmul m4, bind_eq]
  rfl

/-! ### The amounts -/

theorem xFrom_returns {l p a b : Nat} (hp : p ≠ 0) (ha : 10 ^ 12 ≤ a) (hab : a ≤ b) (h1 : l * b < u128Size)
    (h2 : b * b < u128Size) :
    ∃ v, xFromLRpRng ⟨l, 12, false⟩ ⟨p, 12, false⟩ ⟨a, 12, false⟩ ⟨b, 12, false⟩ = .ok ⟨v, 12, false⟩ := by
  unfold xFromLRpRng
  rw [if_neg (by simp only [Bool.or_eq_true, isZero_mk]; omega)]
  have hq : max (min p b) a ≤ b := by omega
  have hqa : a ≤ max (min p b) a := by omega
  rw [min_nn, bind_eq, max_nn, bind_eq, sub_nn_le 12 hq, unwrap_eq, bind_eq]
  generalize max (min p b) a = q at *
  have m1 : q * b < u128Size := (Nat.mul_le_mul_right b hq).trans_lt h2
  have m2 : l * (b - q) < u128Size := (Nat.mul_le_mul_left l (Nat.sub_le b q)).trans_lt h1
  have m3 : l * (b - q) / 10 ^ 12 * 10 ^ 12 < u128Size := (Nat.div_mul_le_self _ _).trans_lt m2
  have m4 : q * b / 10 ^ 12 ≠ 0 := by
    have : 10 ^ 12 * 1 ≤ q * b := Nat.mul_le_mul (by omega) (by omega)
    exact (Nat.div_pos (by omega) (by norm_num)).ne'
  have hd : 10 ^ 12 < u128Size := by decide
  refine ⟨l * (b - q) / 10 ^ 12 * 10 ^ 12 / (q * b / 10 ^ 12), ?_⟩
  rw [show (⟨q, 12, false⟩ : Decimal).mul ⟨b, 12, false⟩ = .ok ⟨q * b / 10 ^ 12, 12, false⟩ from mul_ok.2 ⟨m1, hd, rfl⟩,
    bind_eq, show (⟨l, 12, false⟩ : Decimal).mul ⟨b - q, 12, false⟩ = .ok ⟨l * (b - q) / 10 ^ 12, 12, false⟩ from
      mul_ok.2 ⟨m2, hd, rfl⟩, bind_eq]
  exact div_ok.2 ⟨m3, hd, m4, rfl⟩

theorem yFrom_returns {l p a b : Nat} (hab : a ≤ b) (h1 : l * b < u128Size) :
    ∃ v, yFromLRpRng ⟨l, 12, false⟩ ⟨p, 12, false⟩ ⟨a, 12, false⟩ ⟨b, 12, false⟩ = .ok ⟨v, 12, false⟩ := by
  unfold yFromLRpRng
  have hq : max (min p b) a - a ≤ b := by omega
  rw [min_nn, bind_eq, max_nn, bind_eq, sub_nn_le 12 (le_max_right _ _), unwrap_eq, bind_eq,
    if_neg (by rw [amount_not_negative (amount_mk _ _)]; simp)]
  exact ⟨_, mul_ok.2 ⟨(Nat.mul_le_mul_left l hq).trans_lt h1, by show 10 ^ 12 < u128Size; decide, rfl⟩⟩

theorem payFees_le {p p' : Pool} {f : Fees} (h : p.payFees f = .ok p') (k : Kind) : (f.at k).toRat ≤ (p.pot k).toRat := by
  obtain ⟨xFee, xAdj, yFee, yAdj, h1, h2, h3, h4, _⟩ := payFees_ok h
  cases k
  · exact (lt_le h1).2.2 rfl
  · exact (lt_le h2).2.2 rfl
  · exact (lt_le h3).2.2 rfl
  · exact (lt_le h4).2.2 rfl

/-- In good order, any part of an open position can be withdrawn that the reserves can pay. -/
theorem withdraw_returns {cap : ℚ} {n : Nat} {p : Pool} (h0 : 0 ≤ cap) (h : Fresh cap n p) (hsm : Small p)
    {key : PositionKey} (hk : 0 < liqOf p.positions key) {liq rpa rpb : Decimal} (hl : liq.scale = 12)
    (hpos : 0 < liq.toRat) (hle : liq.toRat ≤ liqOf p.positions key) (hn : Names p key rpa rpb)
    (hx : shareX liq.toRat p.gs.rp.toRat key.lower key.upper ≤ p.x.toRat)
    (hy : shareY liq.toRat p.gs.rp.toRat key.lower key.upper ≤ p.y.toRat) :
    ∃ p' r, p.withdraw key.user liq rpa rpb = .ok (p', r) := by
  have hreach := h.clear.reachable
  have hs := Sound.clearReachable h.clear
  have ht := Tidy.reachable hreach
  have ho := Owned.reachable hreach
  obtain ⟨hna, hdue⟩ := fresh_due h0 h
  obtain ⟨l, rfl⟩ := (Amount.of_scale hl hpos).eq
  have hl0 : l ≠ 0 := by
    rintro rfl
    rw [toRat_mk] at hpos
    simp at hpos
  obtain ⟨p1, f, h1⟩ := setPosition_less hreach hs hna hsm (fun k => (hdue k).1) hk hl0 hle
  obtain ⟨p2, h2⟩ := C102_payable_partial h0 h hk h1
  have hf := fun k => setPosition_amount ht (Recorded.reachable hreach) h1 hk k
  have hfr := setPosition_frame h1
  have ex : p1.x = p.x := by rw [hfr]
  have ey : p1.y = p.y := by rw [hfr]
  have erp : p1.gs.rp = p.gs.rp := by rw [hfr]
  obtain ⟨hlu, i1, i2⟩ := hs.ends hk
  obtain ⟨a, ha⟩ := hs.price i1
  obtain ⟨b, hb⟩ := hs.price i2
  have hab := price_mono hlu.le ha hb
  have ha1 := tickPrice_ge ha
  obtain ⟨rg1, rg2⟩ := hsm.ranges key hk
  have hxs := hsm.x
  have hys := hsm.y
  have hrp1 := rp_ge_one hreach
  have hrpa : p.gs.rp.Amount 12 := .of_scale ho.rp (by linarith)
  obtain ⟨rv, er⟩ := hrpa.eq
  unfold shareX shareY at *
  rw [tickPrice_eq hb] at rg1 rg2 hx hy
  rw [tickPrice_eq ha] at hx hy
  have hb1 : 1 ≤ b.toRat := ha1.trans hab
  obtain ⟨av, rfl⟩ := (tickToRp_pos ha).1.eq
  obtain ⟨bv, rfl⟩ := (tickToRp_pos hb).1.eq
  have one_le : ∀ {v : Nat}, 1 ≤ (⟨v, 12, false⟩ : Decimal).toRat → 10 ^ 12 ≤ v := fun h => by
    rw [toRat_mk, le_div_iff₀ (by norm_num), one_mul] at h
    exact_mod_cast h
  have m1 : l * bv < u128Size := mul_lt_top (by nlinarith)
  have m2 : bv * bv < u128Size := mul_lt_top (by rw [← sq]; exact rg2)
  rw [er] at erp hrp1
  have hab' : av ≤ bv := toRat_le_mk.1 hab
  obtain ⟨xv, kx⟩ := xFrom_returns (l := l) (p := rv) (by have := one_le hrp1; omega) (one_le ha1) hab' m1 m2
  obtain ⟨yv, ky⟩ := yFrom_returns (l := l) (p := rv) hab' m1
  have hl' := (amount_mk l 12).nonneg
  obtain ⟨_, x1, x2⟩ := x_amount kx rfl hl' rfl ha1 hab
  obtain ⟨_, y1, y2⟩ := y_amount ky rfl hl' hab
  have hadj : PoolMath.one.sub adjWithdrawal = .ok ⟨999999999999, 12, false⟩ := by decide +kernel
  have eadj : (⟨999999999999, 12, false⟩ : Decimal).toRat = 1 - ulp 12 := by rw [toRat_mk]; unfold ulp; norm_num
  have hu := ulp_pos (s := 12)
  have hu1 : ulp 12 ≤ 1 := by unfold ulp; norm_num
  have hd : 10 ^ 12 < u128Size := by decide
  rw [er] at hx hy
  have m3 : xv * 999999999999 < u128Size := mul_lt_top (by rw [eadj]; linarith)
  have m4 : yv * 999999999999 < u128Size := mul_lt_top (by
    rw [eadj]
    have := (amount_mk yv 12).nonneg
    nlinarith)
  have scaled : ∀ {v : Nat}, v * 999999999999 < u128Size → ∃ o, (⟨v, 12, false⟩ : Decimal).mul ⟨999999999999, 12, false⟩ =
      .ok ⟨o, 12, false⟩ ∧ (⟨o, 12, false⟩ : Decimal).toRat ≤ (⟨v, 12, false⟩ : Decimal).toRat * (1 - ulp 12) := fun {v} hm => by
    have k : (⟨v, 12, false⟩ : Decimal).mul ⟨999999999999, 12, false⟩ = .ok ⟨v * 999999999999 / 10 ^ 12, 12, false⟩ :=
      mul_ok.2 ⟨hm, hd, rfl⟩
    have c := (mul_down k (mul_nonneg (amount_mk v 12).nonneg (amount_mk _ 12).nonneg)).2.1
    rw [eadj] at c
    exact ⟨_, k, c⟩
  obtain ⟨xo, k3, c1⟩ := scaled m3
  obtain ⟨yo, k4, c2⟩ := scaled m4
  have lex : (⟨xo, 12, false⟩ : Decimal).toRat ≤ p.x.toRat := by linarith
  have ley : (⟨yo, 12, false⟩ : Decimal).toRat ≤ p.y.toRat := by
    have := (amount_mk yv 12).nonneg
    nlinarith
  obtain ⟨px, epx⟩ := ht.x.eq
  obtain ⟨py, epy⟩ := ht.y.eq
  rw [epx] at ex lex hxs
  rw [epy] at ey ley hys
  have fit : ∀ k, ∃ v, f.at k = ⟨v, 12, false⟩ ∧ v * 10 ^ 12 < u128Size := fun k => by
    obtain ⟨v, e⟩ := (hf k).eq
    have h3 := payFees_le h2 k
    rw [setPosition_pot h1, e] at h3
    exact ⟨v, e, toRat_lt_top (h3.trans_lt (hsm.pots k))⟩
  obtain ⟨f1, e1, b1⟩ := fit .fx
  obtain ⟨f2, e2, b2⟩ := fit .fy
  obtain ⟨f3, e3, b3⟩ := fit .hx
  obtain ⟨f4, e4, b4⟩ := fit .hy
  simp only [Fees.at] at e1 e2 e3 e4
  have bx := toRat_lt_top (lex.trans_lt hxs)
  have by' := toRat_lt_top (ley.trans_lt hys)
  rw [toRat_le_mk] at lex ley
  have hU : u128Size = 2 ^ 128 := rfl
  have s1 : xo + f1 < u128Size := by generalize u128Size = U at *; omega
  have s2 : xo + f1 + f3 < u128Size := by generalize u128Size = U at *; omega
  have s3 : yo + f2 < u128Size := by generalize u128Size = U at *; omega
  have s4 : yo + f2 + f4 < u128Size := by generalize u128Size = U at *; omega
  have s5 : f1 + f3 < u128Size := by generalize u128Size = U at *; omega
  have s6 : f2 + f4 < u128Size := by generalize u128Size = U at *; omega
  have hlt : ∀ {a b : Nat}, b ≤ a → (⟨a, 12, false⟩ : Decimal).lt ⟨b, 12, false⟩ = .ok false := fun h => by
    rw [lt_nn]; simp; omega
  refine ⟨{ p2 with x := ⟨px - xo, 12, false⟩, y := ⟨py - yo, 12, false⟩ },
    ⟨⟨xo, 12, false⟩, ⟨yo, 12, false⟩, f, ⟨xo + f1 + f3, 12, false⟩, ⟨yo + f2 + f4, 12, false⟩⟩, ?_⟩
  unfold Pool.withdraw
  rw [amount_not_negative (amount_mk _ _), show rassert (!false) = .ok () from rfl, bind_eq, hn.1, bind_eq, hn.2, bind_eq,
    decide_eq_true hlu, show rassert true = .ok () from rfl, bind_eq, ha, bind_eq, hb, bind_eq, neg_mk hl0, h1, bind_eq]
  simp only
  rw [erp, kx, bind_eq, ky, bind_eq, hadj, unwrap_eq, bind_eq, k3, bind_eq, k4, bind_eq, e1, e2, e3, e4, add_nn_eq s1,
    unwrap_eq, bind_eq, add_nn_eq s2, unwrap_eq, bind_eq, add_nn_eq s3, unwrap_eq, bind_eq, add_nn_eq s4, unwrap_eq, bind_eq,
    ex, hlt lex, unwrap_eq, bind_eq]
  simp only [Bool.false_eq_true, if_false]
  rw [ey, hlt ley, unwrap_eq, bind_eq]
  simp only [Bool.false_eq_true, if_false]
  rw [sub_nn_le 12 lex, unwrap_eq, bind_eq, sub_nn_le 12 ley, unwrap_eq, bind_eq, h2, bind_eq, add_nn_eq s5, unwrap_eq, bind_eq,
    add_nn_eq s6, unwrap_eq, bind_eq]
  rfl

end Hmm.Pool
