import Verif.Proofs.WorldOthers
import Verif.Proofs.OnChainWhen
import Verif.Props.OnChain
import Verif.Spec.WorldWhen

/-
A withdrawal succeeds exactly when it is redeemable.
-/

namespace Hmm.OnChain.World

open Decimal PoolMath

theorem maySpend_iff {t : Token} {user n : Nat} : MaySpend t user n ↔ ∃ t', spend t (.user user) n = .ok t' := by
  unfold MaySpend spend
  cases hd : t.delegate with
  | none =>
    simp only [reduceCtorEq, not_false_eq_true, implies_true, and_true, false_and, exists_const, or_false, ne_eq]
    constructor
    · intro h; rw [if_pos h]; exact ⟨_, rfl⟩
    · rintro ⟨t', h⟩
      split at h
      · assumption
      · cases h
  | some q =>
    obtain ⟨d, k⟩ := q
    simp only [Option.some.injEq, Prod.mk.injEq, ne_eq, not_and]
    by_cases e : d = .user user
    · subst e
      simp only [if_true, true_and]
      constructor
      · rintro (⟨_, h⟩ | ⟨j, rfl, h⟩)
        · exact absurd rfl (h k trivial)
        · rw [if_neg (by omega)]; exact ⟨_, rfl⟩
      · rintro ⟨t', h⟩
        split at h
        · cases h
        · exact .inr ⟨k, rfl, by omega⟩
    · rw [if_neg e]
      constructor
      · rintro (⟨h, _⟩ | ⟨j, ⟨h, _⟩, _⟩)
        · rw [if_pos h]; exact ⟨_, rfl⟩
        · exact absurd h e
      · rintro ⟨t', h⟩
        split at h
        · next h' => exact .inl ⟨h', fun _ h => absurd h e⟩
        · cases h

theorem two128 : (2 : ℕ) ^ 128 = u128Size := by norm_num [u128Size]

/-- The worth is unique. -/
theorem Worth.unique {tick lower upper n x y x' y' : Nat} (h : Worth tick lower upper n x y)
    (h' : Worth tick lower upper n x' y') : x = x' ∧ y = y' := by
  obtain ⟨p, a, b, h1, h2, h3, _, _, h4, h5⟩ := h
  obtain ⟨p', a', b', k1, k2, k3, _, _, k4, k5⟩ := h'
  rw [h1] at k1; cases k1
  rw [h2] at k2; cases k2
  rw [h3] at k3; cases k3
  exact ⟨h4.trans k4.symm, h5.trans k5.symm⟩

/-- What is redeemable can be withdrawn. -/
theorem withdraw_when {w : World} (hw : Reachable w) {lp : Nat} {p : PoolAcc} (hp : mapGet lp w.pools = some p)
    {c : Accounts} {lower upper current n x y : Nat} (h0 : 0 < n) (h : Redeemable w lp p c lower upper current n x y) :
    ∃ v, w.withdraw lp c lower upper current n = .ok (v, ⟨x, y, n⟩) := by
  obtain ⟨hg, supply0, s, hr, hs⟩ := hw.guarded hp
  obtain ⟨pos, p1, p2⟩ := h.position
  have hgood := Good.reachable hr
  rw [← hs.positions] at p1
  obtain ⟨f, hpr, hbit, hcur, lwr, upr, l1, u1, ⟨⟨pos', lwr', upr'⟩, e1⟩, g, e2⟩ :=
    take_when hr p1 h0 p2 (hs.gs ▸ h.starts) (hs.gs ▸ h.ends)
  obtain ⟨bm, hbit⟩ := Option.isSome_iff_exists.1 hbit
  obtain ⟨cur, hcur⟩ := Option.isSome_iff_exists.1 hcur
  have gp := hgood.pos _ _ p1
  have gl := hgood.tick _ _ l1
  have gu := hgood.tick _ _ u1
  have gc := hgood.tick _ _ hcur
  obtain ⟨rp, a, b, w1, w2, w3, w4, w5, w6, w7⟩ := h.worth
  obtain ⟨rp', a', b', q1, q2, q3, q4, q5⟩ := hpr
  rw [hs.gs, w1] at q1; cases q1
  rw [w2] at q2; cases q2
  rw [w3] at q3; cases q3
  rw [two128] at w4 w5
  have ha := tickToRp_ge w2
  have hrp : 0 < rp := lt_of_lt_of_le (by norm_num) (tickToRp_ge w1)
  have ex := xFrom_whole q4 ha hrp q5 w4
  have ey := yFrom_whole (b := b) w5
  obtain ⟨tx, x1, x2, x3, x4⟩ := h.tokenX
  obtain ⟨ty, y1, y2, y3, y4⟩ := h.tokenY
  obtain ⟨tl, t1, t2, t3, t4, t5⟩ := h.lpTokens
  obtain ⟨tl', t5⟩ := maySpend_iff.1 t5
  obtain ⟨vx, v1, v2, v3⟩ := h.vaultX
  obtain ⟨vy, v4, v5, v6⟩ := h.vaultY
  obtain ⟨lv, lv1, _⟩ := hg.lpVault
  obtain ⟨mt, m1, _⟩ := hg.mint
  have hready : Ready w lp p c ⟨x, y, n⟩ := ⟨h.tokenX, h.tokenY, h.vaultX, h.vaultY, tl, tl', t1, t2, t3, t4, t5⟩
  have hload : loadAccounts w lp p c lower upper current = .ok ⟨bm, pos, lwr, upr, cur⟩ := by
    rw [hs.ticks] at l1 u1 hcur
    rw [hs.gs, ← h.atTick] at hcur
    rw [hs.positions] at p1
    rw [hs.bitmap] at hbit
    rw [hs.gs, ← h.atTick] at gc
    unfold loadAccounts
    simp only [bind_ok, load_ok, constraint_ok, pure_ok, decide_eq_true_eq, Bool.and_eq_true]
    exact ⟨bm, hbit, pos, p1, (), gp.order, lwr, l1, (), by rw [gl.tick, gp.lower], upr, u1, (), by rw [gu.tick, gp.upper],
      cur, hcur, (), gc.tick, (), gc.tick.trans h.atTick, mt, m1, tx, x1, (), ⟨x2, x3⟩, ty, y1, (), ⟨y2, y3⟩, vx, v1, vy, v4,
      lv, lv1, tl, t1, (), t2, rfl⟩
  have bx : x < u64Size := lt_of_le_of_lt v3 (hw.small _ _ v1)
  have by' : y < u64Size := lt_of_le_of_lt v6 (hw.small _ _ v4)
  generalize hX : n * (b - clampAt rp a b) * 10 ^ 12 / (clampAt rp a b * b / 10 ^ 12) = X at *
  generalize hY : n * (clampAt rp a b - a) = Y at *
  have bX : X < u128Size := by
    rw [w6] at bx
    unfold u64Size at bx
    unfold u128Size
    omega
  have bY : Y < u128Size := by
    rw [w7] at by'
    unfold u64Size at by'
    unfold u128Size
    omega
  have hft : feeTerm Fee.zero.fx Fee.zero.hx Fee.zero.scale 12 = .ok ⟨0, 12, false⟩ := by decide
  have addz : ∀ {w : Nat}, w < u128Size → (Decimal.mk w 12 false).add ⟨0, 12, false⟩ = .ok ⟨w, 12, false⟩ :=
    fun hw => Pool.add_nn_eq (by simpa using hw)
  have v0 : Bitmap.Valid 0 := ⟨by norm_num, by norm_num⟩
  have v4 : Bitmap.Valid 40000 := ⟨by norm_num, by norm_num⟩
  have hfee : computeLatestFee lower upper current p.gs.fee lwr.fee upr.fee pos.fee.scale = .ok Fee.zero := by
    rw [← hs.gs, hgood.gs.fee, gl.fee, gu.fee, gp.fee]
    exact computeLatestFee_zero _ _ _
  rw [hs.gs, ← h.atTick] at e2
  rw [← h.atTick] at w1
  exact withdraw_intro (a := ⟨bm, pos, lwr, upr, cur⟩) (xOut := ⟨X, 12, false⟩) (yOut := ⟨Y, 12, false⟩)
    (fx := ⟨0, 12, false⟩) (fy := ⟨0, 12, false⟩) hp hg hw.booked hw.capital hready hload (fromInt_fits f) w2 w3 w1 hfee
    (by rw [e1]; exact unwrap_eq _) (Bitmap.unset_valid bm v0) (Bitmap.unset_valid _ v4) e2
    (by rw [neg_neg_amount]; exact ex) (by rw [neg_neg_amount]; exact ey)
    hft (by rw [addz bX]; exact unwrap_eq _) hft (by rw [addz bY]; exact unwrap_eq _)
    ((abs_ok rfl).2 ⟨w6, bx⟩) ((abs_ok rfl).2 ⟨w7, by'⟩) rfl

/-- What was withdrawn was redeemable. -/
theorem withdraw_redeemable {w v : World} (hw : Reachable w) {lp : Nat} {p : PoolAcc} (hp : mapGet lp w.pools = some p)
    {c : Accounts} {lower upper current n : Nat} {m : Moved} (h0 : 0 < n)
    (h : w.withdraw lp c lower upper current n = .ok (v, m)) :
    m.lp = n ∧ Redeemable w lp p c lower upper current n m.x m.y := by
  obtain ⟨hg, supply0, s, hr, hs⟩ := hw.guarded hp
  obtain ⟨_, _, _, _, _, _, hn, _⟩ := withdraw_effect h
  obtain ⟨p', s1, s2, c', _, _, _, _, hext, hu, hd, _⟩ := hs.withdraw hp hg hw.small h
  have hr1 : OnChain.Reachable supply0 s1 := hr.step (.external hext)
  obtain ⟨d, rp, a, b, view⟩ := (Good.reachable hr1).withdraw hd
  have r := view.raw
  obtain ⟨a1, a2, a3, a4, a5, a6, a7, a8, a9, a10, a11, a12, a13⟩ := OnChain.loadAccounts_ok.1 r.load
  have e : s1.gs = p.gs := hext.gs.trans hs.gs
  obtain ⟨tx, ty, vx, vy, tl, tl', t1, t2, t3, t4, t5⟩ := withdraw_ready hp hg h
  refine ⟨hn, ⟨?_, ?_, ?_, ?_, ?_, tx, ty, vx, vy, tl, t1, t2, t3, hn ▸ t4, maySpend_iff.2 ⟨tl', hn ▸ t5⟩⟩⟩
  · rw [view.cur, e]
  · intro hl
    exact C56_stuck hr1 (.inl (hl.trans (congrArg Global.tick e).symm)) h0 _ hd
  · intro hl
    exact C56_stuck hr1 (.inr (hl.trans (congrArg Global.tick e).symm)) h0 _ hd
  · refine ⟨d.a.pos, ?_, ?_⟩
    · rw [← hs.positions, ← hext.positions, ← hu]; exact a2
    · have h1 := view.posAmount
      have h2 : 0 ≤ d.pos.amount := amount_nonneg _
      linarith
  · have hrp := r.rp
    rw [view.cur, view.rp, e] at hrp
    have hx := view.xOut
    have hy := view.yOut
    have ha := tickToRp_ge (view.rpa ▸ r.rpa)
    have hp0 : 0 < rp := lt_of_lt_of_le (by norm_num) (tickToRp_ge hrp)
    obtain ⟨f1, f2⟩ := amounts_fit view.prices hx hy
    have kx := xFrom_whole view.prices ha hp0 (xFrom_product view.prices hx) f1
    have ky := yFrom_whole (b := b) f2
    rw [hx] at kx
    rw [hy] at ky
    refine ⟨rp, a, b, hrp, view.rpa ▸ r.rpa, view.rpb ▸ r.rpb, two128 ▸ f1, two128 ▸ f2, ?_, ?_⟩
    · rw [view.x, Except.ok.inj kx]
    · rw [view.y, Except.ok.inj ky]

end Hmm.OnChain.World
