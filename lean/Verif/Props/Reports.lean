import Verif.Props.Price
import Verif.Props.Trades
import Verif.Proofs.Leave

/-
C119: what a swap reports about prices, and what the trader gets against the price before it.
-/

namespace Hmm

open Decimal PoolMath

namespace Decimal

/-- The square of an amount is rounded down once. -/
theorem square {d c : Decimal} (hd : d.negative = false) (h : d.powInt 2 = .ok c) :
    c.scale = d.scale ∧ c.toRat = floorAt d.scale (d.toRat ^ 2) := by
  obtain ⟨_, h⟩ := powInt_ok h
  obtain ⟨r1, b1, ⟨h1, _⟩ | ⟨_, rfl⟩, h2, h⟩ := powLoop_succ (by decide) h
  · exact absurd rfl h1
  obtain ⟨r2, b2, ⟨_, h3⟩ | ⟨h3, _⟩, h4, h⟩ := powLoop_succ (by decide) h
  swap; · exact absurd h3 (by decide)
  have h : powLoop 126 0 b2 r2 = .ok c := h
  rw [powLoop_zero] at h
  cases h
  obtain ⟨g1, g2, g3⟩ := mul_mag h2
  obtain ⟨k1, k2, k3⟩ := mul_mag h3
  have hb : b1.negative = false := by rw [g2, hd]; rfl
  refine ⟨k1, ?_⟩
  rw [toRat_of_nonneg (by rw [k2, hb, hd]; rfl), k3, one_mag, one_mul, g3, toRat_of_nonneg hd, pow_two]
  show floorAt d.scale (floorAt d.scale _) = _
  unfold floorAt
  rw [div_mul_cancel₀ _ (pow10Q_pos _).ne', Nat.floor_natCast]

end Decimal

namespace Pool

open Hmm.Sample hiding get

theorem rp_amount {p : Pool} (hp : Reachable p) : p.gs.rp.Amount 12 :=
  .of_scale (Owned.reachable hp).rp (by linarith [rp_ge_one hp])

/-! ### What is reported -/

/-- The price a sale of X reports as the one it ends at, and the average it reports. -/
def ReportsX (p' : Pool) (r : SwapOutput) : Prop :=
  r.endPrice.toRat = floorAt 12 (p'.gs.rp.toRat ^ 2) ∧
    r.avgPrice.toRat = floorAt 12 (-r.send.toRat / r.recv.toRat)

@[inherit_doc ReportsX]
def ReportsY (p' : Pool) (r : SwapOutput) : Prop :=
  r.endPrice.toRat = floorAt 12 (p'.gs.rp.toRat ^ 2) ∧
    r.avgPrice.toRat = floorAt 12 (r.recv.toRat / -r.send.toRat)

theorem floor_zero : floorAt 12 0 = 0 := by unfold floorAt; simp

theorem quotient {a b c : Decimal} (hs : a.scale = 12) (ha : 0 ≤ a.toRat) (hb : 0 ≤ b.toRat) (h : a.div b = .ok c) :
    c.toRat = floorAt 12 (a.toRat / b.toRat) := by
  obtain ⟨_, h1, _, _⟩ := div_down h ha hb
  obtain ⟨_, _, _, h2⟩ := div_mag h
  rw [← abs_toRat, ← abs_toRat, ← abs_toRat, abs_of_nonneg ha, abs_of_nonneg hb, abs_of_nonneg h1, hs] at h2
  exact h2

theorem plain_accX {fl : FloatEnv} {dx o : Decimal} {p p' : Pool} {r : SwapOutput}
    (h : p.executeSwapFromX fl dx o = .ok (p', r)) :
    ∃ a, a.recv.scale = 12 ∧ a.send.scale = 12 ∧ finishX p' a = .ok (p', r) := by
  unfold executeSwapFromX at h
  rw [ite_ok] at h; rcases h with ⟨_, h⟩ | ⟨_, h⟩; · simp [rpanic] at h
  obtain ⟨a, ⟨h1, h2⟩, h3, _⟩ := loopX_inv (P := fun _ a => a.recv.scale = 12 ∧ a.send.scale = 12)
    (fun hP hg => by rw [(goalX_ok hg).2.1]; exact hP) (fun _ hP hs => by
      obtain ⟨_, _, _, _, _, _, _, _, _, _, _, _, _, _, _, _, _, _, _, _, h9, h10, h11, _⟩ := stepX_ok hs
      exact ⟨by rw [(add_ok.1 h10).2.2.1, (add_ok.1 h9).2.2.1, hP.1], by rw [(add_ok.1 h11).2.2.1, hP.2]⟩)
    (by exact ⟨rfl, rfl⟩) h
  exact ⟨a, h1, h2, h3⟩

theorem plain_accY {fl : FloatEnv} {dy o : Decimal} {p p' : Pool} {r : SwapOutput}
    (h : p.executeSwapFromY fl dy o = .ok (p', r)) :
    ∃ a, a.recv.scale = 12 ∧ a.send.scale = 12 ∧ finishY p' a = .ok (p', r) := by
  unfold executeSwapFromY at h
  rw [ite_ok] at h; rcases h with ⟨_, h⟩ | ⟨_, h⟩; · simp [rpanic] at h
  obtain ⟨a, ⟨h1, h2⟩, h3, _⟩ := loopY_inv (P := fun _ a => a.recv.scale = 12 ∧ a.send.scale = 12)
    (fun hP hg => by rw [(goalY_ok hg).2.1]; exact hP) (fun _ hP hs => by
      obtain ⟨_, _, _, _, _, _, _, _, _, _, _, _, _, _, _, _, _, _, _, _, h9, h10, h11, _⟩ := stepY_ok hs
      exact ⟨by rw [(add_ok.1 h10).2.2.1, (add_ok.1 h9).2.2.1, hP.1], by rw [(add_ok.1 h11).2.2.1, hP.2]⟩)
    (by exact ⟨rfl, rfl⟩) h
  exact ⟨a, h1, h2, h3⟩

/-- C119 for sales of X, in every state whatsoever: the end price is the square of the root price the pool is left
at and the average is what was paid per X taken, each rounded down at the twelfth decimal. -/
theorem C119_report_x {fl : FloatEnv} {dx o : Decimal} {p p' : Pool} {r : SwapOutput} (hp : Reachable p)
    (h : p.executeSwapFromX fl dx o = .ok (p', r)) : ReportsX p' r := by
  have hr := rp_amount (.step hp (.sellX h))
  obtain ⟨a, s1, s2, hf⟩ := plain_accX h
  obtain ⟨_, e1, e2, _, _, g1, g2, _, h1, h2⟩ := finishX_ok hf
  obtain ⟨_, k⟩ := square hr.2 h1
  rw [hr.1] at k
  refine ⟨k, ?_⟩
  rw [e1] at g1 ⊢
  rw [e2] at g2 ⊢
  rw [ite_ok] at h2
  rcases h2 with ⟨h3, h2⟩ | ⟨h3, h2⟩
  · rw [isZero_toRat.1 h3, div_zero, floor_zero]
    rw [← ok_inj.1 h2]; exact zero_toRat
  · rw [← neg_toRat]
    exact quotient (by rw [neg_scale, s2]) (by rw [neg_toRat]; linarith) g1 h2

/-- C119 for sales of Y. -/
theorem C119_report_y {fl : FloatEnv} {dy o : Decimal} {p p' : Pool} {r : SwapOutput} (hp : Reachable p)
    (h : p.executeSwapFromY fl dy o = .ok (p', r)) : ReportsY p' r := by
  have hr := rp_amount (.step hp (.sellY h))
  obtain ⟨a, s1, s2, hf⟩ := plain_accY h
  obtain ⟨_, e1, e2, _, _, g1, g2, _, h1, h2⟩ := finishY_ok hf
  obtain ⟨_, k⟩ := square hr.2 h1
  rw [hr.1] at k
  refine ⟨k, ?_⟩
  rw [e1] at g1 ⊢
  rw [e2] at g2 ⊢
  rw [ite_ok] at h2
  rcases h2 with ⟨h3, h2⟩ | ⟨h3, h2⟩
  · rw [isZero_toRat.1 h3, neg_zero, div_zero, floor_zero]
    rw [← ok_inj.1 h2]; exact zero_toRat
  · rw [← neg_toRat]
    exact quotient s1 g1 (by rw [neg_toRat]; linarith) h2

/-! ### Sales of Y never beat the price -/

/-- The X paid for a rise of the price, against the Y taken for it. -/
theorem paidX {l a b c : Decimal} {v : ℚ} (hl : 0 ≤ l.toRat) (ha : a.Amount 12) (hb : b.Amount 12) (h1 : 1 ≤ a.toRat)
    (hab : a.toRat ≤ b.toRat) (h : dxFromLDrp l a b = .ok c) (hv : 0 ≤ v)
    (hle : ∀ d n, a.sub b = .ok d → l.mul d = .ok n → -n.toRat ≤ v) : a.toRat ^ 2 * -c.toRat ≤ v := by
  unfold dxFromLDrp at h
  rw [ite_ok] at h
  rcases h with ⟨_, h⟩ | ⟨_, h⟩
  · simp [rpanic] at h
  steps at h
  obtain ⟨d, hd, m, hm, n, hn, hc⟩ := h
  have hv1 := hle d n hd hn
  have ed := sub_toRat hd
  obtain ⟨m1, m2, m3⟩ := mul_ge_one hm h1 (h1.trans hab)
  rw [ha.1] at m3
  have hld : l.toRat * d.toRat ≤ 0 := mul_nonpos_of_nonneg_of_nonpos hl (by linarith)
  obtain ⟨n0, _, _⟩ := mul_up hn hld
  obtain ⟨m0, c0, c1, _⟩ := div_up hc n0 (by linarith)
  rcases eq_or_lt_of_le hab with e | hlt
  · have hd0 : d.toRat = 0 := by rw [ed, e]; ring
    have : 0 ≤ n.toRat := by
      have := (mul_up hn hld).2.1; rw [hd0, mul_zero] at this; exact this
    have : 0 ≤ n.toRat / m.toRat := div_nonneg this m0.le
    nlinarith [sq_nonneg a.toRat]
  · have hgap : a.toRat + ulp 12 ≤ b.toRat := by
      obtain ⟨av, rfl⟩ := ha.eq
      obtain ⟨bv, rfl⟩ := hb.eq
      rw [← not_le, toRat_le_mk, not_le] at hlt
      have : ((av : ℚ) + 1) ≤ bv := by exact_mod_cast hlt
      rw [toRat_mk, toRat_mk]
      unfold ulp
      rw [← add_div]
      gcongr
    have hu := ulp_pos (s := 12)
    have hm2 : a.toRat ^ 2 ≤ m.toRat := by nlinarith
    rw [div_le_iff₀ m0] at c1
    nlinarith

theorem paid_stepY {fl : FloatEnv} {dy o : Decimal} {p0 p p' : Pool} {a a' : SwapAcc} {g : Nat}
    (h : AimedY p0 p (some g) a) (hstep : stepY fl dy o p a g = .ok (p', a')) (hx : p.x.scale = 12)
    (hy : p.y.scale = 12) : p.gs.rp.toRat ^ 2 * (a.send.toRat - a'.send.toRat) ≤ a'.recv.toRat - a.recv.toRat := by
  obtain ⟨hs, _, hrp, hl⟩ := h
  obtain ⟨_, hle, hmin⟩ := hl g rfl
  obtain ⟨rem, r, xsum, newX, c1, chk, rs, newY, yFee, xAdj, fees, p1, h1, h2, h3, h4, _, _, _, _, h9, h10,
    h11, _, _, ht, hr, h14, _, _, hfs, hp1, h18⟩ := stepY_ok hstep
  obtain ⟨cp, _, _, k1, k2, _, k3, _, k4, _, k5, _, hadj, hfee, _⟩ := swapWithinY_ok h2
  obtain ⟨q, ff, m, dl, hq, hstart, _, _, hdl, _, hcase⟩ := fillY_ok k1
  have hL := hs.liq_nonneg
  have h1p := hs.one_le
  have hqs := (tickToRp_pos hq).1.1
  rw [hrp] at hcase k2 hstart hdl
  have hqle := (lt_le hstart).2.2 rfl
  have hrecs : r.recv.scale = 12 := by rw [← (add_ok.1 h14).1]; exact hy
  have hrps : p.gs.rp.scale = 12 := by
    unfold dyFromLDrp at hdl
    steps at hdl
    obtain ⟨d, hd, hc⟩ := hdl
    rw [← (sub_ok.1 hd).1]; exact hqs
  have hrpa : p.gs.rp.Amount 12 := .of_scale hrps (by linarith)
  have hls : p.gs.liq.scale = 12 := by
    have hcps : cp.scale = 12 := by rw [← (add_ok.1 k4).1]; exact hx
    unfold dxFromLDrp at k2
    rw [ite_ok] at k2
    rcases k2 with ⟨_, k2⟩ | ⟨_, k2⟩
    · simp [rpanic] at k2
    steps at k2
    obtain ⟨d, hd, m, hm, n, hn, hc⟩ := k2
    rw [← hcps, (div_mag hc).2.1, (mul_mag hn).1]
  have hend : p.gs.rp.toRat ≤ r.endRp.toRat := by
    rcases hcase with ⟨_, _, _, _, e, _⟩ | ⟨_, _, _, _, _, _, _, e1, e2⟩
    · rw [e]; exact hqle
    · exact (lt_le e1).2.2 rfl
  have hends : r.endRp.Amount 12 := by
    refine .of_scale ?_ (by linarith)
    rcases hcase with ⟨_, _, _, _, e, _⟩ | ⟨_, _, _, _, _, _, _, e1, e2⟩
    · rw [e]; exact hqs
    · rw [(lt_le e1).1]; exact hrps
  have key := paidX hL hrpa hends h1p hend k2 k5 fun d n hd hn => by
    have ed := sub_toRat hd
    have hld : p.gs.liq.toRat * d.toRat ≤ 0 := mul_nonpos_of_nonneg_of_nonpos hL (by linarith)
    obtain ⟨n0, n1, _⟩ := mul_up hn hld
    rcases hcase with ⟨_, _, e1, _, e2, _⟩ | ⟨_, _, e1, _, e3, _⟩
    · unfold dyFromLDrp at hdl
      steps at hdl
      obtain ⟨d', hd', hc⟩ := hdl
      have e' := sub_toRat hd'
      obtain ⟨s1, _, e4⟩ := mul_mag hn
      obtain ⟨s2, _, e5⟩ := mul_mag hc
      rw [← e1] at hc e5 s2
      obtain ⟨b1, b2, b3⟩ := mul_down hc (mul_nonneg (by rw [e', ← e2]; linarith) hL)
      have hsl : d'.scale = 12 := by rw [← s2, hrecs]
      have : n.mag = r.recv.mag := by
        have hdd : d.mag = d'.mag := by rw [← abs_toRat, ← abs_toRat, ed, e', e2, abs_sub_comm]
        rw [e4, e5, mul_comm d'.mag, hsl, hls, hdd]
      rw [← abs_of_nonpos n0, ← abs_of_nonneg b1, abs_toRat, abs_toRat, this]
    · rw [← e1] at e3
      have := (rpY_bounds e3 hrecs hL k5).1
      rw [ed] at n1
      linarith
  have e1 : a'.send.toRat = a.send.toRat + r.send.toRat := add_toRat h11
  have e2 : a'.recv.toRat = a.recv.toRat + r.recv.toRat + r.recvFee.toRat := by rw [add_toRat h10, add_toRat h9]
  have e3 := sub_toRat k3
  have e4 : a.send.toRat - a'.send.toRat ≤ -cp.toRat := by rw [e1]; linarith
  have := mul_le_mul_of_nonneg_left e4 (sq_nonneg p.gs.rp.toRat)
  linarith

/-- C119 for sales of Y: measured at the price before it, no sale pays out more than it takes in.  So the average it
reports is at least that price, up to rounding the square. -/
theorem C119_sell_y {fl : FloatEnv} {dy o : Decimal} {p p' : Pool} {r : SwapOutput} (hp : ClearReachable p)
    (h : p.executeSwapFromY fl dy o = .ok (p', r)) : p.gs.rp.toRat ^ 2 * -r.send.toRat ≤ r.recv.toRat ∧
      (r.send.toRat ≠ 0 → floorAt 12 (p.gs.rp.toRat ^ 2) ≤ r.avgPrice.toRat) := by
  have hs := Sound.clearReachable hp
  have ht := Tidy.reachable hp.reachable
  have hrep := (C119_report_y hp.reachable h).2
  have key : p.gs.rp.toRat ^ 2 * -r.send.toRat ≤ r.recv.toRat := by
    have h1 := hs.one_le
    unfold executeSwapFromY at h
    rw [ite_ok] at h
    rcases h with ⟨_, h⟩ | ⟨h0, h⟩
    · simp [rpanic] at h
    have hd : dy.isPositive = true := by simpa using h0
    obtain ⟨a', hf, hP⟩ := loopY_rule
      (H := fun q a => PhaseY dy p q a ∧ Rose p q ∧ (q.x.scale = 12 ∧ q.y.scale = 12) ∧
        p.gs.rp.toRat ^ 2 * -a.send.toRat ≤ a.recv.toRat)
      (G := fun q g a => AimedY p q g a ∧ Rose p q ∧ (q.x.scale = 12 ∧ q.y.scale = 12) ∧
        p.gs.rp.toRat ^ 2 * -a.send.toRat ≤ a.recv.toRat)
      (fun hP hl hg => by
        obtain ⟨b1, b2, _⟩ := goalY_ok hg
        refine ⟨hP.1.goal hl hg, ?_, by rw [b1.x, b1.y]; exact hP.2.2.1, by rw [b2]; exact hP.2.2.2⟩
        rcases hP.1 with ⟨hs, _⟩ | ⟨hl', _⟩
        · exact hP.2.1.trans (.goal hs hg)
        · rw [hl] at hl'; cases hl')
      (fun {q a g q' a'} hG hst => by
        have hdust := dust_stepY hG.1 hst hG.2.2.1.1 hG.2.2.1.2
        refine ⟨hG.1.step hd hst, hG.2.1.trans (.step hG.1.2.2.1 (hG.1.2.2.2 _ rfl).1 hst),
          ⟨hdust.xs hG.2.2.1.1, hdust.ys hG.2.2.1.2⟩, ?_⟩
        have k := paid_stepY hG.1 hst hG.2.2.1.1 hG.2.2.1.2
        have hup := hG.2.1.2.1
        have hsq : p.gs.rp.toRat ^ 2 ≤ q.gs.rp.toRat ^ 2 := by nlinarith
        have hsend : 0 ≤ a.send.toRat - a'.send.toRat := by
          obtain ⟨_, _, _, _, _, _, _, _, _, _, _, _, _, h2, _, _, _, _, _, _, _, _, h11, _⟩ := stepY_ok hst
          obtain ⟨_, _, _, _, _, _, _, _, _, _, _, k6, _⟩ := swapWithinY_ok h2
          rw [add_toRat h11]; linarith
        have := mul_le_mul_of_nonneg_right hsq hsend
        linarith [hG.2.2.2])
      ⟨.inl ⟨hs, .refl _, rfl, rfl⟩, ⟨rfl, le_rfl, .inl rfl⟩, ⟨ht.x.1, ht.y.1⟩, by simp [acc0, zero_toRat]⟩ h
    obtain ⟨_, e1, e2, _⟩ := finishY_ok hf
    rw [e1, e2]
    rcases hP with ⟨hP, _⟩ | hP
    · exact hP.2.2.2
    · exact hP.2.2.2
  refine ⟨key, fun hne => ?_⟩
  rw [hrep]
  apply floorAt_mono
  have h35 := C35_from_y h
  have hpos : 0 < -r.send.toRat := by
    have := lt_of_le_of_ne h35.2.2.1 hne
    linarith
  rw [le_div_iff₀ hpos]
  exact key

/-! ### Sales of X -/

/-- C119 for sales of X is false of the code: an offer of a single smallest unit is all fee, and the price still
falls by a unit because the new root price is rounded down; the trader is paid Y for that.  The check against
beating the price is skipped as nothing was taken besides the fee.  Here 1e-12 X buys almost 6e-8 Y at a price of
1.002. -/
theorem C119_sell_x_false : ∃ (p p' : Pool) (dx : Decimal) (r : SwapOutput), ClearReachable p ∧
    p.executeSwapFromX fl dx zero = .ok (p', r) ∧ 59000 < r.avgPrice.toRat ∧ p.gs.rp.toRat ^ 2 < 2 := by
  refine ⟨pool, (Sample.get (pool.executeSwapFromX fl ⟨1, 12, false⟩ zero)).1, ⟨1, 12, false⟩,
    (Sample.get (pool.executeSwapFromX fl ⟨1, 12, false⟩ zero)).2, pool_clear, by decide +kernel, ?_, ?_⟩
  · have : (Sample.get (pool.executeSwapFromX fl ⟨1, 12, false⟩ zero)).2.avgPrice = ⟨59953000000000000, 12, false⟩ := by
      decide +kernel
    rw [this, toRat_mk]; norm_num
  · have : pool.gs.rp = ⟨1001000450103, 12, false⟩ := by decide +kernel
    rw [this, toRat_mk]; norm_num

/-- The check in a step that takes something besides the fee and pays something. -/
theorem guardX {fl : FloatEnv} {p : Pool} {startRp : Decimal} {goal : Nat} {liq dx o : Decimal}
    {r : SwapWithinResult} (h : p.swapWithinX fl startRp goal liq dx o = .ok r) (h1 : r.recv.toRat ≠ 0)
    (h2 : r.send.toRat ≠ 0) : ∃ t avg sq, r.recv.add r.recvFee = .ok t ∧ r.send.neg.div t = .ok avg ∧
      startRp.powInt 2 = .ok sq ∧ avg.gt sq = .ok false := by
  unfold swapWithinX at h
  rw [ite_ok] at h
  rcases h with ⟨_, h⟩ | ⟨h0, h⟩
  · simp [rpanic] at h
  rw [bind_ok] at h
  obtain ⟨⟨doneDx, feeX, cross, endT, endRp⟩, _, h⟩ := h
  simp only at h
  rw [bind_ok] at h; obtain ⟨dyCpmm, _, h⟩ := h
  rw [bind_ok] at h; obtain ⟨doneDy, _, h⟩ := h
  rw [bind_ok] at h; obtain ⟨hmmAdj, _, h⟩ := h
  rw [ite_ok] at h; rcases h with ⟨_, h⟩ | ⟨_, h⟩; · simp [rpanic] at h
  rw [ite_ok] at h; rcases h with ⟨_, h⟩ | ⟨_, h⟩; · simp [rpanic] at h
  rw [bind_ok] at h; obtain ⟨ysum, _, h⟩ := h
  rw [ite_ok] at h; rcases h with ⟨_, h⟩ | ⟨_, h⟩; · simp [rpanic] at h
  rw [ite_ok] at h
  rcases h with ⟨_, h⟩ | ⟨hc, h⟩
  · steps at h
    obtain ⟨t, h3, avg, h4, sq, h5, b, h6, _, h7, h⟩ := h
    obtain ⟨_, _, _, _, _, rfl⟩ := swapWithinResult_ok h
    refine ⟨t, avg, sq, h3, h4, h5, ?_⟩
    cases b
    · exact h6
    · simp at h7
  · obtain ⟨_, _, _, _, _, rfl⟩ := swapWithinResult_ok h
    exfalso; apply hc
    simp only [Bool.and_eq_true, Bool.not_eq_true', ← Bool.not_eq_true, isZero_toRat]
    exact ⟨h1, h2⟩

/-- The rest of a sale of X does not raise the price. -/
theorem run_fell {fl : FloatEnv} {dx o : Decimal} (hd : dx.isPositive = true) {p0 p p' : Pool} {a : SwapAcc} {n : Nat}
    {r : SwapOutput} (h : PhaseX dx p0 p a) (hrun : loopX fl dx o n p a = .ok (p', r)) : Fell p p' := by
  obtain ⟨a', hf, ⟨⟨_, hF⟩, _⟩ | ⟨_, hF⟩⟩ := loopX_rule (H := fun q a => PhaseX dx p0 q a ∧ Fell p q)
    (G := fun q g a => AimedX p0 q g a ∧ Fell p q)
    (fun hP hl hg => ⟨hP.1.goal hl hg, by
      rcases hP.1 with ⟨hs, _⟩ | ⟨hl', _⟩
      · exact hP.2.trans (.goal hs hg)
      · rw [hl] at hl'; cases hl'⟩)
    (fun hG hst => ⟨hG.1.step hd hst, hG.2.trans (.step hG.1.2.2.1 (hG.1.2.2.2 _ rfl).1 hst)⟩)
    ⟨h, rfl, le_rfl, .inl rfl⟩ hrun
  · exact hF
  · exact hF

/-- A sale of X that stays above all initialised ticks that were below the price is a single step, unless it takes
nothing. -/
theorem one_stepX {fl : FloatEnv} {dx o : Decimal} {p p' : Pool} {r : SwapOutput} (hp : ClearReachable p)
    (h : p.executeSwapFromX fl dx o = .ok (p', r)) (hliq : 0 < p.gs.liq.toRat)
    (hin : ∀ t ∈ p.ticks.map (·.1), t ≤ p.gs.tick → tickPrice t < p'.gs.rp.toRat) :
    (r.recv.toRat = 0 ∧ p' = p) ∨ ∃ g a', stepX fl dx o p p.acc0 g = .ok (p', a') ∧ finishX p' a' = .ok (p', r) := by
  have hs := Sound.clearReachable hp
  have hP : PhaseX dx p p p.acc0 := .inl ⟨hs, .refl _, rfl, le_rfl⟩
  unfold executeSwapFromX at h
  rw [ite_ok] at h; rcases h with ⟨_, h⟩ | ⟨h0, h⟩; · simp [rpanic] at h
  have hd : dx.isPositive = true := by simpa using h0
  cases hn : p.swapFuel with
  | zero => rw [hn] at h; cases h
  | succ n =>
    rw [hn, loopX_succ, bind_ok] at h
    obtain ⟨b, hb, h⟩ := h
    have hz : (p.acc0).recv.toRat = 0 := zero_toRat
    cases b
    · obtain ⟨e, e1, _⟩ := finishX_ok h
      exact .inl ⟨by rw [e1, hz], e⟩
    · simp only [if_true] at h
      rw [bind_ok] at h
      obtain ⟨⟨p1, g, a1⟩, h1, h⟩ := h
      have hA := hP.goal (unwrap_ok.1 hb) h1
      obtain ⟨_, _, _, _, ⟨rfl, rfl, _, _⟩ | ⟨hl, _⟩⟩ := goalX_ok h1
      swap
      · exact absurd (isPositive_toRat.2 hliq) (by rw [hl]; simp)
      cases g with
      | none =>
        obtain ⟨e, e1, _⟩ := finishX_ok h
        exact .inl ⟨by rw [e1, hz], e⟩
      | some g =>
        unfold afterGoalX at h
        simp only at h
        rw [bind_ok] at h
        obtain ⟨⟨p2, a2⟩, h2, h⟩ := h
        simp only at h
        have hP2 := hA.step hd h2
        have hF := run_fell hd hP2 h
        obtain ⟨gm, gle, _⟩ := hA.2.2.2 g rfl
        obtain ⟨rem, w, ysum, newY, c1, chk, rs, newX, xFee, yAdj, fees, q1, k1, k2, _, _, _, _, _, _, k9, k10,
          _, _, _, _, kr, _, _, _, _, hq1, hc⟩ := stepX_ok h2
        obtain ⟨_, _, _, k3, _⟩ := swapWithinX_ok k2
        obtain ⟨q, _, _, _, hq, _, _, _, _, _, hcase⟩ := fillX_ok k3
        have hcross : w.cross = false := by
          rcases hcase with ⟨_, hcr, _, _, hrp, _⟩ | ⟨_, hcr, _⟩
          swap; · exact hcr
          exfalso
          have hlow := hin g gm gle
          have : p2.gs.rp.toRat = tickPrice g := by
            rw [tickPrice_eq hq, ← hrp]
            rcases hc with ⟨_, _, _, hc⟩ | ⟨_, _, _, rfl⟩ | ⟨_, rfl⟩
            · rw [(crossTick_frame hc).2.2.2.2.2.2.2.2.2.2.2.1, hq1]
            · rw [hq1]
            · rw [hq1]
          have := hF.2.1
          linarith
        rw [hcross] at hcase hc
        rcases hcase with ⟨_, hcf, _⟩ | ⟨_, _, e, hf, _⟩
        · cases hcf
        have he : a2.recv.toRat = dx.toRat := by
          rw [add_toRat k10, add_toRat k9, sub_toRat hf, e, sub_toRat k1]; ring
        have hsc : a2.recv.scale = dx.scale := by
          rw [(add_ok.1 k10).2.2.1, (add_ok.1 k9).2.2.1]; exact (sub_ok.1 k1).1.symm
        cases n with
        | zero => cases h
        | succ n =>
          rw [loopX_succ, lt_false_of_eq hd hsc he, bind_ok] at h
          obtain ⟨b, hb, h⟩ := h
          cases unwrap_ok.1 hb
          simp only [Bool.false_eq_true, if_false] at h
          obtain ⟨e, _⟩ := finishX_ok h
          subst e
          exact .inr ⟨g, a2, h2, h⟩

/-- C119 for sales of X, the part that holds: a sale that stays within the range of ticks it starts in and takes
something besides its fee does not beat the price.  Missing: sales that are all fee, for which it is false
(`C119_sell_x_false`), and sales over several ranges, which may end with a step of that kind; `C72_value_partial`
bounds what they gain. -/
theorem C119_sell_x_partial {fl : FloatEnv} {dx o : Decimal} {p p' : Pool} {r : SwapOutput} (hp : ClearReachable p)
    (h : p.executeSwapFromX fl dx o = .ok (p', r)) (hliq : 0 < p.gs.liq.toRat)
    (hin : ∀ t ∈ p.ticks.map (·.1), t ≤ p.gs.tick → tickPrice t < p'.gs.rp.toRat)
    (hfee : r.recvFee.toRat ≠ r.recv.toRat) : r.avgPrice.toRat ≤ floorAt 12 (p.gs.rp.toRat ^ 2) := by
  have hrep := (C119_report_x hp.reachable h).2
  have hra := rp_amount hp.reachable
  have hnn : 0 ≤ floorAt 12 (p.gs.rp.toRat ^ 2) := by unfold floorAt; positivity
  rcases one_stepX hp h hliq hin with ⟨hz, _⟩ | ⟨g, a', hst, hf⟩
  · rw [hrep, hz, div_zero, floor_zero]; exact hnn
  by_cases hsend : r.send.toRat = 0
  · rw [hrep, hsend, neg_zero, zero_div, floor_zero]; exact hnn
  obtain ⟨_, e1, e2, _, e4, _⟩ := finishX_ok hf
  obtain ⟨rem, w, _, _, _, _, rs, _, _, _, _, _, _, h2, _, _, _, _, _, _, h9, h10, h11, _, h13, _⟩ := stepX_ok hst
  have hz : (p.acc0).recv.toRat = 0 := zero_toRat
  have hz2 : (p.acc0).send.toRat = 0 := zero_toRat
  have hz3 : (p.acc0).fee.toRat = 0 := zero_toRat
  have f1 : r.recv.toRat = w.recv.toRat + w.recvFee.toRat := by rw [e1, add_toRat h10, add_toRat h9, hz]; ring
  have f2 : r.send.toRat = w.send.toRat := by rw [e2, add_toRat h11, hz2]; ring
  have f3 : r.recvFee.toRat = w.recvFee.toRat := by rw [e4, add_toRat h13, hz3]; ring
  obtain ⟨t, avg, sq, k1, k2, k3, k4⟩ := guardX h2 (by intro hc; rw [hc, zero_add] at f1; exact hfee (f3.trans f1.symm))
    (by rw [← f2]; exact hsend)
  obtain ⟨_, _, _, _, _, _, _, _, _, _, w1, w2, _, w3, _⟩ := swapWithinX_ok h2
  have hws : w.send.scale = 12 := by rw [← (add_ok.1 h11).1]; rfl
  have q1 := quotient (by rw [neg_scale, hws]) (by rw [neg_toRat]; linarith) (by rw [add_toRat k1]; linarith) k2
  rw [neg_toRat, add_toRat k1, ← f1, ← f2, ← hrep] at q1
  obtain ⟨_, q2⟩ := square hra.2 k3
  rw [hra.1] at q2
  rw [← q1]
  exact ((gt_le k4).2.2 rfl).trans_eq q2

/-- The sample pool sells one X, staying above tick 15, at no more than its price, and takes 17 Y across tick 25 at
no less. -/
example : ClearReachable pool ∧ 0 < pool.gs.liq.toRat ∧
    (∃ p' r, pool.executeSwapFromX fl (D 1) zero = .ok (p', r) ∧ tickPrice 15 < p'.gs.rp.toRat ∧
      r.recvFee.value < r.recv.value ∧ 0 < r.avgPrice.value) ∧
    ∃ p' r, pool.executeSwapFromY fl (D 17) zero = .ok (p', r) ∧ r.send.value ≠ 0 := by
  refine ⟨pool_clear, ?_, ⟨(Sample.get (pool.executeSwapFromX fl (D 1) zero)).1,
    (Sample.get (pool.executeSwapFromX fl (D 1) zero)).2, by decide +kernel, ?_, by decide +kernel, by decide +kernel⟩,
    (Sample.get (pool.executeSwapFromY fl (D 17) zero)).1, (Sample.get (pool.executeSwapFromY fl (D 17) zero)).2,
    by decide +kernel, by decide +kernel⟩
  · exact isPositive_toRat.1 (by decide +kernel)
  · have h1 : tickToRp 15 = .ok ⟨1000750243782, 12, false⟩ := by decide +kernel
    have h2 : (Sample.get (pool.executeSwapFromX fl (D 1) zero)).1.gs.rp = ⟨1000983787402, 12, false⟩ := by decide +kernel
    rw [tickPrice_eq h1, h2, toRat_mk, toRat_mk]
    norm_num

end Pool

end Hmm
