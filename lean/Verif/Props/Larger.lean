import Verif.Props.Reports
import Verif.Props.PoolMath

/-
C120: a larger sale against the same pool.
-/

namespace Hmm.Pool

open Decimal PoolMath
open Hmm.Sample hiding get

/-! ### The same round of two sales -/

/-- A step depends on the offer only through what it fills. -/
theorem within_sameX {fl : FloatEnv} {p : Pool} {s l d1 d2 o : Decimal} {g : Nat} {r1 r2 : SwapWithinResult}
    (h1 : p.swapWithinX fl s g l d1 o = .ok r1) (h2 : p.swapWithinX fl s g l d2 o = .ok r2)
    (h : p.fillX s g l d1 = p.fillX s g l d2) : r1 = r2 := by
  unfold swapWithinX at h1 h2
  rw [ite_ok] at h1 h2
  rcases h1 with ⟨_, h1⟩ | ⟨_, h1⟩
  · simp [rpanic] at h1
  rcases h2 with ⟨_, h2⟩ | ⟨_, h2⟩
  · simp [rpanic] at h2
  rw [h, h2] at h1
  exact (ok_inj.1 h1).symm

theorem within_sameY {fl : FloatEnv} {p : Pool} {s l d1 d2 o : Decimal} {g : Nat} {r1 r2 : SwapWithinResult}
    (h1 : p.swapWithinY fl s g l d1 o = .ok r1) (h2 : p.swapWithinY fl s g l d2 o = .ok r2)
    (h : p.fillY s g l d1 = p.fillY s g l d2) : r1 = r2 := by
  unfold swapWithinY at h1 h2
  rw [ite_ok] at h1 h2
  rcases h1 with ⟨_, h1⟩ | ⟨_, h1⟩
  · simp [rpanic] at h1
  rcases h2 with ⟨_, h2⟩ | ⟨_, h2⟩
  · simp [rpanic] at h2
  rw [h, h2] at h1
  exact (ok_inj.1 h1).symm

/-- What a step does once it is known what it fills. -/
theorem step_sameX {fl : FloatEnv} {p p1 p2 : Pool} {a a1 a2 : SwapAcc} {d1 d2 m1 m2 o : Decimal} {g : Nat}
    (h1 : stepX fl d1 o p a g = .ok (p1, a1)) (h2 : stepX fl d2 o p a g = .ok (p2, a2))
    (e1 : d1.sub a.recv = .ok m1) (e2 : d2.sub a.recv = .ok m2)
    (h : p.fillX a.currRp g p.gs.liq m1 = p.fillX a.currRp g p.gs.liq m2) : p1 = p2 ∧ a1 = a2 := by
  unfold stepX at h1 h2
  rw [e1, bind_ok] at h1
  obtain ⟨x1, f1, h1⟩ := h1
  cases f1
  rw [e2, bind_ok] at h2
  obtain ⟨x2, f2, h2⟩ := h2
  cases f2
  rw [bind_ok] at h1 h2
  obtain ⟨r1, w1, h1⟩ := h1
  obtain ⟨r2, w2, h2⟩ := h2
  have := within_sameX w1 w2 h
  subst this
  rw [bind_ok] at h1 h2
  obtain ⟨_, y1, h1⟩ := h1
  obtain ⟨_, y2, h2⟩ := h2
  rw [y1] at y2; cases y2
  rw [bind_ok] at h1 h2
  obtain ⟨_, y1, h1⟩ := h1
  obtain ⟨_, y2, h2⟩ := h2
  rw [y1] at y2; cases y2
  rw [bind_ok] at h1 h2
  obtain ⟨_, _, h1⟩ := h1
  obtain ⟨_, _, h2⟩ := h2
  rw [bind_ok] at h1 h2
  obtain ⟨_, _, h1⟩ := h1
  obtain ⟨_, _, h2⟩ := h2
  rw [bind_ok] at h1 h2
  obtain ⟨_, _, h1⟩ := h1
  obtain ⟨_, _, h2⟩ := h2
  rw [bind_ok] at h1 h2
  obtain ⟨_, _, h1⟩ := h1
  obtain ⟨_, _, h2⟩ := h2
  rw [h1] at h2
  have := ok_inj.1 h2
  rwa [Prod.mk.injEq] at this

/-- What a step does to the reserves and the price. -/
theorem step_booksX {fl : FloatEnv} {dx o : Decimal} {p p' : Pool} {a a' : SwapAcc} {g : Nat}
    (h : stepX fl dx o p a g = .ok (p', a')) : ∃ (rem : Decimal) (r : SwapWithinResult) (cp : Decimal), dx.sub a.recv = .ok rem ∧ 0 ≤ rem.toRat ∧
      p.fillX a.currRp g p.gs.liq rem = .ok (r.recv, r.recvFee, r.cross, r.endTick, r.endRp) ∧
      dyFromLDrp p.gs.liq a.currRp r.endRp = .ok cp ∧ cp.toRat ≤ 0 ∧ 0 ≤ r.recv.toRat ∧ 0 ≤ r.recvFee.toRat ∧
      p'.gs.rp = r.endRp ∧ p'.x.toRat = p.x.toRat + r.recv.toRat ∧ p'.y.toRat = p.y.toRat + cp.toRat ∧
      p'.feeRate = p.feeRate ∧ p'.c = p.c ∧
      (∃ rs, a.recv.add r.recv = .ok rs ∧ rs.add r.recvFee = .ok a'.recv) := by
  obtain ⟨rem, r, ysum, newY, c1, chk, rs, newX, xFee, yAdj, fees, p1, h1, h2, h3, h4, _, _, _, _, h9, h10,
    _, _, _, _, _, h11, _, _, _, hp1, hc⟩ := stepX_ok h
  obtain ⟨cp, _, k1, k2, k3, _, k4, k5, _, _, k6, _, _, k7, _⟩ := swapWithinX_ok h2
  have key : p'.gs.rp = p1.gs.rp ∧ p'.x = p1.x ∧ p'.y = p1.y ∧ p'.feeRate = p1.feeRate ∧ p'.c = p1.c := by
    rcases hc with ⟨_, _, _, hc⟩ | ⟨_, _, _, rfl⟩ | ⟨_, rfl⟩
    · have := crossTick_frame hc
      exact ⟨this.2.2.2.2.2.2.2.2.2.2.2.1, this.1, this.2.1, this.2.2.2.2.2.2.2.2.2.1, this.2.2.2.2.2.2.2.2.1⟩
    · exact ⟨rfl, rfl, rfl, rfl, rfl⟩
    · exact ⟨rfl, rfl, rfl, rfl, rfl⟩
  obtain ⟨e1, e2, e3, e4, e5⟩ := key
  rw [hp1] at e1 e2 e3 e4 e5
  refine ⟨rem, r, cp, h1, k1, k2, k3, k5, k6, k7, e1, ?_, ?_, e4, e5, rs, h9, h10⟩
  · rw [e2]; exact add_toRat h11
  · rw [e3]; simp only
    rw [sub_toRat h4, add_toRat h3, sub_toRat k4]; ring

/-- The step of the smaller sale and the step of the larger one from the same state: they do the same, or the smaller
sale is filled. -/
theorem compareX {fl : FloatEnv} {q p1 p2 : Pool} {a a1 a2 : SwapAcc} {d1 d2 o : Decimal} {g : Nat}
    (ht : Tidy q) (h0 : 0 < q.gs.rp.toRat) (hfee : q.feeRate.toRat ≤ 1) (hrp : a.currRp = q.gs.rp)
    (hd1 : d1.Amount 12) (hd2 : d2.Amount 12) (hle : d1.toRat ≤ d2.toRat)
    (h1 : stepX fl d1 o q a g = .ok (p1, a1)) (h2 : stepX fl d2 o q a g = .ok (p2, a2)) :
    (p1 = p2 ∧ a1 = a2) ∨ (a1.recv.toRat = d1.toRat ∧ a1.recv.scale = d1.scale ∧
      p2.gs.rp.toRat ≤ p1.gs.rp.toRat ∧ p1.x.toRat ≤ p2.x.toRat ∧ p2.y.toRat ≤ p1.y.toRat) := by
  obtain ⟨m1, r1, cp1, e1, n1, f1, g1, _, _, _, z1, x1, y1, _, _, s1, u1, v1⟩ := step_booksX h1
  obtain ⟨m2, r2, cp2, e2, n2, f2, g2, _, _, _, z2, x2, y2, _, _, _⟩ := step_booksX h2
  have f1' := f1
  have f2' := f2
  obtain ⟨rg, ff, mx1, db, k1, k2, k3, k4, k5, k6, c1⟩ := fillX_ok f1
  obtain ⟨rg', ff', mx2, db', k1', _, k3', k4', k5', _, c2⟩ := fillX_ok f2
  rw [k1] at k1'; cases k1'
  rw [k3] at k3'; cases k3'
  rw [k5] at k5'; cases k5'
  have am1 := hd1.sub e1 n1
  have am2 := hd2.sub e2 n2
  have one12 : PoolMath.one.Amount 12 := ⟨rfl, rfl⟩
  have aff : ff.Amount 12 := one12.sub k3 (by
    rw [sub_toRat k3]
    have : PoolMath.one.toRat = 1 := by rw [show PoolMath.one = ⟨10 ^ 12, 12, false⟩ from rfl, toRat_mk]; norm_num
    linarith)
  have al := ht.liq
  have arg := (tickToRp_pos k1).1
  have asr : a.currRp.Amount 12 := by
    refine .of_scale ?_ (by rw [hrp]; exact h0)
    rw [← (gt_le k2).1]; exact arg.1
  have hm : m1.toRat ≤ m2.toRat := by rw [sub_toRat e1, sub_toRat e2]; linarith
  have hgs := (gt_le k2).2.2 rfl
  obtain ⟨m1, rfl⟩ := am1.eq
  obtain ⟨m2, rfl⟩ := am2.eq
  obtain ⟨f, rfl⟩ := aff.eq
  obtain ⟨l, hl⟩ := al.eq
  obtain ⟨b, rfl⟩ := arg.eq
  obtain ⟨s, hs⟩ := asr.eq
  rw [hl, hs] at k5 g1 g2
  rw [hs] at hgs
  rw [toRat_le_mk] at hm hgs
  have hx1 := mul_nn k4
  have hx2 := mul_nn k4'
  have hdb := (dx_nn k5).2.2.2
  rw [if_pos hgs] at hdb
  have hmx : m1 * f / 10 ^ 12 ≤ m2 * f / 10 ^ 12 := Nat.div_le_div_right (Nat.mul_le_mul_right _ hm)
  have hy : ∀ {e1 e2 : Decimal}, e1.Amount 12 → e2.Amount 12 → e2.toRat ≤ e1.toRat → e1.toRat ≤ (Decimal.mk s 12 false).toRat →
      dyFromLDrp ⟨l, 12, false⟩ ⟨s, 12, false⟩ e1 = .ok cp1 →
      dyFromLDrp ⟨l, 12, false⟩ ⟨s, 12, false⟩ e2 = .ok cp2 → cp2.toRat ≤ cp1.toRat := by
    intro e1 e2 ha hb he hs h1 h2
    obtain ⟨e1, rfl⟩ := ha.eq
    obtain ⟨e2, rfl⟩ := hb.eq
    rw [toRat_le_mk] at he hs
    have hv : ∀ {e : Nat} {c : Decimal}, e ≤ s → dyFromLDrp ⟨l, 12, false⟩ ⟨s, 12, false⟩ ⟨e, 12, false⟩ = .ok c →
        c.toRat = -((((s - e) * l / 10 ^ 12 : ℕ) : ℚ) / 10 ^ 12) := by
      intro e c he h
      rw [dy_nn h]
      split
      · have : e = s := by omega
        subst this
        rw [toRat_mk]; simp
      · rw [toRat_mk_neg]
    rw [hv hs h1, hv (he.trans hs) h2, neg_le_neg_iff, div_le_div_iff_of_pos_right (by norm_num)]
    exact_mod_cast Nat.div_le_div_right (Nat.mul_le_mul_right _ (by omega))
  rcases c1 with ⟨l1, q1, q2, q3, q4, w1, w2, w3⟩ | ⟨l1, q1, q2, q3, q4, _, _, q5, q6⟩
  · left
    rcases c2 with ⟨l2, q1', q2', q3', q4', w1', w2', w3'⟩ | ⟨l2, _⟩
    · rw [w2] at w2'; cases w2'
      rw [w3] at w3'
      have : r1.recvFee = r2.recvFee := ok_inj.1 w3'
      exact step_sameX h1 h2 e1 e2 (by rw [f1', f2', q1, q2, q3, q4, q1', q2', q3', q4', this])
    · exfalso
      rw [hdb, hx1, lt_nn, ok_inj, decide_eq_true_eq] at l1
      rw [hdb, hx2, lt_nn, ok_inj, decide_eq_false_iff_not] at l2
      omega
  · right
    have ar1 : r1.endRp.Amount 12 := by
      rw [hl, hs, hx1] at q4
      rw [(rpDx_nn q4).2]; exact ⟨rfl, rfl⟩
    have he1 := (gt_le q5).2.2 rfl
    have hg1 := (lt_le q6).2.2 rfl
    refine ⟨?_, ?_, ?_⟩
    · rw [add_toRat v1, add_toRat u1, sub_toRat q3, q2, sub_toRat e1]; ring
    · rw [(add_ok.1 v1).2.2.1, (add_ok.1 u1).2.2.1]; exact (sub_ok.1 e1).1.symm
    rw [hdb, hx1, lt_nn, ok_inj, decide_eq_false_iff_not, Nat.not_lt] at l1
    have fin : ∀ e2 : Decimal, r2.endRp = e2 → e2.Amount 12 → e2.toRat ≤ r1.endRp.toRat → r1.recv.toRat ≤ r2.recv.toRat →
        p2.gs.rp.toRat ≤ p1.gs.rp.toRat ∧ p1.x.toRat ≤ p2.x.toRat ∧ p2.y.toRat ≤ p1.y.toRat := by
      rintro e2 rfl ha hle hr
      refine ⟨by rw [z1, z2]; exact hle, by rw [x1, x2]; linarith, ?_⟩
      rw [y1, y2]
      have := hy ar1 ha hle (by rw [← hs]; exact he1) g1 g2
      linarith
    rcases c2 with ⟨l2, _, q2', _, q4', _⟩ | ⟨l2, _, q2', _, q4', _⟩
    · refine fin _ q4' arg hg1 ?_
      rw [q2, q2', hx1, hdb, toRat_le_mk]; exact l1
    · rw [hx1] at q4
      rw [hx2] at q4'
      have ar2 : r2.endRp.Amount 12 := by
        rw [hl, hs] at q4'
        rw [(rpDx_nn q4').2]; exact ⟨rfl, rfl⟩
      refine fin _ rfl ar2 ?_ ?_
      · rw [hl, hs] at q4 q4'
        exact C31_dx_mono (amount_mk _ _) (amount_mk _ _) (amount_mk _ _) (amount_mk _ _) (toRat_le_mk.2 hmx) q4 q4'
      · rw [q2, q2', hx1, hx2, toRat_le_mk]; exact hmx

/-- The rest of a sale of X does not take X out of the pool or put Y in. -/
theorem run_booksX {fl : FloatEnv} {dx o : Decimal} {p p' : Pool} {a : SwapAcc} {n : Nat} {r : SwapOutput}
    (hrun : loopX fl dx o n p a = .ok (p', r)) : p.x.toRat ≤ p'.x.toRat ∧ p'.y.toRat ≤ p.y.toRat := by
  obtain ⟨a', h, _⟩ := loopX_inv (P := fun q _ => p.x.toRat ≤ q.x.toRat ∧ q.y.toRat ≤ p.y.toRat)
    (fun hP hg => by
      obtain ⟨hb, _⟩ := goalX_ok hg
      rw [hb.x, hb.y]; exact hP)
    (fun _ hP hs => by
      obtain ⟨_, _, _, _, _, _, _, k1, k2, _, _, k3, k4, _⟩ := step_booksX hs
      rw [k3, k4]
      exact ⟨by linarith [hP.1], by linarith [hP.2]⟩) ⟨le_rfl, le_rfl⟩ hrun
  exact h

/-- Two sales of X side by side. -/
theorem lockX {fl : FloatEnv} {p0 : Pool} {d1 d2 o : Decimal} (hp1 : d1.isPositive = true) (hp2 : d2.isPositive = true)
    (hd1 : d1.Amount 12) (hd2 : d2.Amount 12) (hle : d1.toRat ≤ d2.toRat) :
    ∀ {n : Nat} {q p1 p2 : Pool} {a : SwapAcc} {r1 r2 : SwapOutput}, PhaseX d1 p0 q a → PhaseX d2 p0 q a → Tidy q →
      Recorded q → q.feeRate.toRat ≤ 1 → loopX fl d1 o n q a = .ok (p1, r1) → loopX fl d2 o n q a = .ok (p2, r2) →
      p2.gs.rp.toRat ≤ p1.gs.rp.toRat ∧ p1.x.toRat ≤ p2.x.toRat ∧ p2.y.toRat ≤ p1.y.toRat := by
  intro n
  induction n with
  | zero => intro q p1 p2 a r1 r2 _ _ _ _ _ h; cases h
  | succ n ih =>
    intro q p1 p2 a r1 r2 P1 P2 ht hr hfee h1 h2
    have h2' := h2
    rw [loopX_succ, bind_ok] at h1 h2
    obtain ⟨b1, l1, h1⟩ := h1
    obtain ⟨b2, l2, h2⟩ := h2
    rw [unwrap_ok] at l1 l2
    cases b1
    · have : p1 = q := (finishX_ok (by simpa using h1)).1
      subst this
      exact ⟨(run_fell hp2 P2 h2').2.1, run_booksX h2'⟩
    cases b2
    · -- the smaller sale is not yet filled, so the larger is not
      exfalso
      have : d1 = d2 := hd1.ext hd2 (le_antisymm hle (((lt_le l2).2.2 rfl).trans ((lt_le l1).2.1 rfl)))
      rw [this, l2] at l1; cases l1
    simp only [if_true] at h1 h2
    rw [bind_ok] at h1 h2
    obtain ⟨⟨q', g, a'⟩, hg, h1⟩ := h1
    obtain ⟨x, hg2, h2⟩ := h2
    rw [hg] at hg2; cases hg2
    have A1 := P1.goal l1 hg
    have A2 := P2.goal l2 hg
    obtain ⟨ht', hr'⟩ := goalX_inv (P := fun q => Tidy q ∧ Recorded q) ⟨ht, hr⟩ hg fun hp _ _ hc => ⟨hp.1.walk hp.2 hc, hp.2.walk hc⟩
    have hb := (goalX_ok hg).1
    cases g with
    | none =>
      have e1 : p1 = q' := (finishX_ok h1).1
      have e2 : p2 = q' := (finishX_ok h2).1
      rw [e1, e2]; exact ⟨le_rfl, le_rfl, le_rfl⟩
    | some g =>
      have h1 : (stepX fl d1 o q' a' g >>= fun s => loopX fl d1 o n s.1 s.2) = .ok (p1, r1) := h1
      have h2 : (stepX fl d2 o q' a' g >>= fun s => loopX fl d2 o n s.1 s.2) = .ok (p2, r2) := h2
      rw [bind_ok] at h1 h2
      obtain ⟨⟨q1, a1⟩, s1, h1⟩ := h1
      obtain ⟨⟨q2, a2⟩, s2, h2⟩ := h2
      simp only at h1 h2
      have hq : q'.feeRate.toRat ≤ 1 := by rw [hb.feeRate]; exact hfee
      have Q1 := A1.step hp1 s1
      have Q2 := A2.step hp2 s2
      rcases compareX ht' (zero_lt_one.trans_le A1.1.one_le) hq A1.2.2.1 hd1 hd2 hle s1 s2 with ⟨e1, e2⟩ | ⟨e1, e2, e3, e4, e5⟩
      · subst e1 e2
        refine ih Q1 Q2 (ht'.stepX hr' s1) ?_ ?_ h1 h2
        · obtain ⟨p1, _, h2, _, _, h3, ⟨_, h4⟩ | rfl⟩ := stepX_view s1
          · exact (hr'.mono h2 h3).cross h4
          · exact hr'.mono h2 h3
        · obtain ⟨_, _, _, _, _, _, _, _, _, _, _, _, _, k, _⟩ := step_booksX s1
          rw [k]; exact hq
      · have hp : p1 = q1 := by
          cases n with
          | zero => cases h1
          | succ n =>
            rw [loopX_succ, lt_false_of_eq hp1 e2 e1] at h1
            exact (finishX_ok h1).1
        rw [hp]
        have := run_booksX h2
        exact ⟨(run_fell hp2 Q2 h2).2.1.trans e3, e4.trans this.1, this.2.trans e5⟩

/-- C120: of two sales of X to the same pool the larger one ends at a price that is no higher, leaves no less X and no
more Y in the pool. -/
theorem C120_sell_x {fl : FloatEnv} {d1 d2 o : Decimal} {p p1 p2 : Pool} {r1 r2 : SwapOutput} (hp : ClearReachable p)
    (hfee : p.feeRate.toRat ≤ 1) (hle : d1.toRat ≤ d2.toRat) (h1 : p.executeSwapFromX fl d1 o = .ok (p1, r1))
    (h2 : p.executeSwapFromX fl d2 o = .ok (p2, r2)) :
    p2.gs.rp.toRat ≤ p1.gs.rp.toRat ∧ p1.x.toRat ≤ p2.x.toRat ∧ p2.y.toRat ≤ p1.y.toRat := by
  have hs := Sound.clearReachable hp
  have P : ∀ d, PhaseX d p p p.acc0 := fun d => .inl ⟨hs, .refl _, rfl, le_rfl⟩
  unfold executeSwapFromX at h1 h2
  rw [ite_ok] at h1; rcases h1 with ⟨_, h1⟩ | ⟨z1, h1⟩; · simp [rpanic] at h1
  rw [ite_ok] at h2; rcases h2 with ⟨_, h2⟩ | ⟨z2, h2⟩; · simp [rpanic] at h2
  have p1 : d1.isPositive = true := by simpa using z1
  have p2 : d2.isPositive = true := by simpa using z2
  have am : ∀ {d : Decimal} {x : Pool × SwapOutput}, d.isPositive = true →
      loopX fl d o p.swapFuel p p.acc0 = .ok x → d.Amount 12 := by
    intro d x hd h
    refine .of_scale ?_ (isPositive_toRat.1 hd)
    have : p.swapFuel = p.ticks.length + 1 + 1 := rfl
    rw [this, loopX_succ, bind_ok] at h
    obtain ⟨b, h, _⟩ := h
    exact (lt_le (unwrap_ok.1 h)).1.symm
  exact lockX p1 p2 (am p1 h1) (am p2 h2) hle (P _) (P _) (Tidy.reachable hp.reachable) (Recorded.reachable hp.reachable) hfee h1 h2

/-- What a step does once it is known what it fills. -/
theorem step_sameY {fl : FloatEnv} {p p1 p2 : Pool} {a a1 a2 : SwapAcc} {d1 d2 m1 m2 o : Decimal} {g : Nat}
    (h1 : stepY fl d1 o p a g = .ok (p1, a1)) (h2 : stepY fl d2 o p a g = .ok (p2, a2))
    (e1 : d1.sub a.recv = .ok m1) (e2 : d2.sub a.recv = .ok m2)
    (h : p.fillY a.currRp g p.gs.liq m1 = p.fillY a.currRp g p.gs.liq m2) : p1 = p2 ∧ a1 = a2 := by
  unfold stepY at h1 h2
  rw [e1, bind_ok] at h1
  obtain ⟨x1, f1, h1⟩ := h1
  cases f1
  rw [e2, bind_ok] at h2
  obtain ⟨x2, f2, h2⟩ := h2
  cases f2
  rw [bind_ok] at h1 h2
  obtain ⟨r1, w1, h1⟩ := h1
  obtain ⟨r2, w2, h2⟩ := h2
  have := within_sameY w1 w2 h
  subst this
  rw [bind_ok] at h1 h2
  obtain ⟨_, y1, h1⟩ := h1
  obtain ⟨_, y2, h2⟩ := h2
  rw [y1] at y2; cases y2
  rw [bind_ok] at h1 h2
  obtain ⟨_, y1, h1⟩ := h1
  obtain ⟨_, y2, h2⟩ := h2
  rw [y1] at y2; cases y2
  rw [bind_ok] at h1 h2
  obtain ⟨_, _, h1⟩ := h1
  obtain ⟨_, _, h2⟩ := h2
  rw [bind_ok] at h1 h2
  obtain ⟨_, _, h1⟩ := h1
  obtain ⟨_, _, h2⟩ := h2
  rw [bind_ok] at h1 h2
  obtain ⟨_, _, h1⟩ := h1
  obtain ⟨_, _, h2⟩ := h2
  rw [bind_ok] at h1 h2
  obtain ⟨_, _, h1⟩ := h1
  obtain ⟨_, _, h2⟩ := h2
  rw [h1] at h2
  have := ok_inj.1 h2
  rwa [Prod.mk.injEq] at this

/-- What a step does to the reserves and the price. -/
theorem step_booksY {fl : FloatEnv} {dy o : Decimal} {p p' : Pool} {a a' : SwapAcc} {g : Nat}
    (h : stepY fl dy o p a g = .ok (p', a')) : ∃ (rem : Decimal) (r : SwapWithinResult) (cp : Decimal), dy.sub a.recv = .ok rem ∧ 0 ≤ rem.toRat ∧
      p.fillY a.currRp g p.gs.liq rem = .ok (r.recv, r.recvFee, r.cross, r.endTick, r.endRp) ∧
      dxFromLDrp p.gs.liq a.currRp r.endRp = .ok cp ∧ cp.toRat ≤ 0 ∧ 0 ≤ r.recv.toRat ∧ 0 ≤ r.recvFee.toRat ∧
      p'.gs.rp = r.endRp ∧ p'.y.toRat = p.y.toRat + r.recv.toRat ∧ p'.x.toRat = p.x.toRat + cp.toRat ∧
      p'.feeRate = p.feeRate ∧ p'.c = p.c ∧
      (∃ rs, a.recv.add r.recv = .ok rs ∧ rs.add r.recvFee = .ok a'.recv) := by
  obtain ⟨rem, r, ysum, newY, c1, chk, rs, newX, xFee, yAdj, fees, p1, h1, h2, h3, h4, _, _, _, _, h9, h10,
    _, _, _, _, _, h11, _, _, _, hp1, hc⟩ := stepY_ok h
  obtain ⟨cp, _, k1, k2, k3, _, k4, k5, _, _, k6, _, _, k7, _⟩ := swapWithinY_ok h2
  have key : p'.gs.rp = p1.gs.rp ∧ p'.x = p1.x ∧ p'.y = p1.y ∧ p'.feeRate = p1.feeRate ∧ p'.c = p1.c := by
    rcases hc with ⟨_, _, _, hc⟩ | ⟨_, _, _, rfl⟩ | ⟨_, rfl⟩
    · have := crossTick_frame hc
      exact ⟨this.2.2.2.2.2.2.2.2.2.2.2.1, this.1, this.2.1, this.2.2.2.2.2.2.2.2.2.1, this.2.2.2.2.2.2.2.2.1⟩
    · exact ⟨rfl, rfl, rfl, rfl, rfl⟩
    · exact ⟨rfl, rfl, rfl, rfl, rfl⟩
  obtain ⟨e1, e2, e3, e4, e5⟩ := key
  rw [hp1] at e1 e2 e3 e4 e5
  refine ⟨rem, r, cp, h1, k1, k2, k3, k5, k6, k7, e1, ?_, ?_, e4, e5, rs, h9, h10⟩
  · rw [e3]; exact add_toRat h11
  · rw [e2]; simp only
    rw [sub_toRat h4, add_toRat h3, sub_toRat k4]; ring

/-- The step of the smaller sale of Y and the step of the larger one from the same state: they do the same, or the smaller
sale is filled. -/
theorem compareY {fl : FloatEnv} {q p1 p2 : Pool} {a a1 a2 : SwapAcc} {d1 d2 o : Decimal} {g : Nat}
    (ht : Tidy q) (h0 : 1 ≤ q.gs.rp.toRat) (hfee : q.feeRate.toRat ≤ 1) (hrp : a.currRp = q.gs.rp)
    (hd1 : d1.Amount 12) (hd2 : d2.Amount 12) (hle : d1.toRat ≤ d2.toRat)
    (h1 : stepY fl d1 o q a g = .ok (p1, a1)) (h2 : stepY fl d2 o q a g = .ok (p2, a2)) :
    (p1 = p2 ∧ a1 = a2) ∨ (a1.recv.toRat = d1.toRat ∧ a1.recv.scale = d1.scale ∧
      p1.gs.rp.toRat ≤ p2.gs.rp.toRat ∧ p1.y.toRat ≤ p2.y.toRat ∧
      p2.x.toRat ≤ p1.x.toRat + 2 * (q.gs.liq.toRat + 2) * ulp 12) := by
  obtain ⟨m1, r1, cp1, e1, n1, f1, g1, _, _, _, z1, x1, y1, _, _, s1, u1, v1⟩ := step_booksY h1
  obtain ⟨m2, r2, cp2, e2, n2, f2, g2, _, _, _, z2, x2, y2, _, _, _⟩ := step_booksY h2
  have f1' := f1
  have f2' := f2
  obtain ⟨rg, ff, mx1, db, k1, k2, k3, k4, k5, k6, c1⟩ := fillY_ok f1
  obtain ⟨rg', ff', mx2, db', k1', _, k3', k4', k5', _, c2⟩ := fillY_ok f2
  rw [k1] at k1'; cases k1'
  rw [k3] at k3'; cases k3'
  rw [k5] at k5'; cases k5'
  have am1 := hd1.sub e1 n1
  have am2 := hd2.sub e2 n2
  have one12 : PoolMath.one.Amount 12 := ⟨rfl, rfl⟩
  have aff : ff.Amount 12 := one12.sub k3 (by
    rw [sub_toRat k3]
    have : PoolMath.one.toRat = 1 := by rw [show PoolMath.one = ⟨10 ^ 12, 12, false⟩ from rfl, toRat_mk]; norm_num
    linarith)
  have al := ht.liq
  have arg := (tickToRp_pos k1).1
  have asr : a.currRp.Amount 12 := by
    refine .of_scale ?_ (by rw [hrp]; linarith)
    rw [← (lt_le k2).1]; exact arg.1
  have hm : m1.toRat ≤ m2.toRat := by rw [sub_toRat e1, sub_toRat e2]; linarith
  have hgs := (lt_le k2).2.2 rfl
  have hs1 : 1 ≤ a.currRp.toRat := by rw [hrp]; exact h0
  have hx : r1.endRp.toRat ≤ r2.endRp.toRat → a.currRp.toRat ≤ r1.endRp.toRat →
      cp2.toRat ≤ cp1.toRat + 2 * (q.gs.liq.toRat + 2) * ulp 12 := by
    intro h3 h4
    have b1 := abs_le.1 (dx_bounds g1 al.1 asr.1 al.nonneg hs1 (hs1.trans h4))
    have b2 := abs_le.1 (dx_bounds g2 al.1 asr.1 al.nonneg hs1 (hs1.trans (h4.trans h3)))
    have : q.gs.liq.toRat * (1 / r2.endRp.toRat - 1 / a.currRp.toRat) ≤
        q.gs.liq.toRat * (1 / r1.endRp.toRat - 1 / a.currRp.toRat) := by
      refine mul_le_mul_of_nonneg_left (sub_le_sub_right (one_div_le_one_div_of_le ?_ h3) _) al.nonneg
      linarith
    linarith [b1.1, b2.2]
  obtain ⟨m1, rfl⟩ := am1.eq
  obtain ⟨m2, rfl⟩ := am2.eq
  obtain ⟨f, rfl⟩ := aff.eq
  obtain ⟨l, hl⟩ := al.eq
  obtain ⟨b, rfl⟩ := arg.eq
  obtain ⟨s, hs⟩ := asr.eq
  rw [hl, hs] at k5
  rw [hs] at hgs
  rw [toRat_le_mk] at hm hgs
  have hx1 := mul_nn k4
  have hx2 := mul_nn k4'
  have hdb := dy_nn k5
  rw [if_pos hgs] at hdb
  have hmx : m1 * f / 10 ^ 12 ≤ m2 * f / 10 ^ 12 := Nat.div_le_div_right (Nat.mul_le_mul_right _ hm)
  rcases c1 with ⟨l1, q1, q2, q3, q4, w1, w2, w3⟩ | ⟨l1, q1, q2, q3, q4, _, _, q5, q6⟩
  · left
    rcases c2 with ⟨l2, q1', q2', q3', q4', w1', w2', w3'⟩ | ⟨l2, _⟩
    · rw [w2] at w2'; cases w2'
      rw [w3] at w3'
      have : r1.recvFee = r2.recvFee := ok_inj.1 w3'
      exact step_sameY h1 h2 e1 e2 (by rw [f1', f2', q1, q2, q3, q4, q1', q2', q3', q4', this])
    · exfalso
      rw [hdb, hx1, lt_nn, ok_inj, decide_eq_true_eq] at l1
      rw [hdb, hx2, lt_nn, ok_inj, decide_eq_false_iff_not] at l2
      omega
  · right
    have he1 := (lt_le q5).2.2 rfl
    have hg1 := (gt_le q6).2.2 rfl
    refine ⟨?_, ?_, ?_⟩
    · rw [add_toRat v1, add_toRat u1, sub_toRat q3, q2, sub_toRat e1]; ring
    · rw [(add_ok.1 v1).2.2.1, (add_ok.1 u1).2.2.1]; exact (sub_ok.1 e1).1.symm
    rw [hdb, hx1, lt_nn, ok_inj, decide_eq_false_iff_not, Nat.not_lt] at l1
    have fin : r1.endRp.toRat ≤ r2.endRp.toRat → r1.recv.toRat ≤ r2.recv.toRat →
        p1.gs.rp.toRat ≤ p2.gs.rp.toRat ∧ p1.y.toRat ≤ p2.y.toRat ∧
        p2.x.toRat ≤ p1.x.toRat + 2 * (q.gs.liq.toRat + 2) * ulp 12 := by
      intro hle hr
      refine ⟨by rw [z1, z2]; exact hle, by rw [x1, x2]; linarith, ?_⟩
      rw [y1, y2]
      have := hx hle he1
      linarith
    rcases c2 with ⟨l2, _, q2', _, q4', _⟩ | ⟨l2, _, q2', _, q4', _⟩
    · refine fin (by rw [q4']; exact hg1) ?_
      rw [q2, q2', hx1, hdb, toRat_le_mk]; exact l1
    · rw [hx1] at q4
      rw [hx2] at q4'
      refine fin ?_ ?_
      · rw [hl, hs] at q4 q4'
        exact C31_dy_mono (amount_mk _ _) (amount_mk _ _) (amount_mk _ _) (amount_mk _ _) (toRat_le_mk.2 hmx) q4 q4'
      · rw [q2, q2', hx1, hx2, toRat_le_mk]; exact hmx

/-- The rest of a sale of Y does not lower the price. -/
theorem run_rose {fl : FloatEnv} {dy o : Decimal} (hd : dy.isPositive = true) {p0 p p' : Pool} {a : SwapAcc} {n : Nat}
    {r : SwapOutput} (h : PhaseY dy p0 p a) (hrun : loopY fl dy o n p a = .ok (p', r)) : Rose p p' := by
  obtain ⟨a', hf, ⟨⟨_, hF⟩, _⟩ | ⟨_, hF⟩⟩ := loopY_rule (H := fun q a => PhaseY dy p0 q a ∧ Rose p q)
    (G := fun q g a => AimedY p0 q g a ∧ Rose p q)
    (fun hP hl hg => ⟨hP.1.goal hl hg, by
      rcases hP.1 with ⟨hs, _⟩ | ⟨hl', _⟩
      · exact hP.2.trans (.goal hs hg)
      · rw [hl] at hl'; cases hl'⟩)
    (fun hG hst => ⟨hG.1.step hd hst, hG.2.trans (.step hG.1.2.2.1 (hG.1.2.2.2 _ rfl).1 hst)⟩)
    ⟨h, rfl, le_rfl, .inl rfl⟩ hrun
  · exact hF
  · exact hF

/-- The rest of a sale of Y does not take Y out of the pool or put X in. -/
theorem run_booksY {fl : FloatEnv} {dy o : Decimal} {p p' : Pool} {a : SwapAcc} {n : Nat} {r : SwapOutput}
    (hrun : loopY fl dy o n p a = .ok (p', r)) : p.y.toRat ≤ p'.y.toRat ∧ p'.x.toRat ≤ p.x.toRat := by
  obtain ⟨a', h, _⟩ := loopY_inv (P := fun q _ => p.y.toRat ≤ q.y.toRat ∧ q.x.toRat ≤ p.x.toRat)
    (fun hP hg => by
      obtain ⟨hb, _⟩ := goalY_ok hg
      rw [hb.y, hb.x]; exact hP)
    (fun _ hP hs => by
      obtain ⟨_, _, _, _, _, _, _, k1, k2, _, _, k3, k4, _⟩ := step_booksY hs
      rw [k3, k4]
      exact ⟨by linarith [hP.1], by linarith [hP.2]⟩) ⟨le_rfl, le_rfl⟩ hrun
  exact h

/-- Two sales of Y side by side. -/
theorem lockY {fl : FloatEnv} {p0 : Pool} {L : ℚ} (hL : 0 ≤ L) {d1 d2 o : Decimal} (hp1 : d1.isPositive = true) (hp2 : d2.isPositive = true)
    (hd1 : d1.Amount 12) (hd2 : d2.Amount 12) (hle : d1.toRat ≤ d2.toRat) :
    ∀ {n : Nat} {q p1 p2 : Pool} {a : SwapAcc} {r1 r2 : SwapOutput}, PhaseY d1 p0 q a → PhaseY d2 p0 q a → Tidy q →
      Recorded q → q.feeRate.toRat ≤ 1 → q.totalLiq = L → loopY fl d1 o n q a = .ok (p1, r1) → loopY fl d2 o n q a = .ok (p2, r2) →
      p1.gs.rp.toRat ≤ p2.gs.rp.toRat ∧ p1.y.toRat ≤ p2.y.toRat ∧
      p2.x.toRat ≤ p1.x.toRat + 2 * (L + 2) * ulp 12 := by
  intro n
  induction n with
  | zero => intro q p1 p2 a r1 r2 _ _ _ _ _ _ h; cases h
  | succ n ih =>
    intro q p1 p2 a r1 r2 P1 P2 ht hr hfee hq0 h1 h2
    have h2' := h2
    rw [loopY_succ, bind_ok] at h1 h2
    obtain ⟨b1, l1, h1⟩ := h1
    obtain ⟨b2, l2, h2⟩ := h2
    rw [unwrap_ok] at l1 l2
    cases b1
    · have : p1 = q := (finishY_ok (by simpa using h1)).1
      subst this
      have k := run_booksY h2'
      have hu : 0 ≤ 2 * (L + 2) * ulp 12 := by unfold ulp; positivity
      exact ⟨(run_rose hp2 P2 h2').2.1, k.1, by linarith [k.2]⟩
    cases b2
    · -- the smaller sale is not yet filled, so the larger is not
      exfalso
      have : d1 = d2 := hd1.ext hd2 (le_antisymm hle (((lt_le l2).2.2 rfl).trans ((lt_le l1).2.1 rfl)))
      rw [this, l2] at l1; cases l1
    simp only [if_true] at h1 h2
    rw [bind_ok] at h1 h2
    obtain ⟨⟨q', g, a'⟩, hg, h1⟩ := h1
    obtain ⟨x, hg2, h2⟩ := h2
    rw [hg] at hg2; cases hg2
    have A1 := P1.goal l1 hg
    have A2 := P2.goal l2 hg
    obtain ⟨ht', hr'⟩ := goalY_inv (P := fun q => Tidy q ∧ Recorded q) ⟨ht, hr⟩ hg fun hp _ _ hc => ⟨hp.1.walk hp.2 hc, hp.2.walk hc⟩
    have hb := (goalY_ok hg).1
    cases g with
    | none =>
      have e1 : p1 = q' := (finishY_ok h1).1
      have e2 : p2 = q' := (finishY_ok h2).1
      have hu : 0 ≤ 2 * (L + 2) * ulp 12 := by unfold ulp; positivity
      rw [e1, e2]; exact ⟨le_rfl, le_rfl, by linarith⟩
    | some g =>
      have h1 : (stepY fl d1 o q' a' g >>= fun s => loopY fl d1 o n s.1 s.2) = .ok (p1, r1) := h1
      have h2 : (stepY fl d2 o q' a' g >>= fun s => loopY fl d2 o n s.1 s.2) = .ok (p2, r2) := h2
      rw [bind_ok] at h1 h2
      obtain ⟨⟨q1, a1⟩, s1, h1⟩ := h1
      obtain ⟨⟨q2, a2⟩, s2, h2⟩ := h2
      simp only at h1 h2
      have hq : q'.feeRate.toRat ≤ 1 := by rw [hb.feeRate]; exact hfee
      have Q1 := A1.step hp1 s1
      have Q2 := A2.step hp2 s2
      rcases compareY ht' A1.1.one_le hq A1.2.2.1 hd1 hd2 hle s1 s2 with ⟨e1, e2⟩ | ⟨e1, e2, e3, e4, e5⟩
      · subst e1 e2
        refine ih Q1 Q2 (ht'.stepY hr' s1) ?_ ?_ ?_ h1 h2
        · obtain ⟨p1, _, h2, _, _, h3, ⟨_, h4⟩ | rfl⟩ := stepY_view s1
          · exact (hr'.mono h2 h3).cross h4
          · exact hr'.mono h2 h3
        · obtain ⟨_, _, _, _, _, _, _, _, _, _, _, _, _, k, _⟩ := step_booksY s1
          rw [k]; exact hq
        · rw [← hq0, ← totalLiq_congr hb.positions]
          refine totalLiq_congr ?_
          obtain ⟨p1, k, _, _, _, _, ⟨_, h4⟩ | rfl⟩ := stepY_view s1
          · rw [(crossTick_frame h4).2.2.2.2.2.2.1]; exact k
          · exact k
      · have hp : p1 = q1 := by
          cases n with
          | zero => cases h1
          | succ n =>
            rw [loopY_succ, lt_false_of_eq hp1 e2 e1] at h1
            exact (finishY_ok h1).1
        rw [hp]
        have := run_booksY h2
        have hu : 0 ≤ ulp 12 := by unfold ulp; positivity
        have hl : q'.gs.liq.toRat ≤ L := by rw [← hq0, ← totalLiq_congr hb.positions]; exact A1.1.liq_le
        have hm := mul_le_mul_of_nonneg_right hl hu
        refine ⟨e3.trans (run_rose hp2 Q2 h2).2.1, e4.trans this.1, ?_⟩
        have := this.2
        linarith

/-- C120 for sales of Y: the price and the Y are as they should be, but there may be more X left after the larger sale, by
no more than the rounding of a single step. -/
theorem C120_sell_y_partial {fl : FloatEnv} {d1 d2 o : Decimal} {p p1 p2 : Pool} {r1 r2 : SwapOutput} (hp : ClearReachable p)
    (hfee : p.feeRate.toRat ≤ 1) (hle : d1.toRat ≤ d2.toRat) (h1 : p.executeSwapFromY fl d1 o = .ok (p1, r1))
    (h2 : p.executeSwapFromY fl d2 o = .ok (p2, r2)) :
    p1.gs.rp.toRat ≤ p2.gs.rp.toRat ∧ p1.y.toRat ≤ p2.y.toRat ∧
      p2.x.toRat ≤ p1.x.toRat + 2 * (p.totalLiq + 2) * ulp 12 := by
  have hs := Sound.clearReachable hp
  have P : ∀ d, PhaseY d p p p.acc0 := fun d => .inl ⟨hs, .refl _, rfl, rfl⟩
  unfold executeSwapFromY at h1 h2
  rw [ite_ok] at h1; rcases h1 with ⟨_, h1⟩ | ⟨z1, h1⟩; · simp [rpanic] at h1
  rw [ite_ok] at h2; rcases h2 with ⟨_, h2⟩ | ⟨z2, h2⟩; · simp [rpanic] at h2
  have p1 : d1.isPositive = true := by simpa using z1
  have p2 : d2.isPositive = true := by simpa using z2
  have am : ∀ {d : Decimal} {x : Pool × SwapOutput}, d.isPositive = true →
      loopY fl d o p.swapFuel p p.acc0 = .ok x → d.Amount 12 := by
    intro d x hd h
    refine .of_scale ?_ (isPositive_toRat.1 hd)
    have : p.swapFuel = p.ticks.length + 1 + 1 := rfl
    rw [this, loopY_succ, bind_ok] at h
    obtain ⟨b, h, _⟩ := h
    exact (lt_le (unwrap_ok.1 h)).1.symm
  exact lockY hs.total_nonneg p1 p2 (am p1 h1) (am p2 h2) hle (P _) (P _) (Tidy.reachable hp.reachable) (Recorded.reachable hp.reachable) hfee rfl h1 h2

/-- C120: without an adjustment, who sells more X is paid no less. -/
theorem C120_paid_x {fl : FloatEnv} {d1 d2 o : Decimal} {p p1 p2 : Pool} {r1 r2 : SwapOutput} (hp : ClearReachable p)
    (hfee : p.feeRate.toRat ≤ 1) (hle : d1.toRat ≤ d2.toRat) (h1 : p.executeSwapFromX fl d1 o = .ok (p1, r1))
    (h2 : p.executeSwapFromX fl d2 o = .ok (p2, r2)) (hz : p.c.toRat = 0 ∨ o.toRat = 0) :
    -r1.send.toRat ≤ -r2.send.toRat := by
  obtain ⟨_, _, a1, b1, _⟩ := C34_from_x h1
  obtain ⟨_, _, a2, b2, _⟩ := C34_from_x h2
  have c1 := (adj_sellX h1).2 hz
  have c2 := (adj_sellX h2).2 hz
  have := (C120_sell_x hp hfee hle h1 h2).2.2
  linarith

/-- C120: without an adjustment, who sells more Y is paid no less, up to the rounding of a single step. -/
theorem C120_paid_y_partial {fl : FloatEnv} {d1 d2 o : Decimal} {p p1 p2 : Pool} {r1 r2 : SwapOutput}
    (hp : ClearReachable p) (hfee : p.feeRate.toRat ≤ 1) (hle : d1.toRat ≤ d2.toRat)
    (h1 : p.executeSwapFromY fl d1 o = .ok (p1, r1)) (h2 : p.executeSwapFromY fl d2 o = .ok (p2, r2))
    (hz : p.c.toRat = 0 ∨ o.toRat = 0) : -r1.send.toRat - 2 * (p.totalLiq + 2) * ulp 12 ≤ -r2.send.toRat := by
  obtain ⟨_, _, a1, b1, _⟩ := C34_from_y h1
  obtain ⟨_, _, a2, b2, _⟩ := C34_from_y h2
  have c1 := (adj_sellY h1).2 hz
  have c2 := (adj_sellY h2).2 hz
  have := (C120_sell_y_partial hp hfee hle h1 h2).2.2
  linarith

/-- A pool without fee with one position of liquidity 0.7. -/
def slim : R Pool := do
  let p ← Pool.new (mid 20) 1 PoolMath.zero PoolMath.zero
  let (p, _) ← p.deposit 1 ⟨360000000, 12, false⟩ ⟨360000000, 12, false⟩ (mid 10) (mid 30)
  let l ← unwrap (p.gs.liq.sub ⟨700000000000, 12, false⟩)
  let (p, _) ← p.withdraw 1 l (mid 10) (mid 30)
  return p

theorem slim_clear : ClearReachable (Sample.get slim) := by
  have h : slim = .ok (Sample.get slim) := by decide +kernel
  generalize Sample.get slim = p at h
  unfold slim at h
  rw [bind_ok] at h; obtain ⟨p0, h0, h⟩ := h
  rw [bind_ok] at h; obtain ⟨⟨p1, _⟩, h1, h⟩ := h
  rw [bind_ok] at h; obtain ⟨l, _, h⟩ := h
  rw [bind_ok] at h; obtain ⟨⟨p2, _⟩, h2, h⟩ := h
  rw [pure_ok] at h
  rw [← h]
  exact .step (.step (.new h0) (.deposit h1)) (.withdraw h2)

/-- C120 is false for the X paid for Y: who sells one unit of the last place more is paid one less. -/
theorem C120_paid_y_false : ∃ (p p1 p2 : Pool) (d1 d2 : Decimal) (r1 r2 : SwapOutput), ClearReachable p ∧
    p.feeRate.toRat ≤ 1 ∧ d1.toRat < d2.toRat ∧ p.executeSwapFromY fl d1 zero = .ok (p1, r1) ∧
    p.executeSwapFromY fl d2 zero = .ok (p2, r2) ∧ -r2.send.toRat < -r1.send.toRat := by
  refine ⟨Sample.get slim, (Sample.get ((Sample.get slim).executeSwapFromY fl ⟨200049178, 12, false⟩ zero)).1,
    (Sample.get ((Sample.get slim).executeSwapFromY fl ⟨200049179, 12, false⟩ zero)).1, ⟨200049178, 12, false⟩,
    ⟨200049179, 12, false⟩, (Sample.get ((Sample.get slim).executeSwapFromY fl ⟨200049178, 12, false⟩ zero)).2,
    (Sample.get ((Sample.get slim).executeSwapFromY fl ⟨200049179, 12, false⟩ zero)).2, slim_clear, ?_, ?_,
    by decide +kernel, by decide +kernel, ?_⟩
  · have : (Sample.get slim).feeRate = ⟨0, 12, false⟩ := by decide +kernel
    rw [this, toRat_mk]; norm_num
  · rw [toRat_lt_mk]; norm_num
  · have e1 : (Sample.get ((Sample.get slim).executeSwapFromY fl ⟨200049178, 12, false⟩ zero)).2.send =
        ⟨199592516, 12, true⟩ := by decide +kernel
    have e2 : (Sample.get ((Sample.get slim).executeSwapFromY fl ⟨200049179, 12, false⟩ zero)).2.send =
        ⟨199592515, 12, true⟩ := by decide +kernel
    rw [e1, e2, toRat_mk_neg, toRat_mk_neg]; norm_num

/-- The hypotheses are met by two sales of X one of which crosses a tick, and the claims are then strict. -/
example : pool.executeSwapFromX fl (D 1) zero = .ok (Sample.get (pool.executeSwapFromX fl (D 1) zero)) ∧
    pool.executeSwapFromX fl ⟨17500000000000, 12, false⟩ zero = .ok (down.1, down.2) ∧
    (Sample.get (pool.executeSwapFromX fl (D 1) zero)).1.gs.tick = 19 ∧ down.1.gs.tick = 12 ∧
    pool.feeRate = ⟨3000000000, 12, false⟩ := by
  refine ⟨?_, ?_, ?_, ?_, ?_⟩ <;> decide +kernel

end Hmm.Pool
