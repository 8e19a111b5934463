import Verif.Proofs.FloatStage
import Verif.Props.FloatAmounts

/-
C92: a swap of the floating-point pool is a sequence of moves on the constant-product curve.
-/

namespace Hmm.Flt.Pool

open F64 Sample

section
attribute [local irreducible] unit limit

/-- C92: a sale of X is a sequence of moves, each at constant positive liquidity, and the books are the sums over
them.  Each move is on the constant-product curve, up to one part in 2^49 and to the part in 10^12 kept back. -/
theorem sell_x_stages {m : LibM} {p p' : Pool} {n : Nat} {dx o : F64} {out : SwapOutput}
    (h : p.executeSwapFromX m n dx o = .ok (p', out)) :
    ∃ ts, BookedX m p p' out ts ∧ ts.length ≤ n ∧ ∀ f, p.feeRate.Is f → p.feeRate.Rep → Tame 100 f → f < 1 →
      ∀ t ∈ ts, ∀ L a b R F, t.Usual L a b R F → t.MoveX f L a b R F := by
  unfold executeSwapFromX at h
  rw [ite_eq_ok] at h
  rcases h with ⟨_, h⟩ | ⟨_, h⟩
  · exact absurd h (by simp [rpanic])
  obtain ⟨ts, w, hlen⟩ := loopX_walk rfl h
  refine ⟨ts, ⟨w.recv, w.fee, w.send, w.adj, w.x, w.y, w.xFee, w.yAdj, w.yFee, w.xAdj, w.growth, w.price, w.endPrice,
    w.positive⟩, hlen, ?_⟩
  intro f hf rf tf f1 t ht L a b R F u
  obtain ⟨q, g, d, r, e1, _, e2, e3⟩ := w.move t ht
  rw [e3] at u ⊢
  rw [← e1] at hf rf
  exact moveX e2 hf rf tf f1 u

theorem sell_y_stages {m : LibM} {p p' : Pool} {n : Nat} {dy o : F64} {out : SwapOutput}
    (h : p.executeSwapFromY m n dy o = .ok (p', out)) :
    ∃ ts, BookedY m p p' out ts ∧ ts.length ≤ n ∧ ∀ f, p.feeRate.Is f → p.feeRate.Rep → Tame 100 f → f < 1 →
      ∀ t ∈ ts, ∀ L a b R F, t.Usual L a b R F → t.MoveY f L a b R F := by
  unfold executeSwapFromY at h
  rw [ite_eq_ok] at h
  rcases h with ⟨_, h⟩ | ⟨_, h⟩
  · exact absurd h (by simp [rpanic])
  obtain ⟨ts, w, hlen⟩ := loopY_walk rfl h
  refine ⟨ts, ⟨w.recv, w.fee, w.send, w.adj, w.y, w.x, w.yFee, w.xAdj, w.xFee, w.yAdj, w.growth, w.price, w.endPrice,
    w.positive⟩, hlen, ?_⟩
  intro f hf rf tf f1 t ht L a b R F u
  obtain ⟨q, g, d, r, e1, _, e2, e3⟩ := w.move t ht
  rw [e3] at u ⊢
  rw [← e1] at hf rf
  exact moveY e2 hf rf tf f1 u

theorem usual_of {t : Stage} (h : (moderate t.liq && moderate t.start && moderate t.stop && moderate t.recv &&
    moderate t.fee && moderate t.send.neg) = true) :
    t.Usual t.liq.val t.start.val t.stop.val t.recv.val t.fee.val := by
  simp only [Bool.and_eq_true] at h
  obtain ⟨⟨⟨⟨⟨h1, h2⟩, h3⟩, h4⟩, h5⟩, h6⟩ := h
  obtain ⟨i1, _, s1⟩ := moderate_ok h1
  obtain ⟨i2, r2, s2⟩ := moderate_ok h2
  obtain ⟨i3, r3, s3⟩ := moderate_ok h3
  obtain ⟨i4, _, s4⟩ := moderate_ok h4
  obtain ⟨i5, _, s5⟩ := moderate_ok h5
  obtain ⟨i6, _, _⟩ := moderate_ok h6
  exact ⟨i1, i2, i3, i4, i5, r2, r3, s1.mono (by norm_num), s2, s3, Or.inr (s4.mono (by norm_num)),
    Or.inr (s5.mono (by norm_num)), neg_finite.1 ⟨_, i6⟩⟩

end

/-- The books of a sale of X, as a check. -/
def bookedX (p p' : Pool) (out : SwapOutput) (ts : List Stage) : Bool :=
  decide (out.recv = Flt.total (fun t => add t.recv t.fee) F64.zero ts) && decide (out.recvFee = Flt.total (·.fee) F64.zero ts) &&
  decide (out.send = Flt.total (·.send) F64.zero ts) && decide (out.sendHmmAdj = Flt.total (·.adj) F64.zero ts) &&
  decide (p'.x = Flt.total (·.recv) p.x ts) && decide (p'.y = Flt.total (fun t => sub t.send t.adj) p.y ts) &&
  decide (p'.xFee = Flt.total (·.fee) p.xFee ts) && decide (p'.yAdj = Flt.total (·.adj) p.yAdj ts) &&
  decide (p'.yFee = p.yFee) && decide (p'.xAdj = p.xAdj) &&
  decide (p'.gs.fees = { p.gs.fees with
    fx := Flt.total (fun t => div t.fee t.liq) p.gs.fees.fx ts,
    hy := Flt.total (fun t => div t.adj t.liq) p.gs.fees.hy ts }) &&
  decide (out.endPrice = mul p'.gs.rp p'.gs.rp) && ts.all fun t => lt F64.zero t.liq

theorem bookedX_ok {m : LibM} {p p' : Pool} {out : SwapOutput} {ts : List Stage} (h : bookedX p p' out ts = true)
    (hp : Follows m (p.ticks.map (·.1)) p.gs.rp ts p'.gs.rp) : BookedX m p p' out ts := by
  unfold bookedX at h
  simp only [Bool.and_eq_true, decide_eq_true_eq, List.all_eq_true] at h
  obtain ⟨⟨⟨⟨⟨⟨⟨⟨⟨⟨⟨⟨h1, h2⟩, h3⟩, h4⟩, h5⟩, h6⟩, h7⟩, h8⟩, h9⟩, h10⟩, h11⟩, h12⟩, h13⟩ := h
  exact ⟨h1, h2, h3, h4, h5, h6, h7, h8, h9, h10, h11, hp, h12, h13⟩

/-- Two overlapping positions; a sale of 3 X leaves the narrower one, which takes two moves. -/
def stageCheck : Bool :=
  match eth (lit 3 2) (lit 3 1000) with
  | .ok p0 =>
    match p0.deposit libm 2 (ofNat 1) (ofNat 2000) (rt 1900) (rt 2100) with
    | .ok (p, _) =>
      match p.leftLimit p.gs.tick with
      | some g =>
        match p.swapWithinX libm p.gs.rp g p.gs.liq (ofNat 3) (rt 1500), stepX libm (ofNat 3) (rt 1500) p p.acc0 g with
        | .ok r, .ok (p1, a1) =>
          match p1.leftLimit a1.currT with
          | some g1 =>
            match p1.swapWithinX libm p1.gs.rp g1 p1.gs.liq (sub (ofNat 3) a1.recv) (rt 1500),
              p.executeSwapFromX libm 9 (ofNat 3) (rt 1500) with
            | .ok r1, .ok (p', out) =>
              let t := stageOf p.gs.liq p.gs.rp r
              let t1 := stageOf p1.gs.liq p1.gs.rp r1
              bookedX p p' out [t, t1] && decide (p1.gs.rp = r.endRp) && decide (p'.gs.rp = r1.endRp) &&
              lt p1.gs.liq p.gs.liq && moderate p.feeRate && lt p.feeRate F64.one &&
              (moderate t.liq && moderate t.start && moderate t.stop && moderate t.recv && moderate t.fee && moderate t.send.neg) &&
              (moderate t1.liq && moderate t1.start && moderate t1.stop && moderate t1.recv && moderate t1.fee &&
                moderate t1.send.neg)
            | _, _ => false
          | none => false
        | _, _ => false
      | none => false
    | _ => false
  | _ => false

/-- A case of C92: two moves, with different liquidities. -/
theorem sell_x_stages_case : ∃ (p p' : Pool) (out : SwapOutput) (t t1 : Stage) (f : ℚ),
    p.executeSwapFromX libm 9 (ofNat 3) (rt 1500) = .ok (p', out) ∧ BookedX libm p p' out [t, t1] ∧
    lt t1.liq t.liq = true ∧ p.feeRate.Is f ∧ p.feeRate.Rep ∧ Tame 100 f ∧ f < 1 ∧
    t.Usual t.liq.val t.start.val t.stop.val t.recv.val t.fee.val ∧
    t1.Usual t1.liq.val t1.start.val t1.stop.val t1.recv.val t1.fee.val := by
  have h : stageCheck = true := by decide +kernel
  unfold stageCheck at h
  split at h <;> [skip; cases h]
  rename_i p0 _
  split at h <;> [skip; cases h]
  rename_i p _ _
  split at h <;> [skip; cases h]
  rename_i g _
  split at h <;> [skip; cases h]
  rename_i r p1 a1 _ _
  split at h <;> [skip; cases h]
  rename_i g1 _
  split at h <;> [skip; cases h]
  rename_i r1 p' out h1 h2
  simp only [Bool.and_eq_true, decide_eq_true_eq] at h
  obtain ⟨⟨⟨⟨⟨⟨⟨h3, h4⟩, h5⟩, h6⟩, h7⟩, h8⟩, h9⟩, h10⟩ := h
  obtain ⟨i, rp, sz⟩ := moderate_ok h7
  have hone : F64.one.Is 1 := one_is
  refine ⟨p, p', out, _, _, _, h2, bookedX_ok h3 ⟨Or.inl rfl, Or.inl h4, Or.inl h5⟩, h6, i, rp, Or.inr sz, (lt_is i hone).1 h8,
    usual_of (by simp only [Bool.and_eq_true]; exact h9), usual_of (by simp only [Bool.and_eq_true]; exact h10)⟩

end Hmm.Flt.Pool
