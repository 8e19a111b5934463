import Verif.Proofs.ProtoSwap

/-
Whole sales of the prototype and of the Rust twin in lockstep.
-/

namespace Hmm.Proto

open F64 Pool

section
attribute [local irreducible] unit limit

theorem Kept.calm {p p' : Flt.Pool} (hk : Kept p p') (h : Calm p) : Calm p' :=
  ⟨by rw [hk.c]; exact h.c, by rw [hk.feeRate]; exact h.fee, hk.zero h.ticks⟩

theorem NP.neg {a : F64} (h : NN a) : NP a.neg := by
  rw [NP.iff, show a.neg.neg = a from by cases a <;> simp [F64.neg]]
  exact h

theorem NP.div {a b : F64} (ha : NP a) (hb : NP b) (h0 : F64.eq b zero = false) : NN (F64.div a b) := by
  have hb' : b = F64.nan ∨ b = inf true ∨ ∃ k, b = fin true k ∧ k ≠ 0 := by
    rcases NP.iff'.1 hb with rfl | rfl | ⟨k, rfl⟩ | rfl
    · exact .inl rfl
    · exact .inr (.inl rfl)
    · exact .inr (.inr ⟨k, rfl, fun hk => by subst hk; cases h0⟩)
    · cases h0
  rcases NP.iff'.1 ha with rfl | rfl | ⟨n, rfl⟩ | rfl <;> rcases hb' with rfl | rfl | ⟨k, rfl, hk⟩ <;>
    first
    | exact NN.iff.2 (.inl rfl)
    | exact NN.iff.2 (.inr (.inl rfl))
    | exact NN.iff.2 (.inr (.inr (.inl ⟨_, rfl⟩)))
    | exact NN.iff.2 (.inr (.inr (.inr rfl)))
    | (unfold F64.div; simp only; rw [if_neg hk]; exact NN.pos (by simp))

/-- The goal of a round of the Rust code is that of the prototype's. -/
structure Aimed (p : Flt.Pool) (pos : List (Key × PositionState)) (g : Option Int) (a' : Pool.Acc) (q : Pool)
    (v : Flt.Pool × Option Nat × Flt.Pool.SwapAcc) : Prop where
  pool : q = of v.1 pos
  goal : g = v.2.1.map fun k : Nat => (k : Int)
  acc : ∃ t, a' = accOf v.2.2 t
  kept : Kept p v.1
  signs : Signs v.2.2
  rp : le one v.2.2.currRp = true
  small : ∀ k, v.2.1 = some k → k < 2 ^ 32

/-- The sale of the Rust code has the outcome of the prototype's. -/
structure Ended (p : Flt.Pool) (m' : LibM) (pos : List (Key × PositionState)) (out : Pool.Output) (q : Pool)
    (v : Flt.Pool × Flt.SwapOutput) : Prop where
  pool : q = of v.1 pos
  out : SameOut m' v.1.gs.rp v.2 out
  kept : Kept p v.1

theorem finishX_of {m' : LibM} {p : Flt.Pool} {pos} (hf : Fits p) {a : Flt.Pool.SwapAcc} (hs : Signs a) {t : Int}
    {o : Pool.Output} {q : Pool} (h : Pool.finishX m' (accOf a t) (of p pos) = .ok o q) :
    q = of p pos ∧ ∃ r, p.finishX a = .ok (p, r) ∧ SameOut m' p.gs.rp r o := by
  unfold Pool.finishX at h
  rw [bind_eq_ok] at h
  obtain ⟨av, _, h1', h⟩ := h
  obtain ⟨h1, rfl⟩ := comp_eq_ok.1 h1'
  rw [bind_eq_ok] at h
  obtain ⟨_, _, h2, h⟩ := h
  obtain ⟨rfl, rfl⟩ := get_eq_ok.1 h2
  rw [bind_eq_ok] at h
  obtain ⟨e, _, h3', h⟩ := h
  obtain ⟨h3, rfl⟩ := comp_eq_ok.1 h3'
  obtain ⟨hout, rfl⟩ := pure_eq_ok.1 h
  refine ⟨rfl, ?_⟩
  have hrp := le_one_pos hf.rp
  have he : lt (F64.mul p.gs.rp p.gs.rp) zero = false := NN.mul hrp hrp
  have hav : (if F64.eq a.recv zero then zero else F64.div a.send.neg a.recv) = av.getD zero ∧
      lt (av.getD zero) zero = false := by
    have f1 : average (accOf a t).send.neg (accOf a t).recv = average a.send.neg a.recv := rfl
    rw [f1] at h1
    unfold Pool.average at h1
    by_cases h0 : F64.eq a.recv zero = true
    · rw [if_pos h0, okp, ok_inj] at h1
      rw [if_pos h0, ← h1]
      exact ⟨rfl, rfl⟩
    · rw [if_neg h0, bind_ok] at h1
      obtain ⟨d, h4, h1⟩ := h1
      rw [okp, ok_inj] at h1
      rw [if_neg h0, ← h1, (fdiv_ok h4).1]
      exact ⟨rfl, (NP.iff.1 hs.send).div hs.recv (by simpa using h0)⟩
  unfold Flt.Pool.finishX
  simp only
  rw [hav.1]
  unfold Flt.SwapOutput.new
  have k1 : lt a.recv zero = false := hs.recv
  have k2 : lt zero a.send = false := hs.send
  have k3 : lt a.adj zero = false := hs.adj
  have k4 : lt a.fee zero = false := hs.fee
  simp only [k1, k2, k3, k4, hav.2, he, Bool.or_false, Bool.false_eq_true, if_false]
  rw [okb]
  refine ⟨_, rfl, ?_⟩
  rw [hout]
  exact ⟨rfl, rfl, rfl, rfl, rfl, pow_ok h3, rfl⟩

theorem aimX_of {m m' : LibM} (ho : Ordinary m') {p : Flt.Pool} {pos} (hf : Fits p) (ha : Alike p.c m m') {G : Prop}
    (hG : G → Calm p) {a : Flt.Pool.SwapAcc} (hs : Signs a) (hrp : le one a.currRp = true) (ht : a.currT < 2 ^ 32)
    {g : Option Int} {a' : Pool.Acc} {q : Pool}
    (h : (if lt zero (of p pos).liq then do
          let goal ← comp ((of p pos).leftLimit (a.currT : Int))
          return (goal, accOf a a.currT)
        else do
          let (goal, t, rp) ← Pool.tryGetInRange m' false
          return (goal, { accOf a a.currT with currT := t, currRp := rp }) : Py (Option Int × Pool.Acc)) (of p pos) = .ok (g, a') q) :
    Follows G (Aimed p pos g a' q) (if lt zero p.gs.liq then .ok (p, p.leftLimit a.currT, a)
        else do
          let (p, goal, rp) ← p.tryGetInRange m false
          return (p, goal, { a with currRp := rp }) : R (Flt.Pool × Option Nat × Flt.Pool.SwapAcc)) := by
  have f1 : (of p pos).liq = p.gs.liq := rfl
  rw [f1] at h
  by_cases hl : lt zero p.gs.liq = true
  · rw [if_pos hl] at h ⊢
    rw [bind_eq_ok] at h
    obtain ⟨gl, _, h1', h⟩ := h
    obtain ⟨h1, e1⟩ := comp_eq_ok.1 h1'
    rw [left_of hf pos, ok_inj] at h1
    obtain ⟨h', e2⟩ := pure_eq_ok.1 h
    cases h'
    rw [e2, e1]
    exact .ok ⟨rfl, h1.symm, ⟨_, rfl⟩, ⟨hf, rfl, rfl, id, rfl⟩, hs, hrp, fun k hk => left_small hf hk⟩
  · rw [if_neg hl] at h ⊢
    rw [bind_eq_ok] at h
    obtain ⟨⟨gl, t, rp⟩, _, h1, h⟩ := h
    obtain ⟨h', e2⟩ := pure_eq_ok.1 h
    cases h'
    refine (range_of ha ho hf (fun gg => (hG gg).ticks) h1).bind ?_
    rintro ⟨p1, g1, r1⟩ _ hF
    refine .ok ⟨e2.trans hF.pool, hF.goal, ?_, hF.kept, ⟨hs.recv, hs.send, hs.adj, hs.fee⟩, ?_, hF.small⟩
    · have := hF.rp
      simp only at this
      rw [this]
      exact ⟨t, rfl⟩
    · have := hF.price
      simp only at this
      show le one r1 = true
      rw [this]
      exact hF.kept.fits.rp

theorem loopX_of {m m' : LibM} (ho : Ordinary m') {pos} {G : Prop} {dx o : F64} (fuel : Nat) :
    ∀ {p : Flt.Pool}, Fits p → Alike p.c m m' → (G → Calm p) → ∀ {a : Flt.Pool.SwapAcc}, Signs a → le one a.currRp = true →
      a.currT < 2 ^ 32 → ∀ {out : Pool.Output} {q : Pool},
      Pool.loopX m' dx (some o) fuel (accOf a a.currT) (of p pos) = .ok out q →
      Follows G (Ended p m' pos out q) (Flt.Pool.loopX m dx o fuel p a) := by
  induction fuel with
  | zero =>
    intro p _ _ _ a _ _ _ out q h
    unfold Pool.loopX at h
    rw [comp_eq_ok] at h
    cases h.1
  | succ fuel ih =>
    intro p hf ha hG a hs hrp ht out q h
    unfold Pool.loopX at h
    unfold Flt.Pool.loopX
    have f0 : (accOf a a.currT).recv = a.recv := rfl
    rw [f0] at h
    by_cases hgo : lt a.recv dx = true
    · rw [if_pos hgo] at h ⊢
      rw [bind_eq_ok] at h
      obtain ⟨_, _, h0, h⟩ := h
      obtain ⟨rfl, rfl⟩ := get_eq_ok.1 h0
      rw [bind_eq_ok] at h
      obtain ⟨⟨gl, a1⟩, q1, h1, h⟩ := h
      refine (aimX_of ho hf ha hG hs hrp ht h1).bind ?_
      rintro ⟨p1, g1, b⟩ _ hA
      obtain ⟨hq1, hgl, ha1, hk, hs, hcr, hsm⟩ := hA
      simp only at hq1 hgl ha1 hk hs hcr hsm h ⊢
      rw [hq1] at h
      have ha' : Alike p1.c m m' := by rw [hk.c]; exact ha
      have hG' : G → Calm p1 := fun gg => hk.calm (hG gg)
      obtain ⟨tt, rfl⟩ := ha1
      cases g1 with
      | none =>
        rw [hgl] at h
        simp only [Option.map_none] at h ⊢
        obtain ⟨e1, r, e2, e3⟩ := finishX_of hk.fits hs h
        rw [e2]
        exact .ok ⟨e1, e3, hk⟩
      | some g1 =>
        rw [hgl] at h
        simp only [Option.map_some] at h ⊢
        have hg := hsm g1 rfl
        rw [bind_eq_ok] at h
        obtain ⟨a2, q2, h3, h⟩ := h
        refine (stepX_of ho hk.fits ha' hG' hs hg h3).bind ?_
        rintro ⟨p2, b2⟩ _ hS
        obtain ⟨s1, s2, s3, s4, s5, s6⟩ := hS
        simp only at s1 s2 s3 s4 s5 s6 ⊢
        rw [s1, s2] at h
        rcases ih s3.fits (by rw [s3.c]; exact ha') (fun gg => s3.calm (hG' gg)) s4 s6 s5 h with ⟨v, hv, hE⟩ | h
        · exact .inl ⟨v, hv, ⟨hE.pool, hE.out, (hk.trans s3).trans hE.kept⟩⟩
        · exact .inr h
    · rw [if_neg hgo] at h ⊢
      obtain ⟨e1, r, e2, e3⟩ := finishX_of hf hs h
      rw [e2]
      exact .ok ⟨e1, e3, ⟨hf, rfl, rfl, id, rfl⟩⟩

/-- Sales of X: the Rust code with the prototype's outcome. -/
theorem executeX_of {m m' : LibM} (ho : Ordinary m') {p : Flt.Pool} {pos} (hf : Fits p) (ha : Alike p.c m m') {G : Prop}
    (hG : G → Calm p) {fuel : Nat} {dx o : F64} {out : Pool.Output} {q : Pool}
    (h : Pool.executeSwapFromX m' fuel dx (some o) (of p pos) = .ok out q) :
    Follows G (Ended p m' pos out q) (Flt.Pool.executeSwapFromX m fuel p dx o) := by
  unfold Pool.executeSwapFromX at h
  rw [bind_eq_ok] at h
  obtain ⟨_, _, h1', h⟩ := h
  obtain ⟨h1, rfl⟩ := check_eq_ok.1 h1'
  rw [bind_eq_ok] at h
  obtain ⟨_, _, h2, h⟩ := h
  obtain ⟨rfl, rfl⟩ := get_eq_ok.1 h2
  unfold Flt.Pool.executeSwapFromX
  rw [if_neg (by simpa using h1)]
  exact loopX_of ho fuel hf ha hG (a := p.acc0) ⟨rfl, rfl, rfl, rfl⟩ hf.rp hf.tick h

theorem finishY_of {m' : LibM} {p : Flt.Pool} {pos} (hf : Fits p) {a : Flt.Pool.SwapAcc} (hs : Signs a) {t : Int}
    {o : Pool.Output} {q : Pool} (h : Pool.finishY m' (accOf a t) (of p pos) = .ok o q) :
    q = of p pos ∧ ∃ r, p.finishY a = .ok (p, r) ∧ SameOut m' p.gs.rp r o := by
  unfold Pool.finishY at h
  rw [bind_eq_ok] at h
  obtain ⟨av, _, h1', h⟩ := h
  obtain ⟨h1, rfl⟩ := comp_eq_ok.1 h1'
  rw [bind_eq_ok] at h
  obtain ⟨_, _, h2, h⟩ := h
  obtain ⟨rfl, rfl⟩ := get_eq_ok.1 h2
  rw [bind_eq_ok] at h
  obtain ⟨e, _, h3', h⟩ := h
  obtain ⟨h3, rfl⟩ := comp_eq_ok.1 h3'
  obtain ⟨hout, rfl⟩ := pure_eq_ok.1 h
  refine ⟨rfl, ?_⟩
  have hrp := le_one_pos hf.rp
  have he : lt (F64.mul p.gs.rp p.gs.rp) zero = false := NN.mul hrp hrp
  have hav : (if F64.eq a.send zero then zero else F64.div a.recv.neg a.send) = av.getD zero ∧
      lt (av.getD zero) zero = false := by
    have f1 : average (accOf a t).recv.neg (accOf a t).send = average a.recv.neg a.send := rfl
    rw [f1] at h1
    unfold Pool.average at h1
    by_cases h0 : F64.eq a.send zero = true
    · rw [if_pos h0, okp, ok_inj] at h1
      rw [if_pos h0, ← h1]
      exact ⟨rfl, rfl⟩
    · rw [if_neg h0, bind_ok] at h1
      obtain ⟨d, h4, h1⟩ := h1
      rw [okp, ok_inj] at h1
      rw [if_neg h0, ← h1, (fdiv_ok h4).1]
      exact ⟨rfl, NP.div (NP.neg hs.recv) hs.send (by simpa using h0)⟩
  unfold Flt.Pool.finishY
  simp only
  rw [hav.1]
  unfold Flt.SwapOutput.new
  have k1 : lt a.recv zero = false := hs.recv
  have k2 : lt zero a.send = false := hs.send
  have k3 : lt a.adj zero = false := hs.adj
  have k4 : lt a.fee zero = false := hs.fee
  simp only [k1, k2, k3, k4, hav.2, he, Bool.or_false, Bool.false_eq_true, if_false]
  rw [okb]
  refine ⟨_, rfl, ?_⟩
  rw [hout]
  exact ⟨rfl, rfl, rfl, rfl, rfl, pow_ok h3, rfl⟩

theorem aimY_of {m m' : LibM} (ho : Ordinary m') {p : Flt.Pool} {pos} (hf : Fits p) (ha : Alike p.c m m') {G : Prop}
    (hG : G → Calm p) {a : Flt.Pool.SwapAcc} (hs : Signs a) (hrp : le one a.currRp = true) (ht : a.currT < 2 ^ 32)
    {g : Option Int} {a' : Pool.Acc} {q : Pool}
    (h : (if lt zero (of p pos).liq then do
          let goal ← comp ((of p pos).rightLimit (a.currT : Int) (of p pos).tick)
          return (goal, accOf a a.currT)
        else do
          let (goal, t, rp) ← Pool.tryGetInRange m' true
          return (goal, { accOf a a.currT with currT := t, currRp := rp }) : Py (Option Int × Pool.Acc)) (of p pos) = .ok (g, a') q) :
    Follows G (Aimed p pos g a' q) (if lt zero p.gs.liq then do
          return (p, ← p.rightLimit a.currT p.gs.tick, a)
        else do
          let (p, goal, rp) ← p.tryGetInRange m true
          return (p, goal, { a with currRp := rp }) : R (Flt.Pool × Option Nat × Flt.Pool.SwapAcc)) := by
  have f1 : (of p pos).liq = p.gs.liq := rfl
  rw [f1] at h
  by_cases hl : lt zero p.gs.liq = true
  · rw [if_pos hl] at h ⊢
    rw [bind_eq_ok] at h
    obtain ⟨gl, _, h1', h⟩ := h
    obtain ⟨h1, e1⟩ := comp_eq_ok.1 h1'
    have f2 : (of p pos).tick = (p.gs.tick : Int) := rfl
    rw [f2] at h1
    obtain ⟨r', h1r, h1''⟩ := right_of hf pos ht h1
    obtain ⟨h', e2⟩ := pure_eq_ok.1 h
    cases h'
    rw [e2, e1, h1r, okb]
    exact .ok ⟨rfl, h1'', ⟨_, rfl⟩, ⟨hf, rfl, rfl, id, rfl⟩, hs, hrp, fun k hk => right_small hf (by rw [h1r]; exact congrArg _ hk)⟩
  · rw [if_neg hl] at h ⊢
    rw [bind_eq_ok] at h
    obtain ⟨⟨gl, t, rp⟩, _, h1, h⟩ := h
    obtain ⟨h', e2⟩ := pure_eq_ok.1 h
    cases h'
    refine (range_of ha ho hf (fun gg => (hG gg).ticks) h1).bind ?_
    rintro ⟨p1, g1, r1⟩ _ hF
    refine .ok ⟨e2.trans hF.pool, hF.goal, ?_, hF.kept, ⟨hs.recv, hs.send, hs.adj, hs.fee⟩, ?_, hF.small⟩
    · have := hF.rp
      simp only at this
      rw [this]
      exact ⟨t, rfl⟩
    · have := hF.price
      simp only at this
      show le one r1 = true
      rw [this]
      exact hF.kept.fits.rp

theorem loopY_of {m m' : LibM} (ho : Ordinary m') {pos} {G : Prop} {dx o : F64} (fuel : Nat) :
    ∀ {p : Flt.Pool}, Fits p → Alike p.c m m' → (G → Calm p) → ∀ {a : Flt.Pool.SwapAcc}, Signs a → le one a.currRp = true →
      a.currT < 2 ^ 32 → ∀ {out : Pool.Output} {q : Pool},
      Pool.loopY m' dx (some o) fuel (accOf a a.currT) (of p pos) = .ok out q →
      Follows G (Ended p m' pos out q) (Flt.Pool.loopY m dx o fuel p a) := by
  induction fuel with
  | zero =>
    intro p _ _ _ a _ _ _ out q h
    unfold Pool.loopY at h
    rw [comp_eq_ok] at h
    cases h.1
  | succ fuel ih =>
    intro p hf ha hG a hs hrp ht out q h
    unfold Pool.loopY at h
    unfold Flt.Pool.loopY
    have f0 : (accOf a a.currT).recv = a.recv := rfl
    rw [f0] at h
    by_cases hgo : lt a.recv dx = true
    · rw [if_pos hgo] at h ⊢
      rw [bind_eq_ok] at h
      obtain ⟨_, _, h0, h⟩ := h
      obtain ⟨rfl, rfl⟩ := get_eq_ok.1 h0
      rw [bind_eq_ok] at h
      obtain ⟨⟨gl, a1⟩, q1, h1, h⟩ := h
      refine (aimY_of ho hf ha hG hs hrp ht h1).bind ?_
      rintro ⟨p1, g1, b⟩ _ hA
      obtain ⟨hq1, hgl, ha1, hk, hs, hcr, hsm⟩ := hA
      simp only at hq1 hgl ha1 hk hs hcr hsm h ⊢
      rw [hq1] at h
      have ha' : Alike p1.c m m' := by rw [hk.c]; exact ha
      have hG' : G → Calm p1 := fun gg => hk.calm (hG gg)
      obtain ⟨tt, rfl⟩ := ha1
      cases g1 with
      | none =>
        rw [hgl] at h
        simp only [Option.map_none] at h ⊢
        obtain ⟨e1, r, e2, e3⟩ := finishY_of hk.fits hs h
        rw [e2]
        exact .ok ⟨e1, e3, hk⟩
      | some g1 =>
        rw [hgl] at h
        simp only [Option.map_some] at h ⊢
        have hg := hsm g1 rfl
        rw [bind_eq_ok] at h
        obtain ⟨a2, q2, h3, h⟩ := h
        refine (stepY_of ho hk.fits ha' hG' hs hcr hg h3).bind ?_
        rintro ⟨p2, b2⟩ _ hS
        obtain ⟨s1, s2, s3, s4, s5, s6⟩ := hS
        simp only at s1 s2 s3 s4 s5 s6 ⊢
        rw [s1, s2] at h
        rcases ih s3.fits (by rw [s3.c]; exact ha') (fun gg => s3.calm (hG' gg)) s4 s6 s5 h with ⟨v, hv, hE⟩ | h
        · exact .inl ⟨v, hv, ⟨hE.pool, hE.out, (hk.trans s3).trans hE.kept⟩⟩
        · exact .inr h
    · rw [if_neg hgo] at h ⊢
      obtain ⟨e1, r, e2, e3⟩ := finishY_of hf hs h
      rw [e2]
      exact .ok ⟨e1, e3, ⟨hf, rfl, rfl, id, rfl⟩⟩

/-- Sales of Y: the Rust code with the prototype's outcome. -/
theorem executeY_of {m m' : LibM} (ho : Ordinary m') {p : Flt.Pool} {pos} (hf : Fits p) (ha : Alike p.c m m') {G : Prop}
    (hG : G → Calm p) {fuel : Nat} {dx o : F64} {out : Pool.Output} {q : Pool}
    (h : Pool.executeSwapFromY m' fuel dx (some o) (of p pos) = .ok out q) :
    Follows G (Ended p m' pos out q) (Flt.Pool.executeSwapFromY m fuel p dx o) := by
  unfold Pool.executeSwapFromY at h
  rw [bind_eq_ok] at h
  obtain ⟨_, _, h1', h⟩ := h
  obtain ⟨h1, rfl⟩ := check_eq_ok.1 h1'
  rw [bind_eq_ok] at h
  obtain ⟨_, _, h2, h⟩ := h
  obtain ⟨rfl, rfl⟩ := get_eq_ok.1 h2
  unfold Flt.Pool.executeSwapFromY
  rw [if_neg (by simpa using h1)]
  exact loopY_of ho fuel hf ha hG (a := p.acc0) ⟨rfl, rfl, rfl, rfl⟩ hf.rp hf.tick h

end

end Hmm.Proto
