import Verif.Props.FloatOracle
import Verif.Proofs.FloatTable
import Verif.Props.FloatStage

/-
C97: concrete sales, and the sale that shows the claim false for `c = 1`.
-/

namespace Hmm.Flt

open F64 Hmm.Flt.Pool Sample

/-- The double is positive, of size between `2^-24` and `2^24`. -/
def small (a : F64) : Bool := sizedBetween 1050 1098 a

section
attribute [local irreducible] unit limit

theorem small_ok {a : F64} (h : small a = true) : a.Is a.val ∧ a.Rep ∧ Sized 24 a.val := by
  obtain ⟨h1, h2, h3, h4⟩ := sizedBetween_ok h (by norm_num)
  refine ⟨h1, h2, ?_, ?_⟩
  · rw [div_le_iff₀ (by positivity)]
    have e : (2 : ℚ) ^ 1074 = 2 ^ 24 * 2 ^ 1050 := by rw [← pow_add]
    rw [e, ← mul_assoc] at h3
    have hp : (0 : ℚ) < 2 ^ 1050 := by positivity
    exact le_of_mul_le_mul_right (by rw [one_mul]; exact h3) hp
  · have e : (2 : ℚ) ^ 1098 = 2 ^ 24 * 2 ^ 1074 := by rw [← pow_add]
    rw [e] at h4
    have hp : (0 : ℚ) < 2 ^ 1074 := by positivity
    exact le_of_mul_le_mul_right h4 hp

theorem priced_of {t : Stage} (h : (small t.liq && small t.start && small t.stop) = true) :
    t.Priced t.liq.val t.start.val t.stop.val ∧ Sized 24 t.start.val := by
  simp only [Bool.and_eq_true] at h
  obtain ⟨⟨h1, h2⟩, h3⟩ := h
  obtain ⟨i1, _, s1⟩ := small_ok h1
  obtain ⟨i2, r2, s2⟩ := small_ok h2
  obtain ⟨i3, r3, s3⟩ := small_ok h3
  exact ⟨⟨i1, i2, i3, r2, r3, s1.mono (by norm_num), s2.mono (by norm_num), s3.mono (by norm_num)⟩, s2⟩

end

/-- The books of a sale of Y, as a check. -/
def bookedY (p p' : Pool) (out : SwapOutput) (ts : List Stage) : Bool :=
  decide (out.recv = Flt.total (fun t => add t.recv t.fee) F64.zero ts) && decide (out.recvFee = Flt.total (·.fee) F64.zero ts) &&
  decide (out.send = Flt.total (·.send) F64.zero ts) && decide (out.sendHmmAdj = Flt.total (·.adj) F64.zero ts) &&
  decide (p'.y = Flt.total (·.recv) p.y ts) && decide (p'.x = Flt.total (fun t => sub t.send t.adj) p.x ts) &&
  decide (p'.yFee = Flt.total (·.fee) p.yFee ts) && decide (p'.xAdj = Flt.total (·.adj) p.xAdj ts) &&
  decide (p'.xFee = p.xFee) && decide (p'.yAdj = p.yAdj) &&
  decide (p'.gs.fees = { p.gs.fees with
    fy := Flt.total (fun t => div t.fee t.liq) p.gs.fees.fy ts,
    hx := Flt.total (fun t => div t.adj t.liq) p.gs.fees.hx ts }) &&
  decide (out.endPrice = mul p'.gs.rp p'.gs.rp) && ts.all fun t => lt F64.zero t.liq

theorem bookedY_ok {m : LibM} {p p' : Pool} {out : SwapOutput} {ts : List Stage} (h : bookedY p p' out ts = true)
    (hp : Follows m (p.ticks.map (·.1)) p.gs.rp ts p'.gs.rp) : BookedY m p p' out ts := by
  unfold bookedY at h
  simp only [Bool.and_eq_true, decide_eq_true_eq, List.all_eq_true] at h
  obtain ⟨⟨⟨⟨⟨⟨⟨⟨⟨⟨⟨⟨h1, h2⟩, h3⟩, h4⟩, h5⟩, h6⟩, h7⟩, h8⟩, h9⟩, h10⟩, h11⟩, h12⟩, h13⟩ := h
  exact ⟨h1, h2, h3, h4, h5, h6, h7, h8, h9, h10, h11, hp, h12, h13⟩

/-- A pool at a price just above 1, with one position and a fee of 0.3%. -/
noncomputable def nearOne (c : F64) : R Pool := do
  let p ← Pool.new tableLib (lit 10011 10000) 1 c (lit 3 1000)
  let (p, _) ← p.deposit tableLib 1 (ofNat 10000) (ofNat 10000) (lit 10005 10000) (lit 1002 1000)
  return p

/-- 5000 X are sold, in one move across the oracle's price. -/
noncomputable def oracleCheckX (c o : F64) : Bool :=
  match nearOne c with
  | .ok p =>
    match p.leftLimit p.gs.tick with
    | some g =>
      match p.swapWithinX tableLib p.gs.rp g p.gs.liq (ofNat 5000) o, p.executeSwapFromX tableLib 9 (ofNat 5000) o with
      | .ok r, .ok (p', out) =>
        let t := stageOf p.gs.liq p.gs.rp r
        decide (p.c = c) && bookedX p p' out [t] && decide (p'.gs.rp = r.endRp) && lt r.endRp o && lt o p.gs.rp && small c && small o &&
        (small t.liq && small t.start && small t.stop) && lt F64.zero out.sendHmmAdj
      | _, _ => false
    | none => false
  | _ => false

/-- 5000 Y are sold, in one move across the oracle's price. -/
noncomputable def saleY (c o : F64) (p : Pool) : Bool :=
  match p.swapWithinY tableLib p.gs.rp 39 p.gs.liq (ofNat 5000) o, p.executeSwapFromY tableLib 9 (ofNat 5000) o with
  | .ok r, .ok (p', out) =>
    let t := stageOf p.gs.liq p.gs.rp r
    decide (p.c = c) && bookedY p p' out [t] && decide (p'.gs.rp = r.endRp) && lt o r.endRp && lt p.gs.rp o && small c && small o &&
    (small t.liq && small t.start && small t.stop) && lt F64.zero out.sendHmmAdj
  | _, _ => false

noncomputable def oracleCheckY (c o : F64) : Bool :=
  match nearOne c with
  | .ok p => saleY c o p
  | _ => false

theorem oracleCheckX_ok {c o : F64} (h : oracleCheckX c o = true) : ∃ (p p' : Pool) (out : SwapOutput) (t : Stage),
    p.executeSwapFromX tableLib 9 (ofNat 5000) o = .ok (p', out) ∧ BookedX tableLib p p' out [t] ∧ p.c = c ∧ c.Rep ∧
    o.Is o.val ∧ o.Rep ∧ Sized 24 o.val ∧ t.Priced t.liq.val t.start.val t.stop.val ∧ Sized 24 t.start.val ∧
    lt t.stop o = true ∧ lt o t.start = true ∧ lt F64.zero out.sendHmmAdj = true := by
  unfold oracleCheckX at h
  split at h <;> [skip; cases h]
  rename_i p _
  split at h <;> [skip; cases h]
  split at h <;> [skip; cases h]
  rename_i r p' out h1 h2
  simp only [Bool.and_eq_true, decide_eq_true_eq] at h
  obtain ⟨⟨⟨⟨⟨⟨⟨⟨h3, h4⟩, h5⟩, h6⟩, h7⟩, h8⟩, h9⟩, h10⟩, h11⟩ := h
  obtain ⟨_, rc, _⟩ := small_ok h8
  obtain ⟨io, ro, so⟩ := small_ok h9
  obtain ⟨pr, sa⟩ := priced_of (t := stageOf p.gs.liq p.gs.rp r) (by simp only [Bool.and_eq_true]; exact h10)
  exact ⟨p, p', out, _, h2, bookedX_ok h4 ⟨Or.inl rfl, Or.inl h5⟩, h3, rc, io, ro, so, pr, sa,
    h6, h7, h11⟩

theorem oracleCheckY_ok {c o : F64} (h : oracleCheckY c o = true) : ∃ (p p' : Pool) (out : SwapOutput) (t : Stage),
    p.executeSwapFromY tableLib 9 (ofNat 5000) o = .ok (p', out) ∧ BookedY tableLib p p' out [t] ∧ p.c = c ∧ c.Rep ∧
    o.Is o.val ∧ o.Rep ∧ Sized 24 o.val ∧ t.Priced t.liq.val t.start.val t.stop.val ∧ Sized 24 t.start.val ∧
    lt o t.stop = true ∧ lt t.start o = true ∧ lt F64.zero out.sendHmmAdj = true := by
  unfold oracleCheckY at h
  split at h <;> [skip; cases h]
  rename_i p _
  unfold saleY at h
  split at h <;> [skip; cases h]
  rename_i r p' out h1 h2
  simp only [Bool.and_eq_true, decide_eq_true_eq] at h
  obtain ⟨⟨⟨⟨⟨⟨⟨⟨h3, h4⟩, h5⟩, h6⟩, h7⟩, h8⟩, h9⟩, h10⟩, h11⟩ := h
  obtain ⟨_, rc, _⟩ := small_ok h8
  obtain ⟨io, ro, so⟩ := small_ok h9
  obtain ⟨pr, sa⟩ := priced_of (t := stageOf p.gs.liq p.gs.rp r) (by simp only [Bool.and_eq_true]; exact h10)
  exact ⟨p, p', out, _, h2, bookedY_ok h4 ⟨Or.inl rfl, Or.inl h5⟩, h3, rc, io, ro, so, pr, sa,
    h6, h7, h11⟩

theorem half_is : (lit 1 2).Is (1 / 2) := by
  have : lit 1 2 = dya false 1 1 := by decide +kernel
  rw [this]
  have := dya_is (neg := false) 1 (k := 1) (by norm_num)
  simpa using this

/-- Cases of C97: `c = 1/2` and `c = 1`, with an accurate library, in both directions. -/
theorem oracle_case : tableLib.Accurate ∧ (lit 1 2).Is (1 / 2) ∧ F64.one.Is 1 ∧
    (∃ (p p' : Pool) (out : SwapOutput) (t : Stage),
      p.executeSwapFromX tableLib 9 (ofNat 5000) (lit 10007 10000) = .ok (p', out) ∧ BookedX tableLib p p' out [t] ∧
      p.c = lit 1 2 ∧ (lit 1 2).Rep ∧ (lit 10007 10000).Is (lit 10007 10000).val ∧ (lit 10007 10000).Rep ∧
      Sized 24 (lit 10007 10000).val ∧ t.Priced t.liq.val t.start.val t.stop.val ∧ Sized 24 t.start.val ∧
      lt t.stop (lit 10007 10000) = true ∧ lt (lit 10007 10000) t.start = true ∧ lt F64.zero out.sendHmmAdj = true) ∧
    (∃ (p p' : Pool) (out : SwapOutput) (t : Stage),
      p.executeSwapFromX tableLib 9 (ofNat 5000) (lit 10009 10000) = .ok (p', out) ∧ BookedX tableLib p p' out [t] ∧
      p.c = F64.one ∧ F64.one.Rep ∧ (lit 10009 10000).Is (lit 10009 10000).val ∧ (lit 10009 10000).Rep ∧
      Sized 24 (lit 10009 10000).val ∧ t.Priced t.liq.val t.start.val t.stop.val ∧ Sized 24 t.start.val ∧
      lt t.stop (lit 10009 10000) = true ∧ lt (lit 10009 10000) t.start = true ∧ lt F64.zero out.sendHmmAdj = true) ∧
    (∀ c, c = lit 1 2 ∨ c = F64.one → ∃ (p p' : Pool) (out : SwapOutput) (t : Stage),
      p.executeSwapFromY tableLib 9 (ofNat 5000) (lit 10013 10000) = .ok (p', out) ∧ BookedY tableLib p p' out [t] ∧
      p.c = c ∧ c.Rep ∧ (lit 10013 10000).Is (lit 10013 10000).val ∧ (lit 10013 10000).Rep ∧
      Sized 24 (lit 10013 10000).val ∧ t.Priced t.liq.val t.start.val t.stop.val ∧ Sized 24 t.start.val ∧
      lt (lit 10013 10000) t.stop = true ∧ lt t.start (lit 10013 10000) = true ∧ lt F64.zero out.sendHmmAdj = true) := by
  refine ⟨tableLib_accurate, half_is, one_is, oracleCheckX_ok (by decide +kernel), oracleCheckX_ok (by decide +kernel), ?_⟩
  rintro c (h | h)
  · rw [h]; exact oracleCheckY_ok (by decide +kernel)
  · rw [h]; exact oracleCheckY_ok (by decide +kernel)

/-- The call panics. -/
def panicked {α : Type} (r : R α) : Bool :=
  match r with
  | .error .panic => true
  | _ => false

theorem panicked_ok {α : Type} {r : R α} (h : panicked r = true) : r = .error .panic := by
  unfold panicked at h
  split at h
  · rfl
  · cases h

/-- Two pools that differ only in `c`, and the two sales. -/
noncomputable def oneCheck : Bool :=
  match nearOne (lit 1 2), nearOne F64.one with
  | .ok p, .ok p1 =>
    match p.executeSwapFromX tableLib 9 (ofNat 5000) (lit 10007 10000), p1.executeSwapFromX tableLib 9 (ofNat 5000) (lit 10009 10000) with
    | .ok (_, out), .ok (_, out1) =>
      panicked (p1.executeSwapFromX tableLib 9 (ofNat 5000) (lit 10007 10000)) && lt out.send (ofNat 4990).neg &&
      lt (ofNat 1650).neg out1.send && decide (p1 = { p with c := F64.one })
    | _, _ => false
  | _, _ => false

/-- The claim is false for sales of X with `c = 1`, with an accurate library.  The oracle's price is above 1.  5000 X sold to a
pool with `c = 1/2` bring more than 4990 Y.  The same pool with `c = 1` panics.  If the oracle's price is closer to the pool's,
1.0018, the pool with `c = 1` takes the 5000 X and pays less than 1650 Y. -/
theorem one_false : tableLib.Accurate ∧ ∃ (p q q1 : Pool) (out out1 : SwapOutput),
    p.executeSwapFromX tableLib 9 (ofNat 5000) (lit 10007 10000) = .ok (q, out) ∧ lt out.send (ofNat 4990).neg = true ∧
    ({ p with c := F64.one } : Pool).executeSwapFromX tableLib 9 (ofNat 5000) (lit 10007 10000) = .error .panic ∧
    ({ p with c := F64.one } : Pool).executeSwapFromX tableLib 9 (ofNat 5000) (lit 10009 10000) = .ok (q1, out1) ∧
    lt (ofNat 1650).neg out1.send = true := by
  refine ⟨tableLib_accurate, ?_⟩
  have h : oneCheck = true := by decide +kernel
  unfold oneCheck at h
  split at h <;> [skip; cases h]
  rename_i p p1 _ _
  split at h <;> [skip; cases h]
  rename_i q out q1 out1 h1 h2
  simp only [Bool.and_eq_true, decide_eq_true_eq] at h
  obtain ⟨⟨⟨h3, h4⟩, h5⟩, h6⟩ := h
  rw [h6] at h2 h3
  exact ⟨p, q, q1, out, out1, h1, h4, panicked_ok h3, h2, h5⟩

end Hmm.Flt
