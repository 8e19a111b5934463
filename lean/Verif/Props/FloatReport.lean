import Verif.Props.FloatStage
import Verif.Props.FloatTicks

/-
C95: what swaps of the floating-point pool report and refuse, and how a pool starts.
-/

namespace Hmm.Flt.Pool

open F64 Sample

section
attribute [local irreducible] unit limit

theorem loopX_finish {m : LibM} {dx o : F64} : ∀ {n : Nat} {p p' : Pool} {a : SwapAcc} {out : SwapOutput},
    loopX m dx o n p a = .ok (p', out) → ∃ q b, finishX q b = .ok (p', out) := by
  intro n
  induction n with
  | zero => intro p p' a out h; cases h
  | succ n ih =>
    intro p p' a out h
    rcases loopX_succ h with ⟨_, h⟩ | ⟨_, _, _, _, _, ⟨_, h⟩ | ⟨_, _, _, _, _, h⟩⟩
    · exact ⟨_, _, h⟩
    · exact ⟨_, _, h⟩
    · exact ih h

theorem loopY_finish {m : LibM} {dy o : F64} : ∀ {n : Nat} {p p' : Pool} {a : SwapAcc} {out : SwapOutput},
    loopY m dy o n p a = .ok (p', out) → ∃ q b, finishY q b = .ok (p', out) := by
  intro n
  induction n with
  | zero => intro p p' a out h; cases h
  | succ n ih =>
    intro p p' a out h
    rcases loopY_succ h with ⟨_, h⟩ | ⟨_, _, _, _, _, ⟨_, h⟩ | ⟨_, _, _, _, _, h⟩⟩
    · exact ⟨_, _, h⟩
    · exact ⟨_, _, h⟩
    · exact ih h

/-- What is paid is not negative, what is got is not positive, and so on. -/
structure _root_.Hmm.Flt.SwapOutput.Signs (o : SwapOutput) : Prop where
  recv : lt o.recv F64.zero = false
  send : lt F64.zero o.send = false
  adj : lt o.sendHmmAdj F64.zero = false
  fee : lt o.recvFee F64.zero = false
  avg : lt o.avgPrice F64.zero = false
  endPrice : lt o.endPrice F64.zero = false

theorem output_signs {a b c d e f : F64} {o : SwapOutput} (h : SwapOutput.new a b c d e f = .ok o) : o.Signs := by
  unfold SwapOutput.new at h
  repeat' rw [ite_eq_ok] at h
  simp only [rpanic, reduceCtorEq, and_false, false_or, ok_inj, Bool.or_eq_false_iff] at h
  obtain ⟨h1, h2, h3, h4, rfl⟩ := h
  exact ⟨h1, h2, h3.1, h3.2, h4.1, h4.2⟩

theorem finishX_signs {p p' : Pool} {a : SwapAcc} {out : SwapOutput} (h : finishX p a = .ok (p', out)) : out.Signs := by
  unfold finishX at h
  simp only at h
  rw [bind_ok] at h
  obtain ⟨_, h1, h⟩ := h
  rw [pure_ok, Prod.mk.injEq] at h
  obtain ⟨rfl, rfl⟩ := h
  exact output_signs h1

theorem finishY_signs {p p' : Pool} {a : SwapAcc} {out : SwapOutput} (h : finishY p a = .ok (p', out)) : out.Signs := by
  unfold finishY at h
  simp only at h
  rw [bind_ok] at h
  obtain ⟨_, h1, h⟩ := h
  rw [pure_ok, Prod.mk.injEq] at h
  obtain ⟨rfl, rfl⟩ := h
  exact output_signs h1

/-- C95: offers of nothing or less are refused. -/
theorem no_offer_refused {m : LibM} {p : Pool} {n : Nat} {d o : F64} {q : ℚ} (hd : d.Is q) (hq : q ≤ 0) :
    p.executeSwapFromX m n d o = .error .panic ∧ p.executeSwapFromY m n d o = .error .panic := by
  have h : le d F64.zero = true := (le_is hd zero_is).2 hq
  unfold executeSwapFromX executeSwapFromY
  rw [h]
  exact ⟨rfl, rfl⟩

theorem square_within {a : F64} {v : ℚ} (h : a.Is v) (hs : Sized 100 v) : (mul a a).Within (v ^ 2) 1 := by
  have h2 : Sized 200 (v ^ 2) := by rw [pow_two]; exact hs.mul hs
  have := Near.mul (near_is h hs.pos.le) (near_is h hs.pos.le) (e := 200) (Or.inr (by rw [← pow_two]; exact h2)) (by norm_num) (by norm_num)
  rw [← pow_two] at this
  exact this.within (by norm_num)

theorem ratio_within {a b : F64} {r s : ℚ} (ha : a.Is r) (hb : b.Is s) (hr : Sized 400 r) (hs : Sized 400 s) :
    (div a b).Within (r / s) 1 := by
  have := Near.div (near_is ha hr.pos.le) (near_is hb hs.pos.le) hs.pos (e := 400 + 400) (Or.inr (hr.div hs)) (by norm_num) (by norm_num)
  exact this.within (by norm_num)

/-- C95, sale of X: the average price reported is the Y got per X paid (zero if nothing was paid) and the end price the
square of the root price, both up to one part in `2^52`. -/
theorem sell_x_report {m : LibM} {p p' : Pool} {n : Nat} {dx o : F64} {out : SwapOutput}
    (h : p.executeSwapFromX m n dx o = .ok (p', out)) :
    out.Signs ∧ (∀ v, p'.gs.rp.Is v → Sized 100 v → out.endPrice.Within (v ^ 2) 1) ∧
    (out.recv.Is 0 → out.avgPrice.Is 0) ∧
    ∀ r s, out.recv.Is r → out.send.Is (-s) → Sized 400 r → Sized 400 s → out.avgPrice.Within (s / r) 1 := by
  unfold executeSwapFromX at h
  rw [ite_eq_ok] at h
  rcases h with ⟨_, h⟩ | ⟨_, h⟩
  · exact absurd h (by simp [rpanic])
  obtain ⟨ts, w, _⟩ := loopX_walk rfl h
  obtain ⟨_, _, hf⟩ := loopX_finish h
  refine ⟨finishX_signs hf, fun v hv hs => by rw [w.endPrice]; exact square_within hv hs, fun hr => ?_, fun r s hr hs sr ss => ?_⟩
  · rw [w.avg, if_pos ((eq_is hr zero_is).2 rfl)]; exact zero_is
  · rw [w.avg, if_neg (fun hc => sr.pos.ne' ((eq_is hr zero_is).1 hc))]
    have := neg_is hs
    rw [neg_neg] at this
    exact ratio_within this hr ss sr

/-- C95, sale of Y: the average price is the Y paid per X got (zero if nothing was got). -/
theorem sell_y_report {m : LibM} {p p' : Pool} {n : Nat} {dy o : F64} {out : SwapOutput}
    (h : p.executeSwapFromY m n dy o = .ok (p', out)) :
    out.Signs ∧ (∀ v, p'.gs.rp.Is v → Sized 100 v → out.endPrice.Within (v ^ 2) 1) ∧
    (out.send.Is 0 → out.avgPrice.Is 0) ∧
    ∀ r s, out.recv.Is r → out.send.Is (-s) → Sized 400 r → Sized 400 s → out.avgPrice.Within (r / s) 1 := by
  unfold executeSwapFromY at h
  rw [ite_eq_ok] at h
  rcases h with ⟨_, h⟩ | ⟨_, h⟩
  · exact absurd h (by simp [rpanic])
  obtain ⟨ts, w, _⟩ := loopY_walk rfl h
  obtain ⟨_, _, hf⟩ := loopY_finish h
  refine ⟨finishY_signs hf, fun v hv hs => by rw [w.endPrice]; exact square_within hv hs, fun hr => ?_, fun r s hr hs sr ss => ?_⟩
  · rw [w.avg, if_pos ((eq_is hr zero_is).2 rfl)]; exact zero_is
  · rw [w.avg, if_neg (fun hc => by
      have := (eq_is hs zero_is).1 hc
      exact ss.pos.ne' (neg_eq_zero.1 this))]
    have e : (div out.recv.neg out.send) = div out.recv out.send.neg := by
      cases hr' : out.recv <;> cases hs' : out.send <;> simp [F64.neg, div]
    rw [e]
    have := neg_is hs
    rw [neg_neg] at this
    exact ratio_within hr this sr ss

/-- C95: a new pool is empty and its price is that of a tick on the grid, the last one not above the tick of the price asked for. -/
theorem new_on_grid (m : LibM) (rp c fee : F64) {s : Nat} (hs : 0 < s) (hs' : s < 2 ^ 32) :
    ∃ p, Pool.new m rp s c fee = .ok p ∧ p.gs.rp = tickToRp m p.gs.tick ∧ s ∣ p.gs.tick ∧
      p.gs.tick ≤ rpToTick m rp false ∧ rpToTick m rp false < p.gs.tick + s ∧
      p.gs.liq = F64.zero ∧ p.ticks = [] ∧ p.positions = [] ∧ p.x = F64.zero ∧ p.y = F64.zero ∧ p.c = c ∧ p.feeRate = fee ∧
      p.spacing = s := by
  have ht : rpToTick m rp false < 2 ^ 32 := by
    unfold rpToTick
    simp only [Bool.false_eq_true, if_false]
    have := toU32_le (div (m.ln rp) (m.ln tickBase.sqrt)).floor
    omega
  obtain ⟨d1, d2, d3⟩ := snap_down ht hs hs'
  have hz : lt F64.zero F64.zero = false := by
    rw [← Bool.not_eq_true, lt_is zero_is zero_is]; exact lt_irrefl _
  refine ⟨{ spacing := s, gs := ⟨F64.zero, tickToRp m (rpToPossibleTk m rp s false), rpToPossibleTk m rp s false, Fees.zero⟩,
            ticks := [], positions := [], x := F64.zero, y := F64.zero, xAdj := F64.zero, yAdj := F64.zero, xFee := F64.zero,
            yFee := F64.zero, c := c, feeRate := fee }, ?_, rfl, d1, d2, d3, rfl, rfl, rfl, rfl, rfl, rfl, rfl, rfl⟩
  unfold Pool.new GlobalState.new
  simp only [hz, Bool.false_eq_true, if_false]
  rfl

end

/-- A sale of one X and one of 1000 Y meet the hypotheses of the reports. -/
theorem report_case : ∃ p p1 o1 p2 o2, eth F64.zero (lit 3 1000) = .ok p ∧ p.executeSwapFromX libm 9 (ofNat 1) (rt 2000) = .ok (p1, o1) ∧
    p1.executeSwapFromY libm 9 (ofNat 1000) (rt 2000) = .ok (p2, o2) ∧
    Sized 100 o1.recv.val ∧ Sized 100 o1.send.neg.val ∧ Sized 100 o2.recv.val ∧ Sized 100 o2.send.neg.val ∧
    lt (ofNat 1826) o1.avgPrice = true ∧ lt o1.avgPrice (ofNat 1827) = true := by
  have h : (match eth F64.zero (lit 3 1000) with
    | .error _ => false
    | .ok p => match p.executeSwapFromX libm 9 (ofNat 1) (rt 2000) with
      | .error _ => false
      | .ok (p1, o1) => match p1.executeSwapFromY libm 9 (ofNat 1000) (rt 2000) with
        | .error _ => false
        | .ok (_, o2) => moderate o1.recv && moderate o1.send.neg && moderate o2.recv && moderate o2.send.neg &&
          lt (ofNat 1826) o1.avgPrice && lt o1.avgPrice (ofNat 1827)) = true := by decide +kernel
  split at h
  · cases h
  rename_i p h0
  split at h
  · cases h
  rename_i p1 o1 h1
  split at h
  · cases h
  rename_i p2 o2 h2
  simp only [Bool.and_eq_true] at h
  obtain ⟨⟨⟨⟨⟨c1, c2⟩, c3⟩, c4⟩, c5⟩, c6⟩ := h
  exact ⟨p, p1, o1, p2, o2, h0, h1, h2, (moderate_ok c1).2.2, (moderate_ok c2).2.2, (moderate_ok c3).2.2, (moderate_ok c4).2.2, c5, c6⟩

end Hmm.Flt.Pool
