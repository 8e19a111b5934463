import Verif.Spec.Trades
import Verif.Props.Solvency

/-
C72: no sequence of swaps takes out more than it pays in, valued at the price before.
-/

namespace Hmm.Pool

open Decimal PoolMath
open Hmm.Sample hiding get

/-- Valued at the square of any root price `u`, a range holds least at `u`. -/
theorem clamp_value {u v a b : ℚ} (ha : 0 < a) (hab : a ≤ b) (hu : 0 < u) :
    0 ≤ u ^ 2 * (1 / clampTo v a b - 1 / clampTo u a b) + (clampTo v a b - clampTo u a b) := by
  have hp : ∀ w, 0 < clampTo w a b := fun w => lt_of_lt_of_le ha (le_max_left _ _)
  have hm : ∀ {s t : ℚ}, s ≤ t → clampTo s a b ≤ clampTo t a b := fun h =>
    max_le_max_left _ (min_le_min_right _ h)
  set cu := clampTo u a b with hcu
  set cv := clampTo v a b with hcv
  have e : u ^ 2 * (1 / cv - 1 / cu) + (cv - cu) = (cv - cu) * (cu * cv - u ^ 2) / (cu * cv) := by
    have h1 : cu ≠ 0 := (hp u).ne'
    have h2 : cv ≠ 0 := (hp v).ne'
    field_simp
    ring
  rw [e]
  refine div_nonneg ?_ (mul_pos (hp u) (hp v)).le
  rcases le_total u v with h | h
  · have h1 : cu ≤ cv := hm h
    rcases le_total u b with hb | hb
    · have h2 : u ≤ cu := by rw [hcu]; exact le_max_of_le_right (le_min le_rfl hb)
      refine mul_nonneg (by linarith) ?_
      nlinarith
    · have h2 : cu = b := clampTo_hi hb hab
      have h3 : cv = b := clampTo_hi (hb.trans h) hab
      rw [h2, h3]; simp
  · have h1 : cv ≤ cu := hm h
    rcases le_total a u with hb | hb
    · have h2 : cu ≤ u := by rw [hcu]; exact max_le hb (min_le_left _ _)
      refine mul_nonneg_of_nonpos_of_nonpos (by linarith) ?_
      have := hp v
      nlinarith
    · have h2 : cu = a := clampTo_lo hb hab
      have h3 : cv = a := clampTo_lo (h.trans hb) hab
      rw [h2, h3]; simp

/-- So do all positions together: of two states with these positions, valued at the price of `r`. -/
theorem owed_value_at {p q r : Pool} (hs : Sound p) (h : q.positions = p.positions) (hr : r.positions = p.positions)
    (h1 : 0 < r.gs.rp.toRat) : 0 ≤ r.gs.rp.toRat ^ 2 * (q.owedX - r.owedX) + (q.owedY - r.owedY) := by
  unfold owedX owedY sumPos
  rw [h, hr]
  have key : ∀ e ∈ p.positions, 0 ≤ r.gs.rp.toRat ^ 2 *
      ((1 / clampTo q.gs.rp.toRat (tickPrice e.1.lower) (tickPrice e.1.upper) - 1 / tickPrice e.1.upper) * e.2.liq.toRat -
       (1 / clampTo r.gs.rp.toRat (tickPrice e.1.lower) (tickPrice e.1.upper) - 1 / tickPrice e.1.upper) * e.2.liq.toRat) +
      ((clampTo q.gs.rp.toRat (tickPrice e.1.lower) (tickPrice e.1.upper) - tickPrice e.1.lower) * e.2.liq.toRat -
       (clampTo r.gs.rp.toRat (tickPrice e.1.lower) (tickPrice e.1.upper) - tickPrice e.1.lower) * e.2.liq.toRat) := by
    rintro ⟨k, s⟩ hm
    have hg := get_of_mem hs.booked.unique hm
    obtain ⟨g0, g1, _⟩ := hs.booked.pos k s hg
    have g2 := hs.priced k s hg
    obtain ⟨ql, hql⟩ := tickToRp_returns (g1.trans g2)
    obtain ⟨qu, hqu⟩ := tickToRp_returns g2
    have hv := clamp_value (u := r.gs.rp.toRat) (v := q.gs.rp.toRat) (a := tickPrice k.lower) (b := tickPrice k.upper)
      (by rw [tickPrice_eq hql]; linarith [tickPrice_ge hql])
      (by rw [tickPrice_eq hql, tickPrice_eq hqu]; exact price_mono g1.le hql hqu) h1
    have := mul_nonneg hv g0
    simp only
    linarith
  revert key
  generalize p.positions = ps
  intro key
  induction ps with
  | nil => simp
  | cons e ps ih =>
    simp only [List.map_cons, List.sum_cons]
    have := key e (by simp)
    have := ih fun e he => key e (by simp [he])
    linarith

theorem owed_value {p q : Pool} (hs : Sound p) (h : q.positions = p.positions) :
    0 ≤ p.gs.rp.toRat ^ 2 * (q.owedX - p.owedX) + (q.owedY - p.owedY) :=
  owed_value_at hs h rfl (by linarith [hs.one_le])

theorem output_nonneg_x {fl : FloatEnv} {p p' : Pool} {dx o : Decimal} {r : SwapOutput}
    (h : p.executeSwapFromX fl dx o = .ok (p', r)) : 0 ≤ r.sendHmmAdj.toRat ∧ 0 ≤ r.recvFee.toRat := by
  unfold executeSwapFromX at h
  rw [ite_ok] at h
  rcases h with ⟨_, h⟩ | ⟨_, h⟩
  · simp [rpanic] at h
  obtain ⟨a', _, hf, _⟩ := loopX_inv (P := fun _ _ => True) (fun _ _ => trivial) (fun _ _ _ => trivial) trivial h
  unfold finishX at hf
  steps at hf
  obtain ⟨avg, _, ep, _, o, h3, hf⟩ := hf
  simp only [Prod.mk.injEq, true_and] at hf
  subst hf
  obtain ⟨_, _, _, h4, h5, _, _, rfl⟩ := swapOutput_ok h3
  exact ⟨h4, h5⟩

theorem output_nonneg_y {fl : FloatEnv} {p p' : Pool} {dy o : Decimal} {r : SwapOutput}
    (h : p.executeSwapFromY fl dy o = .ok (p', r)) : 0 ≤ r.sendHmmAdj.toRat ∧ 0 ≤ r.recvFee.toRat := by
  unfold executeSwapFromY at h
  rw [ite_ok] at h
  rcases h with ⟨_, h⟩ | ⟨_, h⟩
  · simp [rpanic] at h
  obtain ⟨a', _, hf, _⟩ := loopY_inv (P := fun _ _ => True) (fun _ _ => trivial) (fun _ _ _ => trivial) trivial h
  unfold finishY at hf
  steps at hf
  obtain ⟨avg, _, ep, _, o, h3, hf⟩ := hf
  simp only [Prod.mk.injEq, true_and] at hf
  subst hf
  obtain ⟨_, _, _, h4, h5, _, _, rfl⟩ := swapOutput_ok h3
  exact ⟨h4, h5⟩

/-- What is kept track of along a sequence of swaps. -/
structure Traded (p q : Pool) (n : Nat) (x y : ℚ) : Prop where
  positions : q.positions = p.positions
  keys : q.ticks.map (·.1) = p.ticks.map (·.1)
  spareX : -(n * ((p.ticks.length + 1) * ((p.totalLiq + 2) * ulp 12))) ≤ q.spareX - p.spareX
  spareY : -(n * ((p.ticks.length + 1) * ((p.totalLiq + 2) * ulp 12))) ≤ q.spareY - p.spareY
  x : q.x.toRat - p.x.toRat ≤ x
  y : q.y.toRat - p.y.toRat ≤ y

theorem traded_all {p q : Pool} {n : Nat} {x y : ℚ} (h : ClearTrades p n q x y) : Traded p q n x y := by
  have hu := ulp_pos (s := 12)
  induction h with
  | none => exact ⟨rfl, rfl, by simp, by simp, by simp, by simp⟩
  | sellX _ hq h ih =>
    have hd := sellX_dusty hq h
    have hb := booksX h
    obtain ⟨o1, o2⟩ := output_nonneg_x h
    obtain ⟨c1, c2, c3, c4, _⟩ := C34_from_x h
    have ht := (Sound.clearReachable hq).total_nonneg
    have hl := by simpa using congrArg List.length ih.keys
    have d1 := hd.x_lo
    have d2 := hd.y_lo
    rw [totalLiq_congr ih.positions] at d1 ht
    rw [hl] at d1 d2
    have e : ((p.ticks.length : ℚ) + 1) * ulp 12 ≤ (p.ticks.length + 1) * ((p.totalLiq + 2) * ulp 12) := by
      gcongr
      nlinarith
    push_cast at d1 d2
    refine ⟨hb.positions.trans ih.positions, hb.keys.trans ih.keys, ?_, ?_, ?_, ?_⟩ <;> push_cast
    · linarith [ih.spareX]
    · linarith [ih.spareY]
    · linarith [ih.x]
    · linarith [ih.y]
  | sellY _ hq h ih =>
    have hd := sellY_dusty hq h
    have hb := booksY h
    obtain ⟨o1, o2⟩ := output_nonneg_y h
    obtain ⟨c1, c2, c3, c4, _⟩ := C34_from_y h
    have ht := (Sound.clearReachable hq).total_nonneg
    have hl := by simpa using congrArg List.length ih.keys
    have d1 := hd.x_lo
    have d2 := hd.y_lo
    rw [totalLiq_congr ih.positions] at d1 ht
    rw [hl] at d1 d2
    have e : ((p.ticks.length : ℚ) + 1) * ulp 12 ≤ (p.ticks.length + 1) * ((p.totalLiq + 2) * ulp 12) := by
      gcongr
      nlinarith
    push_cast at d1 d2
    refine ⟨hb.positions.trans ih.positions, hb.keys.trans ih.keys, ?_, ?_, ?_, ?_⟩ <;> push_cast
    · linarith [ih.spareX]
    · linarith [ih.spareY]
    · linarith [ih.x]
    · linarith [ih.y]

/-- `single` with just enough X sold to bring the price to the lower end of its position, and then 18 Y. -/
def atEdge : Pool × SwapOutput := Sample.get do
  let p ← single
  p.executeSwapFromX fl (← dxFromLDrp p.gs.liq p.gs.rp (← tickToRp 10)) zero

@[inherit_doc atEdge] def fromEdge : Pool × SwapOutput := Sample.get (atEdge.1.executeSwapFromY fl (D 18) zero)

/-- C72 is false, by more than dust: once a swap has ended exactly on a tick (C39) the next one can buy X below
the price the first one started from.  Here the two of them take out tokens worth more than four thousandths of a Y more
than they pay in. -/
theorem C72_false : ∃ p q x y, Reachable p ∧ Trades p 2 q x y ∧ p.gs.rp.toRat ^ 2 * x + y < -(4 / 1000) := by
  have h0 : Reachable (Sample.get single) := by
    have h : single = .ok (Sample.get single) := by decide +kernel
    revert h
    generalize Sample.get single = p
    intro h
    unfold single at h
    rw [bind_ok] at h; obtain ⟨p0, h0, h⟩ := h
    rw [bind_ok] at h; obtain ⟨⟨p2, _⟩, h2, h⟩ := h
    cases h
    exact .step (.new h0) (.deposit h2)
  have h1 : (Sample.get single).executeSwapFromX fl (Sample.get (dxFromLDrp (Sample.get single).gs.liq
      (Sample.get single).gs.rp (Sample.get (tickToRp 10)))) zero = .ok (atEdge.1, atEdge.2) := by decide +kernel
  have h2 : atEdge.1.executeSwapFromY fl (D 18) zero = .ok (fromEdge.1, fromEdge.2) := by decide +kernel
  refine ⟨_, _, _, _, h0, .sellY (.sellX .none h1) h2, ?_⟩
  rw [show (Sample.get single).gs.rp = ⟨1001000450103, 12, false⟩ by decide +kernel,
    show atEdge.2.recv = ⟨9985011993462, 12, false⟩ by decide +kernel,
    show atEdge.2.send = ⟨9999999999999, 12, true⟩ by decide +kernel,
    show fromEdge.2.recv = ⟨18000000000000, 12, false⟩ by decide +kernel,
    show fromEdge.2.send = ⟨17973919982766, 12, true⟩ by decide +kernel]
  norm_num [toRat]

/-- C72 (partial): valued at the price `P` before the first of them, what traders pay in over any sequence of
`n` swaps is at least what they take out, but for `n * (ticks + 1) * (total liquidity + 2)` units of the
twelfth place of each token.  Missing: the dust, and swaps starting where the active liquidity is wrong (C39). -/
theorem C72_value_partial {p q : Pool} {n : Nat} {x y : ℚ} (hp : ClearReachable p) (h : ClearTrades p n q x y) :
    -(n * (p.ticks.length + 1) * (p.totalLiq + 2) / 10 ^ 12 * (p.gs.rp.toRat ^ 2 + 1)) ≤ p.gs.rp.toRat ^ 2 * x + y := by
  have hs := Sound.clearReachable hp
  have ht := traded_all h
  have hv := owed_value hs ht.positions
  have h1 := ht.spareX
  have h2 := ht.spareY
  have h3 := ht.x
  have h4 := ht.y
  have h5 := sq_nonneg p.gs.rp.toRat
  unfold spareX spareY ulp at *
  set d : ℚ := n * ((p.ticks.length + 1) * ((p.totalLiq + 2) * (1 / 10 ^ 12))) with hd
  have e : (n : ℚ) * (p.ticks.length + 1) * (p.totalLiq + 2) / 10 ^ 12 = d := by rw [hd]; ring
  rw [e]
  set P := p.gs.rp.toRat ^ 2
  nlinarith

/-- C72 (partial), round trips: traders who in the end have paid in no Y have taken out no X, but for dust. -/
theorem C72_round_trip_partial {p q : Pool} {n : Nat} {x y : ℚ} (hp : ClearReachable p) (h : ClearTrades p n q x y)
    (hy : y ≤ 0) : -(2 * (n * (p.ticks.length + 1) * (p.totalLiq + 2) / 10 ^ 12)) ≤ x := by
  have hv := C72_value_partial hp h
  have h1 := (Sound.clearReachable hp).one_le
  have h2 := (Sound.clearReachable hp).total_nonneg
  have h3 : (0 : ℚ) ≤ n * (p.ticks.length + 1) * (p.totalLiq + 2) / 10 ^ 12 := by positivity
  set d : ℚ := n * (p.ticks.length + 1) * (p.totalLiq + 2) / 10 ^ 12
  have hP : 1 ≤ p.gs.rp.toRat ^ 2 := by nlinarith
  set P := p.gs.rp.toRat ^ 2
  by_contra hc
  nlinarith

/-- The two swaps of `up` cross a tick each, after a history as asked for. -/
example : ClearReachable pool ∧ (∃ x y, ClearTrades pool 2 up.1 x y) ∧ 0 < pool.totalLiq := by
  have h1 : pool.executeSwapFromX fl ⟨17500000000000, 12, false⟩ zero = .ok (down.1, down.2) := by decide +kernel
  have h2 : down.1.executeSwapFromY fl (D 20) zero = .ok (up.1, up.2) := by decide +kernel
  exact ⟨pool_clear, ⟨_, _, .sellY (.sellX .none pool_clear h1) down_clear h2⟩, by decide +kernel⟩

end Hmm.Pool
