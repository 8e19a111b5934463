import Verif.Proofs.Ledger
import Verif.Spec.Fees

/-
Fee growth records.
-/

namespace Hmm.Pool

open Decimal PoolMath

/-! ### Records stay between zero and the total -/

structure Recorded (p : Pool) : Prop where
  growth : ∀ k, 0 ≤ p.growth k
  tick : ∀ t ts, mapGet t p.ticks = some ts → ∀ k, 0 ≤ (ts.fees.at k).toRat ∧ (ts.fees.at k).toRat ≤ p.growth k

theorem Recorded.bounds {p : Pool} (h : Recorded p) (k : Kind) (t : Nat) :
    0 ≤ p.recorded k t ∧ p.recorded k t ≤ p.growth k := by
  unfold recorded
  cases hg : mapGet t p.ticks with
  | none => exact ⟨le_rfl, h.growth k⟩
  | some ts => exact h.tick t ts hg k

theorem Recorded.below {p : Pool} (h : Recorded p) (k : Kind) (t : Nat) :
    0 ≤ p.below k t ∧ p.below k t ≤ p.growth k := by
  have := h.bounds k t
  unfold Pool.below
  split <;> constructor <;> linarith

theorem zero_at (k : Kind) : (Fees.zero.at k).toRat = 0 := by cases k <;> exact zero_toRat

theorem Recorded.mono {p p' : Pool} (h : Recorded p) (h1 : p'.ticks = p.ticks)
    (h2 : ∀ k, p.growth k ≤ p'.growth k) : Recorded p' :=
  ⟨fun k => (h.growth k).trans (h2 k), fun t ts hm k =>
    ⟨(h.tick t ts (h1 ▸ hm) k).1, ((h.tick t ts (h1 ▸ hm) k).2).trans (h2 k)⟩⟩

theorem cross_fees {p p' : Pool} {t : Nat} {b : Bool} (h : p.crossTick t b = .ok p') :
    ∃ ts ts', mapGet t p.ticks = some ts ∧ mapGet t p'.ticks = some ts' ∧
      (∀ k, (ts'.fees.at k).toRat = p.growth k - (ts.fees.at k).toRat) ∧
      (∀ j, j ≠ t → mapGet j p'.ticks = mapGet j p.ticks) ∧ p'.gs.fees = p.gs.fees := by
  obtain ⟨ts, fx, fy, hx, hy, nt, n, h1, _, g1, g2, g3, g4, _, _, _, _, rfl⟩ := crossTick_ok h
  refine ⟨ts, _, h1, mapGet_set_same _ _ _, ?_, fun j hj => mapGet_set_other hj _ _, rfl⟩
  intro k
  cases k
  · exact sub_toRat g1
  · exact sub_toRat g2
  · exact sub_toRat g3
  · exact sub_toRat g4

theorem Recorded.cross {p p' : Pool} (h : Recorded p) {t : Nat} {b : Bool} (hc : p.crossTick t b = .ok p') :
    Recorded p' := by
  obtain ⟨ts, ts', h1, h2, h3, h4, h5⟩ := cross_fees hc
  have hg : ∀ k, p'.growth k = p.growth k := fun k => by unfold Pool.growth; rw [h5]
  refine ⟨fun k => hg k ▸ h.growth k, fun j tj hj k => ?_⟩
  rw [hg k]
  by_cases hjt : j = t
  · subst hjt
    rw [h2] at hj; cases hj
    have := h.tick j ts h1 k
    rw [h3]
    constructor <;> linarith
  · rw [h4 j hjt] at hj
    exact h.tick j tj hj k

theorem Recorded.updateTick {p p' : Pool} (h : Recorded p) {t : Nat} {d : Decimal} {u : Bool}
    (hu : p.updateTick t d u = .ok p') : Recorded p' := by
  obtain ⟨h1, n, g, _, _, h2⟩ := updateTick_get hu
  have hf := updateTick_frame hu
  have hg : ∀ k, p'.growth k = p.growth k := fun k => by unfold Pool.growth; rw [hf]
  refine ⟨fun k => hg k ▸ h.growth k, fun j tj hj k => ?_⟩
  rw [hg k]
  by_cases hjt : j = t
  · subst hjt
    rcases h2 with ⟨_, h2⟩ | ⟨_, h2⟩
    · rw [h2] at hj; cases hj
    · rw [h2] at hj; cases hj
      simp only [tickOrNew]
      cases hm : mapGet j p.ticks with
      | none =>
        simp only [Option.getD_none]
        split
        · exact ⟨h.growth k, le_rfl⟩
        · rw [zero_at]; exact ⟨le_rfl, h.growth k⟩
      | some ts => exact h.tick j ts hm k
  · rw [h1 j hjt] at hj
    exact h.tick j tj hj k

theorem Recorded.setPosition {p p' : Pool} (h : Recorded p) {user lower upper : Nat} {d : Decimal} {f : Fees}
    (hs : p.setPosition user lower upper d = .ok (p', f)) : Recorded p' := by
  obtain ⟨nf, ps', old, base, fu, p1, p2, _, _, _, _, h0, _, _, _, _, _, h1, h2, h3, _⟩ := setPosition_ok hs
  have k0 : Recorded { p with positions := ps' } := h.mono rfl fun _ => le_rfl
  have k2 := (k0.updateTick h1).updateTick h2
  rw [ite_ok] at h3
  rcases h3 with ⟨_, h3⟩ | ⟨_, h3⟩
  · obtain ⟨n, _, _, rfl⟩ := addGlblLiq_ok.1 h3
    exact k2.mono rfl fun _ => le_rfl
  · cases h3; exact k2

theorem payFees_same {p p' : Pool} {f : Fees} (h : p.payFees f = .ok p') : p'.ticks = p.ticks ∧ p'.gs = p.gs :=
  ⟨(payFees_frame h).2.1, (payFees_frame h).2.2.1⟩

theorem growth_congr {p p' : Pool} (h : p'.gs.fees = p.gs.fees) (k : Kind) : p'.growth k = p.growth k := by
  unfold growth; rw [h]

theorem Recorded.deposit {p p' : Pool} (hr : Recorded p) {user : Nat} {x y rpa rpb : Decimal} {r : Receipt}
    (h : p.deposit user x y rpa rpb = .ok (p', r)) : Recorded p' := by
  obtain ⟨lower, upper, a, b, liq, p1, p2, px, py, _, _, _, _, _, _, _, _, _, _, _, _, _, _, _, h1, _, _, _, _,
    h4, rfl⟩ := deposit_ok h
  exact (hr.setPosition h1).mono (payFees_same h4).1 fun k =>
    (growth_congr (p' := { p2 with x := px, y := py }) (congrArg _ (payFees_same h4).2) k).ge

theorem Recorded.withdraw {p p' : Pool} (hr : Recorded p) {user : Nat} {liq rpa rpb : Decimal} {r : Receipt}
    (h : p.withdraw user liq rpa rpb = .ok (p', r)) : Recorded p' := by
  obtain ⟨lower, upper, a, b, p1, p2, x0, y0, adj, px, py, _, _, _, _, _, _, h1, _, _, _, _, _, _, _, _, _, _, _,
    h5, rfl⟩ := withdraw_ok h
  exact (hr.setPosition h1).mono (payFees_same h5).1 fun k =>
    (growth_congr (p' := { p2 with x := px, y := py }) (congrArg _ (payFees_same h5).2) k).ge

theorem riseX {l recvFee adj : Decimal} {old fees : Fees} (hadj : 0 ≤ adj.toRat) (hfee : 0 ≤ recvFee.toRat)
    (hf : (l.isPositive = true ∧ fees.fy = old.fy ∧ fees.hx = old.hx ∧
        (∃ g, recvFee.div l = .ok g ∧ g.add old.fx = .ok fees.fx) ∧
        (∃ g, adj.div l = .ok g ∧ g.add old.hy = .ok fees.hy)) ∨ (l.isPositive = false ∧ fees = old)) (k : Kind) :
    (old.at k).toRat ≤ (fees.at k).toRat := by
  rcases hf with ⟨hl, e1, e2, ⟨g1, d1, a1⟩, g2, d2, a2⟩ | ⟨_, rfl⟩
  · have hl' := (isPositive_toRat.1 hl).le
    have n1 := nonneg_div d1 hfee hl'
    have n2 := nonneg_div d2 hadj hl'
    cases k
    · simp only [Fees.at]; rw [add_toRat a1]; linarith
    · simp only [Fees.at]; rw [e1]
    · simp only [Fees.at]; rw [e2]
    · simp only [Fees.at]; rw [add_toRat a2]; linarith
  · exact le_rfl

/-- A step of a sale of X as a rise of the growths followed by at most one crossing. -/
theorem stepX_view {fl : FloatEnv} {dx o : Decimal} {p p' : Pool} {a a' : SwapAcc} {g : Nat}
    (hs : stepX fl dx o p a g = .ok (p', a')) :
    ∃ p1 : Pool, p1.positions = p.positions ∧ p1.ticks = p.ticks ∧ p1.spacing = p.spacing ∧
      p1.gs.liq = p.gs.liq ∧ (∀ k, p.growth k ≤ p1.growth k) ∧
      ((p1.gs.tick = g ∧ p1.crossTick g false = .ok p') ∨ p' = p1) := by
  obtain ⟨rem, r, ysum, newY, c1, chk, rs, newX, xFee, yAdj, fees, p1, _, h2, _, _, _, _, _, _, _, _,
    _, _, _, _, _, _, _, _, hf, hp1, h18⟩ := stepX_ok hs
  obtain ⟨_, _, _, _, _, _, _, _, _, _, _, _, hadj, hfee, _⟩ := swapWithinX_ok h2
  refine ⟨p1, by rw [hp1], by rw [hp1], by rw [hp1], by rw [hp1], fun k => ?_, ?_⟩
  · have e : p1.growth k = (fees.at k).toRat := by rw [hp1]; rfl
    rw [e]
    unfold growth
    exact riseX hadj hfee hf k
  · rcases h18 with ⟨_, ht, _, hc⟩ | ⟨_, _, _, hc⟩ | ⟨_, hc⟩
    · exact .inl ⟨by rw [hp1]; exact ht, hc⟩
    · exact .inr hc
    · exact .inr hc

theorem riseY {l recvFee adj : Decimal} {old fees : Fees} (hadj : 0 ≤ adj.toRat) (hfee : 0 ≤ recvFee.toRat)
    (hf : (l.isPositive = true ∧ fees.fx = old.fx ∧ fees.hy = old.hy ∧
        (∃ g, recvFee.div l = .ok g ∧ g.add old.fy = .ok fees.fy) ∧
        (∃ g, adj.div l = .ok g ∧ g.add old.hx = .ok fees.hx)) ∨ (l.isPositive = false ∧ fees = old)) (k : Kind) :
    (old.at k).toRat ≤ (fees.at k).toRat := by
  rcases hf with ⟨hl, e1, e2, ⟨g1, d1, a1⟩, g2, d2, a2⟩ | ⟨_, rfl⟩
  · have hl' := (isPositive_toRat.1 hl).le
    have n1 := nonneg_div d1 hfee hl'
    have n2 := nonneg_div d2 hadj hl'
    cases k
    · simp only [Fees.at]; rw [e1]
    · simp only [Fees.at]; rw [add_toRat a1]; linarith
    · simp only [Fees.at]; rw [add_toRat a2]; linarith
    · simp only [Fees.at]; rw [e2]
  · exact le_rfl

theorem stepY_view {fl : FloatEnv} {dy o : Decimal} {p p' : Pool} {a a' : SwapAcc} {g : Nat}
    (hs : stepY fl dy o p a g = .ok (p', a')) :
    ∃ p1 : Pool, p1.positions = p.positions ∧ p1.ticks = p.ticks ∧ p1.spacing = p.spacing ∧
      p1.gs.liq = p.gs.liq ∧ (∀ k, p.growth k ≤ p1.growth k) ∧
      ((p1.gs.tick = g ∧ p1.crossTick g true = .ok p') ∨ p' = p1) := by
  obtain ⟨rem, r, xsum, newX, c1, chk, rs, newY, yFee, xAdj, fees, p1, _, h2, _, _, _, _, _, _, _, _,
    _, _, _, _, _, _, _, _, hf, hp1, h18⟩ := stepY_ok hs
  obtain ⟨_, _, _, _, _, _, _, _, _, _, _, _, hadj, hfee, _⟩ := swapWithinY_ok h2
  refine ⟨p1, by rw [hp1], by rw [hp1], by rw [hp1], by rw [hp1], fun k => ?_, ?_⟩
  · have e : p1.growth k = (fees.at k).toRat := by rw [hp1]; rfl
    rw [e]
    unfold growth
    exact riseY hadj hfee hf k
  · rcases h18 with ⟨_, ht, _, hc⟩ | ⟨_, _, _, hc⟩ | ⟨_, hc⟩
    · exact .inl ⟨by rw [hp1]; exact ht, hc⟩
    · exact .inr hc
    · exact .inr hc

theorem Recorded.walk {p p' : Pool} (h : Recorded p) {t : Nat} {q : Decimal} {b : Bool}
    (hc : ((p.setTick t).setRp q).crossTick t b = .ok p') : Recorded p' :=
  Recorded.cross (h.mono (p' := (p.setTick t).setRp q) rfl fun _ => le_rfl) hc

theorem Recorded.sellX {p p' : Pool} (hr : Recorded p) {fl : FloatEnv} {dx o : Decimal} {r : SwapOutput}
    (h : p.executeSwapFromX fl dx o = .ok (p', r)) : Recorded p' := by
  refine sellX_inv h hr (fun hp hg => goalX_inv hp hg fun hp _ _ hc => hp.walk hc) (fun hp hs => ?_)
  obtain ⟨p1, _, h2, _, _, h3, ⟨_, h4⟩ | rfl⟩ := stepX_view hs
  · exact (hp.mono h2 h3).cross h4
  · exact hp.mono h2 h3

theorem Recorded.sellY {p p' : Pool} (hr : Recorded p) {fl : FloatEnv} {dy o : Decimal} {r : SwapOutput}
    (h : p.executeSwapFromY fl dy o = .ok (p', r)) : Recorded p' := by
  refine sellY_inv h hr (fun hp hg => goalY_inv hp hg fun hp _ _ hc => hp.walk hc) (fun hp hs => ?_)
  obtain ⟨p1, _, h2, _, _, h3, ⟨_, h4⟩ | rfl⟩ := stepY_view hs
  · exact (hp.mono h2 h3).cross h4
  · exact hp.mono h2 h3

theorem Recorded.reachable {p : Pool} (h : Reachable p) : Recorded p := by
  induction h with
  | new h =>
    obtain ⟨tk, q, _, _, _, _, _, rfl⟩ := new_ok h
    exact ⟨fun k => by unfold Pool.growth; rw [zero_at], fun t ts hm => by simp [mapGet] at hm⟩
  | step _ hs ih =>
    cases hs with
    | deposit h => exact ih.deposit h
    | withdraw h => exact ih.withdraw h
    | sellX h => exact ih.sellX h
    | sellY h => exact ih.sellY h

/-! ### Growth during swaps -/

/-- Growth goes up, below a tick by no more than in total, and below a higher tick by no less. -/
structure Grows (p p' : Pool) : Prop where
  keys : p'.ticks.map (·.1) = p.ticks.map (·.1)
  growth : ∀ k, p.growth k ≤ p'.growth k
  below : ∀ k, ∀ t ∈ p.ticks.map (·.1), p.below k t ≤ p'.below k t ∧
    p'.below k t - p.below k t ≤ p'.growth k - p.growth k
  mono : ∀ k, ∀ s ∈ p.ticks.map (·.1), ∀ t ∈ p.ticks.map (·.1), s ≤ t →
    p'.below k s - p.below k s ≤ p'.below k t - p.below k t

theorem Grows.refl (p : Pool) : Grows p p :=
  ⟨rfl, fun _ => le_rfl, fun _ _ _ => ⟨le_rfl, by simp⟩, fun _ _ _ _ _ _ => by simp⟩

theorem Grows.trans {p q r : Pool} (h : Grows p q) (h' : Grows q r) : Grows p r := by
  refine ⟨h'.keys.trans h.keys, fun k => (h.growth k).trans (h'.growth k), fun k t ht => ?_, fun k s hs t ht hst => ?_⟩
  · have h1 := h.below k t ht
    have h2 := h'.below k t (h.keys ▸ ht)
    constructor <;> linarith
  · have h1 := h.mono k s hs t ht hst
    have h2 := h'.mono k s (h.keys ▸ hs) t (h.keys ▸ ht) hst
    linarith

/-- One stage of a swap: all growth happens at the current tick, so it is below exactly the ticks above it. -/
structure Rises (p p' : Pool) : Prop where
  keys : p'.ticks.map (·.1) = p.ticks.map (·.1)
  growth : ∀ k, p.growth k ≤ p'.growth k
  below : ∀ k, ∀ t ∈ p.ticks.map (·.1),
    p'.below k t = p.below k t + if t ≤ p.gs.tick then 0 else p'.growth k - p.growth k

theorem Rises.grows {p p' : Pool} (h : Rises p p') : Grows p p' := by
  obtain ⟨h1, h2, h3⟩ := h
  refine ⟨h1, h2, fun k t ht => ?_, fun k s hs t ht hst => ?_⟩
  · rw [h3 k t ht]
    have := h2 k
    split <;> constructor <;> linarith
  · rw [h3 k t ht, h3 k s hs]
    have := h2 k
    by_cases a : s ≤ p.gs.tick <;> by_cases b : t ≤ p.gs.tick
    · rw [if_pos a, if_pos b]; linarith
    · rw [if_pos a, if_neg b]; linarith
    · omega
    · rw [if_neg a, if_neg b]; linarith

theorem recorded_congr {p p' : Pool} {t : Nat} (h : mapGet t p'.ticks = mapGet t p.ticks) (k : Kind) :
    p'.recorded k t = p.recorded k t := by
  unfold recorded; rw [h]

/-- Moving between the same ticks. -/
theorem Rises.move {p p' : Pool} (h1 : p'.ticks = p.ticks) (h2 : ∀ k, p.growth k ≤ p'.growth k)
    (h3 : ∀ t ∈ p.ticks.map (·.1), (t ≤ p.gs.tick ↔ t ≤ p'.gs.tick)) : Rises p p' := by
  refine .mk (by rw [h1]) h2 fun k t ht => ?_
  unfold Pool.below
  rw [recorded_congr (p := p) (p' := p') (t := t) (by rw [h1])]
  by_cases a : t ≤ p.gs.tick
  · rw [if_pos a, if_pos a, if_pos ((h3 t ht).1 a)]; ring
  · rw [if_neg a, if_neg a, if_neg fun h => a ((h3 t ht).2 h)]; ring

theorem Rises.crossLeft {p p1 p' : Pool} {g : Nat} (hle : g ≤ p.gs.tick)
    (hgrid : ∀ k ∈ p.ticks.map (·.1), p.spacing ∣ k)
    (hmax : ∀ k ∈ p.ticks.map (·.1), k ≤ p.gs.tick → k ≤ g) (e2 : p1.ticks = p.ticks) (e3 : p1.spacing = p.spacing)
    (hgr : ∀ k, p.growth k ≤ p1.growth k) (hc : p1.crossTick g false = .ok p') : Rises p p' := by
  obtain ⟨ts, ts', h1, h2, h3, h4, h5⟩ := cross_fees hc
  have hkeys : p'.ticks.map (·.1) = p1.ticks.map (·.1) := (crossTick_frame hc).2.2.2.2.2.2.2.2.2.2.1
  obtain ⟨_, _, _, _, _, nt, n, _, _, _, _, _, _, _, g2, _, _, hp'⟩ := crossTick_ok hc
  obtain ⟨g4, g5⟩ := g2 rfl
  obtain ⟨_, s1, s2⟩ := C26_down g5
  have ht' : p'.gs.tick = nt := by rw [hp']
  rw [e2] at h1 h4 hkeys
  rw [e3] at s2
  have hG := growth_congr h5
  refine .mk hkeys (fun k => by rw [hG]; exact hgr k) fun k t ht => ?_
  unfold Pool.below
  rw [ht', hG]
  by_cases htg : t = g
  · subst htg
    rw [if_neg (show ¬ t ≤ nt by omega), if_pos hle, if_pos hle]
    unfold recorded
    rw [h1, h2]
    simp only [Option.elim]
    rw [h3 k]; ring
  · rw [recorded_congr (h4 t htg)]
    by_cases a : t ≤ p.gs.tick
    · have h6 := hmax t ht a
      have h7 := s2 t (hgrid t ht) (by omega)
      rw [if_pos a, if_pos a, if_pos h7]; ring
    · rw [if_neg a, if_neg a, if_neg (by omega)]; ring

theorem Rises.crossRight {p p1 p' : Pool} {g : Nat} (hlt : p.gs.tick < g)
    (hmin : ∀ k ∈ p.ticks.map (·.1), k < g → k ≤ p.gs.tick) (e2 : p1.ticks = p.ticks)
    (hgr : ∀ k, p.growth k ≤ p1.growth k) (hc : p1.crossTick g true = .ok p') : Rises p p' := by
  obtain ⟨ts, ts', h1, h2, h3, h4, h5⟩ := cross_fees hc
  have hkeys : p'.ticks.map (·.1) = p1.ticks.map (·.1) := (crossTick_frame hc).2.2.2.2.2.2.2.2.2.2.1
  obtain ⟨_, _, _, _, _, nt, n, _, _, _, _, _, _, g2, _, _, _, hp'⟩ := crossTick_ok hc
  have ht' : p'.gs.tick = g := by rw [hp']; exact g2 rfl
  rw [e2] at h1 h4 hkeys
  have hG := growth_congr h5
  refine .mk hkeys (fun k => by rw [hG]; exact hgr k) fun k t ht => ?_
  unfold Pool.below
  rw [ht', hG]
  by_cases htg : t = g
  · subst htg
    rw [if_pos le_rfl, if_neg (by omega), if_neg (by omega)]
    unfold recorded
    rw [h1, h2]
    simp only [Option.elim]
    rw [h3 k]; ring
  · rw [recorded_congr (h4 t htg)]
    by_cases a : t ≤ p.gs.tick
    · rw [if_pos a, if_pos a, if_pos (by omega)]; ring
    · have h6 : ¬ t < g := fun h => a (hmin t ht h)
      rw [if_neg a, if_neg a, if_neg (by omega)]; ring

/-! ### What a change of position claims -/

/-- Fee growth inside a range as the code computes it: fees count as all below an uninitialised tick. -/
theorem feeRng_at {p : Pool} {k : Kind} {l u : Nat} {e : Decimal} (h : p.feeRng (fun f => f.at k) l u = .ok e) :
    0 ≤ e.toRat ∧ e.toRat =
      (if u ∈ p.ticks.map (·.1) then p.below k u else p.growth k) -
      (if l ∈ p.ticks.map (·.1) then p.below k l else p.growth k) := by
  have key : ∀ {t a b}, p.feeBelowAbove (fun f => f.at k) t = .ok (a, b) →
      a.toRat = (if t ∈ p.ticks.map (·.1) then p.below k t else p.growth k) ∧
      b.toRat = p.growth k - (if t ∈ p.ticks.map (·.1) then p.below k t else p.growth k) := by
    intro t a b h
    unfold feeBelowAbove at h
    simp only at h
    cases hg : mapGet t p.ticks with
    | none =>
      rw [hg] at h
      simp only [pure_ok, Prod.mk.injEq] at h
      obtain ⟨rfl, rfl⟩ := h
      rw [if_neg (mapGet_none.1 hg), zero_toRat, sub_self]
      exact ⟨rfl, rfl⟩
    | some ts =>
      rw [hg] at h
      simp only at h
      rw [bind_ok] at h
      obtain ⟨o, h1, h⟩ := h
      have h1 := sub_toRat (unwrap_ok.1 h1)
      have hin : t ∈ p.ticks.map (·.1) := mapGet_isSome.1 (by rw [hg]; rfl)
      rw [if_pos hin]
      unfold Pool.below growth recorded
      rw [hg]
      simp only [Option.elim]
      rw [ite_ok] at h
      rcases h with ⟨h2, h⟩ | ⟨h2, h⟩
      · simp only [pure_ok, Prod.mk.injEq] at h
        obtain ⟨rfl, rfl⟩ := h
        rw [if_pos h2]
        exact ⟨rfl, h1⟩
      · simp only [pure_ok, Prod.mk.injEq] at h
        obtain ⟨rfl, rfl⟩ := h
        rw [if_neg h2]
        exact ⟨h1, by ring⟩
  unfold feeRng at h
  rw [bind_ok] at h; obtain ⟨⟨a, b⟩, h1, h⟩ := h
  rw [bind_ok] at h; obtain ⟨⟨c, d⟩, h2, h⟩ := h
  simp only at h
  rw [bind_ok] at h; obtain ⟨s, h3, h⟩ := h
  rw [bind_ok] at h; obtain ⟨s', h4, h⟩ := h
  rw [bind_ok] at h; obtain ⟨_, h5, h⟩ := h
  rw [bind_ok] at h; obtain ⟨e1, h6, h⟩ := h
  rw [bind_ok] at h; obtain ⟨e2, h7, h⟩ := h
  rw [ite_ok] at h; rcases h with ⟨_, h⟩ | ⟨h8, h⟩; · simp [rpanic] at h
  cases h
  rw [Bool.not_eq_true] at h8
  refine ⟨not_isNegative.1 h8, ?_⟩
  obtain ⟨k1, k2⟩ := key h1
  obtain ⟨k3, k4⟩ := key h2
  rw [sub_toRat (unwrap_ok.1 h7), sub_toRat (unwrap_ok.1 h6), add_toRat (unwrap_ok.1 h3), k1, k2, k4]
  ring

end Hmm.Pool
