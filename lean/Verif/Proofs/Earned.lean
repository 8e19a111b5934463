import Verif.Proofs.Claims
import Verif.Proofs.Solvency
import Verif.Props.SwapOutcome

/-
Fees of swaps attributed to positions.
-/

namespace Hmm.Pool

open Decimal PoolMath

/-- As seen from the initialised ticks, `b` is not on the other side of `a`. -/
def Toward (dn : Bool) (p : Pool) (a b : Nat) : Prop :=
  ∀ t ∈ p.ticks.map (·.1), if dn then t ≤ b → t ≤ a else t ≤ a → t ≤ b

theorem Toward.refl {dn : Bool} {p : Pool} {a : Nat} : Toward dn p a a := fun _ _ => by cases dn <;> simp

theorem Toward.trans {dn : Bool} {p : Pool} {a b c : Nat} (h : Toward dn p a b) (h' : Toward dn p b c) :
    Toward dn p a c := fun t ht => by
  have h1 := h t ht
  have h2 := h' t ht
  cases dn
  · simp only [Bool.false_eq_true, if_false] at *; exact fun x => h2 (h1 x)
  · simp only [if_true] at *; exact fun x => h1 (h2 x)

theorem Toward.congr {dn : Bool} {p p' : Pool} {a b : Nat} (h : Toward dn p' a b)
    (hk : p'.ticks.map (·.1) = p.ticks.map (·.1)) : Toward dn p a b := fun t ht => h t (hk ▸ ht)

/-- A part of a swap as a list of stages. -/
structure Path (dn : Bool) (p p' : Pool) (ss : List Stage) : Prop where
  positions : p'.positions = p.positions
  keys : p'.ticks.map (·.1) = p.ticks.map (·.1)
  pot : ∀ k, (p'.pot k).toRat = (p.pot k).toRat + (ss.map (·.fee k)).sum
  split : ∀ s ∈ ss, 0 < p.inRange s.tick ∧ ∀ k, 0 ≤ s.rate k ∧
    s.rate k * p.inRange s.tick ≤ s.fee k ∧ s.fee k < (s.rate k + ulp 12) * p.inRange s.tick
  below : ∀ k, ∀ t ∈ p.ticks.map (·.1),
    p'.below k t = p.below k t + (ss.map fun s => if t ≤ s.tick then 0 else s.rate k).sum
  ends : Toward dn p p.gs.tick p'.gs.tick
  ticks : ∀ s ∈ ss, Toward dn p p.gs.tick s.tick ∧ Toward dn p s.tick p'.gs.tick
  scale : (∀ k, (p.pot k).scale = 12) → ∀ k, (p'.pot k).scale = 12

theorem Path.refl {dn : Bool} (p : Pool) : Path dn p p [] :=
  ⟨rfl, rfl, by simp, by simp, by simp, .refl, by simp, id⟩

theorem Path.trans {dn : Bool} {p q r : Pool} {ss ss' : List Stage} (h : Path dn p q ss) (h' : Path dn q r ss') :
    Path dn p r (ss ++ ss') := by
  refine ⟨h'.positions.trans h.positions, h'.keys.trans h.keys, fun k => ?_, fun s hs => ?_, fun k t ht => ?_,
    h.ends.trans (h'.ends.congr h.keys), fun s hs => ?_, fun hsc => h'.scale (h.scale hsc)⟩
  · rw [h'.pot, h.pot, List.map_append, List.sum_append]; ring
  · rcases List.mem_append.1 hs with hs | hs
    · exact h.split s hs
    · have := h'.split s hs
      rw [inRange_congr h.positions] at this
      exact this
  · rw [h'.below k t (h.keys ▸ ht), h.below k t ht, List.map_append, List.sum_append]; ring
  · rcases List.mem_append.1 hs with hs | hs
    · exact ⟨(h.ticks s hs).1, (h.ticks s hs).2.trans (h'.ends.congr h.keys)⟩
    · exact ⟨h.ends.trans ((h'.ticks s hs).1.congr h.keys), (h'.ticks s hs).2.congr h.keys⟩

theorem pot_congr {p p' : Pool} (h : SameBooks p p') (k : Kind) : p'.pot k = p.pot k := by
  cases k
  · exact h.xFee
  · exact h.yFee
  · exact h.xAdj
  · exact h.yAdj

/-- Moving to the next liquidity credits nothing. -/
theorem Path.idle {dn : Bool} {p p' : Pool} (h : SameBooks p p') (hg : Grows p p')
    (ht : Toward dn p p.gs.tick p'.gs.tick) : Path dn p p' [] := by
  refine ⟨h.positions, h.keys, fun k => by rw [pot_congr h]; simp, by simp, fun k t hk => ?_, ht, by simp,
    fun hs k => by rw [pot_congr h]; exact hs k⟩
  obtain ⟨h1, h2⟩ := hg.below k t hk
  rw [growth_congr h.fees] at h2
  simp only [List.map_nil, List.sum_nil, add_zero]
  linarith

/-- One stage. -/
theorem Path.stage {dn : Bool} {p p' : Pool} (hs : Sound p) (hp : p'.positions = p.positions) (hr : Rises p p')
    (ht : Toward dn p p.gs.tick p'.gs.tick) (hl : 0 < p.gs.liq.toRat)
    (hf : ∀ k, (p'.growth k - p.growth k) * p.gs.liq.toRat ≤ (p'.pot k).toRat - (p.pot k).toRat ∧
      (p'.pot k).toRat - (p.pot k).toRat < (p'.growth k - p.growth k + ulp 12) * p.gs.liq.toRat)
    (hsc : (∀ k, (p.pot k).scale = 12) → ∀ k, (p'.pot k).scale = 12) :
    Path dn p p' [⟨p.gs.tick, fun k => (p'.pot k).toRat - (p.pot k).toRat, fun k => p'.growth k - p.growth k⟩] := by
  refine ⟨hp, hr.keys, fun k => by simp, fun s h => ?_, fun k t hk => ?_, ht, fun s h => ?_, hsc⟩
  · rw [List.mem_singleton] at h; subst h
    simp only
    rw [← hs.active]
    exact ⟨hl, fun k => ⟨by linarith [hr.growth k], hf k⟩⟩
  · rw [hr.below k t hk]; simp
  · rw [List.mem_singleton] at h; subst h
    exact ⟨.refl, ht⟩

/-! ### The liquidity of a stage is positive -/

theorem tryLeft_pos : ∀ {tks : List Nat} {p p' : Pool} {g : Nat} {rp : Decimal},
    tryInRangeLeft tks p = .ok (p', some g, rp) → p'.gs.liq.isPositive = true := by
  intro tks
  induction tks with
  | nil => intro p p' g rp h; cases h
  | cons tk tks ih =>
    intro p p' g rp h
    unfold tryInRangeLeft at h
    rw [ite_ok] at h
    rcases h with ⟨_, h⟩ | ⟨_, h⟩
    · exact ih h
    · rw [bind_ok] at h; obtain ⟨q, _, h⟩ := h
      simp only at h
      rw [bind_ok] at h; obtain ⟨p1, _, h⟩ := h
      rw [bind_ok] at h; obtain ⟨g', _, h⟩ := h
      rw [ite_ok] at h; rcases h with ⟨_, h⟩ | ⟨_, h⟩; · simp [rpanic] at h
      rw [ite_ok] at h; rcases h with ⟨hp, h⟩ | ⟨_, h⟩
      · cases h; exact hp
      · exact ih h

theorem tryRight_pos : ∀ {tks : List Nat} {p p' : Pool} {g : Nat} {rp : Decimal},
    tryInRangeRight tks p = .ok (p', some g, rp) → p'.gs.liq.isPositive = true := by
  intro tks
  induction tks with
  | nil => intro p p' g rp h; cases h
  | cons tk tks ih =>
    intro p p' g rp h
    unfold tryInRangeRight at h
    rw [ite_ok] at h
    rcases h with ⟨_, h⟩ | ⟨_, h⟩
    · exact ih h
    · rw [bind_ok] at h; obtain ⟨q, _, h⟩ := h
      simp only at h
      rw [bind_ok] at h; obtain ⟨p1, _, h⟩ := h
      rw [bind_ok] at h; obtain ⟨g', _, h⟩ := h
      rw [ite_ok] at h; rcases h with ⟨_, h⟩ | ⟨_, h⟩; · simp [rpanic] at h
      rw [ite_ok] at h; rcases h with ⟨hp, h⟩ | ⟨_, h⟩
      · cases h; exact hp
      · exact ih h

theorem goalX_pos {p p' : Pool} {a a' : SwapAcc} {g : Nat} (h : goalX p a = .ok (p', some g, a')) :
    p'.gs.liq.isPositive = true := by
  obtain ⟨_, _, _, _, ⟨rfl, _, h1, _⟩ | ⟨_, _, h1⟩⟩ := goalX_ok h
  · exact h1
  · exact tryLeft_pos h1

theorem goalY_pos {p p' : Pool} {a a' : SwapAcc} {g : Nat} (h : goalY p a = .ok (p', some g, a')) :
    p'.gs.liq.isPositive = true := by
  obtain ⟨_, _, _, _, ⟨rfl, _, h1, _⟩ | ⟨_, _, h1⟩⟩ := goalY_ok h
  · exact h1
  · exact tryRight_pos h1

/-! ### Stages -/

/-- A fee shared among a liquidity. -/
theorem share {fee l g old new pt pt' : Decimal} (hf : 0 ≤ fee.toRat) (hl : 0 < l.toRat) (hd : fee.div l = .ok g)
    (ha : g.add old = .ok new) (hp : pt.add fee = .ok pt') (hs : pt.scale = 12) :
    (new.toRat - old.toRat) * l.toRat ≤ pt'.toRat - pt.toRat ∧
    pt'.toRat - pt.toRat < (new.toRat - old.toRat + ulp 12) * l.toRat ∧ pt'.scale = 12 := by
  have hfs : fee.scale = 12 := by rw [← (add_ok.1 hp).1]; exact hs
  obtain ⟨_, _, h1, h2⟩ := div_down hd hf hl.le
  rw [hfs] at h2
  rw [le_div_iff₀ hl] at h1
  rw [div_lt_iff₀ hl] at h2
  rw [add_toRat ha, add_toRat hp]
  refine ⟨by linarith, by linarith, ?_⟩
  rw [(add_ok.1 hp).2.2.1, hs]

theorem share_none {l a b : ℚ} (hl : 0 < l) : (a - a) * l ≤ b - b ∧ b - b < (a - a + ulp 12) * l := by
  have := ulp_pos (s := 12)
  constructor
  · simp
  · simp only [sub_self, zero_add]; positivity

theorem path_stepX {fl : FloatEnv} {dx o : Decimal} {p0 p p' : Pool} {a a' : SwapAcc} {g : Nat}
    (hd : dx.isPositive = true) (h : AimedX p0 p (some g) a) (hl : p.gs.liq.isPositive = true)
    (hsc : ∀ k, (p.pot k).scale = 12) (hstep : stepX fl dx o p a g = .ok (p', a'))
    (haway : a'.recv.lt dx = .ok false → a'.recv.toRat = dx.toRat → Away p') :
    ∃ s, Path true p p' [s] := by
  have hph := AimedX.step (p0 := p) hd (h := ⟨h.1, .refl _, h.2.2⟩) hstep
  obtain ⟨hs, _, hrp, hg⟩ := h
  obtain ⟨hmem, hle, hmax⟩ := hg g rfl
  have hl' := isPositive_toRat.1 hl
  obtain ⟨rem, r, ysum, newY, c1, chk, rs, newX, xFee, yAdj, fees, p1, h1, h2, _, _, _, _, _, _, h9, h10,
    _, _, _, ht, hr, _, hxf, hya, hfs, hp1, h18⟩ := stepX_ok hstep
  obtain ⟨_, _, _, h3, _, _, _, _, _, _, _, _, hadj, hfee, _⟩ := swapWithinX_ok h2
  have hrise : ∀ k, p.growth k ≤ p1.growth k := fun k => by rw [hp1]; exact riseX hadj hfee hfs k
  obtain ⟨q, _, m, dl, hq, hstart, _, _, _, _, hcase⟩ := fillX_ok h3
  have hshare : ∀ k, (p1.growth k - p.growth k) * p.gs.liq.toRat ≤ (p1.pot k).toRat - (p.pot k).toRat ∧
      (p1.pot k).toRat - (p.pot k).toRat < (p1.growth k - p.growth k + ulp 12) * p.gs.liq.toRat ∧
      (p1.pot k).scale = 12 := by
    rcases hfs with ⟨_, e1, e2, ⟨g1, d1, a1⟩, g2, d2, a2⟩ | ⟨hn, _⟩
    · intro k
      rw [hp1]
      cases k
      · exact share hfee hl' d1 a1 hxf (hsc .fx)
      · have e : (({ p with x := newX, y := newY, xFee, yAdj, gs := ⟨p.gs.liq, r.endRp, r.endTick, fees⟩ } : Pool).growth
          .fy) = p.growth .fy := by unfold growth Fees.at; simp only; rw [e1]
        rw [e]
        exact ⟨(share_none hl').1, (share_none hl').2, hsc .fy⟩
      · have e : (({ p with x := newX, y := newY, xFee, yAdj, gs := ⟨p.gs.liq, r.endRp, r.endTick, fees⟩ } : Pool).growth
          .hx) = p.growth .hx := by unfold growth Fees.at; simp only; rw [e2]
        rw [e]
        exact ⟨(share_none hl').1, (share_none hl').2, hsc .hx⟩
      · exact share hadj hl' d2 a2 hya (hsc .hy)
    · rw [hl] at hn; cases hn
  rcases h18 with ⟨hcr, het, _, hc⟩ | ⟨_, _, hn, _⟩ | ⟨hcr, hpe⟩
  · have hR : Rises p p' := .crossLeft (p1 := p1) hle (fun k hk => hs.booked.grid hk) hmax (by rw [hp1]) (by rw [hp1])
      hrise hc
    obtain ⟨_, _, b3, b4, b5, b6, b7, _, _, _, _, _, b13⟩ := crossTick_frame hc
    have hpot : ∀ k, p'.pot k = p1.pot k := fun k => by cases k <;> assumption
    refine ⟨_, .stage hs (by rw [b7, hp1]) hR (fun t _ => ?_) hl' (fun k => ?_) fun _ k => ?_⟩
    · simp only [if_true]
      have := cross_left_tick hc
      omega
    · rw [hpot, growth_congr b13]; exact ⟨(hshare k).1, (hshare k).2.1⟩
    · rw [hpot]; exact (hshare k).2.2
  · exact absurd hmem hn
  · rw [hcr] at hcase
    rcases hcase with ⟨_, hcf, _⟩ | ⟨_, _, e, hf, _, hg1, hsearch, hle1, hle2⟩
    · cases hcf
    have he : a'.recv.toRat = dx.toRat := by
      rw [add_toRat h10, add_toRat h9, sub_toRat hf, e, sub_toRat h1]; ring
    have hs2 : a'.recv.scale = dx.scale := by
      rw [(add_ok.1 h10).2.2.1, (add_ok.1 h9).2.2.1]; exact (sub_ok.1 h1).1.symm
    have hlt := lt_false_of_eq hd hs2 he
    have hA := haway hlt he
    have hst := (gt_le hle1).2.2 rfl
    have hge := (lt_le hle2).2.2 rfl
    rw [hrp] at hst
    have hsound : Sound p' := by
      rcases hph with ⟨k1, _⟩ | ⟨_, _, k⟩
      · exact k1
      · exact (k hA).1
    have hS : p'.spacing = p.spacing := by rw [hpe, hp1]
    have hR : p'.gs.rp = r.endRp := by rw [hpe, hp1]
    have hsame := hs.stay_left hmax (hR ▸ hge) (hR ▸ hst) hq hS hA hsound.cell
    refine ⟨_, .stage hs (by rw [hpe, hp1]) (.move (by rw [hpe, hp1]) (fun k => by rw [hpe]; exact hrise k) hsame)
      (fun t htk => ?_) hl' (fun k => ?_) fun _ k => ?_⟩
    · simp only [if_true]; exact (hsame t htk).2
    · rw [hpe]; exact ⟨(hshare k).1, (hshare k).2.1⟩
    · rw [hpe]; exact (hshare k).2.2

theorem path_stepY {fl : FloatEnv} {dy o : Decimal} {p0 p p' : Pool} {a a' : SwapAcc} {g : Nat}
    (hd : dy.isPositive = true) (h : AimedY p0 p (some g) a) (hl : p.gs.liq.isPositive = true)
    (hsc : ∀ k, (p.pot k).scale = 12) (hstep : stepY fl dy o p a g = .ok (p', a'))
    (haway : a'.recv.lt dy = .ok false → a'.recv.toRat = dy.toRat → Away p') :
    ∃ s, Path false p p' [s] := by
  have hph := AimedY.step (p0 := p) hd (h := ⟨h.1, .refl _, h.2.2⟩) hstep
  obtain ⟨hs, _, hrp, hg⟩ := h
  obtain ⟨hmem, hle, hmax⟩ := hg g rfl
  have hl' := isPositive_toRat.1 hl
  obtain ⟨rem, r, xsum, newX, c1, chk, rs, newY, yFee, xAdj, fees, p1, h1, h2, _, _, _, _, _, _, h9, h10,
    _, _, _, ht, hr, _, hyf, hxa, hfs, hp1, h18⟩ := stepY_ok hstep
  obtain ⟨_, _, _, h3, _, _, _, _, _, _, _, _, hadj, hfee, _⟩ := swapWithinY_ok h2
  have hrise : ∀ k, p.growth k ≤ p1.growth k := fun k => by rw [hp1]; exact riseY hadj hfee hfs k
  obtain ⟨q, _, m, dl, hq, hstart, _, _, _, _, hcase⟩ := fillY_ok h3
  have hshare : ∀ k, (p1.growth k - p.growth k) * p.gs.liq.toRat ≤ (p1.pot k).toRat - (p.pot k).toRat ∧
      (p1.pot k).toRat - (p.pot k).toRat < (p1.growth k - p.growth k + ulp 12) * p.gs.liq.toRat ∧
      (p1.pot k).scale = 12 := by
    rcases hfs with ⟨_, e1, e2, ⟨g1, d1, a1⟩, g2, d2, a2⟩ | ⟨hn, _⟩
    · intro k
      rw [hp1]
      cases k
      · have e : (({ p with x := newX, y := newY, yFee, xAdj, gs := ⟨p.gs.liq, r.endRp, r.endTick, fees⟩ } : Pool).growth
          .fx) = p.growth .fx := by unfold growth Fees.at; simp only; rw [e1]
        rw [e]
        exact ⟨(share_none hl').1, (share_none hl').2, hsc .fx⟩
      · exact share hfee hl' d1 a1 hyf (hsc .fy)
      · exact share hadj hl' d2 a2 hxa (hsc .hx)
      · have e : (({ p with x := newX, y := newY, yFee, xAdj, gs := ⟨p.gs.liq, r.endRp, r.endTick, fees⟩ } : Pool).growth
          .hy) = p.growth .hy := by unfold growth Fees.at; simp only; rw [e2]
        rw [e]
        exact ⟨(share_none hl').1, (share_none hl').2, hsc .hy⟩
    · rw [hl] at hn; cases hn
  rcases h18 with ⟨hcr, het, _, hc⟩ | ⟨_, _, hn, _⟩ | ⟨hcr, hpe⟩
  · have hR : Rises p p' := .crossRight (p1 := p1) hle hmax (by rw [hp1]) hrise hc
    obtain ⟨_, _, b3, b4, b5, b6, b7, _, _, _, _, _, b13⟩ := crossTick_frame hc
    have hpot : ∀ k, p'.pot k = p1.pot k := fun k => by cases k <;> assumption
    refine ⟨_, .stage hs (by rw [b7, hp1]) hR (fun t _ => ?_) hl' (fun k => ?_) fun _ k => ?_⟩
    · simp only [Bool.false_eq_true, if_false]
      have := cross_right_tick hc
      omega
    · rw [hpot, growth_congr b13]; exact ⟨(hshare k).1, (hshare k).2.1⟩
    · rw [hpot]; exact (hshare k).2.2
  · exact absurd hmem hn
  · rw [hcr] at hcase
    rcases hcase with ⟨_, hcf, _⟩ | ⟨_, _, e, hf, _, hg1, hsearch, hle1, hle2⟩
    · cases hcf
    have he : a'.recv.toRat = dy.toRat := by
      rw [add_toRat h10, add_toRat h9, sub_toRat hf, e, sub_toRat h1]; ring
    have hs2 : a'.recv.scale = dy.scale := by
      rw [(add_ok.1 h10).2.2.1, (add_ok.1 h9).2.2.1]; exact (sub_ok.1 h1).1.symm
    have hlt := lt_false_of_eq hd hs2 he
    have hA := haway hlt he
    have hst := (lt_le hle1).2.2 rfl
    have hge := (gt_le hle2).2.2 rfl
    rw [hrp] at hst
    have hsound : Sound p' := by
      rcases hph with ⟨k1, _⟩ | ⟨_, _, k⟩
      · exact k1
      · exact (k hA).1
    have hS : p'.spacing = p.spacing := by rw [hpe, hp1]
    have hR : p'.gs.rp = r.endRp := by rw [hpe, hp1]
    have hsame := hs.stay_right hmax (hR ▸ hge) (hR ▸ hst) hq hS hA hsound.cell
    refine ⟨_, .stage hs (by rw [hpe, hp1]) (.move (by rw [hpe, hp1]) (fun k => by rw [hpe]; exact hrise k) hsame)
      (fun t htk => ?_) hl' (fun k => ?_) fun _ k => ?_⟩
    · simp only [Bool.false_eq_true, if_false]; exact (hsame t htk).1
    · rw [hpe]; exact ⟨(hshare k).1, (hshare k).2.1⟩
    · rw [hpe]; exact (hshare k).2.2

/-! ### Whole swaps -/

theorem PhaseX.self {dx : Decimal} {p0 p : Pool} {a : SwapAcc} (h : PhaseX dx p0 p a) (hl : a.recv.lt dx = .ok true) :
    PhaseX dx p p a := by
  rcases h with ⟨h1, _, h3⟩ | ⟨h, _⟩
  · exact .inl ⟨h1, .refl _, h3⟩
  · rw [hl] at h; cases h

theorem PhaseY.self {dy : Decimal} {p0 p : Pool} {a : SwapAcc} (h : PhaseY dy p0 p a) (hl : a.recv.lt dy = .ok true) :
    PhaseY dy p p a := by
  rcases h with ⟨h1, _, h3⟩ | ⟨h, _⟩
  · exact .inl ⟨h1, .refl _, h3⟩
  · rw [hl] at h; cases h

theorem path_goalX {dx : Decimal} {p0 p p' : Pool} {a a' : SwapAcc} {g : Option Nat} (h : PhaseX dx p0 p a)
    (hl : a.recv.lt dx = .ok true) (hg : goalX p a = .ok (p', g, a')) : Path true p p' [] := by
  have hA := (h.self hl).goal hl hg
  obtain ⟨hb, _, ht, _⟩ := goalX_ok hg
  refine .idle hb hA.2.1 fun t _ => ?_
  simp only [if_true]
  omega

theorem path_goalY {dy : Decimal} {p0 p p' : Pool} {a a' : SwapAcc} {g : Option Nat} (h : PhaseY dy p0 p a)
    (hl : a.recv.lt dy = .ok true) (hg : goalY p a = .ok (p', g, a')) : Path false p p' [] := by
  have hA := (h.self hl).goal hl hg
  obtain ⟨hb, _, ht, _⟩ := goalY_ok hg
  refine .idle hb hA.2.1 fun t _ => ?_
  simp only [Bool.false_eq_true, if_false]
  omega

theorem path_runX {fl : FloatEnv} {dx o : Decimal} (hd : dx.isPositive = true) {p : Pool} {a : SwapAcc} {k : Nat}
    {res : R (Pool × SwapOutput)} (h : RunX fl dx o p a k res) : ∀ {p0 p' r}, res = .ok (p', r) →
    (r.recv.toRat = dx.toRat → Away p') → PhaseX dx p0 p a → (∀ k, (p.pot k).scale = 12) →
    ∃ ss, ss.length = k ∧ Path true p p' ss := by
  induction h with
  | failTest _ => intro p0 p' r h; cases h
  | done _ =>
    intro p0 p' r h _ _ _
    rw [(finishX_ok h).1]; exact ⟨[], rfl, .refl _⟩
  | failGoal _ _ => intro p0 p' r h; cases h
  | exhausted hl hg =>
    intro p0 p' r h _ hP _
    rw [(finishX_ok h).1]; exact ⟨[], rfl, path_goalX hP (unwrap_ok.1 hl) hg⟩
  | failStep _ _ _ => intro p0 p' r h; cases h
  | @step p a p1 g a1 p2 a2 k res hl hg hs hrun ih =>
    intro p0 p' r h hon hP hsc
    have hA := hP.goal (unwrap_ok.1 hl) hg
    have hI := path_goalX hP (unwrap_ok.1 hl) hg
    obtain ⟨s, hS⟩ := path_stepX hd hA (goalX_pos hg) (hI.scale hsc) hs (fun hlt he => by
      cases hrun with
      | failTest hl2 => cases h
      | done hl2 =>
        obtain ⟨e1, e2, _⟩ := finishX_ok h
        rw [e1] at hon
        exact hon (by rw [e2, he])
      | failGoal hl2 _ => cases h
      | exhausted hl2 _ => rw [hlt] at hl2; cases hl2
      | failStep hl2 _ _ => cases h
      | step hl2 _ _ _ => rw [hlt] at hl2; cases hl2)
    obtain ⟨ss, h1, h2⟩ := ih h hon (hA.step hd hs) (hS.scale (hI.scale hsc))
    exact ⟨s :: ss, by rw [List.length_cons, h1], (hI.trans hS).trans h2⟩

theorem path_runY {fl : FloatEnv} {dy o : Decimal} (hd : dy.isPositive = true) {p : Pool} {a : SwapAcc} {k : Nat}
    {res : R (Pool × SwapOutput)} (h : RunY fl dy o p a k res) : ∀ {p0 p' r}, res = .ok (p', r) →
    (r.recv.toRat = dy.toRat → Away p') → PhaseY dy p0 p a → (∀ k, (p.pot k).scale = 12) →
    ∃ ss, ss.length = k ∧ Path false p p' ss := by
  induction h with
  | failTest _ => intro p0 p' r h; cases h
  | done _ =>
    intro p0 p' r h _ _ _
    rw [(finishY_ok h).1]; exact ⟨[], rfl, .refl _⟩
  | failGoal _ _ => intro p0 p' r h; cases h
  | exhausted hl hg =>
    intro p0 p' r h _ hP _
    rw [(finishY_ok h).1]; exact ⟨[], rfl, path_goalY hP (unwrap_ok.1 hl) hg⟩
  | failStep _ _ _ => intro p0 p' r h; cases h
  | @step p a p1 g a1 p2 a2 k res hl hg hs hrun ih =>
    intro p0 p' r h hon hP hsc
    have hA := hP.goal (unwrap_ok.1 hl) hg
    have hI := path_goalY hP (unwrap_ok.1 hl) hg
    obtain ⟨s, hS⟩ := path_stepY hd hA (goalY_pos hg) (hI.scale hsc) hs (fun hlt he => by
      cases hrun with
      | failTest hl2 => cases h
      | done hl2 =>
        obtain ⟨e1, e2, _⟩ := finishY_ok h
        rw [e1] at hon
        exact hon (by rw [e2, he])
      | failGoal hl2 _ => cases h
      | exhausted hl2 _ => rw [hlt] at hl2; cases hl2
      | failStep hl2 _ _ => cases h
      | step hl2 _ _ _ => rw [hlt] at hl2; cases hl2)
    obtain ⟨ss, h1, h2⟩ := ih h hon (hA.step hd hs) (hS.scale (hI.scale hsc))
    exact ⟨s :: ss, by rw [List.length_cons, h1], (hI.trans hS).trans h2⟩

theorem pot_scale {p : Pool} (h : Tidy p) (k : Kind) : (p.pot k).scale = 12 := by
  cases k
  · exact h.xFee.1
  · exact h.yFee.1
  · exact h.xAdj.1
  · exact h.yAdj.1

theorem sellX_path {fl : FloatEnv} {p p' : Pool} {dx o : Decimal} {r : SwapOutput} (hp : ClearReachable p)
    (h : p.executeSwapFromX fl dx o = .ok (p', r)) (hon : r.recv.toRat = dx.toRat → Away p') :
    ∃ ss, ss.length ≤ p.ticks.length + 1 ∧ Path true p p' ss := by
  obtain ⟨k, hk, hr⟩ := run_of_sellX h
  have hd : dx.isPositive = true := by
    unfold executeSwapFromX at h
    rw [ite_ok] at h
    rcases h with ⟨_, h⟩ | ⟨h0, _⟩
    · simp [rpanic] at h
    · simpa using h0
  obtain ⟨ss, h1, h2⟩ := path_runX hd (p0 := p) hr rfl hon
    (.inl ⟨Sound.clearReachable hp, .refl _, rfl, le_rfl⟩) (pot_scale (Tidy.reachable hp.reachable))
  exact ⟨ss, h1.trans_le hk, h2⟩

theorem sellY_path {fl : FloatEnv} {p p' : Pool} {dy o : Decimal} {r : SwapOutput} (hp : ClearReachable p)
    (h : p.executeSwapFromY fl dy o = .ok (p', r)) (hon : r.recv.toRat = dy.toRat → Away p') :
    ∃ ss, ss.length ≤ p.ticks.length + 1 ∧ Path false p p' ss := by
  obtain ⟨k, hk, hr⟩ := run_of_sellY h
  have hd : dy.isPositive = true := by
    unfold executeSwapFromY at h
    rw [ite_ok] at h
    rcases h with ⟨_, h⟩ | ⟨h0, _⟩
    · simp [rpanic] at h
    · simpa using h0
  obtain ⟨ss, h1, h2⟩ := path_runY hd (p0 := p) hr rfl hon
    (.inl ⟨Sound.clearReachable hp, .refl _, rfl, rfl⟩) (pot_scale (Tidy.reachable hp.reachable))
  exact ⟨ss, h1.trans_le hk, h2⟩

/-! ### From ticks to ranges -/

theorem Path.inside {dn : Bool} {p p' : Pool} {ss : List Stage} (h : Path dn p p' ss) {k : Kind} {l u : Nat}
    (hl : l ∈ p.ticks.map (·.1)) (hu : u ∈ p.ticks.map (·.1)) (hlu : l < u) :
    p'.inside k l u = p.inside k l u + (ss.map fun s => if l ≤ s.tick ∧ s.tick < u then s.rate k else 0).sum := by
  unfold Pool.inside
  rw [h.below k u hu, h.below k l hl]
  have : (ss.map fun s => if u ≤ s.tick then 0 else s.rate k).sum - (ss.map fun s => if l ≤ s.tick then 0 else s.rate k).sum
      = (ss.map fun s => if l ≤ s.tick ∧ s.tick < u then s.rate k else 0).sum := by
    clear h
    induction ss with
    | nil => simp
    | cons s ss ih =>
      simp only [List.map_cons, List.sum_cons]
      rw [← ih]
      by_cases a : l ≤ s.tick <;> by_cases b : u ≤ s.tick
      · rw [if_pos b, if_pos a, if_neg (by omega)]; ring
      · rw [if_neg b, if_pos a, if_pos ⟨a, by omega⟩]; ring
      · omega
      · rw [if_neg b, if_neg a, if_neg (by omega)]; ring
  linarith

theorem Path.shared {dn : Bool} {p p' : Pool} {ss : List Stage} (hs : Sound p) (h : Path dn p p' ss) :
    Shared p p' ss :=
  ⟨h.pot, h.split, fun key hk k => by
    obtain ⟨h1, h2, h3⟩ := hs.ends hk
    exact h.inside h2 h3 h1⟩

theorem sumPos_add (w w' : PositionKey → ℚ) (ps : List (PositionKey × PositionState)) :
    sumPos (fun k => w k + w' k) ps = sumPos w ps + sumPos w' ps := by
  unfold sumPos
  induction ps with
  | nil => simp
  | cons e ps ih =>
    simp only [List.map_cons, List.sum_cons]
    rw [ih]; ring

theorem sumPos_congr {w w' : PositionKey → ℚ} {ps : List (PositionKey × PositionState)}
    (h : ∀ k s, (k, s) ∈ ps → s.liq.toRat ≠ 0 → w k = w' k) : sumPos w ps = sumPos w' ps := by
  unfold sumPos
  induction ps with
  | nil => rfl
  | cons e ps ih =>
    simp only [List.map_cons, List.sum_cons]
    rw [ih fun k s hk => h k s (List.mem_cons_of_mem _ hk)]
    by_cases h0 : e.2.liq.toRat = 0
    · rw [h0]; ring
    · rw [h e.1 e.2 List.mem_cons_self h0]

theorem Booked.liqOf_mem {p : Pool} (hs : Booked p) {key : PositionKey} {s : PositionState} (h : (key, s) ∈ p.positions)
    (h0 : s.liq.toRat ≠ 0) : 0 < liqOf p.positions key := by
  have hm := get_of_mem hs.unique h
  have := (hs.pos key s hm).1
  unfold liqOf
  rw [hm]
  exact lt_of_le_of_ne this (Ne.symm h0)

theorem gained_stages {p p' : Pool} {ss : List Stage} (hs : Booked p) (h : Shared p p' ss) (k : Kind) :
    p.gained p' k = (ss.map fun s => s.rate k * p.inRange s.tick).sum := by
  have e : p.gained p' k = sumPos (fun key =>
      (ss.map fun s => if key.lower ≤ s.tick ∧ s.tick < key.upper then s.rate k else 0).sum) p.positions := by
    refine sumPos_congr fun key s hm h0 => ?_
    rw [h.inside key (hs.liqOf_mem hm h0) k]; ring
  rw [e]
  clear e h
  induction ss with
  | nil => simp [sumPos]
  | cons s ss ih =>
    simp only [List.map_cons, List.sum_cons]
    rw [sumPos_add, ih]
    congr 1
    unfold inRange
    rw [mul_comm, ← sumPos_smul]
    unfold sumPos
    congr 1
    refine List.map_congr_left fun e _ => ?_
    simp only
    split <;> ring

theorem inRange_le {p : Pool} (hs : Booked p) (t : Nat) : p.inRange t ≤ p.totalLiq := by
  unfold inRange totalLiq sumPos
  refine List.sum_le_sum fun e he => ?_
  obtain ⟨k, s⟩ := e
  have := (hs.pos k s (get_of_mem hs.unique he)).1
  simp only
  split <;> linarith

theorem gained_pot {p p' : Pool} {ss : List Stage} (hs : Booked p) (h : Shared p p' ss) (k : Kind) :
    p.gained p' k ≤ (p'.pot k).toRat - (p.pot k).toRat ∧
    (p'.pot k).toRat - (p.pot k).toRat ≤ p.gained p' k + ss.length * (p.totalLiq * ulp 12) := by
  rw [gained_stages hs h, h.pot]
  have hsp := h.split
  clear h
  have hu := ulp_pos (s := 12)
  induction ss with
  | nil => simp
  | cons s ss ih =>
    obtain ⟨_, h2⟩ := hsp s List.mem_cons_self
    obtain ⟨_, h3, h4⟩ := h2 k
    obtain ⟨i1, i2⟩ := ih fun s hs => hsp s (List.mem_cons_of_mem _ hs)
    have := mul_le_mul_of_nonneg_right (inRange_le hs s.tick) hu.le
    simp only [List.map_cons, List.sum_cons, List.length_cons]
    push_cast
    constructor
    · linarith
    · rw [add_mul] at h4
      linarith

/-! ### Settling a position -/

theorem sumPos_single {ps : List (PositionKey × PositionState)} (hu : UniqueKeys ps) (key : PositionKey) (c : ℚ) :
    sumPos (fun k => if k = key then c else 0) ps = c * liqOf ps key := by
  unfold sumPos liqOf
  induction ps with
  | nil => simp [mapGet]
  | cons e ps ih =>
    obtain ⟨k, s⟩ := e
    unfold UniqueKeys at hu ih
    rw [List.map_cons, List.nodup_cons] at hu
    simp only [List.map_cons, List.sum_cons, mapGet]
    by_cases hk : k = key
    · subst hk
      rw [if_pos rfl, if_pos rfl, ih hu.2, mapGet_none.2 hu.1]
      simp
    · rw [if_neg hk, if_neg hk, ih hu.2]; ring

/-- What a change of position pays is at most one unit in the last place less than what is due. -/
theorem setPosition_claim_low {p p' : Pool} {user lower upper : Nat} {d : Decimal} {f : Fees}
    (h : p.setPosition user lower upper d = .ok (p', f)) (k : Kind) :
    liqOf p.positions ⟨user, lower, upper⟩ *
      (p.est k upper - p.est k lower - noted p.positions ⟨user, lower, upper⟩ k) < (f.at k).toRat + ulp (f.at k).scale := by
  obtain ⟨nf, ps', old, base, fu, p1, p2, n1, n2, n3, n4, h0, s1, s2, s3, s4, hn, h1, h2, h3, m1, m2, m3, m4⟩ :=
    setPosition_ok h
  obtain ⟨_, _, hbase, _⟩ := setPositionMap_same h0
  have hb0 : 0 ≤ base.toRat := by
    rcases setPositionMap_ok h0 with ⟨_, _, _, _, rfl⟩ | ⟨poz, n, _, e, rfl, _⟩
    · rw [zero_toRat]
    · exact e
  have hold : noted p.positions ⟨user, lower, upper⟩ k = (old.at k).toRat := by
    unfold noted
    rcases setPositionMap_ok h0 with ⟨e, _, _, rfl, _⟩ | ⟨poz, n, e, _, _, rfl, _⟩
    · rw [e, zero_at]; rfl
    · rw [e]; rfl
  have hnf : p.feeRng (fun f => f.at k) lower upper = .ok (nf.at k) := by cases k <;> assumption
  have hsub : (nf.at k).sub (old.at k) = .ok (fu.at k) := by cases k <;> assumption
  have hmul : base.mul (fu.at k) = .ok (f.at k) := by cases k <;> assumption
  have hfu : 0 ≤ (fu.at k).toRat := by
    simp only [Fees.anyNegative, Bool.or_eq_false_iff] at hn
    obtain ⟨⟨⟨a1, a2⟩, a3⟩, a4⟩ := hn
    cases k
    · exact not_isNegative.1 a1
    · exact not_isNegative.1 a2
    · exact not_isNegative.1 a3
    · exact not_isNegative.1 a4
  obtain ⟨g1, g2⟩ := feeRng_at hnf
  have g3 : (nf.at k).toRat = p.est k upper - p.est k lower := g2
  obtain ⟨_, _, h4⟩ := mul_down hmul (mul_nonneg hb0 hfu)
  rw [hold, ← hbase, ← g3, ← sub_toRat hsub, (mul_mag hmul).1]
  exact h4

theorem payFees_pot {p p' : Pool} {f : Fees} (h : p.payFees f = .ok p') (k : Kind) :
    (p'.pot k).toRat = (p.pot k).toRat - (f.at k).toRat ∧ (p.pot k).scale = (f.at k).scale := by
  obtain ⟨xFee, xAdj, yFee, yAdj, _, _, _, _, h1, h2, h3, h4, rfl⟩ := payFees_ok h
  cases k
  · exact ⟨sub_toRat h1, (sub_ok.1 h1).1⟩
  · exact ⟨sub_toRat h3, (sub_ok.1 h3).1⟩
  · exact ⟨sub_toRat h2, (sub_ok.1 h2).1⟩
  · exact ⟨sub_toRat h4, (sub_ok.1 h4).1⟩

theorem setPosition_pot {p p' : Pool} {user lower upper : Nat} {d : Decimal} {f : Fees}
    (h : p.setPosition user lower upper d = .ok (p', f)) (k : Kind) : p'.pot k = p.pot k := by
  have := setPosition_frame h
  cases k <;> (unfold pot; rw [this])

/-- No open position has noted more growth than there is inside its range. -/
def NotAhead (p : Pool) : Prop :=
  ∀ key, 0 < liqOf p.positions key → ∀ k, noted p.positions key k ≤ p.inside k key.lower key.upper

theorem liqOf_nonneg {p : Pool} (hs : Sound p) (key : PositionKey) : 0 ≤ liqOf p.positions key := by
  unfold liqOf
  cases hm : mapGet key p.positions with
  | none => exact le_rfl
  | some s => exact (hs.booked.pos key s hm).1

/-- What is due to a position, counted as the code counts. -/
theorem due_est {p : Pool} (hs : Sound p) (key : PositionKey) (k : Kind) :
    liqOf p.positions key * (p.inside k key.lower key.upper - noted p.positions key k) =
    liqOf p.positions key * (p.est k key.upper - p.est k key.lower - noted p.positions key k) := by
  rcases (liqOf_nonneg hs key).eq_or_lt with h0 | h0
  · rw [← h0]; ring
  · rw [hs.inside_est h0]

theorem touch {user lower upper : Nat} {p p1 p2 p' : Pool} {d : Decimal} {f : Fees} (hs : Sound p) (hr : Recorded p)
    (hs' : Sound p') (hlu : lower < upper) (hset : p.setPosition user lower upper d = .ok (p1, f))
    (e1 : p'.positions = p1.positions) (e2 : p'.ticks = p1.ticks) (e3 : p'.gs = p1.gs)
    (hpay : p1.payFees f = .ok p2) (e4 : ∀ k, p'.pot k = p2.pot k) (hsc : ∀ k, (p.pot k).scale = 12)
    (hop : 0 < liqOf p'.positions ⟨user, lower, upper⟩ →
      mapGet ⟨user, lower, upper⟩ p.positions ≠ none ∨ lower ∉ p.ticks.map (·.1)) (hn : NotAhead p) :
    NotAhead p' ∧ ∀ k, ∃ c, p'.unclaimed k = p.unclaimed k - c ∧
      (p'.pot k).toRat = (p.pot k).toRat - (f.at k).toRat ∧ (f.at k).toRat ≤ c ∧ c < (f.at k).toRat + ulp 12 := by
  have hest : ∀ k, ∀ t ∈ p'.ticks.map (·.1), p'.est k t = p.est k t := fun k t ht => by
    rw [est_congr (p := p1) (by rw [e2]) (by rw [e3]) (by rw [e3])]
    exact setPosition_est hlu hset k (e2 ▸ ht)
  obtain ⟨_, _, _, _, q5, _⟩ := setPosition_sums hs.booked.unique hset
  have hother : ∀ key, key ≠ ⟨user, lower, upper⟩ → 0 < liqOf p'.positions key → 0 < liqOf p.positions key ∧
      ∀ k, p'.inside k key.lower key.upper - noted p'.positions key k =
        p.inside k key.lower key.upper - noted p.positions key k := by
    intro key hk ho
    have hg : mapGet key p'.positions = mapGet key p.positions := by rw [e1]; exact q5 key hk
    have ho' : 0 < liqOf p.positions key := by unfold liqOf at ho ⊢; rw [← hg]; exact ho
    refine ⟨ho', fun k => ?_⟩
    obtain ⟨_, i1, i2⟩ := hs'.ends ho
    rw [hs'.inside_est ho, hs.inside_est ho', hest k _ i1, hest k _ i2]
    unfold noted
    rw [hg]
  have hkey : 0 < liqOf p'.positions ⟨user, lower, upper⟩ → ∀ k,
      noted p'.positions ⟨user, lower, upper⟩ k = p'.inside k lower upper :=
    fun ho k => settled hr hlu hset e1 e2 e3 hs' ho (hop ho) k
  refine ⟨fun key ho k => ?_, fun k => ?_⟩
  · by_cases hk : key = ⟨user, lower, upper⟩
    · subst hk; exact (hkey ho k).le
    · obtain ⟨h1, h2⟩ := hother key hk ho
      have := hn key h1 k
      have := h2 k
      linarith
  · obtain ⟨c0, c1, _⟩ := setPosition_claim hset k
    have c2 := setPosition_claim_low hset k
    obtain ⟨d1, d2⟩ := payFees_pot hpay k
    rw [setPosition_pot hset] at d1 d2
    rw [← d2, hsc k] at c2
    have hdue := due_est hs ⟨user, lower, upper⟩ k
    simp only at hdue
    refine ⟨liqOf p.positions ⟨user, lower, upper⟩ *
      (p.inside k lower upper - noted p.positions ⟨user, lower, upper⟩ k), ?_, by rw [e4, d1], by rw [hdue]; exact c1,
      by rw [hdue]; exact c2⟩
    let W : PositionKey → ℚ := fun key => if key = ⟨user, lower, upper⟩ then 0 else
      p.inside k key.lower key.upper - noted p.positions key k
    have hW : p'.unclaimed k = sumPos W p'.positions := by
      refine sumPos_congr fun key s hm h0 => ?_
      have ho := hs'.booked.liqOf_mem hm h0
      by_cases hk : key = ⟨user, lower, upper⟩
      · subst hk
        simp only [W, if_true]
        rw [hkey ho k]; ring
      · simp only [W, if_neg hk]
        exact (hother key hk ho).2 k
    rw [hW, e1, sumPos_setPosition hs.booked.unique hset W]
    have hW2 := sumPos_add W (fun key => if key = (⟨user, lower, upper⟩ : PositionKey) then
      p.inside k lower upper - noted p.positions ⟨user, lower, upper⟩ k else 0) p.positions
    rw [sumPos_single hs.booked.unique] at hW2
    have hW3 : p.unclaimed k = sumPos (fun key => W key + if key = (⟨user, lower, upper⟩ : PositionKey) then
      p.inside k lower upper - noted p.positions ⟨user, lower, upper⟩ k else 0) p.positions := by
      refine sumPos_congr fun key s hm h0 => ?_
      by_cases hk : key = ⟨user, lower, upper⟩
      · subst hk; simp [W]
      · simp [W, hk]
    rw [hW3, hW2]
    simp only [W, if_true]
    ring

/-- A swap adds to what is due what the positions earn. -/
theorem unclaimed_gained {p p' : Pool} (h : p'.positions = p.positions) (k : Kind) :
    p'.unclaimed k = p.unclaimed k + p.gained p' k := by
  unfold unclaimed gained
  rw [h, ← sumPos_add]
  congr 1
  funext key
  ring

/-! ### The fees due can be paid -/

theorem pot_amount {p : Pool} (h : Tidy p) (k : Kind) : (p.pot k).Amount 12 := by
  cases k
  · exact h.xFee
  · exact h.yFee
  · exact h.xAdj
  · exact h.yAdj

theorem feeRng_amount {p : Pool} (ht : Tidy p) (hr : Recorded p) {k : Kind} {l u : Nat} {e : Decimal}
    (h : p.feeRng (fun f => f.at k) l u = .ok e) : e.Amount 12 := by
  have key : ∀ {t a b}, p.feeBelowAbove (fun f => f.at k) t = .ok (a, b) → a.Amount 12 ∧ b.Amount 12 := by
    intro t a b h
    unfold feeBelowAbove at h
    simp only at h
    cases hg : mapGet t p.ticks with
    | none =>
      rw [hg] at h
      simp only [pure_ok, Prod.mk.injEq] at h
      obtain ⟨rfl, rfl⟩ := h
      exact ⟨(ht.growth k).1, zero_amount⟩
    | some ts =>
      rw [hg] at h
      simp only at h
      rw [bind_ok] at h
      obtain ⟨o, h1, h⟩ := h
      have h2 := unwrap_ok.1 h1
      have h3 := (hr.tick t ts hg k).2
      have ho : o.Amount 12 := Amount.sub (ht.growth k).1 h2 (by
        rw [sub_toRat h2]; unfold growth at h3; linarith)
      have hf : (ts.fees.at k).Amount 12 := (ht.tick t ts hg).1 k
      rw [ite_ok] at h
      rcases h with ⟨_, h⟩ | ⟨_, h⟩
      all_goals
        simp only [pure_ok, Prod.mk.injEq] at h
        obtain ⟨rfl, rfl⟩ := h
        first | exact ⟨hf, ho⟩ | exact ⟨ho, hf⟩
  unfold feeRng at h
  rw [bind_ok] at h; obtain ⟨⟨a, b⟩, h1, h⟩ := h
  rw [bind_ok] at h; obtain ⟨⟨c, d⟩, h2, h⟩ := h
  simp only at h
  rw [bind_ok] at h; obtain ⟨s, h3, h⟩ := h
  rw [bind_ok] at h; obtain ⟨s', h4, h⟩ := h
  rw [bind_ok] at h; obtain ⟨_, h5, h⟩ := h
  rw [bind_ok] at h; obtain ⟨e1, h6, h⟩ := h
  rw [bind_ok] at h; obtain ⟨e2, h7, h⟩ := h
  rw [ite_ok] at h; rcases h with ⟨_, h⟩ | ⟨h8, h⟩; · simp [rpanic] at h
  cases h
  rw [Bool.not_eq_true] at h8
  obtain ⟨k1, k2⟩ := key h1
  have n1 := k1.nonneg
  have n2 := k2.nonneg
  have hs := add_toRat (unwrap_ok.1 h3)
  have a1 : s.Amount 12 := Amount.add k1 (unwrap_ok.1 h3) (by linarith)
  have a2 : e1.Amount 12 := Amount.sub a1 (unwrap_ok.1 h6) (by rw [sub_toRat (unwrap_ok.1 h6)]; linarith)
  exact Amount.sub a2 (unwrap_ok.1 h7) (not_isNegative.1 h8)

/-- The fees due to an open position are amounts with twelve decimals. -/
theorem setPosition_amount {p p' : Pool} (ht : Tidy p) (hr : Recorded p) {user lower upper : Nat} {d : Decimal}
    {f : Fees} (h : p.setPosition user lower upper d = .ok (p', f)) (ho : 0 < liqOf p.positions ⟨user, lower, upper⟩)
    (k : Kind) : (f.at k).Amount 12 := by
  obtain ⟨nf, ps', old, base, fu, p1, p2, n1, n2, n3, n4, h0, s1, s2, s3, s4, hn, h1, h2, h3, m1, m2, m3, m4⟩ :=
    setPosition_ok h
  have hnf : p.feeRng (fun f => f.at k) lower upper = .ok (nf.at k) := by cases k <;> assumption
  have hsub : (nf.at k).sub (old.at k) = .ok (fu.at k) := by cases k <;> assumption
  have hmul : base.mul (fu.at k) = .ok (f.at k) := by cases k <;> assumption
  have hfu : 0 ≤ (fu.at k).toRat := by
    simp only [Fees.anyNegative, Bool.or_eq_false_iff] at hn
    obtain ⟨⟨⟨a1, a2⟩, a3⟩, a4⟩ := hn
    cases k
    · exact not_isNegative.1 a1
    · exact not_isNegative.1 a2
    · exact not_isNegative.1 a3
    · exact not_isNegative.1 a4
  have hfa : (fu.at k).Amount 12 := Amount.sub (feeRng_amount ht hr hnf) hsub hfu
  have hds : d.scale = 12 := by
    obtain ⟨net, gross, _, g2, _⟩ := updateTick_ok h1
    rw [← (add_ok.1 g2).1]
    unfold tickOrNew
    cases hm : mapGet lower p.ticks with
    | none => simp only [Option.getD_none]; rfl
    | some ts => simp only [Option.getD_some]; exact (ht.tick lower ts hm).2.1.1
  have hb : base.Amount 12 := by
    obtain ⟨_, _, hbase, _⟩ := setPositionMap_same h0
    refine Amount.of_scale ?_ (hbase ▸ ho)
    rcases setPositionMap_ok h0 with ⟨_, _, _, _, rfl⟩ | ⟨poz, n, _, _, rfl, _, ha, _⟩
    · rfl
    · rw [(add_ok.1 ha).1, hds]
  obtain ⟨_, _, e⟩ := mul_ok.1 hmul
  rw [e]
  exact ⟨hb.1, by simp [hb.2, hfa.2]⟩

theorem amount_lt {a b : Decimal} (ha : a.Amount 12) (hb : b.Amount 12) (h : b.toRat ≤ a.toRat) :
    a.lt b = .ok false ∧ ∃ c, a.sub b = .ok c := by
  obtain ⟨v, rfl⟩ := ha.eq
  obtain ⟨w, rfl⟩ := hb.eq
  rw [toRat_le_mk] at h
  constructor
  · unfold Decimal.lt; simp; omega
  · refine ⟨⟨v - w, 12, false⟩, sub_ok.2 ⟨rfl, by simp, rfl, ?_, by simp⟩⟩
    simp only [sval]
    have : w ≤ v := by simpa using h
    push_cast [this]
    simp

theorem payFees_of {p : Pool} {f : Fees} (hp : ∀ k, (p.pot k).Amount 12) (hf : ∀ k, (f.at k).Amount 12)
    (h : ∀ k, (f.at k).toRat ≤ (p.pot k).toRat) : ∃ p', p.payFees f = .ok p' := by
  obtain ⟨a1, c1, d1⟩ := amount_lt (hp .fx) (hf .fx) (h .fx)
  obtain ⟨a2, c2, d2⟩ := amount_lt (hp .fy) (hf .fy) (h .fy)
  obtain ⟨a3, c3, d3⟩ := amount_lt (hp .hx) (hf .hx) (h .hx)
  obtain ⟨a4, c4, d4⟩ := amount_lt (hp .hy) (hf .hy) (h .hy)
  simp only [pot, Fees.at] at a1 a2 a3 a4 d1 d2 d3 d4
  refine ⟨{ p with xFee := c1, yFee := c2, xAdj := c3, yAdj := c4 }, ?_⟩
  unfold payFees
  rw [a1, a2, a3, a4, d1, d2, d3, d4]
  rfl

/-- No position is due more than all of them. -/
theorem due_le {p : Pool} (hs : Sound p) (hn : NotAhead p) (key : PositionKey) (k : Kind) :
    liqOf p.positions key * (p.inside k key.lower key.upper - noted p.positions key k) ≤ p.unclaimed k := by
  rcases (liqOf_nonneg hs key).eq_or_lt with h0 | h0
  · rw [← h0, zero_mul]
    unfold unclaimed sumPos
    refine List.sum_nonneg fun x hx => ?_
    obtain ⟨⟨k', s⟩, hm, rfl⟩ := List.mem_map.1 hx
    simp only
    by_cases hz : s.liq.toRat = 0
    · rw [hz]; simp
    · have h1 := hn k' (hs.booked.liqOf_mem hm hz) k
      have h2 := (hs.booked.pos k' s (get_of_mem hs.booked.unique hm)).1
      exact mul_nonneg (by linarith) h2
  · rw [mul_comm, ← sumPos_single hs.booked.unique]
    unfold unclaimed sumPos
    refine List.sum_le_sum fun e he => ?_
    obtain ⟨k', s⟩ := e
    simp only
    by_cases hz : s.liq.toRat = 0
    · rw [hz]; simp
    · have h1 := hn k' (hs.booked.liqOf_mem he hz) k
      have h2 := (hs.booked.pos k' s (get_of_mem hs.booked.unique he)).1
      refine mul_le_mul_of_nonneg_right ?_ h2
      split
      · rename_i e; subst e; exact le_rfl
      · linarith

end Hmm.Pool
