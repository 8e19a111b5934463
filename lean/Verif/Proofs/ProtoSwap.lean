import Verif.Proofs.Proto

/-
Sales of the prototype and of the Rust twin in lockstep.
-/

namespace Hmm.Proto

open F64

section
attribute [local irreducible] unit limit

/-! ### Signs -/

/-- Not below zero (NaN is not). -/
def NN (a : F64) : Prop := lt a zero = false

/-- Not above zero. -/
def NP (a : F64) : Prop := lt zero a = false

theorem NN.iff {a : F64} : NN a ↔ a = F64.nan ∨ a = inf false ∨ (∃ n, a = fin false n) ∨ a = fin true 0 := by
  unfold NN
  cases a with
  | nan => simp [lt]
  | inf s => cases s <;> simp [lt, zero]
  | fin s n => cases s <;> simp [lt, zero, signed]

theorem NN.pos {w : Bool} {n k : Nat} (h : w = false ∨ n = 0) : NN (ofRatio w n k) := by
  rcases h with rfl | rfl
  · unfold ofRatio
    simp only
    split
    · exact NN.iff.2 (.inr (.inr (.inl ⟨_, rfl⟩)))
    · exact NN.iff.2 (.inr (.inl rfl))
  · rw [ofRatio_zero]
    cases w
    · exact NN.iff.2 (.inr (.inr (.inl ⟨_, rfl⟩)))
    · exact NN.iff.2 (.inr (.inr (.inr rfl)))

theorem NN.mul {a b : F64} (ha : NN a) (hb : NN b) : NN (F64.mul a b) := by
  rcases NN.iff.1 ha with rfl | rfl | ⟨n, rfl⟩ | rfl <;> rcases NN.iff.1 hb with rfl | rfl | ⟨k, rfl⟩ | rfl <;>
    first
    | exact NN.iff.2 (.inl rfl)
    | exact NN.iff.2 (.inr (.inl rfl))
    | (unfold F64.mul; simp only; split <;> first | exact NN.iff.2 (.inl rfl) | exact NN.iff.2 (.inr (.inl rfl)))
    | (unfold F64.mul; exact NN.pos (by simp))

theorem NN.div {a b : F64} (ha : NN a) (hb : NN b) (h0 : F64.eq b zero = false) : NN (F64.div a b) := by
  have hb' : b = F64.nan ∨ b = inf false ∨ ∃ k, b = fin false k ∧ k ≠ 0 := by
    rcases NN.iff.1 hb with rfl | rfl | ⟨k, rfl⟩ | rfl
    · exact .inl rfl
    · exact .inr (.inl rfl)
    · exact .inr (.inr ⟨k, rfl, fun hk => by subst hk; cases h0⟩)
    · cases h0
  rcases NN.iff.1 ha with rfl | rfl | ⟨n, rfl⟩ | rfl <;> rcases hb' with rfl | rfl | ⟨k, rfl, hk⟩ <;>
    first
    | exact NN.iff.2 (.inl rfl)
    | exact NN.iff.2 (.inr (.inl rfl))
    | exact NN.iff.2 (.inr (.inr (.inl ⟨_, rfl⟩)))
    | exact NN.iff.2 (.inr (.inr (.inr rfl)))
    | (unfold F64.div; simp only; rw [if_neg hk]; exact NN.pos (by simp))

theorem NN.add {a b : F64} (ha : NN a) (hb : NN b) : NN (F64.add a b) := by
  rcases NN.iff.1 ha with rfl | rfl | ⟨n, rfl⟩ | rfl <;> rcases NN.iff.1 hb with rfl | rfl | ⟨k, rfl⟩ | rfl <;>
    first
    | exact NN.iff.2 (.inl rfl)
    | exact NN.iff.2 (.inr (.inl rfl))
    | (unfold F64.add; simp only [if_true]; exact NN.pos (by simp))
    | (unfold F64.add
       simp only [Bool.false_eq_true, Bool.true_eq_false, if_false]
       split
       · exact NN.pos (by simp_all)
       · split
         · exact NN.pos (by simp_all)
         · exact NN.iff.2 (.inr (.inr (.inl ⟨0, rfl⟩))))

theorem NP.iff {a : F64} : NP a ↔ NN a.neg := by
  unfold NP NN
  cases a with
  | nan => exact ⟨fun _ => rfl, fun _ => rfl⟩
  | inf s => cases s <;> simp [lt, zero, neg]
  | fin s n => cases s <;> simp [lt, zero, signed, neg]

/-- What is left of an amount after taking the part that is not the fee is not negative. -/
theorem NN.rest' {dx f : F64} (hdx : lt zero dx = true) (hr : dx.Rep) (h0 : le zero f = true) (h1 : lt f one = true) :
    NN (sub dx (F64.mul dx (sub one f))) ∧ NN (F64.mul dx (sub one f)) ∧ NN (sub one f) := by
  have hf : f.Finite := by
    cases f with
    | nan => cases h1
    | inf w => cases w <;> [cases h1; cases h0]
    | fin w n => exact finite_fin w n
  obtain ⟨q, hq⟩ := hf
  have q0 : 0 ≤ q := (le_is zero_is hq).1 h0
  have q1 : q < 1 := (lt_is hq one_is).1 h1
  have hone : one.Rep := by rw [show one = ofNat 1 from by decide +kernel]; exact ofRatio_rep _ _ _
  have hs := sub_rounded one_is hq
  obtain ⟨y, hy⟩ := hs.finite one_is hone (by rw [abs_of_nonneg (by linarith), abs_one]; linarith)
  have hz : Rounded 0 (F64.add zero zero) := by simpa using add_rounded zero_is zero_is
  have hzi : (F64.add zero zero).Is 0 := by
    rw [show F64.add zero zero = zero from by decide +kernel]; exact zero_is
  have y0 : 0 ≤ y := hz.mono hs hzi hy (by linarith)
  obtain ⟨b, hb, hbi⟩ := Flt.rounded_self one_is hone
  have y1 : y ≤ 1 := hs.mono hb hy hbi (by linarith)
  have hN : NN (sub one f) := by
    unfold NN; rw [Bool.eq_false_iff]; intro h; have := (lt_zero_is hy).1 h; linarith
  have hD : NN dx := Flt.not_lt' (by unfold le; rw [hdx]; rfl)
  refine ⟨?_, hD.mul hN, hN⟩
  rcases NN.iff.1 hD with rfl | rfl | hfin | rfl
  · cases hdx
  · generalize hg : sub one f = g at *
    have : F64.mul (inf false) g = nan ∨ F64.mul (inf false) g = inf false := by
      rcases NN.iff.1 hN with rfl | rfl | ⟨n, rfl⟩ | rfl
      · exact .inl rfl
      · exact .inr rfl
      · unfold F64.mul; simp only; split
        · exact .inl rfl
        · exact .inr rfl
      · exact .inl rfl
    rcases this with h | h <;> rw [h] <;> rfl
  · obtain ⟨n, rfl⟩ := hfin
    obtain ⟨x, hx⟩ := finite_fin false n
    have x0 : 0 < x := (zero_lt_is hx).1 hdx
    have hm := mul_rounded hx hy
    have hxy : x * y ≤ x := by nlinarith
    obtain ⟨w, hw⟩ := hm.finite hx hr (by rw [abs_of_nonneg (by positivity), abs_of_pos x0]; exact hxy)
    obtain ⟨b', hb', hbi'⟩ := Flt.rounded_self hx hr
    have hwx : w ≤ x := hm.mono hb' hw hbi' hxy
    have hw0 : 0 ≤ w := hz.mono hm hzi hw (by positivity)
    have hd := sub_rounded hx hw
    obtain ⟨v, hv⟩ := hd.finite hx hr (by rw [abs_of_nonneg (by linarith), abs_of_pos x0]; linarith)
    have v0 : 0 ≤ v := hz.mono hd hzi hv (by linarith)
    unfold NN; rw [Bool.eq_false_iff]; intro h; have := (lt_zero_is hv).1 h; linarith
  · cases hdx

theorem NN.rest {dx f : F64} (hdx : le dx zero = false) (hr : dx.Rep) (h0 : le zero f = true) (h1 : lt f one = true) :
    NN (sub dx (F64.mul dx (sub one f))) ∧ NN (F64.mul dx (sub one f)) ∧ NN (sub one f) := by
  by_cases hn : dx = nan
  · have h : lt zero one = true := by decide +kernel
    have hone : one.Rep := by rw [show one = ofNat 1 from by decide +kernel]; exact ofRatio_rep _ _ _
    subst hn
    exact ⟨rfl, rfl, (NN.rest' h hone h0 h1).2.2⟩
  · refine NN.rest' ?_ hr h0 h1
    cases h : lt zero dx with
    | true => rfl
    | false => rw [Flt.le_of_not_lt' h hn (by unfold zero; intro h; cases h)] at hdx; cases hdx

/-! ### Looking for a range -/

/-- What crossing ticks and moving does not change. -/
structure Kept (p p' : Flt.Pool) : Prop where
  fits : Fits p'
  feeRate : p'.feeRate = p.feeRate
  c : p'.c = p.c
  zero : mapGet 0 p.ticks = none → mapGet 0 p'.ticks = none
  positions : p'.positions = p.positions

theorem Kept.trans {p p' p'' : Flt.Pool} (h : Kept p p') (h' : Kept p' p'') : Kept p p'' :=
  ⟨h'.fits, h'.feeRate.trans h.feeRate, h'.c.trans h.c, fun h0 => h'.zero (h.zero h0), h'.positions.trans h.positions⟩

theorem left_small {p : Flt.Pool} (hf : Fits p) {t g : Nat} (h : p.leftLimit t = some g) : g < 2 ^ 32 := by
  obtain ⟨e, he, rfl⟩ := List.mem_map.1 (Flt.Pool.leftLimit_le hf.spacing.2 h).1
  exact hf.keys e he

theorem right_small {p : Flt.Pool} (hf : Fits p) {t c g : Nat} (h : p.rightLimit t c = .ok (some g)) : g < 2 ^ 32 := by
  obtain ⟨e, he, rfl⟩ := List.mem_map.1 (Flt.Pool.rightLimit_gt h).1
  exact hf.keys e he

/-- The search of the Rust code has found the same. -/
structure Found (p : Flt.Pool) (pos : List (Key × PositionState)) (g : Option Int) (rp : F64) (q : Pool)
    (v : Flt.Pool × Option Nat × F64) : Prop where
  pool : q = of v.1 pos
  goal : g = v.2.1.map fun k : Nat => (k : Int)
  rp : rp = v.2.2
  kept : Kept p v.1
  small : ∀ k, v.2.1 = some k → k < 2 ^ 32
  price : v.2.2 = v.1.gs.rp

theorem Fits.moved {p : Flt.Pool} (hf : Fits p) {t : Nat} (ht : t < 2 ^ 32) {rp : F64} (hrp : le one rp = true) :
    Fits ((p.setTick t).setRp rp) := ⟨hf.spacing, ht, hf.keys, hrp⟩

theorem tryLeft_of {c : F64} {m m' : LibM} (ha : Alike c m m') (ho : Ordinary m') {G : Prop} {pos} (tks : List Nat) :
    ∀ {p : Flt.Pool}, Fits p → (∀ k ∈ tks, k < 2 ^ 32) → (G → mapGet 0 p.ticks = none) → ∀ {g t rp q},
      Pool.tryLeft m' (tks.map fun k : Nat => (k : Int)) (of p pos) = .ok (g, t, rp) q →
      Follows G (Found p pos g rp q) (Flt.Pool.tryInRangeLeft m tks p) := by
  induction tks with
  | nil =>
    intro p hf _ _ g t rp q h
    simp only [List.map_nil, Pool.tryLeft] at h
    rw [bind_eq_ok] at h
    obtain ⟨_, _, h1, h⟩ := h
    obtain ⟨rfl, rfl⟩ := get_eq_ok.1 h1
    obtain ⟨h, rfl⟩ := pure_eq_ok.1 h
    cases h
    exact .ok ⟨rfl, rfl, rfl, ⟨hf, rfl, rfl, id, rfl⟩, (fun k hk => by cases hk), rfl⟩
  | cons tk tks ih =>
    intro p hf hk hG g t rp q h
    have htk := hk tk List.mem_cons_self
    have hk' : ∀ k ∈ tks, k < 2 ^ 32 := fun k h => hk k (List.mem_cons_of_mem _ h)
    simp only [List.map_cons, Pool.tryLeft] at h
    rw [bind_eq_ok] at h
    obtain ⟨_, _, h1, h⟩ := h
    obtain ⟨rfl, rfl⟩ := get_eq_ok.1 h1
    unfold Flt.Pool.tryInRangeLeft
    have htick : (of p pos).tick = (p.gs.tick : Int) := rfl
    rw [htick] at h
    by_cases hgt : tk > p.gs.tick
    · rw [if_pos (by exact_mod_cast hgt)] at h
      rw [if_pos hgt]
      exact ih hf hk' hG h
    · rw [if_neg (by exact_mod_cast hgt)] at h
      rw [if_neg hgt]
      rw [bind_eq_ok] at h
      obtain ⟨_, _, h2, h⟩ := h
      have e1 := modify_eq_ok.1 h2
      rw [bind_eq_ok] at h
      obtain ⟨r, _, h3, h⟩ := h
      obtain ⟨h3, e2⟩ := comp_eq_ok.1 h3
      have hr := price_ok ha htk h3
      have hr1 : le one r = true := by rw [hr, ha.price tk htk]; exact ho.above tk htk
      rw [bind_eq_ok] at h
      obtain ⟨_, _, h4, h⟩ := h
      have e3 := modify_eq_ok.1 h4
      rw [bind_eq_ok] at h
      obtain ⟨_, q1, h5, h⟩ := h
      have e4 : _ = of ((p.setTick tk).setRp r) pos := e3.trans (by rw [e2, e1]; rfl)
      rw [e4] at h5
      have hf1 := hf.moved htk hr1
      rw [← hr]
      simp only
      refine (cross_of hf1 htk hG h5).bind ?_
      intro p1 hc hq1
      obtain ⟨hf2, k1, k2, k3, k4, _, k6⟩ := hf1.cross htk hc
      have hkept : Kept p p1 := ⟨hf2, k1, k2, k3, k6⟩
      rw [hq1] at h
      rw [bind_eq_ok] at h
      obtain ⟨_, _, h6, h⟩ := h
      obtain ⟨rfl, rfl⟩ := get_eq_ok.1 h6
      rw [bind_eq_ok] at h
      obtain ⟨gl, _, h7, h⟩ := h
      obtain ⟨h7a, rfl⟩ := comp_eq_ok.1 h7
      have ht1 : (of p1 pos).tick = (p1.gs.tick : Int) := rfl
      rw [ht1, left_of hf2 pos, ok_inj] at h7a
      rw [bind_eq_ok] at h
      obtain ⟨_, _, h8, h⟩ := h
      obtain ⟨h8a, rfl⟩ := check_eq_ok.1 h8
      have hl : (of p1 pos).liq = p1.gs.liq := rfl
      rw [hl] at h8a h
      have h8' : lt p1.gs.liq zero = false := by simpa using h8a
      rw [if_neg (by rw [h8']; exact Bool.false_ne_true)]
      by_cases hp : lt zero p1.gs.liq = true
      · rw [if_pos hp] at h ⊢
        obtain ⟨h, rfl⟩ := pure_eq_ok.1 h
        cases h
        exact .ok ⟨rfl, h7a.symm, rfl, hkept, (fun k hk => left_small hf2 hk), rfl⟩
      · rw [if_neg hp] at h ⊢
        rcases ih hf2 hk' (fun g => k3 (hG g)) h with ⟨v, hv, hF⟩ | h
        · exact .inl ⟨v, hv, ⟨hF.pool, hF.goal, hF.rp, hkept.trans hF.kept, hF.small, hF.price⟩⟩
        · exact .inr h

theorem tryRight_of {c : F64} {m m' : LibM} (ha : Alike c m m') (ho : Ordinary m') {G : Prop} {pos} (tks : List Nat) :
    ∀ {p : Flt.Pool}, Fits p → (∀ k ∈ tks, k < 2 ^ 32) → (G → mapGet 0 p.ticks = none) → ∀ {g t rp q},
      Pool.tryRight m' (tks.map fun k : Nat => (k : Int)) (of p pos) = .ok (g, t, rp) q →
      Follows G (Found p pos g rp q) (Flt.Pool.tryInRangeRight m tks p) := by
  induction tks with
  | nil =>
    intro p hf _ _ g t rp q h
    simp only [List.map_nil, Pool.tryRight] at h
    rw [bind_eq_ok] at h
    obtain ⟨_, _, h1, h⟩ := h
    obtain ⟨rfl, rfl⟩ := get_eq_ok.1 h1
    obtain ⟨h, rfl⟩ := pure_eq_ok.1 h
    cases h
    exact .ok ⟨rfl, rfl, rfl, ⟨hf, rfl, rfl, id, rfl⟩, (fun k hk => by cases hk), rfl⟩
  | cons tk tks ih =>
    intro p hf hk hG g t rp q h
    have htk := hk tk List.mem_cons_self
    have hk' : ∀ k ∈ tks, k < 2 ^ 32 := fun k h => hk k (List.mem_cons_of_mem _ h)
    simp only [List.map_cons, Pool.tryRight] at h
    rw [bind_eq_ok] at h
    obtain ⟨_, _, h1, h⟩ := h
    obtain ⟨rfl, rfl⟩ := get_eq_ok.1 h1
    unfold Flt.Pool.tryInRangeRight
    have htick : (of p pos).tick = (p.gs.tick : Int) := rfl
    rw [htick] at h
    by_cases hgt : tk ≤ p.gs.tick
    · rw [if_pos (by exact_mod_cast hgt)] at h
      rw [if_pos hgt]
      exact ih hf hk' hG h
    · rw [if_neg (by exact_mod_cast hgt)] at h
      rw [if_neg hgt]
      rw [bind_eq_ok] at h
      obtain ⟨_, _, h2, h⟩ := h
      have e1 := modify_eq_ok.1 h2
      rw [bind_eq_ok] at h
      obtain ⟨r, _, h3, h⟩ := h
      obtain ⟨h3, e2⟩ := comp_eq_ok.1 h3
      have hr := price_ok ha htk h3
      have hr1 : le one r = true := by rw [hr, ha.price tk htk]; exact ho.above tk htk
      rw [bind_eq_ok] at h
      obtain ⟨_, _, h4, h⟩ := h
      have e3 := modify_eq_ok.1 h4
      rw [bind_eq_ok] at h
      obtain ⟨_, q1, h5, h⟩ := h
      have e4 : _ = of ((p.setTick tk).setRp r) pos := e3.trans (by rw [e2, e1]; rfl)
      rw [e4] at h5
      have hf1 := hf.moved htk hr1
      rw [← hr]
      simp only
      refine (cross_of hf1 htk hG h5).bind ?_
      intro p1 hc hq1
      obtain ⟨hf2, k1, k2, k3, k4, _, k6⟩ := hf1.cross htk hc
      have hkept : Kept p p1 := ⟨hf2, k1, k2, k3, k6⟩
      rw [hq1] at h
      rw [bind_eq_ok] at h
      obtain ⟨_, _, h6, h⟩ := h
      obtain ⟨rfl, rfl⟩ := get_eq_ok.1 h6
      rw [bind_eq_ok] at h
      obtain ⟨gl, _, h7, h⟩ := h
      obtain ⟨h7a, rfl⟩ := comp_eq_ok.1 h7
      obtain ⟨r', h7b, h7'⟩ := right_of hf2 pos htk h7a
      rw [bind_eq_ok] at h
      obtain ⟨_, _, h8, h⟩ := h
      obtain ⟨h8a, rfl⟩ := check_eq_ok.1 h8
      have hl : (of p1 pos).liq = p1.gs.liq := rfl
      rw [hl] at h8a h
      have h8' : lt p1.gs.liq zero = false := by simpa using h8a
      rw [h7b, okb]
      rw [if_neg (by rw [h8']; exact Bool.false_ne_true)]
      by_cases hp : lt zero p1.gs.liq = true
      · rw [if_pos hp] at h ⊢
        obtain ⟨h, rfl⟩ := pure_eq_ok.1 h
        cases h
        exact .ok ⟨rfl, h7', rfl, hkept, (fun k hk => right_small hf2 (by rw [h7b]; exact congrArg _ hk)), rfl⟩
      · rw [if_neg hp] at h ⊢
        rcases ih hf2 hk' (fun g => k3 (hG g)) h with ⟨v, hv, hF⟩ | h
        · exact .inl ⟨v, hv, ⟨hF.pool, hF.goal, hF.rp, hkept.trans hF.kept, hF.small, hF.price⟩⟩
        · exact .inr h

theorem le_one_pos {rp : F64} (h : le one rp = true) : lt rp zero = false := by
  have : le zero one = true := by decide +kernel
  exact Flt.not_lt' (Flt.le_trans' this h)

theorem range_of {c : F64} {m m' : LibM} (ha : Alike c m m') (ho : Ordinary m') {G : Prop} {pos} {p : Flt.Pool} (hf : Fits p)
    (hG : G → mapGet 0 p.ticks = none) {b : Bool} {g t rp q} (h : Pool.tryGetInRange m' b (of p pos) = .ok (g, t, rp) q) :
    Follows G (Found p pos g rp q) (p.tryGetInRange m b) := by
  unfold Pool.tryGetInRange at h
  rw [bind_eq_ok] at h
  obtain ⟨_, _, h1, h⟩ := h
  obtain ⟨rfl, rfl⟩ := get_eq_ok.1 h1
  rw [bind_eq_ok] at h
  obtain ⟨_, _, h2, h⟩ := h
  obtain ⟨h2a, rfl⟩ := check_eq_ok.1 h2
  have h2' : lt zero p.gs.liq = false := by simpa [of] using h2a
  unfold Flt.Pool.tryGetInRange
  rw [if_neg (by rw [h2']; exact Bool.false_ne_true)]
  have hk : ∀ b, ∀ k ∈ p.tickKeys b, k < 2 ^ 32 := by
    intro b k hk
    have : k ∈ p.ticks.map (·.1) := by
      unfold Flt.Pool.tickKeys at hk
      cases b
      · simpa using hk
      · simpa using hk
    obtain ⟨e, he, rfl⟩ := List.mem_map.1 this
    exact hf.keys e he
  rw [keys_of, keys_of] at h
  have key : Follows G (Found p pos g rp q)
      (if b then Flt.Pool.tryInRangeRight m (p.tickKeys false) p else Flt.Pool.tryInRangeLeft m (p.tickKeys true) p) := by
    cases b
    · exact tryLeft_of ha ho _ hf (hk _) hG h
    · exact tryRight_of ha ho _ hf (hk _) hG h
  refine key.bind ?_
  rintro ⟨p1, g1, r1⟩ _ hF
  simp only
  rw [if_neg (by
    have := hF.price
    simp only at this
    rw [this, le_one_pos hF.kept.fits.rp]; exact Bool.false_ne_true)]
  exact .ok hF

/-! ### A stage -/

theorem not_below_one {rp g : F64} (h : lt rp g = false) (hg : le one g = true) : lt rp one = false := by
  by_cases hn : rp = nan
  · rw [hn]; rfl
  · have hgn : g ≠ nan := by rintro rfl; revert hg; decide +kernel
    exact Flt.not_lt' (Flt.le_trans' hg (Flt.le_of_not_lt' h hgn hn))

theorem dx_ok {l a b r : F64} (h : dxFromLDrp l a b = .ok r) : r = Flt.dxFromLDrp l a b := by
  unfold dxFromLDrp at h
  rw [bind_ok] at h
  obtain ⟨x, h1, h⟩ := h
  rw [bind_ok] at h
  obtain ⟨y, h2, h⟩ := h
  rw [okp, ok_inj] at h
  rw [← h, (fdiv_ok h1).1, (fdiv_ok h2).1]
  rfl

theorem rpx_ok {l a b r : F64} (h : rpNewFromLDx l a b = .ok r) : r = Flt.rpNewFromLDx l a b := by
  unfold rpNewFromLDx at h
  rw [bind_ok] at h
  obtain ⟨x, h1, h⟩ := h
  rw [bind_ok] at h
  obtain ⟨y, h2, h⟩ := h
  rw [(fdiv_ok h).1, (fdiv_ok h1).1, (fdiv_ok h2).1]
  rfl

theorem rpy_ok {l a b r : F64} (h : rpNewFromLDy l a b = .ok r) : r = Flt.rpNewFromLDy l a b := by
  unfold rpNewFromLDy at h
  rw [bind_ok] at h
  obtain ⟨x, h1, h⟩ := h
  rw [okp, ok_inj] at h
  rw [← h, (fdiv_ok h1).1]
  rfl

theorem dyHmm_ok {c : F64} {m m' : LibM} (ha : Alike c m m') (hc0 : F64.eq c zero = false) {l a b o r : F64} (h : dyFromLDrpHmm m' l a b c o = .ok r) :
    r = Flt.dyFromLDrpHmm m l a b c o := by
  unfold dyFromLDrpHmm at h
  unfold Flt.dyFromLDrpHmm
  by_cases hc : F64.eq c one = true
  · rw [if_pos hc] at h ⊢
    rw [bind_ok] at h
    obtain ⟨x, h1, h⟩ := h
    rw [bind_ok] at h
    obtain ⟨y, h2, h⟩ := h
    rw [okp, ok_inj] at h
    rw [← h, log_ok h2, (fdiv_ok h1).1, ha.ln]
  · have hp : Powers c := ⟨hc0, by simpa using hc⟩
    rw [if_neg hc] at h ⊢
    simp only at h ⊢
    rw [bind_ok] at h
    obtain ⟨x, h1, h⟩ := h
    rw [bind_ok] at h
    obtain ⟨y, h2, h⟩ := h
    rw [bind_ok] at h
    obtain ⟨z, h3, h⟩ := h
    rw [(fdiv_ok h).1, pow_ok h1, pow_ok h2, pow_ok h3, ha.powC hp, ha.powOmc hp, ha.powOmc hp]

theorem dxHmm_ok {c : F64} {m m' : LibM} (ha : Alike c m m') (hc0 : F64.eq c zero = false) {l a b o r : F64} (h : dxFromLDrpHmm m' l a b c o = .ok r) :
    r = Flt.dxFromLDrpHmm m l a b c o := by
  unfold dxFromLDrpHmm at h
  unfold Flt.dxFromLDrpHmm
  by_cases hc : F64.eq c one = true
  · rw [if_pos hc] at h ⊢
    rw [bind_ok] at h
    obtain ⟨w, h0, h⟩ := h
    rw [bind_ok] at h
    obtain ⟨x, h1, h⟩ := h
    rw [bind_ok] at h
    obtain ⟨y, h2, h⟩ := h
    rw [okp, ok_inj] at h
    rw [← h, log_ok h2, (fdiv_ok h1).1, (fdiv_ok h0).1, ha.ln]
  · have hp : Powers c := ⟨hc0, by simpa using hc⟩
    rw [if_neg hc] at h ⊢
    simp only at h ⊢
    rw [bind_ok] at h
    obtain ⟨x, h1, h⟩ := h
    rw [bind_ok] at h
    obtain ⟨v, h4, h⟩ := h
    rw [bind_ok] at h
    obtain ⟨y, h2, h⟩ := h
    rw [bind_ok] at h
    obtain ⟨z, h3, h⟩ := h
    rw [(fdiv_ok h).1, (fdiv_ok h4).1, pow_ok h1, pow_ok h2, pow_ok h3, ha.powC hp, ha.powCmo hp, ha.powCmo hp]

/-- The Rust code fills the same, and the amounts are not negative if the fee rate is in order. -/
theorem fillX_of {c : F64} {m m' : LibM} (ha : Alike c m m') (ho : Ordinary m') {p : Flt.Pool} {pos} {rp : F64} {g : Nat}
    (hg : g < 2 ^ 32) {l dx done fee e : F64} {x : Bool} {t : Int} (hdx : le dx zero = false) (hr : dx.Rep)
    (h : (of p pos).fillX m' rp (g : Int) l dx = .ok (done, fee, x, t, e)) :
    ∃ n : Nat, t = n ∧ n < 2 ^ 32 ∧ le one e = true ∧ p.fillX m rp g l dx = .ok (done, fee, x, n, e) ∧
      (le zero p.feeRate = true → lt p.feeRate one = true → NN done ∧ NN fee) := by
  unfold Pool.fillX at h
  rw [bind_ok] at h
  obtain ⟨gp, h1, h⟩ := h
  have e1 := price_ok ha hg h1
  have hg1 : le one gp = true := by rw [e1, ha.price g hg]; exact ho.above g hg
  unfold Flt.Pool.fillX
  rw [← e1]
  simp only
  have hfee : (of p pos).feeRate = p.feeRate := rfl
  rw [hfee] at h
  split at h
  · cases h
  rename_i hA
  rw [if_neg hA]
  simp only at h
  rw [bind_ok] at h
  obtain ⟨d, h2, h⟩ := h
  rw [← dx_ok h2]
  split at h
  · cases h
  rename_i hB
  rw [if_neg hB]
  have hB' : NN d := by unfold NN; simpa using hB
  split at h
  · rename_i hC
    rw [if_pos hC]
    rw [bind_ok] at h
    obtain ⟨v, h3, h⟩ := h
    rw [okp, ok_inj] at h
    obtain ⟨h3, h3'⟩ := fdiv_ok h3
    cases h
    rw [h3]
    refine ⟨g, rfl, hg, hg1, rfl, fun f0 f1 => ⟨hB', ?_⟩⟩
    exact (hB'.div (NN.rest hdx hr f0 f1).2.2 h3').mul (Flt.not_lt' f0)
  · rename_i hC
    rw [if_neg hC]
    rw [bind_ok] at h
    obtain ⟨e', h3, h⟩ := h
    rw [bind_ok] at h
    obtain ⟨t', h4, h⟩ := h
    rw [← rpx_ok h3]
    split at h
    · cases h
    rename_i hD
    rw [if_neg hD]
    split at h
    · cases h
    rename_i hE
    rw [if_neg hE]
    rw [okp, ok_inj] at h
    cases h
    obtain ⟨k1, k2, k3⟩ := tick_ok ha ho (not_below_one (by simpa using hE) hg1) h4
    exact ⟨_, k2, k3, k1, rfl, fun f0 f1 => ⟨(NN.rest hdx hr f0 f1).2.1, (NN.rest hdx hr f0 f1).1⟩⟩

theorem fillY_of {c : F64} {m m' : LibM} (ha : Alike c m m') (ho : Ordinary m') {p : Flt.Pool} {pos} {rp : F64} {g : Nat}
    (hg : g < 2 ^ 32) (hrp : le one rp = true) {l dx done fee e : F64} {x : Bool} {t : Int} (hdx : le dx zero = false)
    (hr : dx.Rep) (h : (of p pos).fillY m' rp (g : Int) l dx = .ok (done, fee, x, t, e)) :
    ∃ n : Nat, t = n ∧ n < 2 ^ 32 ∧ le one e = true ∧ p.fillY m rp g l dx = .ok (done, fee, x, n, e) ∧
      (le zero p.feeRate = true → lt p.feeRate one = true → NN done ∧ NN fee) := by
  unfold Pool.fillY at h
  rw [bind_ok] at h
  obtain ⟨gp, h1, h⟩ := h
  have e1 := price_ok ha hg h1
  have hg1 : le one gp = true := by rw [e1, ha.price g hg]; exact ho.above g hg
  unfold Flt.Pool.fillY
  rw [← e1]
  simp only
  have hfee : (of p pos).feeRate = p.feeRate := rfl
  rw [hfee] at h
  split at h
  · cases h
  rename_i hA
  rw [if_neg hA]
  simp only at h
  have hd : dyFromLDrp l rp gp = Flt.dyFromLDrp l rp gp := rfl
  rw [← hd]
  split at h
  · cases h
  rename_i hB
  rw [if_neg hB]
  have hB' : NN (dyFromLDrp l rp gp) := by unfold NN; simpa using hB
  split at h
  · rename_i hC
    rw [if_pos hC]
    rw [bind_ok] at h
    obtain ⟨v, h3, h⟩ := h
    rw [okp, ok_inj] at h
    obtain ⟨h3, h3'⟩ := fdiv_ok h3
    cases h
    rw [h3]
    refine ⟨g, rfl, hg, hg1, rfl, fun f0 f1 => ⟨hB', ?_⟩⟩
    exact (hB'.div (NN.rest hdx hr f0 f1).2.2 h3').mul (Flt.not_lt' f0)
  · rename_i hC
    rw [if_neg hC]
    rw [bind_ok] at h
    obtain ⟨e', h3, h⟩ := h
    rw [bind_ok] at h
    obtain ⟨t', h4, h⟩ := h
    rw [← rpy_ok h3]
    split at h
    · cases h
    rename_i hD
    rw [if_neg hD]
    split at h
    · cases h
    rename_i hE
    rw [if_neg hE]
    rw [okp, ok_inj] at h
    cases h
    obtain ⟨k1, k2, k3⟩ := tick_ok ha ho (not_below_one (by simpa using hD) hrp) h4
    exact ⟨_, k2, k3, k1, rfl, fun f0 f1 => ⟨(NN.rest hdx hr f0 f1).2.1, (NN.rest hdx hr f0 f1).1⟩⟩

/-- A stage of the Rust code with the outcome of the prototype's. -/
structure Stage (r : Pool.Within) (v : Flt.SwapWithinResult) : Prop where
  eq : r = ⟨v.recv, v.send, v.endTick, v.endRp, v.cross, v.sendHmmAdj, v.recvFee⟩
  tick : v.endTick < 2 ^ 32
  rp : le one v.endRp = true
  recv : NN v.recv
  send : NP v.send
  adj : NN v.sendHmmAdj
  fee : NN v.recvFee

theorem new_of {G : Prop} {r : Pool.Within} {n : Nat} (hn : r.endTick = n) (hn' : n < 2 ^ 32) (he : le one r.endRp = true)
    (hG : G → NN r.recv ∧ NP r.send ∧ NN r.adj ∧ NN r.fee) :
    Follows G (Stage r) (Flt.SwapWithinResult.new r.recv r.send n r.endRp r.cross r.adj r.fee) := by
  unfold Flt.SwapWithinResult.new
  by_cases h1 : lt r.recv zero = true
  · rw [if_pos h1]
    exact .inr ⟨fun g => (by have := (hG g).1; unfold NN at this; rw [this] at h1; cases h1), rfl⟩
  rw [if_neg h1]
  by_cases h2 : lt zero r.send = true
  · rw [if_pos h2]
    exact .inr ⟨fun g => (by have := (hG g).2.1; unfold NP at this; rw [this] at h2; cases h2), rfl⟩
  rw [if_neg h2]
  by_cases h3 : (lt r.adj zero || lt r.fee zero) = true
  · rw [if_pos h3]
    refine .inr ⟨fun g => ?_, rfl⟩
    obtain ⟨_, _, k1, k2⟩ := hG g
    unfold NN at k1 k2
    rw [k1, k2] at h3
    cases h3
  rw [if_neg h3, if_neg (by rw [le_one_pos he]; exact Bool.false_ne_true)]
  rw [Bool.or_eq_true, not_or] at h3
  refine .ok ⟨?_, hn', he, ?_, ?_, ?_, ?_⟩
  · cases r; simp only at hn; rw [hn]
  · unfold NN; simpa using h1
  · unfold NP; simpa using h2
  · unfold NN; simpa using h3.1
  · unfold NN; simpa using h3.2

theorem doneX_of {m m' : LibM} {p : Flt.Pool} {pos} (ha : Alike p.c m m') {rp e l o amm r : F64}
    (h : (of p pos).doneDyX m' rp e l (some o) amm = .ok r) : p.doneDyX m rp e l o amm = .ok r := by
  unfold Pool.doneDyX at h
  unfold Flt.Pool.doneDyX
  have hc : (of p pos).c = p.c := rfl
  rw [hc] at h
  simp only at h
  split at h
  · rename_i hA; rw [if_pos hA]; exact h
  rename_i hA
  rw [if_neg hA]
  rw [Bool.or_eq_true, not_or] at hA
  have hc0 : F64.eq p.c zero = false := by simpa using hA.1
  split at h
  · rename_i hB
    rw [if_pos hB]
    rw [bind_ok] at h
    obtain ⟨x, h1, h⟩ := h
    rw [okp, ok_inj] at h
    rw [← h, dyHmm_ok ha hc0 h1]
    rfl
  rename_i hB
  rw [if_neg hB]
  split at h
  · rename_i hC
    rw [if_pos hC, dyHmm_ok ha hc0 h]
  · cases h

theorem doneY_of {m m' : LibM} {p : Flt.Pool} {pos} (ha : Alike p.c m m') {rp e l o amm r : F64}
    (h : (of p pos).doneDxY m' rp e l (some o) amm = .ok r) : p.doneDxY m rp e l o amm = .ok r := by
  unfold Pool.doneDxY at h
  unfold Flt.Pool.doneDxY
  have hc : (of p pos).c = p.c := rfl
  rw [hc] at h
  simp only at h
  split at h
  · rename_i hA; rw [if_pos hA]; exact h
  rename_i hA
  rw [if_neg hA]
  rw [Bool.or_eq_true, not_or] at hA
  have hc0 : F64.eq p.c zero = false := by simpa using hA.1
  split at h
  · rename_i hB
    rw [if_pos hB]
    rw [bind_ok] at h
    obtain ⟨x, h1, h⟩ := h
    rw [bind_ok] at h
    obtain ⟨y, h2, h⟩ := h
    rw [okp, ok_inj] at h
    rw [← h, dxHmm_ok ha hc0 h1, dx_ok h2]
  rename_i hB
  rw [if_neg hB]
  split at h
  · rename_i hC
    rw [if_pos hC, dxHmm_ok ha hc0 h]
  · cases h

theorem withinX_of {m m' : LibM} (ho : Ordinary m') {p : Flt.Pool} {pos} (ha : Alike p.c m m') {G : Prop} (hG : G → Calm p)
    {rp : F64} {g : Nat} (hg : g < 2 ^ 32) {l dx o : F64} (hr : dx.Rep) {r : Pool.Within}
    (h : (of p pos).swapWithinX m' rp (g : Int) l dx (some o) = .ok r) :
    Follows G (Stage r) (p.swapWithinX m rp g l dx o) := by
  unfold Pool.swapWithinX at h
  unfold Flt.Pool.swapWithinX
  split at h
  · cases h
  rename_i hdx
  rw [if_neg hdx]
  rw [bind_ok] at h
  obtain ⟨⟨done, fee, x, t, e⟩, h1, h⟩ := h
  obtain ⟨n, rfl, hn, he, hfill, hsign⟩ := fillX_of ha ho hg (by simpa using hdx) hr h1
  rw [hfill, okb]
  simp only at h ⊢
  rw [bind_ok] at h
  obtain ⟨dy, h2, h⟩ := h
  have hd : dyFromLDrp l rp e = Flt.dyFromLDrp l rp e := rfl
  rw [← hd, doneX_of ha h2, okb]
  have hy : (of p pos).y = p.y := rfl
  rw [hy] at h
  split at h
  · cases h
  rename_i hA
  rw [if_neg hA]
  split at h
  · cases h
  rename_i hB
  rw [if_neg hB]
  split at h
  · cases h
  rename_i hC
  rw [if_neg hC]
  rw [okp, ok_inj] at h
  cases h
  refine new_of rfl hn he fun gg => ?_
  obtain ⟨k1, k2, _⟩ := hG gg
  obtain ⟨s1, s2⟩ := hsign k2.1 k2.2
  refine ⟨s1, ?_, by unfold NN; simpa using hB, s2⟩
  have : dy = dyFromLDrp l rp e := by
    unfold Pool.doneDyX at h2
    have hc : (of p pos).c = p.c := rfl
    rw [hc, k1] at h2
    simp only [Bool.true_or, if_true] at h2
    rw [okp, ok_inj] at h2
    exact h2.symm
  rw [this]
  unfold NP; simpa using hA

theorem withinY_of {m m' : LibM} (ho : Ordinary m') {p : Flt.Pool} {pos} (ha : Alike p.c m m') {G : Prop} (hG : G → Calm p)
    {rp : F64} {g : Nat} (hg : g < 2 ^ 32) (hrp : le one rp = true) {l dx o : F64} (hr : dx.Rep) {r : Pool.Within}
    (h : (of p pos).swapWithinY m' rp (g : Int) l dx (some o) = .ok r) :
    Follows G (Stage r) (p.swapWithinY m rp g l dx o) := by
  unfold Pool.swapWithinY at h
  unfold Flt.Pool.swapWithinY
  split at h
  · cases h
  rename_i hdx
  rw [if_neg hdx]
  rw [bind_ok] at h
  obtain ⟨⟨done, fee, x, t, e⟩, h1, h⟩ := h
  obtain ⟨n, rfl, hn, he, hfill, hsign⟩ := fillY_of ha ho hg hrp (by simpa using hdx) hr h1
  rw [hfill, okb]
  simp only at h ⊢
  rw [bind_ok] at h
  obtain ⟨amm, h3, h⟩ := h
  rw [bind_ok] at h
  obtain ⟨dy, h2, h⟩ := h
  rw [← dx_ok h3, doneY_of ha h2, okb]
  have hy : (of p pos).x = p.x := rfl
  rw [hy] at h
  split at h
  · cases h
  rename_i hA
  rw [if_neg hA]
  split at h
  · cases h
  rename_i hB
  rw [if_neg hB]
  split at h
  · cases h
  rename_i hC
  rw [if_neg hC]
  rw [okp, ok_inj] at h
  cases h
  refine new_of rfl hn he fun gg => ?_
  obtain ⟨k1, k2, _⟩ := hG gg
  obtain ⟨s1, s2⟩ := hsign k2.1 k2.2
  refine ⟨s1, ?_, by unfold NN; simpa using hB, s2⟩
  have : dy = amm := by
    unfold Pool.doneDxY at h2
    have hc : (of p pos).c = p.c := rfl
    rw [hc, k1] at h2
    simp only [Bool.true_or, if_true] at h2
    rw [okp, ok_inj] at h2
    exact h2.symm
  rw [this]
  unfold NP; simpa using hA

/-! ### A round -/

/-- The running totals of the prototype, with its tick. -/
def accOf (a : Flt.Pool.SwapAcc) (t : Int) : Pool.Acc := ⟨a.recv, a.send, a.adj, a.fee, t, a.currRp⟩

/-- The totals have the signs that the Rust code asks for at the end. -/
structure Signs (a : Flt.Pool.SwapAcc) : Prop where
  recv : NN a.recv
  send : NP a.send
  adj : NN a.adj
  fee : NN a.fee

/-- A round of the Rust code with the outcome of the prototype's. -/
structure Stepped (p : Flt.Pool) (pos : List (Key × PositionState)) (a' : Pool.Acc) (q : Pool)
    (v : Flt.Pool × Flt.Pool.SwapAcc) : Prop where
  pool : q = of v.1 pos
  acc : a' = accOf v.2 v.2.currT
  kept : Kept p v.1
  signs : Signs v.2
  tick : v.2.currT < 2 ^ 32
  rp : le one v.2.currRp = true

theorem NP.iff' {a : F64} : NP a ↔ a = F64.nan ∨ a = inf true ∨ (∃ n, a = fin true n) ∨ a = fin false 0 := by
  unfold NP
  cases a with
  | nan => exact ⟨fun _ => .inl rfl, fun _ => rfl⟩
  | inf s => cases s <;> simp [lt, zero]
  | fin s n => cases s <;> simp [lt, zero, signed]

theorem NP.pos {w : Bool} {n k : Nat} (h : w = true ∨ n = 0) : NP (ofRatio w n k) := by
  rcases h with rfl | rfl
  · unfold ofRatio
    simp only
    split
    · exact NP.iff'.2 (.inr (.inr (.inl ⟨_, rfl⟩)))
    · exact NP.iff'.2 (.inr (.inl rfl))
  · rw [ofRatio_zero]
    cases w
    · exact NP.iff'.2 (.inr (.inr (.inr rfl)))
    · exact NP.iff'.2 (.inr (.inr (.inl ⟨_, rfl⟩)))

theorem NP.add {a b : F64} (ha : NP a) (hb : NP b) : NP (F64.add a b) := by
  rcases NP.iff'.1 ha with rfl | rfl | ⟨n, rfl⟩ | rfl <;> rcases NP.iff'.1 hb with rfl | rfl | ⟨k, rfl⟩ | rfl <;>
    first
    | exact NP.iff'.2 (.inl rfl)
    | exact NP.iff'.2 (.inr (.inl rfl))
    | (unfold F64.add; simp only [if_true]; exact NP.pos (by simp))
    | (unfold F64.add
       simp only [Bool.false_eq_true, Bool.true_eq_false, if_false]
       split
       · exact NP.pos (by simp_all)
       · split
         · exact NP.pos (by simp_all)
         · exact NP.iff'.2 (.inr (.inr (.inr rfl))))

/-- The end of a round: crossing the goal. -/
def closing (x : Bool) (e g : Nat) (b : Bool) (acc : Pool.Acc) : Py Pool.Acc := do
  if x then
    check (decide ((e : Int) = (g : Int)))
    if (mapGet (g : Int) (← get).ticks).isSome then Pool.crossTick (g : Int) b
  return acc

theorem closing_of {p : Flt.Pool} {pos} (hf : Fits p) {x b : Bool} {e g : Nat} (hg : g < 2 ^ 32) {G : Prop}
    (hG : G → mapGet 0 p.ticks = none) {acc a' : Pool.Acc} {q : Pool} (h : closing x e g b acc (of p pos) = .ok a' q) :
    a' = acc ∧ Follows G (fun p' => q = of p' pos ∧ Kept p p')
      (if x then do
        rassert (decide (e = g))
        if (mapGet g p.ticks).isSome then p.crossTick g b else .ok p
      else .ok p) := by
  have hid : Kept p p := ⟨hf, rfl, rfl, id, rfl⟩
  unfold closing at h
  by_cases hx : x = true
  · rw [if_pos hx] at h
    rw [bind_eq_ok] at h
    obtain ⟨_, _, h1', h⟩ := h
    obtain ⟨h1, rfl⟩ := check_eq_ok.1 h1'
    have h1 : e = g := by
      have := of_decide_eq_true h1
      exact_mod_cast this
    rw [if_pos hx]
    simp only [h1, decide_true, rassert, if_true]
    rw [okb]
    rw [bind_eq_ok] at h
    obtain ⟨_, _, h2, h⟩ := h
    obtain ⟨rfl, rfl⟩ := get_eq_ok.1 h2
    have ht : (of p pos).ticks = p.ticks.map fun e => ((e.1 : Int), tickOf e.2) := rfl
    rw [ht, get_of, Option.isSome_map] at h
    by_cases hm : (mapGet g p.ticks).isSome = true
    · rw [if_pos hm] at h ⊢
      rw [bind_eq_ok] at h
      obtain ⟨_, q1, h3, h⟩ := h
      obtain ⟨h', rfl⟩ := pure_eq_ok.1 h
      refine ⟨h', ?_⟩
      rcases cross_of hf hg hG h3 with ⟨p', hp', e'⟩ | h
      · obtain ⟨k1, k2, k3, k4, _, _, k6⟩ := hf.cross hg hp'
        exact .inl ⟨p', hp', e', ⟨k1, k2, k3, k4, k6⟩⟩
      · exact .inr h
    · rw [if_neg hm] at h ⊢
      obtain ⟨h', rfl⟩ := pure_eq_ok.1 h
      exact ⟨h', .ok ⟨rfl, hid⟩⟩
  · rw [if_neg hx] at h ⊢
    obtain ⟨h', rfl⟩ := pure_eq_ok.1 h
    exact ⟨h', .ok ⟨rfl, hid⟩⟩

/-- The pool of the Rust code after a stage, before crossing. -/
def movedX (p : Flt.Pool) (v : Flt.SwapWithinResult) : Flt.Pool :=
  let p' : Flt.Pool := { (p.setTick v.endTick).setRp v.endRp with
      x := F64.add p.x v.recv, y := F64.add p.y (sub v.send v.sendHmmAdj),
      xFee := F64.add p.xFee v.recvFee, yAdj := F64.add p.yAdj v.sendHmmAdj }
  if lt zero p.gs.liq then p'.setFees { p.gs.fees with
      fx := F64.add p.gs.fees.fx (F64.div v.recvFee p.gs.liq), hy := F64.add p.gs.fees.hy (F64.div v.sendHmmAdj p.gs.liq) }
  else p'

theorem keptX {p : Flt.Pool} (hf : Fits p) {v : Flt.SwapWithinResult} (ht : v.endTick < 2 ^ 32) (hr : le one v.endRp = true) :
    Kept p (movedX p v) := by
  unfold movedX
  simp only
  split
  · exact ⟨⟨hf.spacing, ht, hf.keys, hr⟩, rfl, rfl, id, rfl⟩
  · exact ⟨⟨hf.spacing, ht, hf.keys, hr⟩, rfl, rfl, id, rfl⟩

theorem stepX_of {m m' : LibM} (ho : Ordinary m') {p : Flt.Pool} {pos} (hf : Fits p) (ha : Alike p.c m m') {G : Prop}
    (hG : G → Calm p) {dx o : F64} {a : Flt.Pool.SwapAcc} (hs : Signs a) {g : Nat}
    (hg : g < 2 ^ 32) {t : Int} {a' : Pool.Acc} {q : Pool}
    (h : Pool.stepX m' dx (some o) (accOf a t) (g : Int) (of p pos) = .ok a' q) :
    Follows G (Stepped p pos a' q) (Flt.Pool.stepX m dx o p a g) := by
  unfold Pool.stepX at h
  rw [bind_eq_ok] at h
  obtain ⟨_, _, h0, h⟩ := h
  obtain ⟨rfl, rfl⟩ := get_eq_ok.1 h0
  rw [bind_eq_ok] at h
  obtain ⟨r, _, h1', h⟩ := h
  obtain ⟨h1, rfl⟩ := comp_eq_ok.1 h1'
  have f1 : (accOf a t).currRp = a.currRp := rfl
  have f2 : (of p pos).liq = p.gs.liq := rfl
  have f3 : (accOf a t).recv = a.recv := rfl
  have f4 : (of p pos).y = p.y := rfl
  rw [f1, f2, f3] at h1
  rw [f2, f3, f4] at h
  rw [bind_eq_ok] at h
  obtain ⟨_, _, h2', h⟩ := h
  obtain ⟨h2, rfl⟩ := check_eq_ok.1 h2'
  rw [bind_eq_ok] at h
  obtain ⟨_, _, h3', h⟩ := h
  obtain ⟨h3, rfl⟩ := check_eq_ok.1 h3'
  unfold Flt.Pool.stepX
  refine (withinX_of ho ha hG hg (add_rep _ _) h1).bind ?_
  intro v _ hst
  rw [hst.eq] at h h2 h3
  simp only at h h2 h3
  rw [h2, h3]
  simp only [rassert, if_true]
  rw [okb, okb]
  have hk := keptX hf hst.tick hst.rp
  rw [bind_eq_ok] at h
  obtain ⟨_, q1, h4, h⟩ := h
  have h4 := modify_eq_ok.1 h4
  have key : ∃ acc, acc = accOf ⟨F64.add a.recv (F64.add v.recv v.recvFee), F64.add a.send v.send,
      F64.add a.adj v.sendHmmAdj, F64.add a.fee v.recvFee, v.endTick, v.endRp⟩ v.endTick ∧
      closing v.cross v.endTick g false acc (of (movedX p v) pos) = .ok a' q := by
    refine ⟨_, rfl, ?_⟩
    by_cases hl : lt zero p.gs.liq = true
    · rw [if_pos hl] at h
      rw [bind_eq_ok] at h
      obtain ⟨_, _, h5', h⟩ := h
      obtain ⟨h5, e5⟩ := comp_eq_ok.1 h5'
      rw [bind_eq_ok] at h
      obtain ⟨_, q2, h6, h⟩ := h
      have h6 := modify_eq_ok.1 h6
      rw [bind_eq_ok] at h
      obtain ⟨_, _, h7', h⟩ := h
      obtain ⟨h7, e7⟩ := comp_eq_ok.1 h7'
      rw [bind_eq_ok] at h
      obtain ⟨_, q3, h8, h⟩ := h
      have h8 := modify_eq_ok.1 h8
      have : q3 = of (movedX p v) pos := by
        rw [h8, e7, h6, e5, h4, (fdiv_ok h5).1, (fdiv_ok h7).1]
        unfold movedX
        rw [if_pos hl]
        rfl
      rw [this] at h
      exact h
    · rw [if_neg hl] at h
      have : q1 = of (movedX p v) pos := by
        rw [h4]
        unfold movedX
        rw [if_neg hl]
        rfl
      rw [this] at h
      exact h
  obtain ⟨acc, hacc, hcl⟩ := key
  obtain ⟨ea, hfl⟩ := closing_of hk.fits hg (fun gg => hk.zero (hG gg).ticks) hcl
  refine (hfl.bind (f := fun p' => pure (p', (⟨F64.add a.recv (F64.add v.recv v.recvFee), F64.add a.send v.send,
      F64.add a.adj v.sendHmmAdj, F64.add a.fee v.recvFee, v.endTick, v.endRp⟩ : Flt.Pool.SwapAcc))) ?_ :)
  intro p2 _ hp2
  refine .ok ⟨hp2.1, ea.trans hacc, hk.trans hp2.2, ⟨hs.recv.add (hst.recv.add hst.fee), hs.send.add hst.send, hs.adj.add hst.adj,
    hs.fee.add hst.fee⟩, hst.tick, hst.rp⟩

/-- The pool of the Rust code after a stage, before crossing. -/
def movedY (p : Flt.Pool) (v : Flt.SwapWithinResult) : Flt.Pool :=
  let p' : Flt.Pool := { (p.setTick v.endTick).setRp v.endRp with
      x := F64.add p.x (sub v.send v.sendHmmAdj), y := F64.add p.y v.recv,
      xAdj := F64.add p.xAdj v.sendHmmAdj, yFee := F64.add p.yFee v.recvFee }
  if lt zero p.gs.liq then p'.setFees { p.gs.fees with
      hx := F64.add p.gs.fees.hx (F64.div v.sendHmmAdj p.gs.liq), fy := F64.add p.gs.fees.fy (F64.div v.recvFee p.gs.liq) }
  else p'

theorem keptY {p : Flt.Pool} (hf : Fits p) {v : Flt.SwapWithinResult} (ht : v.endTick < 2 ^ 32) (hr : le one v.endRp = true) :
    Kept p (movedY p v) := by
  unfold movedY
  simp only
  split
  · exact ⟨⟨hf.spacing, ht, hf.keys, hr⟩, rfl, rfl, id, rfl⟩
  · exact ⟨⟨hf.spacing, ht, hf.keys, hr⟩, rfl, rfl, id, rfl⟩

theorem stepY_of {m m' : LibM} (ho : Ordinary m') {p : Flt.Pool} {pos} (hf : Fits p) (ha : Alike p.c m m') {G : Prop}
    (hG : G → Calm p) {dx o : F64} {a : Flt.Pool.SwapAcc} (hs : Signs a) (hrp : le one a.currRp = true) {g : Nat}
    (hg : g < 2 ^ 32) {t : Int} {a' : Pool.Acc} {q : Pool}
    (h : Pool.stepY m' dx (some o) (accOf a t) (g : Int) (of p pos) = .ok a' q) :
    Follows G (Stepped p pos a' q) (Flt.Pool.stepY m dx o p a g) := by
  unfold Pool.stepY at h
  rw [bind_eq_ok] at h
  obtain ⟨_, _, h0, h⟩ := h
  obtain ⟨rfl, rfl⟩ := get_eq_ok.1 h0
  rw [bind_eq_ok] at h
  obtain ⟨r, _, h1', h⟩ := h
  obtain ⟨h1, rfl⟩ := comp_eq_ok.1 h1'
  have f1 : (accOf a t).currRp = a.currRp := rfl
  have f2 : (of p pos).liq = p.gs.liq := rfl
  have f3 : (accOf a t).recv = a.recv := rfl
  have f4 : (of p pos).x = p.x := rfl
  rw [f1, f2, f3] at h1
  rw [f2, f3, f4] at h
  rw [bind_eq_ok] at h
  obtain ⟨_, _, h2', h⟩ := h
  obtain ⟨h2, rfl⟩ := check_eq_ok.1 h2'
  rw [bind_eq_ok] at h
  obtain ⟨_, _, h3', h⟩ := h
  obtain ⟨h3, rfl⟩ := check_eq_ok.1 h3'
  unfold Flt.Pool.stepY
  refine (withinY_of ho ha hG hg hrp (add_rep _ _) h1).bind ?_
  intro v _ hst
  rw [hst.eq] at h h2 h3
  simp only at h h2 h3
  rw [h2, h3]
  simp only [rassert, if_true]
  rw [okb, okb]
  have hk := keptY hf hst.tick hst.rp
  rw [bind_eq_ok] at h
  obtain ⟨_, q1, h4, h⟩ := h
  have h4 := modify_eq_ok.1 h4
  have key : ∃ acc, acc = accOf ⟨F64.add a.recv (F64.add v.recv v.recvFee), F64.add a.send v.send,
      F64.add a.adj v.sendHmmAdj, F64.add a.fee v.recvFee, v.endTick, v.endRp⟩ v.endTick ∧
      closing v.cross v.endTick g true acc (of (movedY p v) pos) = .ok a' q := by
    refine ⟨_, rfl, ?_⟩
    by_cases hl : lt zero p.gs.liq = true
    · rw [if_pos hl] at h
      rw [bind_eq_ok] at h
      obtain ⟨_, _, h5', h⟩ := h
      obtain ⟨h5, e5⟩ := comp_eq_ok.1 h5'
      rw [bind_eq_ok] at h
      obtain ⟨_, q2, h6, h⟩ := h
      have h6 := modify_eq_ok.1 h6
      rw [bind_eq_ok] at h
      obtain ⟨_, _, h7', h⟩ := h
      obtain ⟨h7, e7⟩ := comp_eq_ok.1 h7'
      rw [bind_eq_ok] at h
      obtain ⟨_, q3, h8, h⟩ := h
      have h8 := modify_eq_ok.1 h8
      have : q3 = of (movedY p v) pos := by
        rw [h8, e7, h6, e5, h4, (fdiv_ok h5).1, (fdiv_ok h7).1]
        unfold movedY
        rw [if_pos hl]
        rfl
      rw [this] at h
      exact h
    · rw [if_neg hl] at h
      have : q1 = of (movedY p v) pos := by
        rw [h4]
        unfold movedY
        rw [if_neg hl]
        rfl
      rw [this] at h
      exact h
  obtain ⟨acc, hacc, hcl⟩ := key
  obtain ⟨ea, hfl⟩ := closing_of hk.fits hg (fun gg => hk.zero (hG gg).ticks) hcl
  refine (hfl.bind (f := fun p' => pure (p', (⟨F64.add a.recv (F64.add v.recv v.recvFee), F64.add a.send v.send,
      F64.add a.adj v.sendHmmAdj, F64.add a.fee v.recvFee, v.endTick, v.endRp⟩ : Flt.Pool.SwapAcc))) ?_ :)
  intro p2 _ hp2
  refine .ok ⟨hp2.1, ea.trans hacc, hk.trans hp2.2, ⟨hs.recv.add (hst.recv.add hst.fee), hs.send.add hst.send, hs.adj.add hst.adj,
    hs.fee.add hst.fee⟩, hst.tick, hst.rp⟩

end

end Hmm.Proto
