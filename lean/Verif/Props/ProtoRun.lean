import Verif.Spec.ProtoRun
import Verif.Props.ProtoDeposit

/-
C133: the prototype and the Rust twin agree along histories of sales and deposits.
-/

namespace Hmm.Proto

open F64

section
attribute [local irreducible] F64.unit limit

theorem sane_kept : Flt.Pool.Kept Sane := by
  constructor
  · intro p p' ht hp _ _ _ hl h
    exact ⟨by rw [hl]; exact h.liq, by rw [ht]; exact h.ticks, by rw [hp]; exact h.positions⟩
  · intro p p' t d hc h
    obtain ⟨ts, new, hg, _, _, _, hl, rfl⟩ := Flt.Pool.crossTick_ok hc
    refine ⟨hl, fun j tj hj => ?_, h.positions⟩
    by_cases e : j = t
    · subst e
      simp only at hj
      rw [mapGet_set_same] at hj
      cases hj
      exact h.ticks j ts hg
    · simp only at hj
      rw [mapGet_set_other e] at hj
      exact h.ticks j tj hj

/-- C133: the two open the same pool, at the price of its tick. -/
theorem C133_open {m m' : LibM} {c fee b : F64} {s : Nat} (ho : Ordinary m') (ha : Alike c m m') (hs : 0 < s ∧ s < 2 ^ 32)
    (hb : lt b one = false) {q : Pool} (h : Pool.new m' b s c fee = .ok q) :
    ∃ p, Flt.Pool.new m b s c fee = .ok p ∧ Twin p q ∧ Fits p ∧ Sane p ∧ tickToRp m' q.tick = .ok q.rp ∧
      q.positions = [] ∧ p.c = c ∧ p.feeRate = fee ∧ p.ticks = [] := by
  let p0 : Flt.Pool := ⟨s, ⟨zero, one, 0, Flt.Fees.zero⟩, [], [], zero, zero, zero, zero, zero, zero, c, fee⟩
  have h1 : le one one = true := by decide +kernel
  have hz : lt zero zero = false := by decide +kernel
  have hf0 : Fits p0 := ⟨hs, by show (0 : Nat) < 2 ^ 32; norm_num, by intro e he; (cases he), h1⟩
  unfold Pool.new at h
  rw [bind_ok] at h
  obtain ⟨t, ht, h⟩ := h
  rw [bind_ok] at h
  obtain ⟨rp, hrp, h⟩ := h
  rw [pure_ok] at h
  subst h
  have ht' : (of p0 []).rpToPossibleTick m' b false = .ok t := ht
  obtain ⟨e, hlt⟩ := place_ok (p := p0) hf0 ho ha hb ht'
  have hk : p0.rpToPossibleTick m b false = Flt.rpToPossibleTk m b s false := rfl
  rw [hk] at e hlt
  subst e
  have hr := price_ok ha hlt hrp
  refine ⟨⟨s, ⟨zero, Flt.tickToRp m (Flt.rpToPossibleTk m b s false), Flt.rpToPossibleTk m b s false, Flt.Fees.zero⟩, [], [],
    zero, zero, zero, zero, zero, zero, c, fee⟩, ?_, ?_, ?_, ?_, hrp, rfl, rfl, rfl, rfl⟩
  · unfold Flt.Pool.new Flt.GlobalState.new
    simp only [hz, Bool.false_eq_true, if_false]
    rfl
  · exact ⟨rfl, rfl, hr, rfl, rfl, rfl, rfl, rfl, rfl, rfl, rfl, rfl, rfl, rfl, rfl⟩
  · refine ⟨hs, hlt, by intro e he; (cases he), ?_⟩
    show le one (Flt.tickToRp m _) = true
    rw [ha.price _ hlt]
    exact ho.above _ hlt
  · exact ⟨hz, by intro t ts h; (cases h), by intro t ts h; (cases h)⟩

/-- What a deposit leaves alone. -/
theorem deposit_calm {m : LibM} {p p' : Flt.Pool} {u : Nat} {x y rpa rpb : F64} {r : Flt.Pool.Receipt}
    (h : p.deposit m u x y rpa rpb = .ok (p', r)) : p'.c = p.c ∧ p'.feeRate = p.feeRate ∧
      (p.rpToPossibleTick m rpa false ≠ 0 → p.rpToPossibleTick m rpb false ≠ 0 → mapGet 0 p.ticks = none →
        mapGet 0 p'.ticks = none) := by
  obtain ⟨lo, up, a, b, l, q, f, e1, e2, _, _, _, _, _, _, _, h1, rfl, _⟩ := Flt.Pool.deposit_ok h
  obtain ⟨_, _, _, pos, q1, q2, _, _, _, _, _, _, h7, h8, h9, _⟩ := Flt.Pool.setPosition_ok h1
  obtain ⟨_, t1, rfl, o1, _⟩ := Flt.Pool.updateTick_ok h7
  obtain ⟨_, t2, rfl, o2, _⟩ := Flt.Pool.updateTick_ok h8
  have key : lo ≠ 0 → up ≠ 0 → mapGet 0 p.ticks = none → mapGet 0 t2 = none := by
    intro n1 n2 h0
    rw [o2 0 n2.symm]
    show mapGet 0 t1 = none
    rw [o1 0 n1.symm]
    exact h0
  rw [← e1, ← e2]
  rcases h9 with ⟨_, _, _, rfl⟩ | ⟨_, rfl⟩
  · exact ⟨rfl, rfl, key⟩
  · exact ⟨rfl, rfl, key⟩

theorem run_ok {m : LibM} {fuel : Nat} {p p1 p2 : Flt.Pool} {a : Act} {d : Did} {l : List Act} {ds : List Did}
    (h : a.rs m fuel p = .ok (p1, d)) (h2 : rsRun m fuel p1 l = .ok (p2, ds)) : rsRun m fuel p (a :: l) = .ok (p2, d :: ds) := by
  unfold rsRun
  rw [h, okb]
  show (rsRun m fuel p1 l >>= _) = _
  rw [h2, okb]
  rfl

theorem run_err {m : LibM} {fuel : Nat} {p p1 : Flt.Pool} {a : Act} {d : Did} {l : List Act} {e : Err}
    (h : a.rs m fuel p = .ok (p1, d)) (h2 : rsRun m fuel p1 l = .error e) : rsRun m fuel p (a :: l) = .error e := by
  unfold rsRun
  rw [h, okb]
  show (rsRun m fuel p1 l >>= _) = _
  rw [h2]
  rfl

theorem run_stop {m : LibM} {fuel : Nat} {p : Flt.Pool} {a : Act} {l : List Act} {e : Err} (h : a.rs m fuel p = .error e) :
    rsRun m fuel p (a :: l) = .error e := by
  unfold rsRun
  rw [h]
  rfl

/-- The steps of a history, from the same pool on. -/
theorem carried_of {m m' : LibM} {fuel : Nat} (ho : Ordinary m') {q q' : Pool} {acts : List Act} {ds : List Done}
    (h : Carried m' fuel q acts ds q') : ∀ {p : Flt.Pool}, Twin p q → Fits p → Sane p → Exact q.positions → Alike p.c m m' →
    ∀ {G : Prop}, (G → Calm p) →
    (∃ p' dd, rsRun m fuel p acts = .ok (p', dd) ∧ Twin p' q' ∧ List.Forall₂ (SameDone m') dd ds) ∨
      (¬ G ∧ rsRun m fuel p acts = .error .panic) := by
  induction h with
  | nil q =>
    intro p ht _ _ _ _ G _
    exact .inl ⟨p, [], rfl, ht, .nil⟩
  | @deposit q q1 q' l ds u x y rpa rpb r h hp _ ih =>
    intro p ht hf hs hE ha G hG
    obtain ⟨lo, up, a, b, h1, h2, h3, h4, hab, n1, n2⟩ := hp.range
    obtain ⟨p1, e1, t1, f1, s1⟩ := C130_deposit_partial ht hf ho ha hs hE hp.exact hp.above.1 hp.above.2 hp.price h1 h2 h3 h4 hab
      hp.some h
    obtain ⟨k1, k2, k3⟩ := deposit_calm e1
    have g1 : (of p []).rpToPossibleTick m' rpa false = .ok lo := by
      rw [ht.eq] at h1; exact h1
    have g2 : (of p []).rpToPossibleTick m' rpb false = .ok up := by
      rw [ht.eq] at h2; exact h2
    obtain ⟨i1, _⟩ := place_ok hf ho ha hp.above.1 g1
    obtain ⟨i2, _⟩ := place_ok hf ho ha hp.above.2 g2
    have hG1 : G → Calm p1 := by
      intro g
      have hc := hG g
      refine ⟨by rw [k1]; exact hc.c, by rw [k2]; exact hc.fee, k3 ?_ ?_ hc.ticks⟩
      · intro h0; rw [h0] at i1; exact n1 i1
      · intro h0; rw [h0] at i2; exact n2 i2
    have hd : (Act.deposit u x y rpa rpb).rs m fuel p = .ok (p1, .took r) := by
      simp only [Act.rs]
      rw [e1]
      rfl
    rcases ih t1 f1 s1 hp.exact (by rw [k1]; exact ha) hG1 with ⟨p', dd, e, t, d⟩ | ⟨g, e⟩
    · exact .inl ⟨p', _, run_ok hd e, t, .cons (.took _) d⟩
    · exact .inr ⟨g, run_err hd e⟩
  | @sellX q q1 q' l ds dx o r h _ ih =>
    intro p ht hf hs hE ha G hG
    have h0 := h
    rw [ht.eq] at h
    rcases executeX_of ho hf ha hG h with ⟨⟨p1, r1⟩, e, hK⟩ | ⟨g, e⟩
    · have hs1 : Sane p1 := Flt.Pool.swapX_kept sane_kept e hs
      have hq1 : q1.positions = q.positions := (executeX_leaves.1 _ _ h0).positions
      have hG1 : G → Calm p1 := fun g => ⟨by rw [hK.kept.c]; exact (hG g).c, by rw [hK.kept.feeRate]; exact (hG g).fee,
        hK.kept.zero (hG g).ticks⟩
      have hd : (Act.sellX dx o).rs m fuel p = .ok (p1, .sold r1) := by
        simp only [Act.rs]
        rw [e]
        rfl
      rcases ih (ht.of hK.pool hK.kept.positions) hK.kept.fits hs1 (by rw [hq1]; exact hE)
        (by show Alike p1.c m m'; rw [hK.kept.c]; exact ha) hG1 with ⟨p', dd, e, t, d⟩ | ⟨g, e⟩
      · exact .inl ⟨p', _, run_ok hd e, t, .cons (.sold _ hK.out) d⟩
      · exact .inr ⟨g, run_err hd e⟩
    · exact .inr ⟨g, run_stop (by simp only [Act.rs]; rw [e]; rfl)⟩
  | @sellY q q1 q' l ds dx o r h _ ih =>
    intro p ht hf hs hE ha G hG
    have h0 := h
    rw [ht.eq] at h
    rcases executeY_of ho hf ha hG h with ⟨⟨p1, r1⟩, e, hK⟩ | ⟨g, e⟩
    · have hs1 : Sane p1 := Flt.Pool.swapY_kept sane_kept e hs
      have hq1 : q1.positions = q.positions := (executeY_leaves.1 _ _ h0).positions
      have hG1 : G → Calm p1 := fun g => ⟨by rw [hK.kept.c]; exact (hG g).c, by rw [hK.kept.feeRate]; exact (hG g).fee,
        hK.kept.zero (hG g).ticks⟩
      have hd : (Act.sellY dx o).rs m fuel p = .ok (p1, .sold r1) := by
        simp only [Act.rs]
        rw [e]
        rfl
      rcases ih (ht.of hK.pool hK.kept.positions) hK.kept.fits hs1 (by rw [hq1]; exact hE)
        (by show Alike p1.c m m'; rw [hK.kept.c]; exact ha) hG1 with ⟨p', dd, e, t, d⟩ | ⟨g, e⟩
      · exact .inl ⟨p', _, run_ok hd e, t, .cons (.sold _ hK.out) d⟩
      · exact .inr ⟨g, run_err hd e⟩
    · exact .inr ⟨g, run_stop (by simp only [Act.rs]; rw [e]; rfl)⟩

/-- C133: whatever the prototype carries out from the opening of a pool, with deposits only at the price of a tick, the Rust code
carries out with the same answers and to the same pool.  Only with adjustment, or at a fee rate outside of zero to one, may it
panic instead. -/
theorem C133_history_partial {m m' : LibM} {c fee b : F64} {s fuel : Nat} (ho : Ordinary m') (ha : Alike c m m')
    (hs : 0 < s ∧ s < 2 ^ 32) (hb : lt b one = false) {q q' : Pool} (h0 : Pool.new m' b s c fee = .ok q) {acts : List Act}
    {ds : List Done} (h : Carried m' fuel q acts ds q') :
    ∃ p, Flt.Pool.new m b s c fee = .ok p ∧
      ((∃ p' dd, rsRun m fuel p acts = .ok (p', dd) ∧ Twin p' q' ∧ List.Forall₂ (SameDone m') dd ds) ∨
        (¬ (F64.eq c zero = true ∧ le zero fee = true ∧ lt fee one = true) ∧ rsRun m fuel p acts = .error .panic)) := by
  obtain ⟨p, e, t, f, sn, _, hp, e1, e2, e3⟩ := C133_open ho ha hs hb h0
  refine ⟨p, e, carried_of ho h t f sn ?_ (by rw [e1]; exact ha) ?_⟩
  · rw [hp]; intro e he; cases he
  · rintro ⟨g1, g2⟩
    exact ⟨by rw [e1]; exact g1, by rw [e2]; exact g2, by rw [e3]; rfl⟩

end

namespace Sample

open Flt.Sample (get rt)

/-- The notebook's pool before anybody provides. -/
def q0 : Pool := get (Pool.new safe (rt 2000) 1 (lit 1 2) (lit 3 1000))
def p0 : Flt.Pool := get (Flt.Pool.new table (rt 2000) 1 (lit 1 2) (lit 3 1000))

theorem q0_new : Pool.new safe (rt 2000) (1 : Nat) (lit 1 2) (lit 3 1000) = .ok q0 := by decide +kernel
theorem p0_new : Flt.Pool.new table (rt 2000) 1 (lit 1 2) (lit 3 1000) = .ok p0 := by decide +kernel

def q1 : Pool := kept q0 (Pool.deposit safe 1 (ofNat 2) (ofNat 4000) (rt 1333) (rt 3000))
def q2 : Pool := kept q1 more
def q3 : Pool := kept q2 (Pool.executeSwapFromX safe 10 one (some (rt 1990)))
def q4 : Pool := kept q3 (Pool.executeSwapFromY safe 10 (ofNat 3000) (some (rt 2010)))

/-- Two deposits, a sale of ETH and a purchase. -/
def acts : List Act :=
  [.deposit 1 (ofNat 2) (ofNat 4000) (rt 1333) (rt 3000), .deposit 2 (ofNat 2000000) (ofNat 4000000000) (rt 1333) (rt 3000),
   .sellX one (rt 1990), .sellY (ofNat 3000) (rt 2010)]

theorem proper1 : Proper safe (rt 1333) (rt 3000) q0 (told q0 (Pool.deposit safe 1 (ofNat 2) (ofNat 4000) (rt 1333) (rt 3000))) q1 :=
  ⟨by decide +kernel, by decide +kernel, ⟨71955, 80067, get (tickToRp safe 71955), get (tickToRp safe 80067), by decide +kernel,
    by decide +kernel, by decide +kernel, by decide +kernel, by decide +kernel, by decide, by decide⟩, .inl (by decide +kernel),
    exact_small (by decide +kernel)⟩

theorem proper2 : Proper safe (rt 1333) (rt 3000) q1 (told q1 more) q2 :=
  ⟨by decide +kernel, by decide +kernel, ⟨71955, 80067, get (tickToRp safe 71955), get (tickToRp safe 80067), by decide +kernel,
    by decide +kernel, by decide +kernel, by decide +kernel, by decide +kernel, by decide, by decide⟩, .inl (by decide +kernel),
    exact_small (by decide +kernel)⟩

theorem carried : ∃ ds, Carried safe 10 q0 acts ds q4 := by
  have h1 := told_kept (p := q0) (f := Pool.deposit safe 1 (ofNat 2) (ofNat 4000) (rt 1333) (rt 3000)) (by decide +kernel)
  have h2 := told_kept (p := q1) (f := more) (by decide +kernel)
  have h3 := told_kept (p := q2) (f := Pool.executeSwapFromX safe 10 one (some (rt 1990))) (by decide +kernel)
  have h4 := told_kept (p := q3) (f := Pool.executeSwapFromY safe 10 (ofNat 3000) (some (rt 2010))) (by decide +kernel)
  exact ⟨_, .deposit h1 proper1 (.deposit h2 proper2 (.sellX h3 (.sellY h4 (.nil _))))⟩

/-- C133 applies, and the Rust code does not panic. -/
example : ∃ p' dd, rsRun table 10 p0 acts = .ok (p', dd) ∧ Twin p' q4 := by
  obtain ⟨ds, h⟩ := carried
  have ha : Alike (lit 1 2) table safe := by
    have e : (rsEth (lit 1 2) (lit 3 1000)).c = lit 1 2 := by decide +kernel
    rw [← e]
    exact alike_eth
  obtain ⟨p, hp, h⟩ := C133_history_partial ordinary_safe ha ⟨by norm_num, by norm_num⟩ (by decide +kernel) q0_new h
  rw [p0_new, ok_inj] at hp
  subst hp
  rcases h with ⟨p', dd, h, t, _⟩ | ⟨_, h⟩
  · exact ⟨p', dd, h, t⟩
  · have : (rsRun table 10 p0 acts).isOk = true := by decide +kernel
    rw [h] at this
    cases this

/-- A history whose second deposit comes after a small sale. -/
def acts' : List Act :=
  [.deposit 1 (ofNat 2) (ofNat 4000) (rt 1333) (rt 3000), .sellX (lit 1 10000) (rt 2000),
   .deposit 2 (ofNat 2000000) (ofNat 4000000000) (rt 1333) (rt 3000)]

/-- The X taken by the last deposit. -/
def lastX : List Did → F64
  | [_, _, .took r] => r.x
  | _ => nan

/-- C133 of all histories is false: the two take different amounts then. -/
theorem C133_false : ∃ s r q', Pool.deposit safe 1 (ofNat 2) (ofNat 4000) (rt 1333) (rt 3000) q0 =
      .ok (told q0 (Pool.deposit safe 1 (ofNat 2) (ofNat 4000) (rt 1333) (rt 3000))) q1 ∧
    Pool.executeSwapFromX safe 10 (lit 1 10000) (some (rt 2000)) q1 = .ok s mid ∧ more mid = .ok r q' ∧
    ∃ p' dd, rsRun table 10 p0 acts' = .ok (p', dd) ∧ lt (lastX dd) r.x = true := by
  have h1 := told_kept (p := q0) (f := Pool.deposit safe 1 (ofNat 2) (ofNat 4000) (rt 1333) (rt 3000)) (by decide +kernel)
  have h2 := told_kept (p := q1) (f := Pool.executeSwapFromX safe 10 (lit 1 10000) (some (rt 2000))) (by decide +kernel)
  have h3 := told_kept (p := mid) (f := more) (by decide +kernel)
  have h4 : (rsRun table 10 p0 acts').isOk = true := by decide +kernel
  have h5 : lt (lastX (get (rsRun table 10 p0 acts')).2) (told mid more).x = true := by decide +kernel
  exact ⟨_, _, _, h1, h2, h3, _, _, got h4, h5⟩

end Sample

end Hmm.Proto
