import Verif.Model.Pool
import Verif.Proofs.PoolMathBasic
import Verif.Proofs.Maps

/-
The pool operations unfolded: when each returns and what.  Helper lemmas only.
-/

namespace Hmm

namespace Decimal

theorem add_toRat {a b c : Decimal} (h : a.add b = .ok c) : c.toRat = a.toRat + b.toRat := by
  obtain ⟨h1, _, h3, h4, _⟩ := add_ok.1 h
  rw [sval_toRat, sval_toRat, sval_toRat, h3, ← h1, h4]
  push_cast; ring

theorem sub_toRat {a b c : Decimal} (h : a.sub b = .ok c) : c.toRat = a.toRat - b.toRat := by
  obtain ⟨h1, _, h3, h4, _⟩ := sub_ok.1 h
  rw [sval_toRat, sval_toRat, sval_toRat, h3, ← h1, h4]
  push_cast; ring

theorem neg_toRat (d : Decimal) : d.neg.toRat = -d.toRat := by
  obtain ⟨v, s, n⟩ := d
  unfold neg isNegative isPositive isZero
  by_cases h : v = 0
  · subst h; cases n <;> simp [toRat]
  · cases n <;> simp [h, toRat]

theorem neg_scale (d : Decimal) : d.neg.scale = d.scale := by
  unfold neg; split
  · rfl
  · split <;> rfl

theorem not_isNegative {d : Decimal} : d.isNegative = false ↔ 0 ≤ d.toRat := by
  rw [← not_lt, ← isNegative_toRat]; cases d.isNegative <;> simp

theorem not_isPositive {d : Decimal} : d.isPositive = false ↔ d.toRat ≤ 0 := by
  rw [← not_lt, ← isPositive_toRat]; cases d.isPositive <;> simp

theorem isZero_toRat {d : Decimal} : d.isZero = true ↔ d.toRat = 0 := by
  rw [isZero_iff, toRat_eq_zero]

theorem sval_le {a b : Decimal} (hs : a.scale = b.scale) : a.toRat ≤ b.toRat ↔ a.sval ≤ b.sval := by
  rw [sval_toRat, sval_toRat, hs, div_le_div_iff_of_pos_right (pow10Q_pos _)]
  exact_mod_cast Iff.rfl

/-- What a comparison says about the numbers, whatever the signs of zeros. -/
theorem lt_le {a b : Decimal} {r : Bool} (h : a.lt b = .ok r) :
    a.scale = b.scale ∧ (r = true → a.toRat ≤ b.toRat) ∧ (r = false → b.toRat ≤ a.toRat) := by
  obtain ⟨av, s, an⟩ := a
  obtain ⟨bv, s', bn⟩ := b
  unfold lt at h
  by_cases hs : s = s'
  · subst hs
    refine ⟨rfl, ?_⟩
    have e1 := sval_le (a := ⟨av, s, an⟩) (b := ⟨bv, s, bn⟩) rfl
    have e2 := sval_le (a := ⟨bv, s, bn⟩) (b := ⟨av, s, an⟩) rfl
    rw [e1, e2]
    cases an <;> cases bn <;> simp [sval] at h ⊢ <;> subst h <;> simp <;> omega
  · simp [hs, rerr] at h

theorem gt_le {a b : Decimal} {r : Bool} (h : a.gt b = .ok r) :
    a.scale = b.scale ∧ (r = true → b.toRat ≤ a.toRat) ∧ (r = false → a.toRat ≤ b.toRat) := by
  obtain ⟨av, s, an⟩ := a
  obtain ⟨bv, s', bn⟩ := b
  unfold gt at h
  by_cases hs : s = s'
  · subst hs
    refine ⟨rfl, ?_⟩
    have e1 := sval_le (a := ⟨av, s, an⟩) (b := ⟨bv, s, bn⟩) rfl
    have e2 := sval_le (a := ⟨bv, s, bn⟩) (b := ⟨av, s, an⟩) rfl
    rw [e1, e2]
    cases an <;> cases bn <;> simp [sval] at h ⊢ <;> subst h <;> simp <;> omega
  · simp [hs, rerr] at h

theorem lte_le {a b : Decimal} {r : Bool} (h : a.lte b = .ok r) :
    a.scale = b.scale ∧ (r = true → a.toRat ≤ b.toRat) ∧ (r = false → b.toRat ≤ a.toRat) := by
  obtain ⟨av, s, an⟩ := a
  obtain ⟨bv, s', bn⟩ := b
  unfold lte at h
  by_cases hs : s = s'
  · subst hs
    refine ⟨rfl, ?_⟩
    have e1 := sval_le (a := ⟨av, s, an⟩) (b := ⟨bv, s, bn⟩) rfl
    have e2 := sval_le (a := ⟨bv, s, bn⟩) (b := ⟨av, s, an⟩) rfl
    rw [e1, e2]
    cases an <;> cases bn <;> simp [sval] at h ⊢ <;> subst h <;> simp <;> omega
  · simp [hs, rerr] at h

theorem gte_le {a b : Decimal} {r : Bool} (h : a.gte b = .ok r) :
    a.scale = b.scale ∧ (r = true → b.toRat ≤ a.toRat) ∧ (r = false → a.toRat ≤ b.toRat) := by
  obtain ⟨av, s, an⟩ := a
  obtain ⟨bv, s', bn⟩ := b
  unfold gte at h
  by_cases hs : s = s'
  · subst hs
    refine ⟨rfl, ?_⟩
    have e1 := sval_le (a := ⟨av, s, an⟩) (b := ⟨bv, s, bn⟩) rfl
    have e2 := sval_le (a := ⟨bv, s, bn⟩) (b := ⟨av, s, an⟩) rfl
    rw [e1, e2]
    cases an <;> cases bn <;> simp [sval] at h ⊢ <;> subst h <;> simp <;> omega
  · simp [hs, rerr] at h

/-- Signless results: adding to an amount, when the sum is not negative. -/
theorem Amount.add {s : Nat} {a b c : Decimal} (ha : a.Amount s) (h : a.add b = .ok c)
    (hc : 0 ≤ c.toRat) : c.Amount s := by
  obtain ⟨h1, _, h3, h4, h5⟩ := add_ok.1 h
  refine ⟨h3.trans ha.1, ?_⟩
  by_cases h0 : c.value = 0
  · rw [h5 h0, ha.2]; rfl
  · cases hn : c.negative
    · rfl
    · exact absurd (isNegative_toRat.1 (isNegative_iff.2 ⟨hn, h0⟩)) (not_lt.2 hc)

theorem Amount.add' {s : Nat} {a b c : Decimal} (hb : b.Amount s) (h : a.add b = .ok c)
    (hc : 0 ≤ c.toRat) : c.Amount s := by
  obtain ⟨h1, _, h3, h4, h5⟩ := add_ok.1 h
  refine ⟨h3.trans (h1.trans hb.1), ?_⟩
  by_cases h0 : c.value = 0
  · rw [h5 h0, hb.2]; simp
  · cases hn : c.negative
    · rfl
    · exact absurd (isNegative_toRat.1 (isNegative_iff.2 ⟨hn, h0⟩)) (not_lt.2 hc)

theorem Amount.sub {s : Nat} {a b c : Decimal} (ha : a.Amount s) (h : a.sub b = .ok c)
    (hc : 0 ≤ c.toRat) : c.Amount s := by
  obtain ⟨h1, _, h3, h4, h5⟩ := sub_ok.1 h
  refine ⟨h3.trans ha.1, ?_⟩
  by_cases h0 : c.value = 0
  · rw [h5 h0, ha.2]; rfl
  · cases hn : c.negative
    · rfl
    · exact absurd (isNegative_toRat.1 (isNegative_iff.2 ⟨hn, h0⟩)) (not_lt.2 hc)

theorem Amount.nonneg {s : Nat} {a : Decimal} (ha : a.Amount s) : 0 ≤ a.toRat := by
  rw [toRat_of_nonneg ha.2]; exact mag_nonneg a

/-- Amounts are determined by their number. -/
theorem Amount.ext {s : Nat} {a b : Decimal} (ha : a.Amount s) (hb : b.Amount s) (h : a.toRat = b.toRat) :
    a = b := by
  refine ext_mag (ha.1.trans hb.1.symm) (ha.2.trans hb.2.symm) ?_
  rwa [toRat_of_nonneg ha.2, toRat_of_nonneg hb.2] at h

theorem Amount.of_scale {s : Nat} {a : Decimal} (hs : a.scale = s) (h : 0 < a.toRat) : a.Amount s := by
  refine ⟨hs, ?_⟩
  cases hn : a.negative
  · rfl
  · rw [toRat_of_neg hn] at h
    have := mag_nonneg a
    linarith

end Decimal

namespace Pool

open Decimal PoolMath

theorem zero_toRat : PoolMath.zero.toRat = 0 := toRat_zero rfl

theorem zero_amount : PoolMath.zero.Amount 12 := ⟨rfl, rfl⟩

/-! ### Ticks -/

theorem addGlblLiq_ok {p p' : Pool} {d : Decimal} : p.addGlblLiq d = .ok p' ↔
    ∃ n, p.gs.liq.add d = .ok n ∧ n.isNegative = false ∧ p' = { p with gs := { p.gs with liq := n } } := by
  unfold addGlblLiq GlobalState.addLiq
  steps
  constructor
  · rintro ⟨g, ⟨n, h1, h2⟩, rfl⟩
    rw [ite_ok] at h2
    rcases h2 with ⟨_, h2⟩ | ⟨h3, h2⟩
    · simp [rpanic] at h2
    · steps at h2; subst h2
      exact ⟨n, h1, by simpa using h3, rfl⟩
  · rintro ⟨n, h1, h2, rfl⟩
    refine ⟨_, ⟨n, h1, ?_⟩, rfl⟩
    rw [h2]; rfl

theorem initializeTick_ok {p p' : Pool} {t : Nat} : p.initializeTick t = .ok p' ↔
    ((if p.gs.tick ≥ t then p.gs.fees else Fees.zero).anyNegative = false ∧
      p' = { p with ticks := treeInsert t ⟨PoolMath.zero, PoolMath.zero,
        if p.gs.tick ≥ t then p.gs.fees else Fees.zero⟩ p.ticks }) := by
  unfold initializeTick TickState.new
  steps
  constructor
  · rintro ⟨ts, h, rfl⟩
    rw [ite_ok] at h
    rcases h with ⟨h, _⟩ | ⟨_, h⟩
    · simp [isNegative, PoolMath.zero] at h
    · rw [ite_ok] at h
      rcases h with ⟨_, h⟩ | ⟨h1, h⟩
      · simp [rpanic] at h
      · cases h; exact ⟨by simpa using h1, rfl⟩
  · rintro ⟨h1, rfl⟩
    refine ⟨_, ?_, rfl⟩
    rw [h1]; rfl

/-- The record of a tick that `update_tick` starts from. -/
def tickOrNew (p : Pool) (t : Nat) : TickState :=
  (mapGet t p.ticks).getD ⟨PoolMath.zero, PoolMath.zero,
    if p.gs.tick ≥ t then p.gs.fees else Fees.zero⟩

/-- The map that `update_tick` starts from. -/
def ticksWith (p : Pool) (t : Nat) : List (Nat × TickState) :=
  match mapGet t p.ticks with
  | some _ => p.ticks
  | none => treeInsert t (p.tickOrNew t) p.ticks

theorem ticksWith_get (p : Pool) (t : Nat) : mapGet t (p.ticksWith t) = some (p.tickOrNew t) := by
  unfold ticksWith tickOrNew
  cases h : mapGet t p.ticks with
  | none => simp [mapGet_treeInsert_same]
  | some ts => simp [h]

theorem ticksWith_other {p : Pool} {t j : Nat} (h : j ≠ t) :
    mapGet j (p.ticksWith t) = mapGet j p.ticks := by
  unfold ticksWith
  cases mapGet t p.ticks with
  | none => simp [mapGet_treeInsert_other h]
  | some ts => rfl

theorem updateTick_ok {p p' : Pool} {t : Nat} {d : Decimal} {upper : Bool}
    (h : p.updateTick t d upper = .ok p') :
    ∃ net gross, (p.tickOrNew t).liqNet.add (if upper then d.neg else d) = .ok net ∧
      (p.tickOrNew t).liqGross.add d = .ok gross ∧ gross.isNegative = false ∧
      (mapGet t p.ticks = none → (p.tickOrNew t).fees.anyNegative = false) ∧
      p' = { p with
        ticks := (if gross.isZero then mapErase t (p.ticksWith t)
          else mapSet t ⟨net, gross, (p.tickOrNew t).fees⟩ (p.ticksWith t)) } := by
  unfold updateTick at h
  rw [bind_ok] at h
  obtain ⟨p1, h1, h⟩ := h
  have e : p1 = { p with ticks := p.ticksWith t } ∧
      (mapGet t p.ticks = none → (p.tickOrNew t).fees.anyNegative = false) := by
    unfold ticksWith tickOrNew
    cases hg : mapGet t p.ticks with
    | none =>
      rw [hg] at h1
      obtain ⟨g1, g2⟩ := initializeTick_ok.1 h1
      simp [g2]
      exact g1
    | some ts =>
      rw [hg] at h1
      cases h1; simp
  obtain ⟨rfl, hneg⟩ := e
  simp only [ticksWith_get] at h
  rw [bind_ok] at h
  obtain ⟨ts1, h2, h⟩ := h
  rw [bind_ok] at h
  obtain ⟨ts2, h3, h⟩ := h
  unfold TickState.addLiqNet at h2
  steps at h2
  obtain ⟨net, h2, rfl⟩ := h2
  unfold TickState.addLiqGross at h3
  steps at h3
  obtain ⟨gross, h3, h4⟩ := h3
  rw [ite_ok] at h4
  rcases h4 with ⟨_, h4⟩ | ⟨h5, h4⟩
  · simp [rpanic] at h4
  steps at h4
  subst h4
  refine ⟨net, gross, h2, h3, by simpa using h5, hneg, ?_⟩
  simp only at h
  rw [ite_ok] at h
  rcases h with ⟨h6, h⟩ | ⟨h6, h⟩
  · cases h
    simp only [unsetTick, h6, if_true]
    congr 1
    -- erasing after overwriting
    generalize p.ticksWith t = m
    induction m with
    | nil => simp [mapSet, mapErase]
    | cons e m ih =>
      obtain ⟨k', v'⟩ := e
      by_cases hk : k' = t <;> simp [mapSet, mapErase, hk, ih]
  · cases h
    simp [h6]

theorem crossTick_ok {p p' : Pool} {t : Nat} {ltr : Bool} (h : p.crossTick t ltr = .ok p') :
    ∃ ts fx fy hx hy nt n, mapGet t p.ticks = some ts ∧ (ltr = false → p.gs.tick = t) ∧
      p.gs.fees.fx.sub ts.fees.fx = .ok fx ∧ p.gs.fees.fy.sub ts.fees.fy = .ok fy ∧
      p.gs.fees.hx.sub ts.fees.hx = .ok hx ∧ p.gs.fees.hy.sub ts.fees.hy = .ok hy ∧
      (ltr = true → nt = t) ∧
      (ltr = false → 1 ≤ t ∧ tkToPossibleTk (t - 1) p.spacing false = .ok nt) ∧
      p.gs.liq.add (if ltr then ts.liqNet else ts.liqNet.neg) = .ok n ∧ n.isNegative = false ∧
      p' = { p with
        ticks := mapSet t { ts with fees := ⟨fx, fy, hx, hy⟩ } p.ticks
        gs := { p.gs with tick := nt, liq := n } } := by
  unfold crossTick at h
  rw [ite_ok] at h
  rcases h with ⟨_, h⟩ | ⟨h0, h⟩
  · simp [rpanic] at h
  simp only at h
  cases hg : mapGet t p.ticks with
  | none => rw [hg] at h; simp [rpanic] at h
  | some ts =>
    rw [hg] at h
    simp only at h
    steps at h
    obtain ⟨fx, h1, fy, h2, hx, h3, hy, h4, nt, h5, h⟩ := h
    obtain ⟨n, h6, h7, rfl⟩ := addGlblLiq_ok.1 h
    refine ⟨ts, fx, fy, hx, hy, nt, n, rfl, ?_, h1, h2, h3, h4, ?_, ?_, h6, h7, rfl⟩
    · intro hl; subst hl; simpa using h0
    · intro hl; subst hl; cases h5; rfl
    · intro hl; subst hl
      simp only [Bool.false_eq_true, if_false] at h5
      steps at h5
      obtain ⟨_, ⟨h5, rfl⟩, h8⟩ := h5
      exact ⟨h5, h8⟩

/-- A crossing touches neither the pots, nor the positions, nor the parameters, nor the set of
initialised ticks. -/
theorem crossTick_frame {p p' : Pool} {t : Nat} {ltr : Bool} (h : p.crossTick t ltr = .ok p') :
    p'.x = p.x ∧ p'.y = p.y ∧ p'.xAdj = p.xAdj ∧ p'.yAdj = p.yAdj ∧ p'.xFee = p.xFee ∧
    p'.yFee = p.yFee ∧ p'.positions = p.positions ∧ p'.spacing = p.spacing ∧ p'.c = p.c ∧
    p'.feeRate = p.feeRate ∧ p'.ticks.map (·.1) = p.ticks.map (·.1) ∧ p'.gs.rp = p.gs.rp ∧
    p'.gs.fees = p.gs.fees := by
  obtain ⟨ts, fx, fy, hx, hy, nt, n, h1, _, _, _, _, _, _, _, _, _, rfl⟩ := crossTick_ok h
  refine ⟨rfl, rfl, rfl, rfl, rfl, rfl, rfl, rfl, rfl, rfl, ?_, rfl, rfl⟩
  exact keys_set (mapGet_isSome.1 (by rw [h1]; rfl))

/-- What never changes while the price walks to the next liquidity. -/
structure SameBooks (p p' : Pool) : Prop where
  x : p'.x = p.x
  y : p'.y = p.y
  xAdj : p'.xAdj = p.xAdj
  yAdj : p'.yAdj = p.yAdj
  xFee : p'.xFee = p.xFee
  yFee : p'.yFee = p.yFee
  positions : p'.positions = p.positions
  spacing : p'.spacing = p.spacing
  c : p'.c = p.c
  feeRate : p'.feeRate = p.feeRate
  keys : p'.ticks.map (·.1) = p.ticks.map (·.1)
  fees : p'.gs.fees = p.gs.fees

theorem SameBooks.refl (p : Pool) : SameBooks p p :=
  ⟨rfl, rfl, rfl, rfl, rfl, rfl, rfl, rfl, rfl, rfl, rfl, rfl⟩

theorem SameBooks.trans {p q r : Pool} (h : SameBooks p q) (h' : SameBooks q r) : SameBooks p r :=
  ⟨h'.x.trans h.x, h'.y.trans h.y, h'.xAdj.trans h.xAdj, h'.yAdj.trans h.yAdj, h'.xFee.trans h.xFee,
    h'.yFee.trans h.yFee, h'.positions.trans h.positions, h'.spacing.trans h.spacing, h'.c.trans h.c,
    h'.feeRate.trans h.feeRate, h'.keys.trans h.keys, h'.fees.trans h.fees⟩

theorem SameBooks.cross {p p' : Pool} {t u : Nat} {rp : Decimal} {ltr : Bool}
    (h : ((p.setTick u).setRp rp).crossTick t ltr = .ok p') : SameBooks p p' := by
  obtain ⟨a1, a2, a3, a4, a5, a6, a7, a8, a9, a10, a11, _, a13⟩ := crossTick_frame h
  exact ⟨a1, a2, a3, a4, a5, a6, a7, a8, a9, a10, a11, a13⟩

theorem leftLimit_ok {p : Pool} {s : Nat} {o : Option Nat} (h : p.leftLimit s = .ok o) :
    ∃ t, tkToPossibleTk (Nat.min s p.gs.tick) p.spacing false = .ok t ∧
      o = (p.tickKeys true).find? (fun tk => decide (tk ≤ t)) := by
  unfold leftLimit tickToPossibleTick at h
  steps at h
  obtain ⟨t, h1, h2⟩ := h
  exact ⟨t, h1, h2.symm⟩

theorem rightLimit_ok {p : Pool} {s g : Nat} {o : Option Nat} (h : p.rightLimit s g = .ok o) :
    ∃ t, tkToPossibleTk s p.spacing false = .ok t ∧
      ((t = g ∧ o = (p.tickKeys false).find? (fun tk => decide (tk > t))) ∨
       (t > g ∧ o = (p.tickKeys false).find? (fun tk => decide (tk ≥ t)))) := by
  unfold rightLimit tickToPossibleTick at h
  steps at h
  obtain ⟨t, h1, h2⟩ := h
  refine ⟨t, h1, ?_⟩
  rw [ite_ok] at h2
  rcases h2 with ⟨h3, h2⟩ | ⟨h3, h2⟩
  · steps at h2; exact .inl ⟨h3, h2.symm⟩
  · rw [ite_ok] at h2
    rcases h2 with ⟨h4, h2⟩ | ⟨_, h2⟩
    · steps at h2; exact .inr ⟨h4, h2.symm⟩
    · simp [rpanic] at h2

theorem mem_tickKeys {p : Pool} {r : Bool} {t : Nat} : t ∈ p.tickKeys r ↔ t ∈ p.ticks.map (·.1) := by
  unfold tickKeys; cases r <;> simp

/-! ### One pass over a swap step -/

/-- What a completed step of a sale of X amounts to. -/
theorem stepX_ok {fl : FloatEnv} {dx o : Decimal} {p p' : Pool} {a a' : SwapAcc} {gtk : Nat}
    (h : stepX fl dx o p a gtk = .ok (p', a')) :
    ∃ rem r ysum newY c1 chk rs newX xFee yAdj fees p1,
      dx.sub a.recv = .ok rem ∧ p.swapWithinX fl a.currRp gtk p.gs.liq rem o = .ok r ∧
      p.y.add r.send = .ok ysum ∧ ysum.sub r.sendHmmAdj = .ok newY ∧ newY.isNegative = false ∧
      rem.sub r.recv = .ok c1 ∧ c1.sub r.recvFee = .ok chk ∧ chk.isNegative = false ∧
      a.recv.add r.recv = .ok rs ∧ rs.add r.recvFee = .ok a'.recv ∧ a.send.add r.send = .ok a'.send ∧
      a.adj.add r.sendHmmAdj = .ok a'.adj ∧ a.fee.add r.recvFee = .ok a'.fee ∧
      a'.currT = r.endTick ∧ a'.currRp = r.endRp ∧
      p.x.add r.recv = .ok newX ∧ p.xFee.add r.recvFee = .ok xFee ∧
      p.yAdj.add r.sendHmmAdj = .ok yAdj ∧
      ((p.gs.liq.isPositive = true ∧ fees.fy = p.gs.fees.fy ∧ fees.hx = p.gs.fees.hx ∧
        (∃ g, r.recvFee.div p.gs.liq = .ok g ∧ g.add p.gs.fees.fx = .ok fees.fx) ∧
        (∃ g, r.sendHmmAdj.div p.gs.liq = .ok g ∧ g.add p.gs.fees.hy = .ok fees.hy)) ∨
       (p.gs.liq.isPositive = false ∧ fees = p.gs.fees)) ∧
      p1 = { p with x := newX, y := newY, xFee, yAdj, gs := ⟨p.gs.liq, r.endRp, r.endTick, fees⟩ } ∧
      ((r.cross = true ∧ r.endTick = gtk ∧ gtk ∈ p.ticks.map (·.1) ∧ p1.crossTick gtk false = .ok p') ∨
       (r.cross = true ∧ r.endTick = gtk ∧ gtk ∉ p.ticks.map (·.1) ∧ p' = p1) ∨
       (r.cross = false ∧ p' = p1)) := by
  unfold stepX at h
  steps at h
  obtain ⟨rem, h1, r, h2, ysum, h3, newY, h4, _, h5, c1, h6, chk, h7, _, h8, rs, h9, recv, h10,
    send, h11, adj, h12, fee, h13, newX, h14, xFee, h15, yAdj, h16, p1, h17, p2, h18, h19⟩ := h
  simp only [Prod.mk.injEq] at h19
  obtain ⟨rfl, rfl⟩ := h19
  obtain ⟨fees, hf, rfl⟩ : ∃ fees : Fees,
      ((p.gs.liq.isPositive = true ∧ fees.fy = p.gs.fees.fy ∧ fees.hx = p.gs.fees.hx ∧
        (∃ g, r.recvFee.div p.gs.liq = .ok g ∧ g.add p.gs.fees.fx = .ok fees.fx) ∧
        (∃ g, r.sendHmmAdj.div p.gs.liq = .ok g ∧ g.add p.gs.fees.hy = .ok fees.hy)) ∨
       (p.gs.liq.isPositive = false ∧ fees = p.gs.fees)) ∧
      p1 = { p with x := newX, y := newY, xFee, yAdj, gs := ⟨p.gs.liq, r.endRp, r.endTick, fees⟩ } := by
    rw [ite_ok] at h17
    rcases h17 with ⟨h17, h20⟩ | ⟨h17, h20⟩
    · steps at h20
      obtain ⟨g1, h20, fx, h21, g2, h22, hy, h23, rfl⟩ := h20
      exact ⟨⟨fx, p.gs.fees.fy, p.gs.fees.hx, hy⟩,
        .inl ⟨h17, rfl, rfl, ⟨g1, h20, h21⟩, ⟨g2, h22, h23⟩⟩, rfl⟩
    · cases h20
      exact ⟨p.gs.fees, .inr ⟨Bool.eq_false_iff.2 h17, rfl⟩, rfl⟩
  refine ⟨rem, r, ysum, newY, c1, chk, rs, newX, xFee, yAdj, fees, _, h1, h2, h3, h4, by simpa using h5, h6, h7,
    by simpa using h8, h9, h10, h11, h12, h13, rfl, rfl, h14, h15, h16, hf, rfl, ?_⟩
  rw [ite_ok] at h18
  rcases h18 with ⟨hc, h18⟩ | ⟨hc, h18⟩
  · steps at h18
    obtain ⟨_, h20, h21⟩ := h18
    rw [decide_eq_true_eq] at h20
    rw [ite_ok] at h21
    rcases h21 with ⟨h22, h21⟩ | ⟨h22, h21⟩
    · exact .inl ⟨hc, h20, mapGet_isSome.1 h22, h21⟩
    · cases h21
      exact .inr (.inl ⟨hc, h20, fun h => h22 (mapGet_isSome.2 h), rfl⟩)
  · cases h18
    exact .inr (.inr ⟨by simpa using hc, rfl⟩)

/-- What a completed step of a sale of Y amounts to. -/
theorem stepY_ok {fl : FloatEnv} {dy o : Decimal} {p p' : Pool} {a a' : SwapAcc} {gtk : Nat}
    (h : stepY fl dy o p a gtk = .ok (p', a')) :
    ∃ rem r xsum newX c1 chk rs newY yFee xAdj fees p1,
      dy.sub a.recv = .ok rem ∧ p.swapWithinY fl a.currRp gtk p.gs.liq rem o = .ok r ∧
      p.x.add r.send = .ok xsum ∧ xsum.sub r.sendHmmAdj = .ok newX ∧ newX.isNegative = false ∧
      rem.sub r.recv = .ok c1 ∧ c1.sub r.recvFee = .ok chk ∧ chk.isNegative = false ∧
      a.recv.add r.recv = .ok rs ∧ rs.add r.recvFee = .ok a'.recv ∧ a.send.add r.send = .ok a'.send ∧
      a.adj.add r.sendHmmAdj = .ok a'.adj ∧ a.fee.add r.recvFee = .ok a'.fee ∧
      a'.currT = r.endTick ∧ a'.currRp = r.endRp ∧
      p.y.add r.recv = .ok newY ∧ p.yFee.add r.recvFee = .ok yFee ∧
      p.xAdj.add r.sendHmmAdj = .ok xAdj ∧
      ((p.gs.liq.isPositive = true ∧ fees.fx = p.gs.fees.fx ∧ fees.hy = p.gs.fees.hy ∧
        (∃ g, r.recvFee.div p.gs.liq = .ok g ∧ g.add p.gs.fees.fy = .ok fees.fy) ∧
        (∃ g, r.sendHmmAdj.div p.gs.liq = .ok g ∧ g.add p.gs.fees.hx = .ok fees.hx)) ∨
       (p.gs.liq.isPositive = false ∧ fees = p.gs.fees)) ∧
      p1 = { p with x := newX, y := newY, yFee, xAdj, gs := ⟨p.gs.liq, r.endRp, r.endTick, fees⟩ } ∧
      ((r.cross = true ∧ r.endTick = gtk ∧ gtk ∈ p.ticks.map (·.1) ∧ p1.crossTick gtk true = .ok p') ∨
       (r.cross = true ∧ r.endTick = gtk ∧ gtk ∉ p.ticks.map (·.1) ∧ p' = p1) ∨
       (r.cross = false ∧ p' = p1)) := by
  unfold stepY at h
  steps at h
  obtain ⟨rem, h1, r, h2, xsum, h3, newX, h4, _, h5, c1, h6, chk, h7, _, h8, send, h11, rs, h9, recv, h10,
    adj, h12, fee, h13, newY, h14, xAdj, h16, yFee, h15, p1, h17, p2, h18, h19⟩ := h
  simp only [Prod.mk.injEq] at h19
  obtain ⟨rfl, rfl⟩ := h19
  obtain ⟨fees, hf, rfl⟩ : ∃ fees : Fees,
      ((p.gs.liq.isPositive = true ∧ fees.fx = p.gs.fees.fx ∧ fees.hy = p.gs.fees.hy ∧
        (∃ g, r.recvFee.div p.gs.liq = .ok g ∧ g.add p.gs.fees.fy = .ok fees.fy) ∧
        (∃ g, r.sendHmmAdj.div p.gs.liq = .ok g ∧ g.add p.gs.fees.hx = .ok fees.hx)) ∨
       (p.gs.liq.isPositive = false ∧ fees = p.gs.fees)) ∧
      p1 = { p with x := newX, y := newY, yFee, xAdj, gs := ⟨p.gs.liq, r.endRp, r.endTick, fees⟩ } := by
    rw [ite_ok] at h17
    rcases h17 with ⟨h17, h20⟩ | ⟨h17, h20⟩
    · steps at h20
      obtain ⟨g1, h20, hx, h21, g2, h22, fy, h23, rfl⟩ := h20
      exact ⟨⟨p.gs.fees.fx, fy, hx, p.gs.fees.hy⟩,
        .inl ⟨h17, rfl, rfl, ⟨g2, h22, h23⟩, ⟨g1, h20, h21⟩⟩, rfl⟩
    · cases h20
      exact ⟨p.gs.fees, .inr ⟨Bool.eq_false_iff.2 h17, rfl⟩, rfl⟩
  refine ⟨rem, r, xsum, newX, c1, chk, rs, newY, yFee, xAdj, fees, _, h1, h2, h3, h4, by simpa using h5, h6, h7,
    by simpa using h8, h9, h10, h11, h12, h13, rfl, rfl, h14, h15, h16, hf, rfl, ?_⟩
  rw [ite_ok] at h18
  rcases h18 with ⟨hc, h18⟩ | ⟨hc, h18⟩
  · steps at h18
    obtain ⟨_, h20, h21⟩ := h18
    rw [decide_eq_true_eq] at h20
    rw [ite_ok] at h21
    rcases h21 with ⟨h22, h21⟩ | ⟨h22, h21⟩
    · exact .inl ⟨hc, h20, mapGet_isSome.1 h22, h21⟩
    · cases h21
      exact .inr (.inl ⟨hc, h20, fun h => h22 (mapGet_isSome.2 h), rfl⟩)
  · cases h18
    exact .inr (.inr ⟨by simpa using hc, rfl⟩)

theorem swapWithinResult_ok {recv send : Decimal} {t : Nat} {rp : Decimal} {cr : Bool} {adj fee : Decimal}
    {r : SwapWithinResult} (h : SwapWithinResult.new recv send t rp cr adj fee = .ok r) :
    0 ≤ recv.toRat ∧ send.toRat ≤ 0 ∧ 0 ≤ adj.toRat ∧ 0 ≤ fee.toRat ∧ 0 ≤ rp.toRat ∧
    r = ⟨recv, send, t, rp, cr, adj, fee⟩ := by
  unfold SwapWithinResult.new at h
  rw [ite_ok] at h; rcases h with ⟨_, h⟩ | ⟨h1, h⟩; · simp [rpanic] at h
  rw [ite_ok] at h; rcases h with ⟨_, h⟩ | ⟨h2, h⟩; · simp [rpanic] at h
  rw [ite_ok] at h; rcases h with ⟨_, h⟩ | ⟨h3, h⟩; · simp [rpanic] at h
  rw [ite_ok] at h; rcases h with ⟨_, h⟩ | ⟨h4, h⟩; · simp [rpanic] at h
  simp only [Bool.or_eq_true, not_or, Bool.not_eq_true] at h1 h2 h3 h4
  cases h
  exact ⟨not_isNegative.1 h1, not_isPositive.1 h2, not_isNegative.1 h3.1, not_isNegative.1 h3.2,
    not_isNegative.1 h4, rfl⟩

/-- A completed sale of X within a tick range. -/
theorem swapWithinX_ok {fl : FloatEnv} {p : Pool} {startRp : Decimal} {goal : Nat} {liq dx o : Decimal}
    {r : SwapWithinResult} (h : p.swapWithinX fl startRp goal liq dx o = .ok r) :
    ∃ dyCpmm ysum, 0 ≤ dx.toRat ∧
      p.fillX startRp goal liq dx = .ok (r.recv, r.recvFee, r.cross, r.endTick, r.endRp) ∧
      dyFromLDrp liq startRp r.endRp = .ok dyCpmm ∧
      doneDyX fl p startRp r.endRp liq o dyCpmm = .ok r.send ∧
      r.send.sub dyCpmm = .ok r.sendHmmAdj ∧ dyCpmm.toRat ≤ 0 ∧
      p.y.add dyCpmm = .ok ysum ∧ 0 ≤ ysum.toRat ∧
      0 ≤ r.recv.toRat ∧ r.send.toRat ≤ 0 ∧ 0 ≤ r.sendHmmAdj.toRat ∧ 0 ≤ r.recvFee.toRat ∧
      0 ≤ r.endRp.toRat := by
  unfold swapWithinX at h
  rw [ite_ok] at h
  rcases h with ⟨_, h⟩ | ⟨h0, h⟩
  · simp [rpanic] at h
  simp only [Bool.not_eq_true] at h0
  rw [bind_ok] at h
  obtain ⟨⟨doneDx, feeX, cross, endT, endRp⟩, h1, h⟩ := h
  simp only at h
  rw [bind_ok] at h; obtain ⟨dyCpmm, h2, h⟩ := h
  rw [bind_ok] at h; obtain ⟨doneDy, h3, h⟩ := h
  rw [bind_ok] at h; obtain ⟨hmmAdj, h4, h⟩ := h
  rw [ite_ok] at h; rcases h with ⟨_, h⟩ | ⟨h5, h⟩; · simp [rpanic] at h
  rw [ite_ok] at h; rcases h with ⟨_, h⟩ | ⟨h6, h⟩; · simp [rpanic] at h
  rw [bind_ok] at h; obtain ⟨ysum, h7, h⟩ := h
  rw [ite_ok] at h; rcases h with ⟨_, h⟩ | ⟨h8, h⟩; · simp [rpanic] at h
  have hr : SwapWithinResult.new doneDx doneDy endT endRp cross hmmAdj feeX = .ok r := by
    rw [ite_ok] at h
    rcases h with ⟨_, h⟩ | ⟨_, h⟩
    · steps at h
      obtain ⟨_, _, _, _, _, _, _, _, _, _, h⟩ := h
      exact h
    · exact h
  obtain ⟨g1, g2, g3, g4, g5, rfl⟩ := swapWithinResult_ok hr
  simp only [Bool.not_eq_true] at h5 h6 h8
  exact ⟨dyCpmm, ysum, not_isNegative.1 h0, h1, h2, h3, unwrap_ok.1 h4, not_isPositive.1 h5, unwrap_ok.1 h7,
    not_isNegative.1 h8, g1, g2, g3, g4, g5⟩

/-- A completed sale of Y within a tick range. -/
theorem swapWithinY_ok {fl : FloatEnv} {p : Pool} {startRp : Decimal} {goal : Nat} {liq dy o : Decimal}
    {r : SwapWithinResult} (h : p.swapWithinY fl startRp goal liq dy o = .ok r) :
    ∃ dxCpmm xsum, 0 ≤ dy.toRat ∧
      p.fillY startRp goal liq dy = .ok (r.recv, r.recvFee, r.cross, r.endTick, r.endRp) ∧
      dxFromLDrp liq startRp r.endRp = .ok dxCpmm ∧
      doneDxY fl p startRp r.endRp liq o dxCpmm = .ok r.send ∧
      r.send.sub dxCpmm = .ok r.sendHmmAdj ∧ dxCpmm.toRat ≤ 0 ∧
      p.x.add dxCpmm = .ok xsum ∧ 0 ≤ xsum.toRat ∧
      0 ≤ r.recv.toRat ∧ r.send.toRat ≤ 0 ∧ 0 ≤ r.sendHmmAdj.toRat ∧ 0 ≤ r.recvFee.toRat ∧
      0 ≤ r.endRp.toRat := by
  unfold swapWithinY at h
  rw [ite_ok] at h
  rcases h with ⟨_, h⟩ | ⟨h0, h⟩
  · simp [rpanic] at h
  simp only [Bool.not_eq_true] at h0
  rw [bind_ok] at h
  obtain ⟨⟨doneDy, feeY, cross, endT, endRp⟩, h1, h⟩ := h
  simp only at h
  rw [bind_ok] at h; obtain ⟨dxCpmm, h2, h⟩ := h
  rw [bind_ok] at h; obtain ⟨doneDx, h3, h⟩ := h
  rw [bind_ok] at h; obtain ⟨hmmAdj, h4, h⟩ := h
  rw [ite_ok] at h; rcases h with ⟨_, h⟩ | ⟨h5, h⟩; · simp [rpanic] at h
  rw [ite_ok] at h; rcases h with ⟨_, h⟩ | ⟨h6, h⟩; · simp [rpanic] at h
  rw [bind_ok] at h; obtain ⟨xsum, h7, h⟩ := h
  rw [ite_ok] at h; rcases h with ⟨_, h⟩ | ⟨h8, h⟩; · simp [rpanic] at h
  have hr : SwapWithinResult.new doneDy doneDx endT endRp cross hmmAdj feeY = .ok r := by
    rw [ite_ok] at h
    rcases h with ⟨_, h⟩ | ⟨_, h⟩
    · steps at h
      obtain ⟨_, _, _, _, _, _, _, _, _, _, h⟩ := h
      exact h
    · exact h
  obtain ⟨g1, g2, g3, g4, g5, rfl⟩ := swapWithinResult_ok hr
  simp only [Bool.not_eq_true] at h5 h6 h8
  exact ⟨dxCpmm, xsum, not_isNegative.1 h0, h1, h2, h3, unwrap_ok.1 h4, not_isPositive.1 h5, unwrap_ok.1 h7,
    not_isNegative.1 h8, g1, g2, g3, g4, g5⟩

/-- The quantities of a sale of X within a tick range. -/
theorem fillX_ok {p : Pool} {startRp : Decimal} {goal : Nat} {liq dx d f rp : Decimal} {cr : Bool} {t : Nat}
    (h : p.fillX startRp goal liq dx = .ok (d, f, cr, t, rp)) :
    ∃ rpGoal ff dxMax doable, tickToRp goal = .ok rpGoal ∧ rpGoal.gt startRp = .ok false ∧
      PoolMath.one.sub p.feeRate = .ok ff ∧ dx.mul ff = .ok dxMax ∧
      dxFromLDrp liq startRp rpGoal = .ok doable ∧ 0 ≤ doable.toRat ∧
      ((doable.lt dxMax = .ok true ∧ cr = true ∧ d = doable ∧ t = goal ∧ rp = rpGoal ∧
        ∃ q, doable.div ff = .ok q ∧ q.mul p.feeRate = .ok f) ∨
       (doable.lt dxMax = .ok false ∧ cr = false ∧ d = dxMax ∧ dx.sub dxMax = .ok f ∧
        rpNewFromLDx liq startRp dxMax = .ok rp ∧ 1 ≤ goal ∧ rpToTickLoop rp false (goal - 1) = .ok t ∧
        rp.gt startRp = .ok false ∧ rp.lt rpGoal = .ok false)) := by
  unfold fillX at h
  rw [bind_ok] at h; obtain ⟨rpGoal, h1, h⟩ := h
  rw [bind_ok] at h; obtain ⟨b1, h2, h⟩ := h
  rw [ite_ok] at h; rcases h with ⟨_, h⟩ | ⟨hb1, h⟩; · simp [rpanic] at h
  rw [Bool.not_eq_true] at hb1; subst hb1
  rw [bind_ok] at h; obtain ⟨ff, h3, h⟩ := h
  rw [bind_ok] at h; obtain ⟨dxMax, h4, h⟩ := h
  rw [bind_ok] at h; obtain ⟨doable, h5, h⟩ := h
  rw [ite_ok] at h; rcases h with ⟨_, h⟩ | ⟨h6, h⟩; · simp [rpanic] at h
  rw [Bool.not_eq_true] at h6
  rw [bind_ok] at h; obtain ⟨b2, h7, h⟩ := h
  refine ⟨rpGoal, ff, dxMax, doable, h1, unwrap_ok.1 h2, unwrap_ok.1 h3, h4, h5, not_isNegative.1 h6, ?_⟩
  rw [ite_ok] at h
  rcases h with ⟨hb2, h⟩ | ⟨hb2, h⟩
  · subst hb2
    steps at h
    obtain ⟨q, h8, f', h9, h10⟩ := h
    simp only [Prod.mk.injEq] at h10
    obtain ⟨rfl, rfl, rfl, rfl, rfl⟩ := h10
    exact .inl ⟨unwrap_ok.1 h7, rfl, rfl, rfl, rfl, q, h8, h9⟩
  · rw [Bool.not_eq_true] at hb2; subst hb2
    rw [bind_ok] at h; obtain ⟨fee, h8, h⟩ := h
    rw [bind_ok] at h; obtain ⟨endRp, h9, h⟩ := h
    rw [bind_ok] at h; obtain ⟨g, h10, h⟩ := h
    rw [bind_ok] at h; obtain ⟨endT, h11, h⟩ := h
    rw [bind_ok] at h; obtain ⟨b3, h12, h⟩ := h
    rw [ite_ok] at h; rcases h with ⟨_, h⟩ | ⟨hb3, h⟩; · simp [rpanic] at h
    rw [Bool.not_eq_true] at hb3; subst hb3
    rw [bind_ok] at h; obtain ⟨b4, h13, h⟩ := h
    rw [ite_ok] at h; rcases h with ⟨_, h⟩ | ⟨hb4, h⟩; · simp [rpanic] at h
    rw [Bool.not_eq_true] at hb4; subst hb4
    steps at h
    simp only [Prod.mk.injEq] at h
    obtain ⟨rfl, rfl, rfl, rfl, rfl⟩ := h
    obtain ⟨h14, rfl⟩ := checkedSub_ok.1 h10
    exact .inr ⟨unwrap_ok.1 h7, rfl, rfl, unwrap_ok.1 h8, h9, h14, h11, unwrap_ok.1 h12, unwrap_ok.1 h13⟩

/-- The quantities of a sale of Y within a tick range. -/
theorem fillY_ok {p : Pool} {startRp : Decimal} {goal : Nat} {liq dy d f rp : Decimal} {cr : Bool} {t : Nat}
    (h : p.fillY startRp goal liq dy = .ok (d, f, cr, t, rp)) :
    ∃ rpGoal ff dyMax doable, tickToRp goal = .ok rpGoal ∧ rpGoal.lt startRp = .ok false ∧
      PoolMath.one.sub p.feeRate = .ok ff ∧ dy.mul ff = .ok dyMax ∧
      dyFromLDrp liq startRp rpGoal = .ok doable ∧ 0 ≤ doable.toRat ∧
      ((doable.lt dyMax = .ok true ∧ cr = true ∧ d = doable ∧ t = goal ∧ rp = rpGoal ∧
        ∃ q, doable.div ff = .ok q ∧ q.mul p.feeRate = .ok f) ∨
       (doable.lt dyMax = .ok false ∧ cr = false ∧ d = dyMax ∧ dy.sub dyMax = .ok f ∧
        rpNewFromLDy liq startRp dyMax = .ok rp ∧ 1 ≤ p.gs.tick ∧
        (∃ seek, tkToPossibleTk (p.gs.tick - 1) p.spacing false = .ok seek ∧
          rpToTickLoop rp false seek = .ok t) ∧
        rp.lt startRp = .ok false ∧ rp.gt rpGoal = .ok false)) := by
  unfold fillY at h
  rw [bind_ok] at h; obtain ⟨rpGoal, h1, h⟩ := h
  rw [bind_ok] at h; obtain ⟨b1, h2, h⟩ := h
  rw [ite_ok] at h; rcases h with ⟨_, h⟩ | ⟨hb1, h⟩; · simp [rpanic] at h
  rw [Bool.not_eq_true] at hb1; subst hb1
  rw [bind_ok] at h; obtain ⟨ff, h3, h⟩ := h
  rw [bind_ok] at h; obtain ⟨dyMax, h4, h⟩ := h
  rw [bind_ok] at h; obtain ⟨doable, h5, h⟩ := h
  rw [ite_ok] at h; rcases h with ⟨_, h⟩ | ⟨h6, h⟩; · simp [rpanic] at h
  rw [Bool.not_eq_true] at h6
  rw [bind_ok] at h; obtain ⟨b2, h7, h⟩ := h
  refine ⟨rpGoal, ff, dyMax, doable, h1, unwrap_ok.1 h2, unwrap_ok.1 h3, h4, h5, not_isNegative.1 h6, ?_⟩
  rw [ite_ok] at h
  rcases h with ⟨hb2, h⟩ | ⟨hb2, h⟩
  · subst hb2
    steps at h
    obtain ⟨q, h8, f', h9, h10⟩ := h
    simp only [Prod.mk.injEq] at h10
    obtain ⟨rfl, rfl, rfl, rfl, rfl⟩ := h10
    exact .inl ⟨unwrap_ok.1 h7, rfl, rfl, rfl, rfl, q, h8, h9⟩
  · rw [Bool.not_eq_true] at hb2; subst hb2
    rw [bind_ok] at h; obtain ⟨fee, h8, h⟩ := h
    rw [bind_ok] at h; obtain ⟨endRp, h9, h⟩ := h
    rw [bind_ok] at h; obtain ⟨g, h10, h⟩ := h
    rw [bind_ok] at h; obtain ⟨seek, hs, h⟩ := h
    rw [bind_ok] at h; obtain ⟨endT, h11, h⟩ := h
    rw [bind_ok] at h; obtain ⟨b3, h12, h⟩ := h
    rw [ite_ok] at h; rcases h with ⟨_, h⟩ | ⟨hb3, h⟩; · simp [rpanic] at h
    rw [Bool.not_eq_true] at hb3; subst hb3
    rw [bind_ok] at h; obtain ⟨b4, h13, h⟩ := h
    rw [ite_ok] at h; rcases h with ⟨_, h⟩ | ⟨hb4, h⟩; · simp [rpanic] at h
    rw [Bool.not_eq_true] at hb4; subst hb4
    steps at h
    simp only [Prod.mk.injEq] at h
    obtain ⟨rfl, rfl, rfl, rfl, rfl⟩ := h
    obtain ⟨h14, rfl⟩ := checkedSub_ok.1 h10
    exact .inr ⟨unwrap_ok.1 h7, rfl, rfl, unwrap_ok.1 h8, h9, h14, ⟨seek, hs, h11⟩, unwrap_ok.1 h12,
      unwrap_ok.1 h13⟩

end Pool

end Hmm
