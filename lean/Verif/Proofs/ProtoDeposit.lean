import Verif.Proofs.ProtoSwap
import Verif.Proofs.ProtoCalls

/-
Deposits of the prototype and of the Rust twin in lockstep.
-/

namespace Hmm.Proto

open F64

section
attribute [local irreducible] F64.unit limit

/-! ### Numbers -/

theorem roundNat_self {n : Nat} (h : ∃ m e, m < 2 ^ 53 ∧ n = m * 2 ^ e) : roundNat n 1 = n := by
  have := roundNat_nearest (num := n) one_pos h
  push_cast at this
  rw [mul_one, mul_one, sub_self, abs_zero, abs_nonpos_iff, sub_eq_zero] at this
  exact_mod_cast this.symm

theorem ofRatio_self {s : Bool} {n : Nat} (h : (fin s n).Rep) : ofRatio s n 1 = fin s n := by
  obtain ⟨hl, hr⟩ := rep_fin.1 h
  unfold ofRatio
  simp only
  rw [roundNat_self hr, if_pos hl]

theorem floor_rep {a : F64} (h : a.Rep) : a.floor.Rep := by
  have hu : 0 < F64.unit := unit_pos
  cases a with
  | nan => exact h
  | inf s => exact h
  | fin s n =>
    unfold F64.floor
    simp only
    split
    · exact h
    · rename_i h0
      have key : n / F64.unit < 2 ^ 53 := by
        obtain ⟨_, m, e, hm, rfl⟩ := rep_fin.1 h
        rw [Nat.div_lt_iff_lt_mul hu]
        rcases Nat.lt_or_ge e 1074 with he | he
        · have : 2 ^ e ≤ F64.unit := by rw [unit_eq]; exact Nat.pow_le_pow_right (by norm_num) he.le
          calc m * 2 ^ e ≤ m * F64.unit := Nat.mul_le_mul_left _ this
            _ < 2 ^ 53 * F64.unit := Nat.mul_lt_mul_of_pos_right hm hu
        · exfalso
          apply h0
          have : F64.unit ∣ 2 ^ e := by rw [unit_eq]; exact pow_dvd_pow 2 he
          exact Nat.mod_eq_zero_of_dvd (this.mul_left _)
      have hw : ∀ {s : Bool} {k : Nat}, k ≤ 2 ^ 53 → (fin s (k * F64.unit)).Rep := by
        intro s k hk
        have := ofRatio_rep s (k * F64.unit) 1
        rwa [ofRatio_whole hk] at this
      split
      · exact hw (by omega)
      · exact hw (by omega)

/-- `math.floor` and then back to a double. -/
theorem floor_back {a : F64} (hr : a.Rep) {k : Int} (h : Proto.floor a = .ok k) (hk : k ≠ 0) :
    ofInt k = .ok a.floor ∧ a.floor.Is k := by
  obtain ⟨q, hq⟩ := floor_finite' h
  have hk' : k = ⌊q⌋ := by
    rw [floor_ok hq] at h
    cases h
    rfl
  have hi := floor_is hq
  rw [← hk'] at hi
  obtain ⟨s, n, he, hs⟩ := isInt_iff.1 hi
  have hn := isInt_natAbs hs
  have hu : (0 : Int) < (F64.unit : Int) := by exact_mod_cast unit_pos
  have hsg : decide (k < 0) = s := by
    cases s
    · have : 0 ≤ k * (F64.unit : Int) := by rw [← hs]; unfold signed; simp
      have := nonneg_of_mul_nonneg_left this hu
      rw [decide_eq_false (by omega)]
    · have : k * (F64.unit : Int) ≤ 0 := by rw [← hs]; unfold signed; simp
      have : k ≤ 0 := by
        by_contra hc
        have : 0 < k * (F64.unit : Int) := mul_pos (by omega) hu
        omega
      rw [decide_eq_true (by omega)]
  refine ⟨?_, hi⟩
  unfold ofInt
  rw [hsg, ← hn, ofRatio_self (by rw [← he]; exact floor_rep hr), he]
  rfl

theorem ofInt_neg {n : Int} {f : F64} (h : ofInt n = .ok f) (h0 : n ≠ 0) : ofInt (-n) = .ok f.neg := by
  unfold ofInt at h ⊢
  rw [Int.natAbs_neg]
  have e : decide (-n < 0) = !decide (n < 0) := by
    rcases lt_or_gt_of_ne h0 with h1 | h1
    · rw [decide_eq_true h1, decide_eq_false (by omega)]; rfl
    · rw [decide_eq_false (by omega : ¬ n < 0), decide_eq_true (by omega)]; rfl
  rw [e]
  unfold ofRatio at h ⊢
  simp only at h ⊢
  split at h
  · rename_i hl
    rw [if_pos hl]
    cases h
    rfl
  · cases h

theorem ofInt_sign {n : Int} {f : F64} (h : ofInt n = .ok f) : (lt f zero = decide (n < 0)) ∧ F64.eq f zero = decide (n = 0) := by
  have hu : 0 < F64.unit := unit_pos
  unfold ofInt ofRatio at h
  simp only at h
  split at h
  · cases h
    by_cases h0 : n = 0
    · subst h0
      rw [Int.natAbs_zero, zero_mul, roundNat_zero]
      simp [lt, F64.eq, zero, signed]
    · have hb : 0 < roundNat (n.natAbs * F64.unit) 1 := by
        have h1 : roundNat (1 * F64.unit) 1 ≤ roundNat (n.natAbs * F64.unit) 1 :=
          roundNat_mono one_pos one_pos (by
            rw [mul_one, mul_one]
            exact Nat.mul_le_mul_right _ (by omega))
        rw [round_whole (by norm_num), one_mul] at h1
        omega
      generalize roundNat (n.natAbs * F64.unit) 1 = r at hb
      by_cases h1 : n < 0
      · simp [lt, F64.eq, zero, signed, h1, h0]; omega
      · simp [lt, F64.eq, zero, signed, h1, h0]; omega
  · cases h

namespace Num

theorem isNeg_of {d : Num} {f : F64} (h : d.toFlt = .ok f) : d.isNeg = lt f zero := by
  cases d with
  | int n => exact (ofInt_sign h).1.symm
  | flt x => cases h; rfl

theorem isZero_of {d : Num} {f : F64} (h : d.toFlt = .ok f) : d.isZero = F64.eq f zero := by
  cases d with
  | int n => exact (ofInt_sign h).2.symm
  | flt x => cases h; rfl

theorem neg_of {d : Num} {f : F64} (h : d.toFlt = .ok f) (h0 : d.isZero = false) : d.neg.toFlt = .ok f.neg := by
  cases d with
  | int n => exact ofInt_neg h (by simpa [isZero] using h0)
  | flt x => cases h; rfl

end Num

theorem ofRatio_signed {z : Int} {w : Bool} {k : Nat} (h : z = signed w k) (h0 : w = true → k ≠ 0) :
    ofRatio (decide (z < 0)) z.natAbs 1 = ofRatio w k 1 := by
  subst h
  cases w
  · have h1 : decide (signed false k < 0) = false := decide_eq_false (by unfold signed; simp)
    have h2 : (signed false k).natAbs = k := by unfold signed; simp
    rw [h1, h2]
  · have h0 := h0 rfl
    have h1 : decide (signed true k < 0) = true := decide_eq_true (by unfold signed; simp; omega)
    have h2 : (signed true k).natAbs = k := by unfold signed; simp
    rw [h1, h2]

theorem finite_ok {a r : F64} (h : finite a = .ok r) : r = a := by
  unfold finite at h
  split at h
  · cases h; rfl
  · cases h

/-- Sums of whole numbers that are doubles. -/
theorem ofInt_add {a b : Int} {f g r : F64} (ha : f.Is a) (hb : g.Is b) (h : ofInt (a + b) = .ok r) (h0 : b ≠ 0) :
    r = F64.add f g := by
  obtain ⟨s, m, rfl, e1⟩ := isInt_iff.1 ha
  obtain ⟨t, n, rfl, e2⟩ := isInt_iff.1 hb
  have hu : (0 : Int) < (F64.unit : Int) := by exact_mod_cast unit_pos
  have e3 : (a + b) * F64.unit = signed s m + signed t n := by rw [e1, e2]; ring
  have e4 : (a + b).natAbs * F64.unit = (signed s m + signed t n).natAbs := by rw [← e3, Int.natAbs_mul]; rfl
  have hs : (decide (a + b < 0)) = decide (signed s m + signed t n < 0) := by
    rw [decide_eq_decide, ← e3]
    constructor
    · intro h; exact mul_neg_of_neg_of_pos h hu
    · intro h
      by_contra hc
      have : 0 ≤ (a + b) * (F64.unit : Int) := mul_nonneg (by omega) hu.le
      omega
  have hm : signed t n ≠ 0 := by rw [e2]; exact mul_ne_zero h0 hu.ne'
  unfold ofInt at h
  rw [e4, hs] at h
  rw [finite_ok h]
  unfold F64.add
  simp only
  cases s <;> cases t <;> simp only [signed, if_true, Bool.false_eq_true, if_false, reduceCtorEq] at hm ⊢
  · exact ofRatio_signed (by simp [signed]) (by simp)
  · split
    · exact ofRatio_signed (by simp [signed]; omega) (by simp)
    · split
      · exact ofRatio_signed (by simp [signed]; omega) (by omega)
      · have e : (m : Int) + -(n : Int) = 0 := by omega
        rw [e]; exact ofRatio_zero _ _
  · split
    · exact ofRatio_signed (by simp [signed]; omega) (by omega)
    · split
      · exact ofRatio_signed (by simp [signed]; omega) (by simp)
      · have e : -(m : Int) + (n : Int) = 0 := by omega
        rw [e]; exact ofRatio_zero _ _
  · exact ofRatio_signed (by simp [signed]; omega) (by omega)

/-! ### Maps -/

theorem mapSet_twice {κ α : Type} [DecidableEq κ] (k : κ) (v w : α) (m : List (κ × α)) :
    mapSet k w (mapSet k v m) = mapSet k w m := by
  induction m with
  | nil => simp [mapSet]
  | cons e m ih =>
    obtain ⟨k', v'⟩ := e
    by_cases h : k' = k
    · simp [mapSet, h]
    · simp [mapSet, h, ih]

theorem insert_of {t : Nat} (v : Flt.TickState) (ts : List (Nat × Flt.TickState)) :
    insertTick (t : Int) (tickOf v) (ts.map fun e => ((e.1 : Int), tickOf e.2)) =
      (treeInsert t v ts).map fun e => ((e.1 : Int), tickOf e.2) := by
  induction ts with
  | nil => rfl
  | cons e ts ih =>
    obtain ⟨k, v'⟩ := e
    simp only [List.map_cons, insertTick, treeInsert]
    by_cases h1 : t < k
    · rw [if_pos h1, if_pos (by exact_mod_cast h1)]; rfl
    · rw [if_neg h1, if_neg (by exact_mod_cast h1)]
      by_cases h : k = t
      · rw [if_pos h, if_pos (by exact_mod_cast h)]; rfl
      · rw [if_neg h, if_neg (by exact_mod_cast h)]
        simp only [List.map_cons, ih]

theorem erase_of {t : Nat} (ts : List (Nat × Flt.TickState)) :
    mapErase (t : Int) (ts.map fun e => ((e.1 : Int), tickOf e.2)) =
      (mapErase t ts).map fun e => ((e.1 : Int), tickOf e.2) := by
  induction ts with
  | nil => rfl
  | cons e ts ih =>
    obtain ⟨k, v'⟩ := e
    simp only [List.map_cons, mapErase]
    by_cases h : k = t
    · rw [if_pos h, if_pos (by exact_mod_cast h)]; exact ih
    · rw [if_neg h, if_neg (by exact_mod_cast h)]
      simp only [List.map_cons, ih]

/-- The same positions. -/
def Same (ps : List (Flt.PositionKey × Flt.PositionState)) (qs : List (Key × PositionState)) : Prop :=
  (qs.map fun e => (e.1, e.2.liq.toFlt, e.2.fees)) = ps.map fun e => (keyOf e.1, (.ok e.2.liq : R F64), e.2.fees)

theorem keyOf_inj {k l : Flt.PositionKey} : keyOf k = keyOf l ↔ k = l := by
  cases k; cases l
  simp only [keyOf, Key.mk.injEq, Flt.PositionKey.mk.injEq, Nat.cast_inj]

theorem Same.get {ps : List (Flt.PositionKey × Flt.PositionState)} {qs : List (Key × PositionState)} (h : Same ps qs)
    (k : Flt.PositionKey) :
    (mapGet k ps = none ∧ mapGet (keyOf k) qs = none) ∨
      ∃ v w, mapGet k ps = some v ∧ mapGet (keyOf k) qs = some w ∧ w.liq.toFlt = .ok v.liq ∧ w.fees = v.fees := by
  induction ps generalizing qs with
  | nil =>
    cases qs with
    | nil => exact .inl ⟨rfl, rfl⟩
    | cons _ _ => cases h
  | cons e ps ih =>
    cases qs with
    | nil => cases h
    | cons g qs =>
      obtain ⟨k1, v⟩ := e
      obtain ⟨k2, w⟩ := g
      unfold Same at h
      simp only [List.map_cons, List.cons.injEq, Prod.mk.injEq] at h
      obtain ⟨⟨e1, e2, e3⟩, h⟩ := h
      subst e1
      simp only [mapGet, keyOf_inj]
      by_cases hk : k1 = k
      · simp only [hk, if_true]
        exact .inr ⟨v, w, rfl, rfl, e2, e3⟩
      · simp only [hk, if_false]
        exact ih h

theorem Same.set {ps : List (Flt.PositionKey × Flt.PositionState)} {qs : List (Key × PositionState)} (h : Same ps qs)
    (k : Flt.PositionKey) {v : Flt.PositionState} {w : PositionState} (hl : w.liq.toFlt = .ok v.liq) (hf : w.fees = v.fees) :
    Same (mapSet k v ps) (mapSet (keyOf k) w qs) := by
  induction ps generalizing qs with
  | nil =>
    cases qs with
    | nil => unfold Same; simp [mapSet, hl, hf]
    | cons _ _ => cases h
  | cons e ps ih =>
    cases qs with
    | nil => cases h
    | cons g qs =>
      obtain ⟨k1, v1⟩ := e
      obtain ⟨k2, w1⟩ := g
      unfold Same at h
      simp only [List.map_cons, List.cons.injEq, Prod.mk.injEq] at h
      obtain ⟨⟨e1, e2, e3⟩, h⟩ := h
      subst e1
      simp only [mapSet, keyOf_inj]
      have ih := ih h
      unfold Same at ih ⊢
      by_cases hk : k1 = k
      · simp [hk, hl, hf, h]
      · simp [hk, e2, e3, ih]

theorem Same.erase {ps : List (Flt.PositionKey × Flt.PositionState)} {qs : List (Key × PositionState)} (h : Same ps qs)
    (k : Flt.PositionKey) : Same (mapErase k ps) (mapErase (keyOf k) qs) := by
  induction ps generalizing qs with
  | nil =>
    cases qs with
    | nil => rfl
    | cons _ _ => cases h
  | cons e ps ih =>
    cases qs with
    | nil => cases h
    | cons g qs =>
      obtain ⟨k1, v1⟩ := e
      obtain ⟨k2, w1⟩ := g
      unfold Same at h
      simp only [List.map_cons, List.cons.injEq, Prod.mk.injEq] at h
      obtain ⟨⟨e1, e2, e3⟩, h⟩ := h
      subst e1
      simp only [mapErase, keyOf_inj]
      have ih := ih h
      unfold Same at ih ⊢
      by_cases hk : k1 = k
      · simp [hk, ih]
      · simp [hk, e2, e3, ih]

/-- The same pool, by the parts. -/
theorem twin_of {p : Flt.Pool} {qs : List (Key × PositionState)} (h : Same p.positions qs) : Twin p (of p qs) :=
  ⟨rfl, rfl, rfl, rfl, rfl, rfl, h, rfl, rfl, rfl, rfl, rfl, rfl, rfl, rfl⟩

/-! ### Ticks -/

/-- The ticks after `update_tick` has made sure that there is a record. -/
def opened (p : Flt.Pool) (t : Nat) : List (Nat × Flt.TickState) :=
  match mapGet t p.ticks with
  | none => treeInsert t (p.tickOr t) p.ticks
  | some _ => p.ticks

/-- The record after `update_tick`. -/
def moved (p : Flt.Pool) (t : Nat) (d : F64) (up : Bool) : Flt.TickState :=
  ⟨F64.add (p.tickOr t).liqNet (if up then d.neg else d), F64.add (p.tickOr t).liqGross d, (p.tickOr t).fees⟩

/-- The ticks after `update_tick`. -/
def updated (p : Flt.Pool) (t : Nat) (d : F64) (up : Bool) : List (Nat × Flt.TickState) :=
  if F64.eq (moved p t d up).liqGross zero then mapErase t (mapSet t (moved p t d up) (opened p t))
  else mapSet t (moved p t d up) (opened p t)

theorem get_opened (p : Flt.Pool) (t : Nat) : mapGet t (opened p t) = some (p.tickOr t) := by
  unfold opened Flt.Pool.tickOr
  cases hg : mapGet t p.ticks with
  | none => exact mapGet_treeInsert_same _ _ _
  | some ts => exact hg

theorem update_eq {p : Flt.Pool} {t : Nat} {d : F64} {up : Bool} (h : NN (F64.add (p.tickOr t).liqGross d)) :
    p.updateTick t d up = .ok { p with ticks := updated p t d up } := by
  have hz : lt zero zero = false := by decide +kernel
  have hm := Flt.addLiqGross_returns (e := if up then d.neg else d) h
  have hgo := get_opened p t
  have last : ∀ c : Bool, ∀ l : List (Nat × Flt.TickState), (if c = true then (pure (Flt.Pool.unsetTick { p with ticks := l } t) : R Flt.Pool)
      else pure { p with ticks := l }) = .ok { p with ticks := if c = true then mapErase t l else l } := by
    intro c l
    cases c <;> rfl
  unfold Flt.Pool.updateTick updated moved
  unfold opened at hgo ⊢
  cases hg : mapGet t p.ticks with
  | none =>
    simp only [hg] at hgo
    have e : p.initializeTick t = .ok { p with ticks := treeInsert t (p.tickOr t) p.ticks } := by
      unfold Flt.Pool.tickOr
      rw [hg]
      simp only [Flt.Pool.initializeTick, Flt.TickState.new, hz, Bool.false_eq_true, if_false]
      rfl
    simp only [e]
    rw [okb]
    simp only [hgo]
    rw [hm, okb]
    exact last _ _
  | some ts =>
    simp only [hg] at hgo
    simp only
    rw [okb]
    simp only [hg]
    rw [← Option.some.inj hgo] at hm ⊢
    rw [hm, okb]
    exact last _ _

/-- `update_tick` once there is a record. -/
def restTick (tick : Int) (d : Num) (upper : Bool) : Py Unit := do
  match mapGet tick (← get).ticks with
  | none => comp rpanic
  | some ts =>
    let net := F64.add ts.net (← comp (if upper then d.neg else d).toFlt)
    modify fun p => { p with ticks := mapSet tick { ts with net := net } p.ticks }
    let gross := F64.add ts.gross (← comp d.toFlt)
    modify fun p => { p with ticks := mapSet tick { ts with net := net, gross := gross } p.ticks }
    if F64.eq gross zero then modify fun p => { p with ticks := mapErase tick p.ticks }

theorem update_rest (t : Int) (d : Num) (up : Bool) : Pool.updateTick t d up = (do
    let p ← get
    if (mapGet t p.ticks).isNone = true then (do Pool.initializeTick t; restTick t d up) else restTick t d up) := rfl

theorem update_of {p : Flt.Pool} {pos : List (Key × PositionState)} {t : Nat} {d : Num} {f : F64} {up : Bool} {u : Unit} {q : Pool}
    (hd : d.toFlt = .ok f) (h0 : d.isZero = false) (h : Pool.updateTick (t : Int) d up (of p pos) = .ok u q) :
    q = of { p with ticks := updated p t f up } pos := by
  rw [update_rest] at h
  replace h := gets_ok h
  have e1 : (of p pos).ticks = p.ticks.map fun e => ((e.1 : Int), tickOf e.2) := rfl
  replace h : restTick (t : Int) d up (of { p with ticks := opened p t } pos) = .ok u q := by
    rw [e1, get_of] at h
    unfold opened
    cases hg : mapGet t p.ticks with
    | none =>
      rw [hg] at h
      simp only [Option.map_none, Option.isNone_none, if_true] at h
      obtain ⟨_, q1, h1, h⟩ := bind_eq_ok.1 h
      unfold Pool.initializeTick at h1
      have hq1 : q1 = of { p with ticks := treeInsert t (p.tickOr t) p.ticks } pos := by
        rw [modify_eq_ok.1 h1]
        refine of_eq ?_ rfl
        show insertTick _ _ _ = _
        rw [e1, ← insert_of]
        congr 1
        unfold Flt.Pool.tickOr tickOf
        rw [hg]
        simp only [of, Nat.cast_le, ge_iff_le]
      rw [hq1] at h
      exact h
    | some ts =>
      rw [hg] at h
      simp only [Option.map_some, Option.isNone_some, Bool.false_eq_true, if_false] at h
      exact h
  unfold restTick at h
  replace h := gets_ok h
  have e2 : (of { p with ticks := opened p t } pos).ticks = (opened p t).map fun e => ((e.1 : Int), tickOf e.2) := rfl
  rw [e2, get_of, get_opened] at h
  simp only [Option.map_some] at h
  have hn : (if up then d.neg else d).toFlt = .ok (if up then f.neg else f) := by
    cases up
    · exact hd
    · exact Num.neg_of hd h0
  rw [hn, hd] at h
  obtain ⟨n, en, h⟩ := comps_ok h
  cases en
  rw [bind_eq_ok] at h
  obtain ⟨_, q2, h2, h⟩ := h
  have h2 := modify_eq_ok.1 h2
  obtain ⟨g, eg, h⟩ := comps_ok h
  cases eg
  rw [bind_eq_ok] at h
  obtain ⟨_, q3, h3, h⟩ := h
  have h3 := modify_eq_ok.1 h3
  have hq3 : q3 = of { p with ticks := mapSet t (moved p t f up) (opened p t) } pos := by
    rw [h3, h2]
    refine of_eq ?_ rfl
    show mapSet _ _ (mapSet _ _ _) = _
    rw [mapSet_twice, e2]
    exact set_of (moved p t f up) (opened p t)
  unfold updated
  have eg : F64.add (tickOf (p.tickOr t)).gross f = (moved p t f up).liqGross := rfl
  rw [eg] at h
  generalize F64.eq (moved p t f up).liqGross zero = c at h ⊢
  cases c
  · simp only [Bool.false_eq_true, if_false] at h ⊢
    rw [(pure_eq_ok.1 h).2]; exact hq3
  · simp only [if_true] at h ⊢
    rw [modify_eq_ok.1 h, hq3]
    refine of_eq ?_ rfl
    exact erase_of _

/-! ### Fees of a range -/

theorem below_of (p : Flt.Pool) (pos) (sel : Flt.Fees → F64) (t : Nat) :
    (of p pos).feeBelowAbove sel (t : Int) = p.feeBelowAbove sel t := by
  unfold Pool.feeBelowAbove Flt.Pool.feeBelowAbove
  have e1 : (of p pos).ticks = p.ticks.map fun e => ((e.1 : Int), tickOf e.2) := rfl
  rw [e1, get_of]
  cases mapGet t p.ticks with
  | none => rfl
  | some ts => simp only [Option.map_some, of, tickOf, ge_iff_le, Nat.cast_le]

theorem rng_of (p : Flt.Pool) (pos) (sel : Flt.Fees → F64) (lo up : Nat) :
    (of p pos).feeRng sel (lo : Int) (up : Int) = p.feeRng sel lo up := by
  unfold Pool.feeRng Flt.Pool.feeRng
  rw [below_of, below_of]

/-! ### Positions -/

theorem ofInt_zero : ofInt 0 = .ok zero := by
  unfold ofInt
  rw [Int.natAbs_zero, zero_mul, ofRatio_zero]
  rfl

theorem sum_of {w d s : Num} {v f : F64} (hw : w.toFlt = .ok v) (hx : ∀ a, w = .int a → v.Is a) (hf : ∀ n, d = .int n → f.Is n)
    (hd : d.toFlt = .ok f) (h0 : d.isZero = false) (h : w.add d = .ok s) (hs : ∀ k, s = .int k → k ≠ 0 → ∃ g, ofInt k = .ok g) :
    s.toFlt = .ok (F64.add v f) := by
  have plain : (do return Num.flt (F64.add (← w.toFlt) (← d.toFlt)) : R Num) = .ok s → s.toFlt = .ok (F64.add v f) := by
    intro h
    rw [hw, hd, okb, okb, okp, ok_inj] at h
    rw [← h]
    rfl
  cases w with
  | int a =>
    cases d with
    | int n =>
      have h0 : n ≠ 0 := of_decide_eq_false h0
      have e : Num.int (a + n) = s := by injection h
      subst e
      by_cases hz : a + n = 0
      · have := ofInt_add (hx a rfl) (hf n rfl) (r := zero) (by rw [hz]; exact ofInt_zero) h0
        show ofInt (a + n) = _
        rw [hz, ofInt_zero, this]
      · obtain ⟨g, hg⟩ := hs _ rfl hz
        show ofInt (a + n) = _
        rw [hg, ofInt_add (hx a rfl) (hf n rfl) hg h0]
    | flt y => exact plain h
  | flt x => exact plain h

theorem map_of {ps : List (Flt.PositionKey × Flt.PositionState)} {qs qs' : List (Key × PositionState)} (hS : Same ps qs)
    {k : Flt.PositionKey} {d : Num} {f : F64} (hd : d.toFlt = .ok f) (hf : ∀ n, d = .int n → f.Is n) (h0 : d.isZero = false)
    (hP : NN f → ∀ v, mapGet k ps = some v → NN v.liq) (hE : Exact qs) (hE' : Exact qs') {nf old : Flt.Fees} {b : Num}
    (h : Pool.setPositionMap qs (keyOf k) d nf = .ok (qs', old, b)) :
    ∃ ps' b', Flt.Pool.setPositionMap ps k f nf = .ok (ps', old, b') ∧ b.toFlt = .ok b' ∧ Same ps' qs' := by
  have hneg := Num.isNeg_of hd
  unfold Pool.setPositionMap at h
  unfold Flt.Pool.setPositionMap
  rcases hS.get k with ⟨g1, g2⟩ | ⟨v, w, g1, g2, hl, hfe⟩
  · rw [g2] at h
    simp only [hneg] at h
    split at h
    · cases h
    · rename_i hN
      rw [okp, ok_inj, Prod.mk.injEq, Prod.mk.injEq] at h
      obtain ⟨rfl, rfl, rfl⟩ := h
      rw [g1]
      simp only [hN, Bool.false_eq_true, if_false, Flt.PositionState.new]
      rw [okb]
      exact ⟨_, _, rfl, rfl, hS.set k hd rfl⟩
  · rw [g2] at h
    simp only [hneg] at h
    rw [g1]
    simp only
    rw [bind_ok] at h
    obtain ⟨s', hs', h⟩ := h
    split at h
    · cases h
    rename_i hc
    rw [bind_ok] at h
    obtain ⟨s, hs, h⟩ := h
    rw [hs, ok_inj] at hs'
    subst hs'
    have hx : ∀ a, w.liq = .int a → v.liq.Is a := by
      intro a ha
      obtain ⟨g, hg, hi⟩ := hE _ (mapGet_mem g2) a ha
      rw [ha] at hl
      have : (.ok g : R F64) = .ok v.liq := hg.symm.trans hl
      cases this
      exact hi
    have hsum : s.toFlt = .ok (F64.add v.liq f) := by
      refine sum_of hl hx hf hd h0 hs fun a ha hn => ?_
      have hz : s.isZero = false := by rw [ha]; exact decide_eq_false hn
      rw [hz] at h
      simp only [Bool.false_eq_true, if_false] at h
      rw [okp, ok_inj, Prod.mk.injEq] at h
      obtain ⟨g, hg, _⟩ := hE' ⟨keyOf k, ⟨s, nf⟩⟩ (mapGet_mem (by rw [← h.1, mapGet_set_same])) a ha
      exact ⟨g, hg⟩
    rw [Num.isZero_of hsum] at h
    rw [Num.isNeg_of hsum] at hc
    have hNN : lt (F64.add v.liq f) zero = false := by
      by_cases hN : lt f zero = false
      · exact NN.add (hP hN v g1) hN
      · rw [Bool.not_eq_false] at hN
        rw [hN, Bool.true_and] at hc
        simpa using hc
    rw [if_neg hc]
    by_cases hz : F64.eq (F64.add v.liq f) zero = true
    · rw [if_pos hz] at h ⊢
      rw [okp, ok_inj, Prod.mk.injEq, Prod.mk.injEq] at h
      obtain ⟨rfl, rfl, rfl⟩ := h
      rw [hfe]
      exact ⟨_, _, rfl, hl, hS.erase k⟩
    · rw [if_neg hz] at h ⊢
      rw [okp, ok_inj, Prod.mk.injEq, Prod.mk.injEq] at h
      obtain ⟨rfl, rfl, rfl⟩ := h
      unfold Flt.PositionState.addLiq
      rw [hNN]
      simp only [Bool.false_eq_true, if_false]
      rw [okb, hfe]
      exact ⟨_, _, rfl, hl, hS.set k hsum rfl⟩

theorem updated_gross {p : Flt.Pool} {t : Nat} {f : F64} {up : Bool} (h : ∀ j, NN (p.tickOr j).liqGross) (hf : NN f) (j : Nat) :
    NN (Flt.Pool.tickOr { p with ticks := updated p t f up } j).liqGross := by
  have hn : NN (F64.add (p.tickOr t).liqGross f) := NN.add (h t) hf
  obtain ⟨_, ticks, e, ho, hs, _⟩ := Flt.Pool.updateTick_ok (update_eq (up := up) hn)
  have e : updated p t f up = ticks := congrArg Flt.Pool.ticks e
  unfold Flt.Pool.tickOr
  simp only [e]
  by_cases hj : j = t
  · subst hj
    rw [hs]
    split
    · rename_i ts h1
      split at h1
      · cases h1
      · cases h1; exact hn
    · show lt zero zero = false
      decide +kernel
  · rw [ho j hj]
    exact h j

/-- The books of the range and of the pool hold what the change takes. -/
structure Holds (p : Flt.Pool) (lo up : Nat) (f : F64) : Prop where
  lower : NN (F64.add (p.tickOr lo).liqGross f)
  upper : NN (F64.add (Flt.Pool.tickOr { p with ticks := updated p lo f false } up).liqGross f)
  liq : p.gs.tick ≥ lo ∧ p.gs.tick < up → NN (F64.add p.gs.liq f)
  positions : NN f → ∀ k v, mapGet k p.positions = some v → NN v.liq

/-- `_set_position` in lockstep, for an amount that is not zero. -/
theorem position_of {p : Flt.Pool} {qs : List (Key × PositionState)} (hS : Same p.positions qs) {u lo up : Nat} {d : Num} {f : F64}
    (hd : d.toFlt = .ok f) (hf : ∀ n, d = .int n → f.Is n) (hnz : d.isZero = false) (hH : Holds p lo up f)
    (hE : Exact qs) {fees : Flt.Fees} {q : Pool} (hE' : Exact q.positions)
    (h : Pool.setPosition u (lo : Int) (up : Int) d (of p qs) = .ok fees q) :
    ∃ p', p.setPosition u lo up f = .ok (p', fees) ∧ q = of p' q.positions ∧ Same p'.positions q.positions := by
  unfold Pool.setPosition at h
  replace h := gets_ok h
  rw [rng_of, rng_of, rng_of, rng_of] at h
  obtain ⟨fx, e1, h⟩ := comps_ok h
  obtain ⟨fy, e2, h⟩ := comps_ok h
  obtain ⟨hx, e3, h⟩ := comps_ok h
  obtain ⟨hy, e4, h⟩ := comps_ok h
  obtain ⟨⟨qs', old, b⟩, e5, h⟩ := comps_ok h
  simp only at h
  rw [bind_eq_ok] at h
  obtain ⟨_, q1, h1, h⟩ := h
  have h1 := modify_eq_ok.1 h1
  obtain ⟨c1, h⟩ := checks_ok h
  obtain ⟨c2, h⟩ := checks_ok h
  rw [bind_eq_ok] at h
  obtain ⟨_, q2, h2, h⟩ := h
  rw [bind_eq_ok] at h
  obtain ⟨_, q3, h3, h⟩ := h
  replace h := gets_ok h
  have hn1 := hH.lower
  have hn2 := hH.upper
  -- the prototype's positions
  have hq1 : q1 = of p qs' := h1
  rw [hq1] at h2
  have hq2 := update_of (d := d) (f := f) hd hnz h2
  rw [hq2] at h3
  have hq3 := update_of (d := d) (f := f) hd hnz h3
  have hpos : q3.positions = qs' := by rw [hq3]; rfl
  have htick : q3.tick = (p.gs.tick : Int) := by rw [hq3]; rfl
  have hlast : q.positions = qs' := by
    rw [← hpos]
    split at h
    · obtain ⟨_, _, h⟩ := comps_ok h
      rw [bind_eq_ok] at h
      obtain ⟨_, q4, h4, h⟩ := h
      obtain ⟨_, _, h⟩ := comps_ok h
      rw [(pure_eq_ok.1 h).2, modify_eq_ok.1 h4]
    · obtain ⟨_, _, h⟩ := comps_ok h
      rw [(pure_eq_ok.1 h).2]
  rw [hlast] at hE' ⊢
  obtain ⟨ps', b', m1, m2, m3⟩ := map_of (k := ⟨u, lo, up⟩) hS hd hf hnz (fun hN => hH.positions hN _) hE hE' e5
  -- the Rust code
  unfold Flt.Pool.setPosition
  rw [e1, okb, e2, okb, e3, okb, e4, okb, m1, okb]
  simp only
  have hc : (le zero (sub fx old.fx) && le zero (sub fy old.fy) && le zero (sub hx old.hx) && le zero (sub hy old.hy)) = true := by
    rw [Bool.and_eq_true] at c1 c2
    rw [c1.1, c1.2, c2.1, c2.2]; rfl
  rw [hc]
  have ha : rassert true = .ok () := rfl
  rw [ha, okb]
  have w1 : Flt.Pool.updateTick { p with positions := ps' } lo f false =
      .ok { p with positions := ps', ticks := updated p lo f false } := update_eq (p := { p with positions := ps' }) hn1
  have w2 : Flt.Pool.updateTick { p with positions := ps', ticks := updated p lo f false } up f true =
      .ok { p with positions := ps', ticks := updated { p with ticks := updated p lo f false } up f true } :=
    update_eq (p := { p with positions := ps', ticks := updated p lo f false }) hn2
  rw [w1, okb, w2, okb]
  simp only
  have hb := m2
  by_cases hc : p.gs.tick ≥ lo ∧ p.gs.tick < up
  · have hc' : q3.tick ≥ (lo : Int) ∧ q3.tick < (up : Int) := by rw [htick]; exact_mod_cast hc
    rw [if_pos hc] 
    rw [if_pos hc'] at h
    rw [addGlblLiq_eq _ _ _ _ _ _ _ _ _ _ _ _ (hH.liq hc), okb]
    obtain ⟨l, el, h⟩ := comps_ok h
    have : l = f := by
      have : (.ok l : R F64) = .ok f := el.symm.trans hd
      injection this
    rw [this] at h
    rw [bind_eq_ok] at h
    obtain ⟨_, q4, h4, h⟩ := h
    obtain ⟨bb, eb, h⟩ := comps_ok h
    have : bb = b' := by
      have : (.ok bb : R F64) = .ok b' := eb.symm.trans hb
      injection this
    rw [this] at h
    obtain ⟨rfl, r2⟩ := pure_eq_ok.1 h
    refine ⟨_, rfl, ?_, m3⟩
    rw [r2, modify_eq_ok.1 h4, hq3]
    rfl
  · have hc' : ¬ (q3.tick ≥ (lo : Int) ∧ q3.tick < (up : Int)) := by rw [htick]; exact_mod_cast hc
    rw [if_neg hc, okb]
    rw [if_neg hc'] at h
    obtain ⟨bb, eb, h⟩ := comps_ok h
    have : bb = b' := by
      have : (.ok bb : R F64) = .ok b' := eb.symm.trans hb
      injection this
    rw [this] at h
    obtain ⟨rfl, r2⟩ := pure_eq_ok.1 h
    refine ⟨_, rfl, ?_, m3⟩
    rw [r2, hq3]
    rfl

theorem Holds.pos {p : Flt.Pool} (hP : ∀ k v, mapGet k p.positions = some v → NN v.liq) (hT : ∀ j, NN (p.tickOr j).liqGross)
    (hL : NN p.gs.liq) {f : F64} (hN : NN f) (lo up : Nat) : Holds p lo up f :=
  ⟨NN.add (hT lo) hN, NN.add (updated_gross hT hN up) hN, fun _ => NN.add hL hN, fun _ => hP⟩

/-! ### Deposits -/

theorem min_eq {a b : F64} (ha : a ≠ nan) : Proto.min a b = F64.min a b := by
  cases a <;> cases b <;> first | rfl | exact absurd rfl ha

theorem max_eq {a b : F64} (ha : a ≠ nan) : Proto.max a b = F64.max a b := by
  cases a <;> cases b <;> first | rfl | exact absurd rfl ha

theorem min_ne {a b : F64} (ha : a ≠ nan) : F64.min a b ≠ nan := by
  rw [← min_eq ha]
  unfold Proto.min
  split
  · rename_i h
    rintro rfl
    cases a <;> cases h
  · exact ha

theorem lt_false {a b : F64} (h : le a b = true) : lt b a = false := by
  cases a with
  | nan => cases b <;> cases h
  | inf s =>
    cases b with
    | nan => cases s <;> cases h
    | inf t => cases s <;> cases t <;> first | rfl | cases h
    | fin t n => cases s <;> first | rfl | cases h
  | fin s n =>
    cases b with
    | nan => cases h
    | inf t => cases t <;> first | rfl | cases h
    | fin t k =>
      simp only [le, lt, F64.eq, Bool.or_eq_true, decide_eq_true_eq, decide_eq_false_iff_not] at h ⊢
      omega

theorem le_ne {a b : F64} (h : le a b = true) : a ≠ nan ∧ b ≠ nan := by
  constructor <;> rintro rfl
  · cases b <;> cases h
  · cases a with
    | nan => cases h
    | inf s => cases s <;> cases h
    | fin s n => cases h

/-- A difference is not negative. -/
theorem NN.sub {a b : F64} (h : lt b a = false) : NN (F64.sub b a) := by
  unfold F64.sub
  cases a with
  | nan => cases b <;> first | exact NN.iff.2 (.inl rfl) | (rename_i s; cases s <;> exact NN.iff.2 (.inl rfl))
  | inf s =>
    cases b with
    | nan => exact NN.iff.2 (.inl rfl)
    | inf t => cases s <;> cases t <;> first | exact NN.iff.2 (.inl rfl) | exact NN.iff.2 (.inr (.inl rfl)) | cases h
    | fin t n => cases s <;> first | exact NN.iff.2 (.inr (.inl rfl)) | cases h
  | fin s n =>
    cases b with
    | nan => exact NN.iff.2 (.inl rfl)
    | inf t => cases t <;> first | exact NN.iff.2 (.inr (.inl rfl)) | cases h
    | fin t k =>
      simp only [lt, decide_eq_false_iff_not, not_lt] at h
      cases s <;> cases t <;> simp only [F64.neg, F64.add, signed, Bool.not_false, Bool.not_true, if_true, if_false, reduceCtorEq,
        Bool.false_eq_true] at h ⊢
      · split
        · exact NN.pos (.inl rfl)
        · split
          · omega
          · exact NN.iff.2 (.inr (.inr (.inl ⟨0, rfl⟩)))
      · exact NN.pos (.inr (by omega))
      · exact NN.pos (.inl rfl)
      · split
        · omega
        · split
          · exact NN.pos (.inl rfl)
          · exact NN.iff.2 (.inr (.inr (.inl ⟨0, rfl⟩)))

theorem xOnly_ok {x a b v : F64} (h : Proto.liqXOnly x a b = .ok v) : v = Flt.liqXOnly x a b ∧ F64.eq (sub b a) zero = false :=
  fdiv_ok h

theorem yOnly_ok {y a b v : F64} (h : Proto.liqYOnly y a b = .ok v) : v = Flt.liqYOnly y a b ∧ F64.eq (sub b a) zero = false :=
  fdiv_ok h

theorem liq_ok {x y rp a b v : F64} (h : Proto.liqFromXYRpRng x y rp a b = .ok v) (hv : v ≠ nan) :
    Flt.liqFromXYRpRng x y rp a b = v ∧ v.Rep := by
  unfold Proto.liqFromXYRpRng at h
  unfold Flt.liqFromXYRpRng
  split at h
  · rename_i h1
    rw [if_pos h1]
    rw [(xOnly_ok h).1]
    exact ⟨rfl, div_rep _ _⟩
  · rename_i h1
    rw [if_neg h1]
    split at h
    · rename_i h2
      rw [if_pos h2]
      rw [bind_ok] at h
      obtain ⟨lx, e1, h⟩ := h
      rw [bind_ok] at h
      obtain ⟨ly, e2, h⟩ := h
      rw [okp, ok_inj] at h
      have e1 := (xOnly_ok e1).1
      have e2 := (yOnly_ok e2).1
      have hn : lx ≠ nan := by
        intro he
        rw [he] at h
        apply hv
        rw [← h]
        unfold Proto.min
        cases ly with
        | nan => rfl
        | inf s => cases s <;> rfl
        | fin s n => rfl
      rw [← e1, ← e2, ← min_eq hn, h]
      refine ⟨rfl, ?_⟩
      rw [← h]
      unfold Proto.min
      split
      · rw [e2]; exact div_rep _ _
      · rw [e1]; exact div_rep _ _
    · rename_i h2
      rw [if_neg h2]
      rw [(yOnly_ok h).1]
      exact ⟨rfl, div_rep _ _⟩

theorem liq_NN {x y rp a b v : F64} (h : Proto.liqFromXYRpRng x y rp a b = .ok v) (hx : NN x) (hy : NN y) (hr : NN rp) (ha : NN a)
    (hb : NN b) (hab : le a b = true) (hrn : rp ≠ nan) : NN v := by
  unfold Proto.liqFromXYRpRng at h
  have hs : NN (sub b a) := NN.sub (lt_false hab)
  split at h
  · obtain ⟨e, h0⟩ := xOnly_ok h
    rw [e]
    exact NN.div (NN.mul (NN.mul hx ha) hb) hs h0
  · rename_i h1
    split at h
    · rename_i h2
      rw [bind_ok] at h
      obtain ⟨lx, e1, h⟩ := h
      rw [bind_ok] at h
      obtain ⟨ly, e2, h⟩ := h
      rw [okp, ok_inj] at h
      obtain ⟨e1, n1⟩ := xOnly_ok e1
      obtain ⟨e2, n2⟩ := yOnly_ok e2
      have l1 : lt b rp = false := lt_false (Flt.le_of_lt' h2)
      have l2 : lt rp a = false := by
        rw [Bool.eq_false_iff]
        intro h3
        exact h1 (Flt.le_of_lt' h3)
      have p1 : NN lx := by rw [e1]; exact NN.div (NN.mul (NN.mul hx hr) hb) (NN.sub l1) n1
      have p2 : NN ly := by rw [e2]; exact NN.div hy (NN.sub l2) n2
      rw [← h]
      unfold Proto.min
      split
      · exact p2
      · exact p1
    · obtain ⟨e, h0⟩ := yOnly_ok h
      rw [e]
      exact NN.div hy hs h0

theorem floor_NN {a : F64} (h : NN a) : NN a.floor := by
  rcases NN.iff.1 h with rfl | rfl | ⟨n, rfl⟩ | rfl
  · exact h
  · exact h
  · unfold F64.floor
    simp only
    split
    · exact h
    · exact NN.iff.2 (.inr (.inr (.inl ⟨_, rfl⟩)))
  · unfold F64.floor
    simp only [Nat.zero_mod, if_true]
    exact h

/-- Zero, of either sign, or no number. -/
def Nil (a : F64) : Prop := a = nan ∨ ∃ s, a = fin s 0

theorem Nil.mul {b : F64} : Nil (F64.mul zero b) := by
  cases b with
  | nan => exact .inl rfl
  | inf s => exact .inl rfl
  | fin s n =>
    unfold F64.mul zero
    simp only [Nat.zero_mul]
    rw [ofRatio_zero]
    exact .inr ⟨_, rfl⟩

theorem Nil.div {a b : F64} (h : Nil a) : Nil (F64.div a b) := by
  rcases h with rfl | ⟨s, rfl⟩
  · exact .inl rfl
  · cases b with
    | nan => exact .inl rfl
    | inf t =>
      unfold F64.div
      first | exact .inr ⟨_, rfl⟩ | (simp only; exact .inr ⟨_, rfl⟩)
    | fin t n =>
      unfold F64.div
      simp only
      split
      · first | exact .inl rfl | (simp only [if_true]; exact .inl rfl)
      · rw [Nat.zero_mul, ofRatio_zero]
        exact .inr ⟨_, rfl⟩

theorem Nil.eq {a b : F64} (h : Nil a) (hb : le a b = true) : F64.eq a zero = true := by
  rcases h with rfl | ⟨s, rfl⟩
  · exact absurd rfl (le_ne hb).1
  · unfold F64.eq zero signed
    cases s <;> simp

end

end Hmm.Proto
