import Verif.Spec.Proto
import Verif.Props.FloatTicks
import Verif.Proofs.FloatActive

/-
The prototype and the Rust twin in lockstep.
-/

namespace Hmm.Proto

open F64

section
attribute [local irreducible] unit limit

/-! ### The monad -/

theorem bind_eq_ok {α β : Type} {f : Py α} {g : α → Py β} {p q : Pool} {b : β} :
    (f >>= g) p = .ok b q ↔ ∃ a p', f p = .ok a p' ∧ g a p' = .ok b q := by
  show EStateM.bind f g p = _ ↔ _
  unfold EStateM.bind
  constructor
  · intro h
    split at h
    · rename_i a s he; exact ⟨a, s, he, h⟩
    · cases h
  · rintro ⟨a, p', h1, h2⟩; rw [h1]; exact h2

theorem comp_eq_ok {α : Type} {r : R α} {p q : Pool} {a : α} : comp r p = .ok a q ↔ r = .ok a ∧ q = p := by
  cases r with
  | ok v =>
    show EStateM.Result.ok v p = _ ↔ _
    constructor
    · intro h; cases h; exact ⟨rfl, rfl⟩
    · rintro ⟨h1, rfl⟩; cases h1; rfl
  | error e =>
    show EStateM.Result.error e p = _ ↔ _
    constructor
    · intro h; cases h
    · rintro ⟨h1, _⟩; cases h1

theorem check_eq_ok {b : Bool} {p q : Pool} {u : Unit} : check b p = .ok u q ↔ b = true ∧ q = p := by
  unfold check
  rw [comp_eq_ok]
  cases b <;> simp [rassert]

theorem get_eq_ok {p q a : Pool} : (get : Py Pool) p = .ok a q ↔ a = p ∧ q = p := by
  show EStateM.Result.ok p p = _ ↔ _
  constructor
  · intro h; cases h; exact ⟨rfl, rfl⟩
  · rintro ⟨rfl, rfl⟩; rfl

theorem modify_eq_ok {f : Pool → Pool} {p q : Pool} {u : PUnit} : (modify f : Py PUnit) p = .ok u q ↔ q = f p := by
  show EStateM.Result.ok PUnit.unit (f p) = _ ↔ _
  constructor
  · intro h; cases h; rfl
  · rintro rfl; rfl

theorem pure_eq_ok {α : Type} {a b : α} {p q : Pool} : (pure a : Py α) p = .ok b q ↔ b = a ∧ q = p := by
  show EStateM.Result.ok a p = _ ↔ _
  constructor
  · intro h; cases h; exact ⟨rfl, rfl⟩
  · rintro ⟨rfl, rfl⟩; rfl

theorem okb {α β : Type} (a : α) (f : α → R β) : ((.ok a : R α) >>= f) = f a := rfl

theorem okp {α : Type} (a : α) : (pure a : R α) = .ok a := rfl

/-! ### Numbers -/

theorem ofInt_nat {t : Nat} (ht : t < 2 ^ 32) : ofInt (t : Int) = .ok (ofNat t) := by
  have h : (decide ((t : Int) < 0)) = false := by simp
  have h3 : t ≤ 2 ^ 53 := by omega
  have h2 : ofRatio false (t * unit) 1 = fin false (t * unit) := ofRatio_whole h3
  unfold ofInt ofNat lit
  rw [h, Int.natAbs_natCast, h2]
  rfl

theorem fdiv_ok {a b r : F64} (h : fdiv a b = .ok r) : r = F64.div a b ∧ F64.eq b zero = false := by
  unfold fdiv at h
  split at h
  · cases h
  · rename_i hb
    cases h
    exact ⟨rfl, by simpa using hb⟩

theorem idiv_nat {t s : Nat} (ht : t < 2 ^ 32) (hs : 0 < s) (hs' : s < 2 ^ 32) :
    idiv (t : Int) (s : Int) = .ok (F64.div (ofNat t) (ofNat s)) := by
  unfold idiv
  have h3 : s ≤ 2 ^ 53 := by omega
  rw [ofInt_nat ht, ofInt_nat hs', okb, okb]
  unfold fdiv
  have : F64.eq (ofNat s) zero = false := by
    rw [Bool.eq_false_iff]
    intro h
    have := (eq_is (Flt.ofNat_is h3) zero_is).1 h
    have : (s : ℚ) ≠ 0 := by exact_mod_cast hs.ne'
    contradiction
  rw [this, if_neg (by simp)]

theorem floor_ok {a : F64} {q : ℚ} (h : a.Is q) : Proto.floor a = .ok ⌊q⌋ := by
  obtain ⟨s, n, hf, hz⟩ := isInt_iff.1 (floor_is h)
  unfold Proto.floor
  rw [hf]
  show Except.ok _ = _
  have hn := isInt_natAbs hz
  congr 1
  have hu : (unit : ℤ) ≠ 0 := by exact_mod_cast unit_pos.ne'
  have : signed s (n / unit) * unit = ⌊q⌋ * unit := by
    rw [← signed_whole, ← hz, hn, Nat.mul_div_cancel _ unit_pos]
  exact mul_right_cancel₀ hu this

theorem floor_finite' {a : F64} {t : Int} (h : Proto.floor a = .ok t) : a.Finite := by
  unfold Proto.floor at h
  split at h
  · rename_i s n he
    exact floor_finite (by rw [he]; exact finite_fin s n)
  · cases h

theorem snapped {p : Pool} {s t : Nat} (hp : p.spacing = s) (ht : t < 2 ^ 32) (hs : 0 < s) (hs' : s < 2 ^ 32) :
    p.tickToPossibleTick (t : Int) false = .ok (Flt.tkToPossibleTk t s false : Int) := by
  unfold Pool.tickToPossibleTick
  rw [hp, idiv_nat ht hs hs']
  obtain ⟨v, hv, h1, h2, _, _⟩ := Flt.quot_is ht hs hs'
  have hfl : ⌊v⌋ = ((t / s : ℕ) : ℤ) := by
    rw [Int.floor_eq_iff, Int.cast_natCast]; exact ⟨h1, h2⟩
  obtain ⟨⟨k, hk⟩, hk1, hk2⟩ := Flt.snap_down ht hs hs'
  rw [okb]
  simp only [Bool.false_eq_true, if_false]
  rw [floor_ok hv, hfl, okb, okp, ok_inj]
  rw [hk] at hk1 hk2 ⊢
  have : t / s = k := by
    apply Nat.div_eq_of_lt_le
    · rw [mul_comm]; exact hk1
    · rw [add_mul, one_mul, mul_comm k]; exact hk2
  rw [this]; push_cast; ring

theorem pow_ok {m : LibM} {a b r : F64} (h : Proto.pow m a b = .ok r) : r = m.powf a b := by
  unfold Proto.pow at h
  split at h
  · cases h
  split at h
  · cases h
  simp only at h
  split at h
  · cases h
  · cases h; rfl

theorem price_ok {c : F64} {m m' : LibM} (ha : Alike c m m') {t : Nat} (ht : t < 2 ^ 32) {r : F64}
    (h : Proto.tickToRp m' (t : Int) = .ok r) : r = Flt.tickToRp m t := by
  unfold Proto.tickToRp at h
  have h2 := idiv_nat (s := 2) ht (by norm_num) (by norm_num)
  rw [Nat.cast_ofNat] at h2
  rw [h2, bind_ok] at h
  obtain ⟨_, e, h⟩ := h
  rw [ha.price t ht]
  rw [ok_inj] at e
  rw [pow_ok h, ← e]
  rfl

theorem log_ok {m : LibM} {x r : F64} (h : Proto.log m x = .ok r) : r = m.ln x := by
  unfold Proto.log at h
  split at h
  · cases h
  · cases h; rfl

theorem tick_ok {c : F64} {m m' : LibM} (ha : Alike c m m') (ho : Ordinary m') {rp : F64} (hrp : lt rp one = false) {t : Int}
    (h : Proto.rpToTick m' rp false = .ok t) :
    le one rp = true ∧ t = (Flt.rpToTick m rp false : Int) ∧ Flt.rpToTick m rp false < 2 ^ 32 := by
  unfold Proto.rpToTick at h
  have h2 := idiv_nat (t := 1) (s := 2) (by norm_num) (by norm_num) (by norm_num)
  rw [Nat.cast_one, Nat.cast_ofNat] at h2
  rw [h2, bind_ok] at h
  obtain ⟨_, e, h⟩ := h
  rw [ok_inj] at e
  rw [← e] at h
  simp only [ho.root] at h
  rw [bind_ok] at h
  obtain ⟨a, ea, h⟩ := h
  rw [bind_ok] at h
  obtain ⟨b, eb, h⟩ := h
  rw [bind_ok] at h
  obtain ⟨l, el, h⟩ := h
  simp only [Bool.false_eq_true, if_false] at h
  have ea := log_ok ea
  have eb := log_ok eb
  obtain ⟨el, _⟩ := fdiv_ok el
  rw [ea, eb] at el
  obtain ⟨q, hq⟩ := floor_finite' h
  have hn : rp ≠ nan := by
    rintro rfl
    rw [ho.nan] at el
    have : l = nan := by rw [el]; rfl
    rw [this] at hq
    obtain ⟨_, _, h, _⟩ := hq
    cases h
  have hle : le one rp = true := Flt.le_of_not_lt' hrp (by unfold one; intro h; cases h) hn
  rw [el] at hq
  obtain ⟨q0, q1⟩ := ho.ticks rp q hle hq
  rw [el, floor_ok hq] at h
  cases h
  have hF := floor_is hq
  have hz : ⌊q⌋ = ((⌊q⌋.toNat : ℕ) : ℤ) := (Int.toNat_of_nonneg (Int.floor_nonneg.2 q0)).symm
  rw [hz] at hF
  have hlt : ⌊q⌋.toNat < 2 ^ 32 := by
    have : (⌊q⌋ : ℚ) < 2 ^ 32 := lt_of_le_of_lt (Int.floor_le q) q1
    have : ⌊q⌋ < 2 ^ 32 := by exact_mod_cast this
    omega
  have key : Flt.rpToTick m rp false = ⌊q⌋.toNat := by
    unfold Flt.rpToTick
    simp only [Bool.false_eq_true, if_false, ha.ln]
    rw [Flt.toU32_int hF, min_eq_left (by omega)]
  refine ⟨hle, ?_, ?_⟩
  · rw [key]; exact hz
  · rw [key]; exact hlt

/-! ### The same pool -/

/-- The pool of the prototype that is the same, with its positions. -/
def of (p : Flt.Pool) (pos : List (Key × PositionState)) : Pool where
  spacing := p.spacing
  liq := p.gs.liq
  rp := p.gs.rp
  tick := p.gs.tick
  fees := p.gs.fees
  ticks := p.ticks.map fun e => ((e.1 : Int), tickOf e.2)
  positions := pos
  x := p.x
  y := p.y
  xAdj := p.xAdj
  yAdj := p.yAdj
  xFee := p.xFee
  yFee := p.yFee
  c := p.c
  feeRate := p.feeRate

theorem Twin.eq {p : Flt.Pool} {q : Pool} (h : Twin p q) : q = of p q.positions := by
  obtain ⟨h1, h2, h3, h4, h5, h6, _, h8, h9, h10, h11, h12, h13, h14, h15⟩ := h
  cases q
  simp only at *
  subst h1 h2 h3 h4 h5 h6 h8 h9 h10 h11 h12 h13 h14 h15
  rfl

theorem get_of {t : Nat} (ts : List (Nat × Flt.TickState)) :
    mapGet (t : Int) (ts.map fun e => ((e.1 : Int), tickOf e.2)) = (mapGet t ts).map tickOf := by
  induction ts with
  | nil => rfl
  | cons e ts ih =>
    obtain ⟨k, v⟩ := e
    simp only [List.map_cons, mapGet]
    by_cases h : k = t
    · rw [if_pos h, if_pos (by exact_mod_cast h)]; rfl
    · rw [if_neg h, if_neg (by exact_mod_cast h)]; exact ih

theorem set_of {t : Nat} (v : Flt.TickState) (ts : List (Nat × Flt.TickState)) :
    mapSet (t : Int) (tickOf v) (ts.map fun e => ((e.1 : Int), tickOf e.2)) =
      (mapSet t v ts).map fun e => ((e.1 : Int), tickOf e.2) := by
  induction ts with
  | nil => rfl
  | cons e ts ih =>
    obtain ⟨k, v'⟩ := e
    simp only [List.map_cons, mapSet]
    by_cases h : k = t
    · rw [if_pos h, if_pos (by exact_mod_cast h)]; rfl
    · rw [if_neg h, if_neg (by exact_mod_cast h)]
      simp only [List.map_cons, ih]

theorem of_eq {p : Flt.Pool} {q : Pool} {pos} (h : q.ticks = p.ticks.map fun e => ((e.1 : Int), tickOf e.2))
    (h' : { q with ticks := [] } = { of p pos with ticks := [] }) : q = of p pos := by
  cases q
  simp only [of, Pool.mk.injEq] at *
  simp [*]

theorem keys_of (p : Flt.Pool) (pos) (b : Bool) : (of p pos).keys b = (p.tickKeys b).map fun k : Nat => (k : Int) := by
  have : ((of p pos).ticks.map (·.1)) = (p.ticks.map (·.1)).map fun k : Nat => (k : Int) := by
    unfold of
    simp only [List.map_map]
    rfl
  unfold Pool.keys Flt.Pool.tickKeys
  simp only [this]
  cases b
  · simp
  · simp [List.map_reverse]

theorem find_of {f : Int → Bool} {g : Nat → Bool} (h : ∀ k : Nat, f k = g k) (l : List Nat) :
    (l.map fun k : Nat => (k : Int)).find? f = (l.find? g).map fun k : Nat => (k : Int) := by
  induction l with
  | nil => rfl
  | cons k l ih =>
    simp only [List.map_cons, List.find?_cons, h]
    cases g k
    · exact ih
    · rfl

theorem snap_of {p : Flt.Pool} (hf : Fits p) (pos) {t : Nat} (ht : t < 2 ^ 32) :
    (of p pos).tickToPossibleTick (t : Int) false = .ok (p.tickToPossibleTick t false : Int) :=
  snapped rfl ht hf.spacing.1 hf.spacing.2

theorem left_of {p : Flt.Pool} (hf : Fits p) (pos) (s : Nat) :
    (of p pos).leftLimit (s : Int) = .ok ((p.leftLimit s).map fun k : Nat => (k : Int)) := by
  unfold Pool.leftLimit Flt.Pool.leftLimit
  have hm : (Min.min (s : Int) (of p pos).tick) = ((Nat.min s p.gs.tick : ℕ) : Int) := by
    show Min.min (s : Int) (p.gs.tick : Int) = ((Min.min s p.gs.tick : ℕ) : Int)
    push_cast; rfl
  rw [hm, snap_of hf pos (lt_of_le_of_lt (Nat.min_le_right _ _) hf.tick), okb, okp, ok_inj, keys_of]
  exact find_of (fun k => by simp) _

theorem right_of {p : Flt.Pool} (hf : Fits p) (pos) {s g : Nat} (hs : s < 2 ^ 32) {r : Option Int}
    (h : (of p pos).rightLimit (s : Int) (g : Int) = .ok r) :
    ∃ r', p.rightLimit s g = .ok r' ∧ r = r'.map fun k : Nat => (k : Int) := by
  unfold Pool.rightLimit at h
  rw [snap_of hf pos hs, okb] at h
  unfold Flt.Pool.rightLimit
  simp only at h ⊢
  generalize p.tickToPossibleTick s false = st at h ⊢
  by_cases h1 : st = g
  · rw [if_pos (by exact_mod_cast h1), okp, ok_inj] at h
    rw [if_pos h1]
    refine ⟨_, rfl, ?_⟩
    rw [← h, keys_of]
    exact find_of (fun k => by simp) _
  · rw [if_neg (by exact_mod_cast h1)] at h
    rw [if_neg h1]
    by_cases h2 : st > g
    · rw [if_pos (by exact_mod_cast h2), okp, ok_inj] at h
      rw [if_pos h2]
      refine ⟨_, rfl, ?_⟩
      rw [← h, keys_of]
      exact find_of (fun k => by simp) _
    · rw [if_neg (by exact_mod_cast h2)] at h
      cases h

/-! ### Crossing -/

/-- What the Rust code returns: something that satisfies `P`, or, unless `G`, a panic. -/
def Follows {α : Type} (G : Prop) (P : α → Prop) (r : R α) : Prop := (∃ v, r = .ok v ∧ P v) ∨ (¬ G ∧ r = .error .panic)

theorem Follows.bind {α β : Type} {G : Prop} {P : α → Prop} {Q : β → Prop} {r : R α} {f : α → R β} (h : Follows G P r)
    (hf : ∀ v, r = .ok v → P v → Follows G Q (f v)) : Follows G Q (r >>= f) := by
  rcases h with ⟨v, hv, hP⟩ | ⟨hg, hp⟩
  · rw [hv, okb]; exact hf v hv hP
  · rw [hp]; exact .inr ⟨hg, rfl⟩

theorem Follows.ok {α : Type} {G : Prop} {P : α → Prop} {v : α} (h : P v) : Follows G P (.ok v) := .inl ⟨v, rfl, h⟩

/-- The pool after a crossing has the same ticks, and still fits. -/
theorem Fits.cross {p p' : Flt.Pool} (hf : Fits p) {t : Nat} (ht : t < 2 ^ 32) {b : Bool} (h : p.crossTick t b = .ok p') :
    Fits p' ∧ p'.feeRate = p.feeRate ∧ p'.c = p.c ∧ (mapGet 0 p.ticks = none → mapGet 0 p'.ticks = none) ∧
      p'.gs.rp = p.gs.rp ∧ p'.gs.tick ≤ t ∧ p'.positions = p.positions := by
  have hk := Flt.Pool.crossTick_keys h
  have hnew : p'.gs.tick ≤ t := by
    cases b with
    | true => rw [(Flt.Pool.crossTick_right h).2.2]
    | false => exact le_of_lt (Flt.Pool.crossTick_left hf.spacing.2 h).2.2
  obtain ⟨ts, new, hg, _, _, _, _, rfl⟩ := Flt.Pool.crossTick_ok h
  refine ⟨⟨hf.spacing, lt_of_le_of_lt hnew ht, ?_, hf.rp⟩, rfl, rfl, ?_, rfl, hnew, rfl⟩
  · intro e he
    have : e.1 ∈ p.ticks.map (·.1) := by rw [← hk]; exact List.mem_map_of_mem he
    obtain ⟨e', he', e2⟩ := List.mem_map.1 this
    rw [← e2]; exact hf.keys e' he'
  · intro h0
    by_cases hz : (0 : ℕ) = t
    · rw [← hz, h0] at hg; cases hg
    · show mapGet 0 (mapSet t _ p.ticks) = none
      rw [mapGet_set_other (Ne.symm (Ne.symm hz))]; exact h0

theorem addLiq_eq (g : Flt.GlobalState) {n : F64} (h : lt (F64.add g.liq n) zero = false) :
    g.addLiq n = .ok { g with liq := F64.add g.liq n } := by
  unfold Flt.GlobalState.addLiq
  rw [if_neg (by rw [h]; exact Bool.false_ne_true)]

theorem addGlblLiq_eq (s : Nat) (g : Flt.GlobalState) (ts ps x y xa ya xf yf c r) {n : F64}
    (h : lt (F64.add g.liq n) zero = false) :
    (Flt.Pool.mk s g ts ps x y xa ya xf yf c r).addGlblLiq n =
      .ok (Flt.Pool.mk s { g with liq := F64.add g.liq n } ts ps x y xa ya xf yf c r) := by
  unfold Flt.Pool.addGlblLiq
  simp only
  rw [addLiq_eq g h]
  rfl

/-- The fee records of a crossed tick are turned around. -/
def turned (g : Flt.Fees) (ts : Flt.TickState) : Flt.TickState :=
  ⟨ts.liqNet, ts.liqGross, ⟨sub g.fx ts.fees.fx, sub g.fy ts.fees.fy, sub g.hx ts.fees.hx, sub g.hy ts.fees.hy⟩⟩

theorem crossRight_eq {p : Flt.Pool} {t : Nat} {ts : Flt.TickState} (hg : mapGet t p.ticks = some ts)
    (h : lt (F64.add p.gs.liq ts.liqNet) zero = false) :
    p.crossTick t true = .ok { p with gs := { p.gs with liq := F64.add p.gs.liq ts.liqNet, tick := t },
                                      ticks := mapSet t (turned p.gs.fees ts) p.ticks } := by
  unfold Flt.Pool.crossTick Flt.Pool.setTick
  rw [hg]
  simp only [Bool.not_true, Bool.false_and, Bool.false_eq_true, if_false, if_true]
  rw [okb, addGlblLiq_eq _ _ _ _ _ _ _ _ _ _ _ _ (by exact h)]
  rfl

theorem crossLeft_eq {p : Flt.Pool} {t : Nat} {ts : Flt.TickState} (hg : mapGet t p.ticks = some ts) (ht : p.gs.tick = t)
    (h0 : t ≠ 0) {n : Nat} (hn : Flt.tkToPossibleTk (t - 1) p.spacing false = n)
    (h : lt (F64.add p.gs.liq ts.liqNet.neg) zero = false) :
    p.crossTick t false = .ok { p with gs := { p.gs with liq := F64.add p.gs.liq ts.liqNet.neg, tick := n },
                                       ticks := mapSet t (turned p.gs.fees ts) p.ticks } := by
  have hcs : checkedSub t 1 = .ok (t - 1) := by unfold checkedSub; rw [if_pos (by omega)]
  unfold Flt.Pool.crossTick Flt.Pool.setTick Flt.Pool.tickToPossibleTick
  rw [hg]
  simp only [ht, hcs, ne_eq, not_true_eq_false, decide_false, Bool.and_false, Bool.false_eq_true, if_false]
  rw [okb, okp, okb, hn, addGlblLiq_eq _ _ _ _ _ _ _ _ _ _ _ _ (by exact h)]
  rfl

theorem cross_of {p : Flt.Pool} (hf : Fits p) {pos} {t : Nat} (ht : t < 2 ^ 32) {b : Bool} {G : Prop}
    (hG : G → mapGet 0 p.ticks = none) {u : Unit} {q : Pool} (h : Pool.crossTick (t : Int) b (of p pos) = .ok u q) :
    Follows G (fun p' => q = of p' pos) (p.crossTick t b) := by
  unfold Pool.crossTick at h
  rw [bind_eq_ok] at h
  obtain ⟨_, _, h1, h⟩ := h
  obtain ⟨rfl, rfl⟩ := get_eq_ok.1 h1
  rw [bind_eq_ok] at h
  obtain ⟨_, _, hc, h⟩ := h
  obtain ⟨h2, rfl⟩ := check_eq_ok.1 hc
  have hticks : (of p pos).ticks = p.ticks.map fun e => ((e.1 : Int), tickOf e.2) := rfl
  rw [hticks, get_of] at h
  cases hg : mapGet t p.ticks with
  | none => rw [hg] at h; simp only [Option.map_none] at h; rw [comp_eq_ok] at h; cases h.1
  | some ts =>
    rw [hg] at h
    simp only [Option.map_some] at h
    rw [bind_eq_ok] at h
    obtain ⟨_, _, hc2, h⟩ := h
    obtain ⟨h3, rfl⟩ := check_eq_ok.1 hc2
    rw [bind_eq_ok] at h
    obtain ⟨_, q1, hm, h⟩ := h
    have hm := modify_eq_ok.1 hm
    cases b with
    | true =>
      simp only [if_true] at h h3 hm
      have hq := modify_eq_ok.1 h
      have h3' : lt (F64.add p.gs.liq ts.liqNet) zero = false := by simpa [of, tickOf] using h3
      rw [crossRight_eq hg h3']
      refine .ok ?_
      rw [hq, hm]
      exact of_eq (set_of (turned p.gs.fees ts) p.ticks) rfl
    | false =>
      simp only [Bool.false_eq_true, if_false] at h h3 hm
      by_cases h0 : t = 0
      · refine .inr ⟨fun g => ?_, ?_⟩
        · rw [h0, hG g] at hg; cases hg
        · have ht' : (of p pos).tick = (p.gs.tick : Int) := rfl
          rw [ht', Bool.false_or, decide_eq_true_eq] at h2
          have h2' : p.gs.tick = t := by exact_mod_cast h2
          unfold Flt.Pool.crossTick
          rw [hg]
          simp only [h2', ne_eq, not_true_eq_false, decide_false, Bool.and_false, Bool.false_eq_true, if_false]
          rw [h0]; rfl
      · have ht' : (of p pos).tick = (p.gs.tick : Int) := rfl
        rw [ht', Bool.false_or, decide_eq_true_eq] at h2
        have h2' : p.gs.tick = t := by exact_mod_cast h2
        have h3' : lt (F64.add p.gs.liq ts.liqNet.neg) zero = false := by simpa [of, tickOf] using h3
        have hsn' := snapped (p := q1) (s := p.spacing) (t := t - 1) (by rw [hm]; rfl) (by omega) hf.spacing.1 hf.spacing.2
        rw [crossLeft_eq hg h2' h0 rfl h3']
        generalize Flt.tkToPossibleTk (t - 1) p.spacing false = nt at hsn' ⊢
        refine .ok ?_
        rw [bind_eq_ok] at h
        obtain ⟨_, _, hget, h⟩ := h
        obtain ⟨e2, e3⟩ := get_eq_ok.1 hget
        rw [e2, e3] at h
        rw [bind_eq_ok] at h
        obtain ⟨t', _, hcmp, h⟩ := h
        obtain ⟨hsn, e4⟩ := comp_eq_ok.1 hcmp
        rw [e4] at h
        have hq := modify_eq_ok.1 h
        have e1 : ((t : Int) - 1) = ((t - 1 : ℕ) : Int) := by omega
        rw [e1, hsn', ok_inj] at hsn
        rw [hq, hm, ← hsn]
        exact of_eq (set_of (turned p.gs.fees ts) p.ticks) rfl

end

end Hmm.Proto
