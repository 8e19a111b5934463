import Verif.Proofs.ProtoDeposit
import Verif.Props.Proto
import Verif.Tests.ProtoSample

/-
C130: the prototype and the Rust twin take the same deposits, as long as the price is that of its tick.  C131: the
prototype's deposits and withdrawals follow the tick, not the price.
-/

namespace Hmm.Proto

open F64

section
attribute [local irreducible] F64.unit limit

/-- The tick of a price, in both. -/
theorem place_ok {m m' : LibM} {p : Flt.Pool} {qs} (hf : Fits p) (ho : Ordinary m') (ha : Alike p.c m m') {rp : F64}
    (hrp : lt rp one = false) {t : Int} (h : (of p qs).rpToPossibleTick m' rp false = .ok t) :
    t = (p.rpToPossibleTick m rp false : Int) ∧ p.rpToPossibleTick m rp false < 2 ^ 32 := by
  unfold Pool.rpToPossibleTick at h
  rw [bind_ok] at h
  obtain ⟨k, hk, h⟩ := h
  obtain ⟨_, rfl, hlt⟩ := tick_ok ha ho hrp hk
  rw [snap_of hf qs hlt, ok_inj] at h
  refine ⟨h.symm, ?_⟩
  obtain ⟨_, h1, _⟩ := Flt.snap_down hlt hf.spacing.1 hf.spacing.2
  exact lt_of_le_of_lt h1 hlt

theorem updated_kept {p p' : Flt.Pool} {t : Nat} {d : F64} {b : Bool} (hk : ∀ e ∈ p.ticks, e.1 < 2 ^ 32)
    (hg : ∀ t ts, mapGet t p.ticks = some ts → lt ts.liqGross zero = false) (ht : t < 2 ^ 32) (h : p.updateTick t d b = .ok p') :
    (∀ e ∈ p'.ticks, e.1 < 2 ^ 32) ∧ ∀ t ts, mapGet t p'.ticks = some ts → lt ts.liqGross zero = false := by
  obtain ⟨hn, ticks, rfl, ho, hs, _⟩ := Flt.Pool.updateTick_ok h
  constructor
  · intro e he
    by_cases h1 : e.1 = t
    · rw [h1]; exact ht
    · have : (mapGet e.1 ticks).isSome = true := mapGet_isSome.2 (List.mem_map_of_mem he)
      rw [ho _ h1, mapGet_isSome] at this
      obtain ⟨e', he', e2⟩ := List.mem_map.1 this
      rw [← e2]; exact hk e' he'
  · intro j ts hj
    by_cases h1 : j = t
    · subst h1
      have hj : mapGet j ticks = some ts := hj
      rw [hs] at hj
      split at hj
      · cases hj
      · cases hj; exact hn
    · have hj : mapGet j ticks = some ts := hj
      rw [ho j h1] at hj
      exact hg j ts hj

theorem kept_sane {p p' : Flt.Pool} (hf : Fits p) (hs : Sane p) {u lo up : Nat} {d : F64} {f : Flt.Fees} (hlo : lo < 2 ^ 32)
    (hup : up < 2 ^ 32) (h : p.setPosition u lo up d = .ok (p', f)) : Fits p' ∧ Sane p' := by
  obtain ⟨nf, old, base, pos, q1, q2, _, _, _, _, h5, _, h7, h8, h9, _⟩ := Flt.Pool.setPosition_ok h
  obtain ⟨k1, g1⟩ := updated_kept (p := { p with positions := pos }) hf.keys hs.ticks hlo h7
  obtain ⟨k2, g2⟩ := updated_kept k1 g1 hup h8
  have hpos : ∀ k ps, mapGet k pos = some ps → lt ps.liq zero = false := by
    intro k ps hk
    have hother : ∀ v, k ≠ ⟨u, lo, up⟩ → mapGet k (mapSet (⟨u, lo, up⟩ : Flt.PositionKey) v p.positions) = some ps →
        lt ps.liq zero = false := by
      intro v hne hk
      rw [mapGet_set_other hne] at hk
      exact hs.positions k ps hk
    rcases Flt.Pool.setPositionMap_ok h5 with ⟨_, h6, rfl, _⟩ | ⟨poz, hg, _, _, _, ⟨_, rfl⟩ | ⟨_, h6, rfl⟩⟩
    · by_cases hne : k = ⟨u, lo, up⟩
      · subst hne
        rw [mapGet_set_same] at hk
        cases hk
        exact h6
      · exact hother _ hne hk
    · by_cases hne : k = ⟨u, lo, up⟩
      · subst hne
        rw [mapGet_erase_same] at hk
        cases hk
      · rw [mapGet_erase_other hne] at hk
        exact hs.positions k ps hk
    · by_cases hne : k = ⟨u, lo, up⟩
      · subst hne
        rw [mapGet_set_same] at hk
        cases hk
        exact h6
      · exact hother _ hne hk
  have hq2 : q2.spacing = p.spacing ∧ q2.gs = p.gs ∧ q2.positions = pos := by
    obtain ⟨_, t1, rfl, _⟩ := Flt.Pool.updateTick_ok h7
    obtain ⟨_, t2, rfl, _⟩ := Flt.Pool.updateTick_ok h8
    exact ⟨rfl, rfl, rfl⟩
  obtain ⟨a1, a2, a3⟩ := hq2
  rcases h9 with ⟨_, _, h9, rfl⟩ | ⟨_, rfl⟩
  · exact ⟨⟨by show 0 < q2.spacing ∧ _; rw [a1]; exact hf.spacing, hf.tick, k2, hf.rp⟩,
      ⟨h9, g2, by show ∀ k ps, mapGet k q2.positions = _ → _; rw [a3]; exact hpos⟩⟩
  · exact ⟨⟨by rw [a1]; exact hf.spacing, by rw [a2]; exact hf.tick, k2, by rw [a2]; exact hf.rp⟩,
      ⟨by rw [a2]; exact hs.liq, g2, by rw [a3]; exact hpos⟩⟩

/-- C130: a deposit that the prototype takes, the Rust code takes for the same amounts. -/
theorem C130_deposit_partial {m m' : LibM} {p : Flt.Pool} {q q' : Pool} (ht : Twin p q) (hf : Fits p) (ho : Ordinary m')
    (ha : Alike p.c m m') (hs : Sane p) (hE : Exact q.positions) (hE' : Exact q'.positions) {u : Nat} {x y rpa rpb : F64}
    (hrpa : lt rpa one = false) (hrpb : lt rpb one = false) (hprice : tickToRp m' q.tick = .ok q.rp) {lo up : Int} {a b : F64}
    (hlo : q.rpToPossibleTick m' rpa false = .ok lo) (hup : q.rpToPossibleTick m' rpb false = .ok up)
    (hA : tickToRp m' lo = .ok a) (hB : tickToRp m' up = .ok b) (hab : le a b = true) {r : Pool.Receipt}
    (hsome : F64.eq r.x zero = false ∨ F64.eq r.y zero = false) (h : Pool.deposit m' u x y rpa rpb q = .ok r q') :
    ∃ p', p.deposit m u x y rpa rpb = .ok (p', r) ∧ Twin p' q' ∧ Fits p' ∧ Sane p' := by
  have hS : Same p.positions q.positions := ht.positions
  have hq := ht.eq
  generalize q.positions = qs at hS hE hq
  subst hq
  obtain ⟨elo, llo⟩ := place_ok hf ho ha hrpa hlo
  obtain ⟨eup, lup⟩ := place_ok hf ho ha hrpb hup
  unfold Flt.Pool.deposit
  simp only
  generalize p.rpToPossibleTick m rpa false = lo' at elo llo ⊢
  generalize p.rpToPossibleTick m rpb false = up' at eup lup ⊢
  unfold Pool.deposit at h
  obtain ⟨cx, h⟩ := checks_ok h
  obtain ⟨cy, h⟩ := checks_ok h
  replace h := gets_ok h
  obtain ⟨l1, e1, h⟩ := comps_ok h
  rw [hlo, ok_inj] at e1; subst e1
  obtain ⟨l2, e2, h⟩ := comps_ok h
  rw [hup, ok_inj] at e2; subst e2
  obtain ⟨rp, e3, h⟩ := comps_ok h
  rw [hprice, ok_inj] at e3
  obtain ⟨a1, e4, h⟩ := comps_ok h
  rw [hA, ok_inj] at e4; subst e4
  obtain ⟨b1, e5, h⟩ := comps_ok h
  rw [hB, ok_inj] at e5; subst e5
  obtain ⟨n, e6, h⟩ := comps_ok h
  rw [bind_ok] at e6
  obtain ⟨v, e6, e7⟩ := e6
  obtain ⟨l, e8, h⟩ := comps_ok h
  obtain ⟨xIn, e9, h⟩ := comps_ok h
  obtain ⟨c1, h⟩ := checks_ok h
  obtain ⟨c2, h⟩ := checks_ok h
  rw [bind_eq_ok] at h
  obtain ⟨f, q1, h1, h⟩ := h
  rw [bind_eq_ok] at h
  obtain ⟨_, q2, h2, h⟩ := h
  have h2 := modify_eq_ok.1 h2
  obtain ⟨er, eq⟩ := pure_eq_ok.1 h
  have hrp : rp = p.gs.rp := e3.symm
  rw [hrp] at e6 e9 c2 er h2
  subst elo
  subst eup
  have e4 := price_ok ha llo hA
  have e5 := price_ok ha lup hB
  rw [← e4, ← e5]
  have ga : le one a = true := by rw [e4, ha.price _ llo]; exact ho.above _ llo
  have gb : le one b = true := by rw [e5, ha.price _ lup]; exact ho.above _ lup
  have nn1 : ∀ {z : F64}, le one z = true → NN z := by
    intro z hz
    have h1 := lt_false hz
    cases z with
    | nan => cases hz
    | inf s => cases s <;> first | rfl | cases hz
    | fin s k =>
      cases s
      · exact NN.iff.2 (.inr (.inr (.inl ⟨k, rfl⟩)))
      · exfalso
        have hu : (0 : Int) < (F64.unit : Int) := by exact_mod_cast unit_pos
        simp only [lt, one, decide_eq_false_iff_not, signed, if_true, Bool.false_eq_true, if_false] at h1
        omega
  have nx : NN x := lt_false cx
  have ny : NN y := lt_false cy
  have hvn : v ≠ nan := by
    rintro rfl
    cases e7
  obtain ⟨ev, hrep⟩ := liq_ok e6 hvn
  have hvN : NN v := liq_NN e6 nx ny (nn1 hf.rp) (nn1 ga) (nn1 gb) hab (le_ne hf.rp).2
  have rmin : Proto.max (Proto.min p.gs.rp b) a = F64.max (F64.min p.gs.rp b) a := by
    rw [min_eq (le_ne hf.rp).2, max_eq (min_ne (le_ne hf.rp).2)]
  have hn0 : n ≠ 0 := by
    rintro rfl
    rw [ofInt_zero, ok_inj] at e8
    subst e8
    rw [er] at hsome
    simp only at hsome
    have z1 : F64.eq xIn zero = true := by
      refine Nil.eq (b := x) ?_ c1
      unfold xFromLRpRng at e9
      simp only at e9
      rw [(fdiv_ok e9).1]
      exact Nil.div Nil.mul
    have z2 : F64.eq (yFromLRpRng zero p.gs.rp a b) zero = true := by
      refine Nil.eq (b := y) ?_ c2
      unfold yFromLRpRng
      exact Nil.mul
    rw [z1, z2] at hsome
    rcases hsome with h | h <;> cases h
  obtain ⟨hfl, hIs⟩ := floor_back hrep e7 hn0
  have hl : l = v.floor := by
    rw [hfl, ok_inj] at e8
    exact e8.symm
  have hN : NN l := by rw [hl]; exact floor_NN hvN
  have hx9 : xIn = Flt.xFromLRpRng l p.gs.rp a b := by
    unfold xFromLRpRng at e9
    simp only at e9
    rw [(fdiv_ok e9).1, rmin]
    rfl
  have hy9 : yFromLRpRng l p.gs.rp a b = Flt.yFromLRpRng l p.gs.rp a b := by
    unfold yFromLRpRng
    simp only
    rw [rmin]
    rfl
  have hqpos : q'.positions = q1.positions := by rw [eq, h2]; rfl
  rw [hqpos] at hE'
  have hz : lt zero zero = false := by decide +kernel
  have hT : ∀ j, NN (p.tickOr j).liqGross := by
    intro j
    unfold Flt.Pool.tickOr
    split
    · rename_i ts hg
      exact hs.ticks _ _ hg
    · exact hz
  rw [hl] at hN
  obtain ⟨p1, hp1, hq1, hS1⟩ := position_of hS (u := u) (d := .int n) hfl
    (fun k hk => by cases hk; exact hIs) (decide_eq_false hn0) (Holds.pos hs.positions hT hs.liq hN _ _) hE hE' (fees := f) (q := q1) h1
  have nx' : lt x zero = false := nx
  have ny' : lt y zero = false := ny
  rw [nx', ny', ev, ← hl, ← hx9, ← hy9, lt_false c1, lt_false c2]
  simp only [Bool.or_self, Bool.false_eq_true, if_false]
  rw [hl, hp1, okb]
  obtain ⟨hf1, hs1⟩ := kept_sane hf hs llo lup hp1
  refine ⟨Flt.Pool.payFees { p1 with x := F64.add p1.x xIn, y := F64.add p1.y (yFromLRpRng l p.gs.rp a b) } f,
    by rw [er, ← hl]; rfl, ?_, ⟨hf1.spacing, hf1.tick, hf1.keys, hf1.rp⟩, ⟨hs1.liq, hs1.ticks, hs1.positions⟩⟩
  rw [eq, h2, hq1]
  exact twin_of (p := Flt.Pool.payFees { p1 with x := F64.add p1.x xIn, y := F64.add p1.y (yFromLRpRng l p.gs.rp a b) } f) hS1

/-- C131: what a withdrawal pays, apart from fees, depends on the pool only through its tick, not through its price. -/
theorem C131_withdraw {m : LibM} {p q p' q' : Pool} (htick : p.tick = q.tick) (hspace : p.spacing = q.spacing) {u u' : Nat}
    {l : Num} {rpa rpb : F64} {r r' : Pool.Receipt} (h : Pool.withdraw m u l rpa rpb p = .ok r p')
    (h' : Pool.withdraw m u' l rpa rpb q = .ok r' q') : r.x = r'.x ∧ r.y = r'.y := by
  have form : ∀ {p p' : Pool} {u : Nat} {r : Pool.Receipt}, Pool.withdraw m u l rpa rpb p = .ok r p' →
      ∃ lo up rp a b f x, p.rpToPossibleTick m rpa false = .ok lo ∧ p.rpToPossibleTick m rpb false = .ok up ∧
        tickToRp m p.tick = .ok rp ∧ tickToRp m lo = .ok a ∧ tickToRp m up = .ok b ∧ l.toFlt = .ok f ∧
        xFromLRpRng f rp a b = .ok x ∧ r.x = mul x one ∧ r.y = mul (yFromLRpRng f rp a b) one := by
    intro p p' u r h
    unfold Pool.withdraw at h
    obtain ⟨_, h⟩ := checks_ok h
    replace h := gets_ok h
    obtain ⟨lo, h1, h⟩ := comps_ok h
    obtain ⟨up, h2, h⟩ := comps_ok h
    rw [bind_eq_ok] at h
    obtain ⟨fees, q, h3, h⟩ := h
    have hun : Untouched u p q := setPosition_leaves.1 _ _ h3
    replace h := gets_ok h
    obtain ⟨rp, h4, h⟩ := comps_ok h
    obtain ⟨a, h5, h⟩ := comps_ok h
    obtain ⟨b, h6, h⟩ := comps_ok h
    obtain ⟨f, h7, h⟩ := comps_ok h
    obtain ⟨x, h8, h⟩ := comps_ok h
    rw [bind_eq_ok] at h
    obtain ⟨_, q2, _, h⟩ := h
    rw [hun.tick] at h4
    rw [(pure_eq_ok.1 h).1]
    exact ⟨lo, up, rp, a, b, f, x, h1, h2, h4, h5, h6, h7, h8, rfl, rfl⟩
  obtain ⟨lo, up, rp, a, b, f, x, e1, e2, e3, e4, e5, e6, e7, e8, e9⟩ := form h
  obtain ⟨lo', up', rp', a', b', f', x', d1, d2, d3, d4, d5, d6, d7, d8, d9⟩ := form h'
  have same : ∀ v, p.rpToPossibleTick m v false = q.rpToPossibleTick m v false := by
    intro v
    unfold Pool.rpToPossibleTick Pool.tickToPossibleTick
    rw [hspace]
  rw [same, d1, ok_inj] at e1
  rw [same, d2, ok_inj] at e2
  rw [htick, d3, ok_inj] at e3
  subst e1 e2 e3
  rw [d4, ok_inj] at e4
  rw [d5, ok_inj] at e5
  rw [d6, ok_inj] at e6
  subst e4 e5 e6
  rw [d7, ok_inj] at e7
  subst e7
  exact ⟨by rw [e8, d8], by rw [e9, d9]⟩

/-- C131: the same of deposits. -/
theorem C131_deposit {m : LibM} {p q p' q' : Pool} (htick : p.tick = q.tick) (hspace : p.spacing = q.spacing) {u u' : Nat}
    {x y rpa rpb : F64} {r r' : Pool.Receipt} (h : Pool.deposit m u x y rpa rpb p = .ok r p')
    (h' : Pool.deposit m u' x y rpa rpb q = .ok r' q') : r.x = r'.x ∧ r.y = r'.y := by
  have form : ∀ {p p' : Pool} {u : Nat} {r : Pool.Receipt}, Pool.deposit m u x y rpa rpb p = .ok r p' →
      ∃ lo up rp a b n f x', p.rpToPossibleTick m rpa false = .ok lo ∧ p.rpToPossibleTick m rpb false = .ok up ∧
        tickToRp m p.tick = .ok rp ∧ tickToRp m lo = .ok a ∧ tickToRp m up = .ok b ∧
        (liqFromXYRpRng x y rp a b >>= floor) = .ok n ∧ ofInt n = .ok f ∧
        xFromLRpRng f rp a b = .ok x' ∧ r.x = x' ∧ r.y = yFromLRpRng f rp a b := by
    intro p p' u r h
    unfold Pool.deposit at h
    obtain ⟨_, h⟩ := checks_ok h
    obtain ⟨_, h⟩ := checks_ok h
    replace h := gets_ok h
    obtain ⟨lo, h1, h⟩ := comps_ok h
    obtain ⟨up, h2, h⟩ := comps_ok h
    obtain ⟨rp, h4, h⟩ := comps_ok h
    obtain ⟨a, h5, h⟩ := comps_ok h
    obtain ⟨b, h6, h⟩ := comps_ok h
    obtain ⟨n, h7, h⟩ := comps_ok h
    obtain ⟨f, h8, h⟩ := comps_ok h
    obtain ⟨x', h9, h⟩ := comps_ok h
    obtain ⟨_, h⟩ := checks_ok h
    obtain ⟨_, h⟩ := checks_ok h
    rw [bind_eq_ok] at h
    obtain ⟨fees, q, h3, h⟩ := h
    rw [bind_eq_ok] at h
    obtain ⟨_, q2, _, h⟩ := h
    rw [(pure_eq_ok.1 h).1]
    exact ⟨lo, up, rp, a, b, n, f, x', h1, h2, h4, h5, h6, h7, h8, h9, rfl, rfl⟩
  obtain ⟨lo, up, rp, a, b, n, f, x1, e1, e2, e3, e4, e5, e6, e7, e8, e9, e10⟩ := form h
  obtain ⟨lo', up', rp', a', b', n', f', x2, d1, d2, d3, d4, d5, d6, d7, d8, d9, d10⟩ := form h'
  have same : ∀ v, p.rpToPossibleTick m v false = q.rpToPossibleTick m v false := by
    intro v
    unfold Pool.rpToPossibleTick Pool.tickToPossibleTick
    rw [hspace]
  rw [same, d1, ok_inj] at e1
  rw [same, d2, ok_inj] at e2
  rw [htick, d3, ok_inj] at e3
  subst e1 e2 e3
  rw [d4, ok_inj] at e4
  rw [d5, ok_inj] at e5
  subst e4 e5
  rw [d6, ok_inj] at e6
  subst e6
  rw [d7, ok_inj] at e7
  subst e7
  rw [d8, ok_inj] at e8
  subst e8
  exact ⟨by rw [e9, d9], by rw [e10, d10]⟩

theorem exact_small {qs : List (Key × PositionState)}
    (h : (qs.all fun e => match e.2.liq with | .int n => decide (0 ≤ n ∧ n ≤ 2 ^ 53) | .flt _ => true) = true) : Exact qs := by
  intro e he n hn
  have h1 := List.all_eq_true.1 h e he
  rw [hn] at h1
  simp only [decide_eq_true_eq] at h1
  obtain ⟨k, rfl⟩ := Int.eq_ofNat_of_zero_le h1.1
  have hk : k ≤ 2 ^ 53 := by omega
  refine ⟨ofNat k, ?_, ?_⟩
  · have h2 : ofRatio false (k * F64.unit) 1 = fin false (k * F64.unit) := ofRatio_whole hk
    have h3 : (decide ((k : Int) < 0)) = false := by simp
    unfold ofInt ofNat lit
    rw [h3, Int.natAbs_natCast, h2]
    rfl
  · have := Flt.ofNat_is hk
    exact_mod_cast this

end

namespace Sample

open Flt.Sample (get rt)

/-- Both pools after a small sale of ETH, which takes the price between two ticks. -/
def mid : Pool := kept (pyEth (lit 1 2) (lit 3 1000)) (Pool.executeSwapFromX safe 10 (lit 1 10000) (some (rt 2000)))

def rsMid : Flt.Pool := (get ((rsEth (lit 1 2) (lit 3 1000)).executeSwapFromX table 10 (lit 1 10000) (rt 2000))).1

/-- A large deposit. -/
def more : Py Pool.Receipt := Pool.deposit safe 2 (ofNat 2000000) (ofNat 4000000000) (rt 1333) (rt 3000)

def rsMore (p : Flt.Pool) : R (Flt.Pool × Flt.Pool.Receipt) :=
  p.deposit table 2 (ofNat 2000000) (ofNat 4000000000) (rt 1333) (rt 3000)

theorem sane_of {p : Flt.Pool} (h1 : lt p.gs.liq zero = false) (h2 : (p.ticks.all fun e => !lt e.2.liqGross zero) = true)
    (h3 : (p.positions.all fun e => !lt e.2.liq zero) = true) : Sane p := by
  refine ⟨h1, fun t ts h => ?_, fun k ps h => ?_⟩
  · have := List.all_eq_true.1 h2 _ (mapGet_mem h)
    simpa using this
  · have := List.all_eq_true.1 h3 _ (mapGet_mem h)
    simpa using this

theorem sane_eth : Sane (rsEth (lit 1 2) (lit 3 1000)) := sane_of (by decide +kernel) (by decide +kernel) (by decide +kernel)

theorem told_kept {α : Type} [Inhabited α] {p : Pool} {f : Py α} (h : fine p f = true) : f p = .ok (told p f) (kept p f) := by
  unfold fine at h
  unfold told kept
  split at h
  · rename_i he
    rw [he]
  · cases h

theorem got {α β : Type} [Inhabited α] [Inhabited β] {r : R (α × β)} (h : r.isOk = true) : r = .ok ((get r).1, (get r).2) := by
  cases r with
  | ok v => rfl
  | error e => cases h

/-- C130 applies to a second deposit into the pool of the notebook: here another
provider's, of the same range. -/
example : ∃ p' r, rsMore (rsEth (lit 1 2) (lit 3 1000)) = .ok (p', r) ∧
    Twin p' (kept (pyEth (lit 1 2) (lit 3 1000)) more) ∧ lt (ofNat 1000000) r.x = true := by
  have h := told_kept (p := pyEth (lit 1 2) (lit 3 1000)) (f := more) (by decide +kernel)
  obtain ⟨p', h1, h2, _⟩ := C130_deposit_partial twin_eth fits_eth ordinary_safe alike_eth sane_eth (exact_small (by decide +kernel))
    (exact_small (by decide +kernel)) (by decide +kernel) (by decide +kernel) (by decide +kernel) (lo := 71955) (up := 80067)
    (a := get (tickToRp safe 71955)) (b := get (tickToRp safe 80067)) (by decide +kernel) (by decide +kernel)
    (by decide +kernel) (by decide +kernel) (by decide +kernel) (.inl (by decide +kernel)) h
  exact ⟨p', _, h1, h2, by decide +kernel⟩

theorem twin_mid : Twin rsMid mid :=
  ⟨by decide +kernel, by decide +kernel, by decide +kernel, by decide +kernel, by decide +kernel, by decide +kernel,
   by decide +kernel, by decide +kernel, by decide +kernel, by decide +kernel, by decide +kernel, by decide +kernel,
   by decide +kernel, by decide +kernel, by decide +kernel⟩

theorem fits_mid : Fits rsMid := ⟨by decide +kernel, by decide +kernel, by decide +kernel, by decide +kernel⟩

theorem sane_mid : Sane rsMid := sane_of (by decide +kernel) (by decide +kernel) (by decide +kernel)

/-- C130 without the condition on the price is false: after a sale within a tick, the same deposit is charged more X and less Y
by the prototype, which takes the price of the tick, than by the Rust code, which takes that of the pool. -/
theorem C130_false : Twin rsMid mid ∧ Fits rsMid ∧ Sane rsMid ∧ Exact mid.positions ∧
    ∃ r q' p' r', more mid = .ok r q' ∧ Exact q'.positions ∧ rsMore rsMid = .ok (p', r') ∧ lt r'.x r.x = true ∧ lt r.y r'.y = true := by
  have h := told_kept (p := mid) (f := more) (by decide +kernel)
  refine ⟨twin_mid, fits_mid, sane_mid, exact_small (by decide +kernel), ?_⟩
  have h1 : (kept mid more).positions.all (fun e => match e.2.liq with | .int n => decide (0 ≤ n ∧ n ≤ 2 ^ 53) | .flt _ => true) =
      true := by decide +kernel
  have h2 : (rsMore rsMid).isOk = true := by decide +kernel
  have h3 : lt (get (rsMore rsMid)).2.x (told mid more).x = true := by decide +kernel
  have h4 : lt (told mid more).y (get (rsMore rsMid)).2.y = true := by decide +kernel
  exact ⟨told mid more, kept mid more, (get (rsMore rsMid)).1, (get (rsMore rsMid)).2, h, exact_small h1, got h2, h3, h4⟩

/-- Somebody buys a little ETH, which leaves the tick where it is. -/
def boughtIn : Pool := kept (pyEth zero zero) (Pool.executeSwapFromY safe 10 (lit 1 100) none)

/-- C131 applies: before and after the purchase, which raises the price, deposits and withdrawals are for the same amounts. -/
example : fine (pyEth zero zero) (Pool.withdraw safe 1 (.int 487) (rt 1333) (rt 3000)) = true ∧
    fine boughtIn (Pool.withdraw safe 1 (.int 487) (rt 1333) (rt 3000)) = true ∧ fine (pyEth zero zero) more = true ∧
    fine boughtIn more = true ∧ boughtIn.spacing = (pyEth zero zero).spacing ∧ boughtIn.tick = (pyEth zero zero).tick ∧
    lt (pyEth zero zero).rp boughtIn.rp = true := by decide +kernel

end Sample

end Hmm.Proto
