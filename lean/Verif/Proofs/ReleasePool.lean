import Verif.Model.ReleasePool
import Verif.Proofs.Release
import Verif.Proofs.Leave

/-
The in-memory pool with and without overflow checks.
-/

namespace Hmm.Release.InMemory

open Decimal

/-! ### Powers and logarithms -/

theorem scaled {d c : Decimal} {s : Nat} (h : d.toScale s = .ok c) : c.scale = s := by
  rcases toScale_ok.1 h with ⟨_, _, e⟩ | ⟨_, _, _, e⟩ <;> rw [e]

theorem eq_scale {a b : Decimal} {t : Bool} (h : unwrap (a.eq b) = .ok t) : a.scale = b.scale := by
  rw [unwrap_ok] at h
  unfold Decimal.eq at h
  rw [ite_ok] at h
  rcases h with ⟨_, h⟩ | ⟨h, _⟩
  · simp [rerr] at h
  · simpa using h

theorem sqrt_scale {d c : Decimal} (h : unwrap d.sqrt = .ok c) : c.scale = d.scale := by
  rw [unwrap_ok] at h
  unfold Decimal.sqrt at h
  simp only at h
  rw [bind_ok] at h; obtain ⟨_, _, h⟩ := h
  rw [bind_ok] at h; obtain ⟨_, _, h⟩ := h
  rw [bind_ok] at h; obtain ⟨_, _, h⟩ := h
  rw [ite_ok] at h
  rcases h with ⟨_, h⟩ | ⟨_, h⟩
  · rw [pure_ok] at h; rw [h]
  rw [bind_ok] at h; obtain ⟨den, _, h⟩ := h
  rw [ite_ok] at h
  rcases h with ⟨_, h⟩ | ⟨_, h⟩
  · simp [rerr] at h
  split at h
  · cases h
  · rw [bind_ok] at h; obtain ⟨y, _, h⟩ := h
    rw [pure_ok] at h; rw [← h]

theorem powLoop_scale : ∀ (k n : Nat) (b r c : Decimal), Decimal.powLoop k n b r = .ok c → c.scale = r.scale
  | 0, n, b, r, c, h => by
    unfold Decimal.powLoop at h
    rw [ite_ok] at h
    rcases h with ⟨_, h⟩ | ⟨_, h⟩
    · cases h; rfl
    · cases h
  | k + 1, n, b, r, c, h => by
    unfold Decimal.powLoop at h
    rw [ite_ok] at h
    rcases h with ⟨_, h⟩ | ⟨_, h⟩
    · cases h; rfl
    rw [bind_ok] at h; obtain ⟨r', h1, h⟩ := h
    rw [bind_ok] at h; obtain ⟨b', _, h⟩ := h
    rw [powLoop_scale k _ _ _ _ h]
    rw [ite_ok] at h1
    rcases h1 with ⟨_, h1⟩ | ⟨_, h1⟩
    · exact mul_scale h1
    · cases h1; rfl

theorem powInt_scale {d c : Decimal} {n : Nat} (h : d.powInt n = .ok c) : c.scale = d.scale := by
  unfold Decimal.powInt at h
  rw [bind_ok] at h; obtain ⟨den, _, h⟩ := h
  simp only at h
  rw [ite_ok] at h
  rcases h with ⟨_, h⟩ | ⟨_, h⟩
  · rw [pure_ok] at h; rw [← h]
  · have := powLoop_scale _ _ _ _ _ h
    exact this

theorem isInteger_eq {d : Decimal} (h : d.scale ≤ 38) : isInteger d = d.isInteger := by
  unfold isInteger Decimal.isInteger
  rw [toScale_eq (by omega) (by omega)]
  refine bind_same fun i hi => ?_
  have := scaled hi
  rw [toScale_eq (by omega) (by omega)]

theorem powDecWith_eq {d e : Decimal} {rec rec' : Decimal → R Decimal} (h : d.scale ≤ 38)
    (hr : ∀ e, rec e = rec' e) (hs : ∀ e c, rec' e = .ok c → c.scale = d.scale) :
    powDecWith rec d e = Decimal.powDecWith rec' d e := by
  have hsc : ∀ n, toScale (Decimal.fromInt n) d.scale = (Decimal.fromInt n).toScale d.scale := fun n =>
    toScale_eq (by show 0 ≤ _; omega) (by show d.scale ≤ 0 + 38; omega)
  unfold powDecWith Decimal.powDecWith
  rw [hsc]
  refine bind_same fun one h1 => ?_
  rw [hsc]
  refine bind_same fun two h2 => ?_
  rw [hsc]
  refine bind_same fun four h4 => ?_
  have s1 := scaled h1
  have s2 := scaled h2
  have s4 := scaled h4
  rw [div_eq (by omega)]
  refine bind_same fun quarter hq => ?_
  rw [div_eq (by omega)]
  refine bind_same fun half hh => ?_
  rw [hsc]
  refine bind_same fun five h5 => ?_
  rw [div_eq (by omega)]
  refine bind_same fun oq hoq => ?_
  rw [hsc]
  refine bind_same fun three h3 => ?_
  rw [div_eq (by omega)]
  refine bind_same fun oh hoh => ?_
  split
  · rfl
  refine bind_same fun b hb => ?_
  have se : e.scale ≤ 38 := by rw [eq_scale hb, div_scale hq]; omega
  have hq1 : unwrap (sqrt d) = unwrap d.sqrt := by rw [sqrt_eq h]
  split
  · rw [hq1]
    refine bind_same fun r hr => ?_
    rw [sqrt_eq (by rw [sqrt_scale hr]; exact h)]
  refine bind_same fun b hb => ?_
  split
  · rw [hq1]
  refine bind_same fun b hb => ?_
  split
  · rfl
  refine bind_same fun b hb => ?_
  split
  · rw [hq1]
    refine bind_same fun r hr => ?_
    have := sqrt_scale hr
    rw [sqrt_eq (by omega)]
    refine bind_same fun r' hr' => ?_
    have := sqrt_scale hr'
    rw [mul_eq (by omega)]
  refine bind_same fun b hb => ?_
  split
  · rw [hq1]
    refine bind_same fun r hr => ?_
    have := sqrt_scale hr
    rw [mul_eq (by omega)]
  rw [isInteger_eq se]
  refine bind_same fun i _ => ?_
  rw [abs_eq se]
  split
  · refine bind_same fun n _ => ?_
    rw [powInt_eq h]
  split
  · refine bind_same fun n _ => ?_
    rw [powInt_eq h]
    refine bind_same fun p hp => ?_
    have := powInt_scale hp
    rw [div_eq (by omega)]
  split
  · rw [hr]
    refine bind_same fun p hp => ?_
    have := hs _ _ hp
    rw [div_eq (by omega)]
  · rfl

theorem powDecWith_scale {d e c : Decimal} {rec : Decimal → R Decimal} (h : Decimal.powDecWith rec d e = .ok c) :
    c.scale = d.scale := by
  unfold Decimal.powDecWith at h
  rw [bind_ok] at h; obtain ⟨one, h1, h⟩ := h
  have s1 := scaled h1
  rw [bind_ok] at h; obtain ⟨two, h2, h⟩ := h
  rw [bind_ok] at h; obtain ⟨_, _, h⟩ := h
  rw [bind_ok] at h; obtain ⟨_, _, h⟩ := h
  rw [bind_ok] at h; obtain ⟨_, _, h⟩ := h
  rw [bind_ok] at h; obtain ⟨_, _, h⟩ := h
  rw [bind_ok] at h; obtain ⟨_, _, h⟩ := h
  rw [bind_ok] at h; obtain ⟨_, _, h⟩ := h
  rw [bind_ok] at h; obtain ⟨_, _, h⟩ := h
  rw [ite_ok] at h; rcases h with ⟨_, h⟩ | ⟨_, h⟩
  · rw [pure_ok] at h; rw [← h, s1]
  rw [bind_ok] at h; obtain ⟨_, _, h⟩ := h
  rw [ite_ok] at h; rcases h with ⟨_, h⟩ | ⟨_, h⟩
  · rw [bind_ok] at h; obtain ⟨r, hr, h⟩ := h
    rw [sqrt_scale h, sqrt_scale hr]
  rw [bind_ok] at h; obtain ⟨_, _, h⟩ := h
  rw [ite_ok] at h; rcases h with ⟨_, h⟩ | ⟨_, h⟩
  · exact sqrt_scale h
  rw [bind_ok] at h; obtain ⟨_, _, h⟩ := h
  rw [ite_ok] at h; rcases h with ⟨_, h⟩ | ⟨_, h⟩
  · rw [pure_ok] at h; rw [← h]
  rw [bind_ok] at h; obtain ⟨_, _, h⟩ := h
  rw [ite_ok] at h; rcases h with ⟨_, h⟩ | ⟨_, h⟩
  · rw [bind_ok] at h; obtain ⟨r, hr, h⟩ := h
    rw [bind_ok] at h; obtain ⟨r', hr', h⟩ := h
    exact mul_scale h
  rw [bind_ok] at h; obtain ⟨_, _, h⟩ := h
  rw [ite_ok] at h; rcases h with ⟨_, h⟩ | ⟨_, h⟩
  · rw [bind_ok] at h; obtain ⟨r, hr, h⟩ := h
    exact mul_scale h
  rw [bind_ok] at h; obtain ⟨_, _, h⟩ := h
  rw [ite_ok] at h; rcases h with ⟨_, h⟩ | ⟨_, h⟩
  · rw [bind_ok] at h; obtain ⟨n, _, h⟩ := h
    exact powInt_scale h
  rw [ite_ok] at h; rcases h with ⟨_, h⟩ | ⟨_, h⟩
  · rw [bind_ok] at h; obtain ⟨n, _, h⟩ := h
    rw [bind_ok] at h; obtain ⟨m, hm, h⟩ := h
    rw [div_scale h, s1]
  rw [ite_ok] at h; rcases h with ⟨_, h⟩ | ⟨_, h⟩
  · rw [bind_ok] at h; obtain ⟨n, _, h⟩ := h
    rw [div_scale h, s1]
  · simp [rpanic] at h

theorem powDec_scale {d e c : Decimal} (h : d.powDec e = .ok c) : c.scale = d.scale := powDecWith_scale h

theorem powDec_eq {d e : Decimal} (h : d.scale ≤ 38) : powDec d e = d.powDec e := by
  unfold powDec Decimal.powDec
  exact powDecWith_eq h (fun e => powDecWith_eq h (fun _ => rfl) fun _ _ h => by simp [rpanic] at h)
    fun _ _ h => powDecWith_scale h

theorem logTableValue_eq {s t : Decimal} (hs : s.scale ≤ 38) (ht : t.scale ≤ 38) (col : Nat) :
    logTableValue s t col = Decimal.logTableValue s t col := by
  unfold logTableValue Decimal.logTableValue
  rw [div_eq ht]
  refine bind_same fun s' h1 => ?_
  have := div_scale h1
  refine bind_same fun place _ => ?_
  simp only
  rw [mul_eq (by show s'.scale ≤ 38; omega)]
  refine bind_same fun m _ => ?_
  rw [div_eq (by show s'.scale ≤ 38; omega)]
  refine bind_same fun t' _ => ?_
  rw [mul_eq (by show s'.scale ≤ 38; omega)]
  rfl

theorem logTableValue_scale {s t s' t' : Decimal} {col l : Nat} (h : Decimal.logTableValue s t col = .ok (s', t', l)) :
    s'.scale = s.scale ∧ t'.scale = s.scale := by
  unfold Decimal.logTableValue at h
  rw [bind_ok] at h; obtain ⟨q, hq, h⟩ := h
  rw [bind_ok] at h; obtain ⟨_, _, h⟩ := h
  simp only at h
  rw [bind_ok] at h; obtain ⟨m, hm, h⟩ := h
  rw [bind_ok] at h; obtain ⟨w, hw, h⟩ := h
  rw [bind_ok] at h; obtain ⟨_, _, h⟩ := h
  rw [bind_ok] at h; obtain ⟨_, _, h⟩ := h
  rw [bind_ok] at h; obtain ⟨_, _, h⟩ := h
  rw [bind_ok] at h; obtain ⟨_, _, h⟩ := h
  rw [pure_ok] at h
  cases h
  exact ⟨div_scale hq, by rw [div_scale hw, mul_scale hm, div_scale hq]⟩

theorem lnLoop_eq : ∀ (n col : Nat) (s t : Decimal) (acc : Nat), s.scale ≤ 38 → t.scale ≤ 38 →
    lnLoop n col s t acc = Decimal.lnLoop n col s t acc
  | 0, _, _, _, _, _, _ => rfl
  | n + 1, col, s, t, acc, hs, ht => by
    unfold lnLoop Decimal.lnLoop
    rw [logTableValue_eq hs ht]
    refine bind_same fun ⟨s', t', l⟩ h => ?_
    obtain ⟨h1, h2⟩ := logTableValue_scale h
    simp only
    refine bind_same fun acc' _ => lnLoop_eq n _ _ _ _ (by omega) (by omega)

theorem bitLength_eq {fl : FloatEnv} {d : Decimal} (h : d.scale ≤ 38) : bitLength fl d = d.bitLength fl := by
  unfold bitLength Decimal.bitLength
  split
  · rfl
  split
  · rfl
  simp only
  refine bind_same fun v _ => ?_
  rw [denominator_eq h]
  rw [toScaleUp_eq (d := Decimal.new v d.scale (fl d.value d.scale).2) (by show d.scale ≤ 0 + 38; omega) (by omega),
    toScale_eq (d := Decimal.new v d.scale (fl d.value d.scale).2) (by show d.scale ≤ 0 + 38; omega) (by omega)]
  rfl

theorem bitLength_scale {fl : FloatEnv} {d c : Decimal} (h : unwrap (d.bitLength fl) = .ok c) : c.scale = 0 := by
  rw [unwrap_ok] at h
  unfold Decimal.bitLength at h
  rw [ite_ok] at h
  rcases h with ⟨_, h⟩ | ⟨_, h⟩
  · simp [rerr] at h
  rw [ite_ok] at h
  rcases h with ⟨_, h⟩ | ⟨_, h⟩
  · cases h; rfl
  simp only at h
  rw [bind_ok] at h; obtain ⟨_, _, h⟩ := h
  rw [bind_ok] at h; obtain ⟨_, _, h⟩ := h
  rw [bind_ok] at h; obtain ⟨_, _, h⟩ := h
  rw [pure_ok] at h
  rw [← h]; rfl

theorem ln_eq {fl : FloatEnv} {d : Decimal} (h : d.scale ≤ 38) : ln fl d = d.ln fl := by
  unfold ln Decimal.ln
  split
  · rfl
  rw [toComputeScale_eq (by omega)]
  refine bind_same fun so hso => ?_
  have e1 := World.compute_scale hso
  simp only
  rw [bitLength_eq h]
  refine bind_same fun bl hbl => ?_
  have e2 := bitLength_scale hbl
  rw [toScale_eq (by show 0 ≤ _; omega) (by show 6 ≤ 0 + 38; omega)]
  refine bind_same fun two h2 => ?_
  have e3 := scaled h2
  rw [toScale_eq (by omega) (by omega)]
  refine bind_same fun bl6 h6 => ?_
  rw [powDec_eq (by omega)]
  refine bind_same fun mx0 hm => ?_
  have e4 := powDec_scale hm
  rw [toComputeScale_eq (by omega)]
  refine bind_same fun mx hmx => ?_
  have e5 := World.compute_scale hmx
  rw [lnLoop_eq _ _ _ _ _ (by omega) (by omega)]
  refine bind_same fun sum _ => ?_
  rw [mul_eq (by omega)]
  refine bind_same fun m hm => ?_
  refine bind_same fun r hr => ?_
  have e6 : r.scale = 12 := by
    rw [unwrap_ok] at hr
    rw [Pool.add_scale hr, mul_scale hm]
    rfl
  rw [toScale_eq (by omega) (by omega)]

theorem ln_scale {fl : FloatEnv} {d c : Decimal} (h : unwrap (d.ln fl) = .ok c) : c.scale = d.scale := by
  rw [unwrap_ok] at h
  unfold Decimal.ln at h
  rw [ite_ok] at h
  rcases h with ⟨_, h⟩ | ⟨_, h⟩
  · simp [rerr] at h
  simp only at h
  rw [bind_ok] at h; obtain ⟨_, _, h⟩ := h
  rw [bind_ok] at h; obtain ⟨_, _, h⟩ := h
  rw [bind_ok] at h; obtain ⟨_, _, h⟩ := h
  rw [bind_ok] at h; obtain ⟨_, _, h⟩ := h
  rw [bind_ok] at h; obtain ⟨_, _, h⟩ := h
  rw [bind_ok] at h; obtain ⟨_, _, h⟩ := h
  rw [bind_ok] at h; obtain ⟨_, _, h⟩ := h
  rw [bind_ok] at h; obtain ⟨_, _, h⟩ := h
  rw [bind_ok] at h; obtain ⟨_, _, h⟩ := h
  exact scaled h

/-! ### Pool formulas -/

theorem rpToTickLoopFrom_eq {m rp : Decimal} {b : Bool} (hm : m.scale ≤ 38) : ∀ (room x : Nat) (rez : Decimal),
    rpToTickLoopFrom m rp b room x rez = PoolMath.rpToTickLoopFrom m rp b room x rez := by
  intro room
  induction room with
  | zero =>
    intro x rez
    show (mul rez m >>= _) = (rez.mul m >>= _)
    rw [mul_eq hm]
  | succ room ih =>
    intro x rez
    show (mul rez m >>= _) = (rez.mul m >>= _)
    rw [mul_eq hm]
    refine bind_same fun r _ => bind_same fun t _ => ?_
    split
    · rfl
    · exact ih _ _

theorem base_eq : tickBaseRoot = PoolMath.tickBaseRoot := by
  unfold tickBaseRoot PoolMath.tickBaseRoot
  refine bind_both (toComputeScale_eq (by decide)) fun b hb => ?_
  rw [sqrt_eq (by rw [World.compute_scale hb]; decide)]

theorem base_scale {b : Decimal} (h : PoolMath.tickBaseRoot = .ok b) : b.scale = 12 := by
  rw [PoolMath.tickBaseRoot_eq, ok_inj] at h
  rw [← h]; rfl

theorem rpToTickLoop_eq (rp : Decimal) (b : Bool) (start : Nat) : rpToTickLoop rp b start = PoolMath.rpToTickLoop rp b start := by
  unfold rpToTickLoop PoolMath.rpToTickLoop
  refine bind_both base_eq fun m hm => ?_
  have := base_scale hm
  rw [powInt_eq (by omega)]
  exact bind_same fun r _ => rpToTickLoopFrom_eq (by omega) _ _ _

theorem tkToPossibleTk_eq (t sp : Nat) (b : Bool) : tkToPossibleTk t sp b = PoolMath.tkToPossibleTk t sp b := by
  have hs : (Decimal.fromInt sp).scale ≤ 38 := Nat.zero_le _
  unfold tkToPossibleTk PoolMath.tkToPossibleTk
  simp only
  rw [divUp_eq hs, div_eq hs]
  refine bind_both ?_ fun _ _ => rfl
  split <;> exact bind_same fun a _ => mul_eq hs

theorem rpToPossibleTk_eq (rp : Decimal) (sp : Nat) (b : Bool) (start : Nat) :
    rpToPossibleTk rp sp b start = PoolMath.rpToPossibleTk rp sp b start := by
  unfold rpToPossibleTk PoolMath.rpToPossibleTk
  rw [rpToTickLoop_eq]
  exact bind_same fun t _ => tkToPossibleTk_eq _ _ _

theorem dxFromLDrp_eq {l o n : Decimal} (ho : o.scale ≤ 38) (hn : n.scale ≤ 38) : dxFromLDrp l o n = PoolMath.dxFromLDrp l o n := by
  unfold dxFromLDrp PoolMath.dxFromLDrp
  split
  · rfl
  refine bind_same fun d hd => ?_
  rw [mul_eq hn]
  refine bind_same fun m hm => ?_
  have := sub_scale hd
  have := mul_scale hm
  rw [mul_eq (by omega)]
  exact bind_same fun k _ => div_eq (by omega)

theorem dyFromLDrp_eq {l o n : Decimal} (hl : l.scale ≤ 38) : dyFromLDrp l o n = PoolMath.dyFromLDrp l o n := by
  unfold dyFromLDrp PoolMath.dyFromLDrp
  exact bind_same fun d _ => mul_eq hl

theorem one_scale : PoolMath.one.scale = 12 := rfl

theorem dxFromLDrpHmm_eq {fl : FloatEnv} {l o n c q : Decimal} (ho : o.scale ≤ 38) (hn : n.scale ≤ 38) (hc : c.scale ≤ 50)
    (hq : q.scale ≤ 38) : dxFromLDrpHmm fl l o n c q = PoolMath.dxFromLDrpHmm fl l o n c q := by
  unfold dxFromLDrpHmm PoolMath.dxFromLDrpHmm
  rw [toComputeScale_eq hc]
  refine bind_same fun c' _ => bind_same fun b1 _ => ?_
  split
  · rfl
  refine bind_same fun b2 h2 => ?_
  split
  · rfl
  refine bind_same fun c'' _ => bind_same fun b3 _ => ?_
  split
  · rw [ln_eq ho, ln_eq hn]
    refine bind_same fun a ha => bind_same fun b _ => bind_same fun r hr => ?_
    have := ln_scale ha
    have := sub_scale hr
    split
    · rfl
    rw [div_eq hq]
    exact bind_same fun k _ => mul_eq (by omega)
  · refine bind_same fun cmo hcmo => ?_
    have e := sub_scale hcmo
    have e1 := (sub_ok.1 (unwrap_ok.1 hcmo)).1
    simp only
    rw [powDec_eq hq]
    refine bind_same fun oc hoc => ?_
    rw [powDec_eq hn]
    refine bind_same fun nw hnw => ?_
    rw [powDec_eq ho]
    refine bind_same fun od _ => bind_same fun d hd => ?_
    have := powDec_scale hoc
    have := powDec_scale hnw
    have := sub_scale hd
    rw [div_eq (by omega)]
    refine bind_same fun k _ => ?_
    rw [mul_eq (by omega)]
    exact bind_same fun k _ => div_eq (by rw [neg_scale]; have := one_scale; omega)

theorem dyFromLDrpHmm_eq {fl : FloatEnv} {l o n c q : Decimal} (ho : o.scale ≤ 38) (hn : n.scale ≤ 38) (hc : c.scale ≤ 50)
    (hq : q.scale ≤ 38) : dyFromLDrpHmm fl l o n c q = PoolMath.dyFromLDrpHmm fl l o n c q := by
  unfold dyFromLDrpHmm PoolMath.dyFromLDrpHmm
  rw [toComputeScale_eq hc]
  refine bind_same fun c' _ => bind_same fun b1 _ => ?_
  split
  · rfl
  refine bind_same fun b2 h2 => ?_
  split
  · rfl
  split
  · rfl
  refine bind_same fun c'' _ => bind_same fun b3 _ => ?_
  split
  · rw [ln_eq ho, ln_eq hn]
    refine bind_same fun a ha => bind_same fun b _ => bind_same fun r hr => ?_
    have := ln_scale ha
    have := sub_scale hr
    rw [mul_eq hq]
    exact bind_same fun k _ => mul_eq (by omega)
  · refine bind_same fun cmo hcmo => ?_
    have e := sub_scale hcmo
    have e1 := (sub_ok.1 (unwrap_ok.1 hcmo)).1
    simp only
    rw [powDec_eq hq]
    refine bind_same fun oc hoc => ?_
    rw [powDec_eq hn]
    refine bind_same fun nw hnw => ?_
    rw [powDec_eq ho]
    refine bind_same fun od hod => ?_
    have := powDec_scale hoc
    have := powDec_scale hnw
    have := powDec_scale hod
    rw [div_eq (by omega)]
    refine bind_same fun inw hinw => ?_
    rw [div_eq (by omega)]
    refine bind_same fun iod _ => bind_same fun d hd => ?_
    have := div_scale hinw
    have := sub_scale hd
    have := one_scale
    rw [mul_eq (by omega)]
    refine bind_same fun k _ => ?_
    rw [mul_eq (by omega)]
    exact bind_same fun k _ => div_eq (by rw [neg_scale]; omega)

theorem rpNewFromLDx_eq {l o d : Decimal} (hl : l.scale ≤ 38) (ho : o.scale ≤ 38) :
    rpNewFromLDx l o d = PoolMath.rpNewFromLDx l o d := by
  unfold rpNewFromLDx PoolMath.rpNewFromLDx
  rw [mul_eq ho]
  refine bind_same fun n _ => ?_
  rw [mul_eq ho]
  refine bind_same fun m hm => bind_same fun k hk => ?_
  obtain ⟨e1, _, e2, _⟩ := add_ok.1 (unwrap_ok.1 hk)
  split
  · rfl
  rw [div_eq (by omega)]

theorem rpNewFromLDy_eq {l o d : Decimal} (hl : l.scale ≤ 38) : rpNewFromLDy l o d = PoolMath.rpNewFromLDy l o d := by
  unfold rpNewFromLDy PoolMath.rpNewFromLDy
  rw [div_eq hl]

/-! ### The pool -/

theorem new_eq {rp : Decimal} {sp : Nat} {c f : Decimal} (hc : c.scale ≤ 50) : new rp sp c f = Pool.new rp sp c f := by
  unfold new Pool.new
  rw [toComputeScale_eq hc, rpToPossibleTk_eq]
  simp only [tickToRp_eq]

theorem feeBelowAbove_scale {p : Pool} {sel : Fees → Decimal} {t : Nat} {a b : Decimal}
    (h : p.feeBelowAbove sel t = .ok (a, b)) (h0 : (sel p.gs.fees).scale = 12)
    (ht : ∀ t ts, mapGet t p.ticks = some ts → (sel ts.fees).scale = 12) : a.scale = 12 := by
  unfold Pool.feeBelowAbove at h
  simp only at h
  cases hm : mapGet t p.ticks with
  | none =>
    rw [hm] at h
    simp only [pure_ok, Prod.mk.injEq] at h
    rw [← h.1, h0]
  | some ts =>
    rw [hm] at h
    simp only at h
    rw [bind_ok] at h; obtain ⟨o, ho, h⟩ := h
    rw [ite_ok] at h
    rcases h with ⟨_, h⟩ | ⟨_, h⟩ <;> simp only [pure_ok, Prod.mk.injEq] at h <;> rw [← h.1]
    · exact ht _ _ hm
    · rw [sub_scale ho, h0]

theorem feeRng_scale {p : Pool} {sel : Fees → Decimal} {l u : Nat} {e : Decimal}
    (h : p.feeRng sel l u = .ok e) (h0 : (sel p.gs.fees).scale = 12)
    (ht : ∀ t ts, mapGet t p.ticks = some ts → (sel ts.fees).scale = 12) : e.scale = 12 := by
  unfold Pool.feeRng at h
  rw [bind_ok] at h; obtain ⟨⟨a, b⟩, h1, h⟩ := h
  rw [bind_ok] at h; obtain ⟨⟨a', b'⟩, h2, h⟩ := h
  simp only at h
  rw [bind_ok] at h; obtain ⟨s1, h3, h⟩ := h
  rw [bind_ok] at h; obtain ⟨s2, h4, h⟩ := h
  rw [bind_ok] at h; obtain ⟨_, _, h⟩ := h
  rw [bind_ok] at h; obtain ⟨e1, h5, h⟩ := h
  rw [bind_ok] at h; obtain ⟨e2, h6, h⟩ := h
  rw [ite_ok] at h
  rcases h with ⟨_, h⟩ | ⟨_, h⟩
  · simp [rpanic] at h
  rw [pure_ok] at h
  rw [← h, sub_scale h6, sub_scale h5, Pool.add_scale (unwrap_ok.1 h3), feeBelowAbove_scale h1 h0 ht]

/-- What the proofs below use of a pool: the records are kept with twelve decimal places. -/
structure Kept (p : Pool) : Prop where
  rp : p.gs.rp.scale = 12
  growth : ∀ k : Kind, (p.gs.fees.at k).scale = 12
  tick : ∀ k : Kind, ∀ t ts, mapGet t p.ticks = some ts → (ts.fees.at k).scale = 12

theorem Kept.rng {p : Pool} (h : Kept p) (k : Kind) {l u : Nat} {e : Decimal} (he : p.feeRng (fun f => f.at k) l u = .ok e) :
    e.scale = 12 := feeRng_scale he (h.growth k) (h.tick k)

theorem setPosition_eq {p : Pool} (hk : Kept p) (user lower upper : Nat) (d : Decimal) :
    setPosition p user lower upper d = p.setPosition user lower upper d := by
  unfold setPosition Pool.setPosition
  refine bind_same fun a1 h1 => bind_same fun a2 h2 => bind_same fun a3 h3 => bind_same fun a4 h4 => ?_
  have e1 := hk.rng .fx h1
  have e2 := hk.rng .fy h2
  have e3 := hk.rng .hx h3
  have e4 := hk.rng .hy h4
  refine bind_same fun ⟨ps, old, base⟩ _ => ?_
  simp only
  refine bind_same fun f1 g1 => bind_same fun f2 g2 => bind_same fun f3 g3 => bind_same fun f4 g4 => ?_
  have := sub_scale g1
  have := sub_scale g2
  have := sub_scale g3
  have := sub_scale g4
  rw [mul_eq (by omega), mul_eq (by omega), mul_eq (by omega), mul_eq (by omega)]

theorem deposit_eq {p : Pool} (hk : Kept p) (user : Nat) (x y rpa rpb : Decimal) :
    deposit p user x y rpa rpb = p.deposit user x y rpa rpb := by
  unfold deposit Pool.deposit rpToPossibleTick Pool.rpToPossibleTick
  rw [rpToPossibleTk_eq]
  refine bind_same fun _ _ => bind_same fun _ _ => bind_same fun _ _ => bind_same fun _ _ => bind_same fun lower _ => ?_
  rw [rpToPossibleTk_eq]
  refine bind_same fun upper _ => bind_same fun _ _ => ?_
  rw [tickToRp_eq, tickToRp_eq]
  refine bind_same fun a ha => bind_same fun b hb => ?_
  have ea := World.rp_scale ha
  have eb := World.rp_scale hb
  have ep := hk.rp
  simp only
  rw [liqFromXYRpRng_eq (by omega) (by omega) (by omega)]
  refine bind_same fun liq _ => ?_
  split
  · rfl
  rw [xFromLRpRng_eq (by omega) (by omega) (by omega)]
  refine bind_same fun xIn _ => bind_same fun t _ => ?_
  split
  · rfl
  rw [yFromLRpRng_eq (by omega) (by omega) (by omega)]
  refine bind_same fun yIn _ => bind_same fun t _ => ?_
  split
  · rfl
  rw [setPosition_eq hk]

theorem withdraw_eq {p : Pool} (hk : Kept p) (user : Nat) (liq rpa rpb : Decimal) :
    withdraw p user liq rpa rpb = p.withdraw user liq rpa rpb := by
  unfold withdraw Pool.withdraw rpToPossibleTick Pool.rpToPossibleTick
  rw [rpToPossibleTk_eq]
  refine bind_same fun _ _ => bind_same fun lower _ => ?_
  rw [rpToPossibleTk_eq]
  refine bind_same fun upper _ => bind_same fun _ _ => ?_
  rw [tickToRp_eq, tickToRp_eq]
  refine bind_same fun a ha => bind_same fun b hb => ?_
  have ea := World.rp_scale ha
  have eb := World.rp_scale hb
  rw [setPosition_eq hk]
  refine bind_same fun ⟨q, f⟩ hq => ?_
  have ep : q.gs.rp.scale = 12 := by rw [Pool.setPosition_frame hq]; exact hk.rp
  simp only
  rw [xFromLRpRng_eq (by omega) (by omega) (by omega)]
  refine bind_same fun xOut _ => ?_
  rw [yFromLRpRng_eq (by omega) (by omega) (by omega)]
  refine bind_same fun yOut _ => bind_same fun adj hadj => ?_
  have := sub_scale hadj
  have := one_scale
  rw [mul_eq (by omega), mul_eq (by omega)]

/-! ### Swaps -/

/-- Equal results, except that the program with checks may panic where `Z` holds. -/
def Same {α : Type} (Z : Prop) (x y : R α) : Prop := x = y ∨ (Z ∧ y = .error .panic)

theorem Same.refl {α : Type} {Z : Prop} (x : R α) : Same Z x x := .inl rfl

theorem Same.of {α : Type} {Z : Prop} {x y : R α} (h : x = y) : Same Z x y := .inl h

theorem Same.bind {α β : Type} {Z : Prop} {x y : R α} {f g : α → R β} (h : Same Z x y)
    (hf : ∀ a, y = .ok a → Same Z (f a) (g a)) : Same Z (x >>= f) (y >>= g) := by
  rcases h with rfl | ⟨hz, rfl⟩
  · cases x with
    | error e => exact .inl rfl
    | ok a => exact hf a rfl
  · exact .inr ⟨hz, rfl⟩

theorem Same.next {α β : Type} {Z : Prop} {x : R α} {f g : α → R β}
    (hf : ∀ a, x = .ok a → Same Z (f a) (g a)) : Same Z (x >>= f) (x >>= g) := Same.bind (.refl x) hf

theorem wrapSub_eq {t : Nat} (h : 1 ≤ t) : checkedSub t 1 = .ok (wrapSub t 1) := by
  unfold checkedSub wrapSub
  rw [if_pos h, if_pos h]

theorem checked_zero : checkedSub 0 1 = .error .panic := rfl

theorem crossTick_same {Z : Prop} {p : Pool} {t : Nat} {b : Bool} (hz : b = false → t = 0 → (mapGet t p.ticks).isSome → Z) :
    Same Z (crossTick p t b) (p.crossTick t b) := by
  unfold crossTick Pool.crossTick
  split
  · exact .refl _
  simp only
  cases hm : mapGet t p.ticks with
  | none => exact .refl _
  | some ts =>
    simp only
    refine Same.next fun fx _ => Same.next fun fy _ => Same.next fun hx _ => Same.next fun hy _ => ?_
    refine Same.bind ?_ fun _ _ => .refl _
    cases b with
    | true => exact .refl _
    | false =>
      simp only [Bool.false_eq_true, if_false]
      by_cases h0 : t = 0
      · subst h0
        exact .inr ⟨hz rfl rfl (by rw [hm]; rfl), rfl⟩
      · rw [wrapSub_eq (by omega)]
        exact .of (tkToPossibleTk_eq _ _ _)

theorem crossTick_right {p : Pool} {t : Nat} : crossTick p t true = p.crossTick t true := by
  rcases crossTick_same (Z := False) (p := p) (t := t) (b := true) (by simp) with h | h
  · exact h
  · exact h.1.elim

theorem leftLimit_eq (p : Pool) (t : Nat) : leftLimit p t = p.leftLimit t := by
  unfold leftLimit Pool.leftLimit tickToPossibleTick Pool.tickToPossibleTick
  rw [tkToPossibleTk_eq]

theorem rightLimit_eq (p : Pool) (t g : Nat) : rightLimit p t g = p.rightLimit t g := by
  unfold rightLimit Pool.rightLimit tickToPossibleTick Pool.tickToPossibleTick
  rw [tkToPossibleTk_eq]

/-- What the swaps keep. -/
structure Flat (Z : Prop) (p : Pool) : Prop where
  liq : p.gs.liq.scale = 12
  rp : p.gs.rp.scale = 12
  c : p.c.scale ≤ 50
  spacing : p.spacing < 2 ^ 128
  bottom : (mapGet 0 p.ticks).isSome → Z

theorem Flat.cross {Z : Prop} {p p' : Pool} (h : Flat Z p) {t : Nat} {b : Bool} (hc : p.crossTick t b = .ok p') : Flat Z p' := by
  obtain ⟨ts, fx, fy, hx, hy, nt, n, hm, _, _, _, _, _, _, _, hn, _, rfl⟩ := Pool.crossTick_ok hc
  refine ⟨by simp only; rw [Pool.add_scale hn]; exact h.liq, h.rp, h.c, h.spacing, fun h0 => h.bottom ?_⟩
  simp only at h0
  by_cases e : t = 0
  · subst e; rw [hm]; rfl
  · rwa [mapGet_set_other (Ne.symm e)] at h0

theorem Flat.move {Z : Prop} {p : Pool} (h : Flat Z p) {t : Nat} {rp : Decimal} (hr : rp.scale = 12) :
    Flat Z ((p.setTick t).setRp rp) := ⟨h.liq, hr, h.c, h.spacing, h.bottom⟩

theorem left_same {Z : Prop} : ∀ (tks : List Nat) {p : Pool}, Flat Z p →
    Same Z (tryInRangeLeft tks p) (Pool.tryInRangeLeft tks p) ∧
    ∀ p' g rp, Pool.tryInRangeLeft tks p = .ok (p', g, rp) → Flat Z p' ∧ rp.scale = 12
  | [], p, h => by
    refine ⟨.refl _, fun p' g rp h' => ?_⟩
    simp only [Pool.tryInRangeLeft, ok_inj, Prod.mk.injEq] at h'
    obtain ⟨rfl, rfl, rfl⟩ := h'
    exact ⟨h, h.rp⟩
  | tk :: tks, p, h => by
    unfold tryInRangeLeft Pool.tryInRangeLeft
    by_cases hg : tk > p.gs.tick
    · rw [if_pos hg, if_pos hg]
      exact left_same tks h
    rw [if_neg hg, if_neg hg, tickToRp_eq]
    constructor
    · refine Same.next fun rp hrp => ?_
      have h1 := h.move (t := tk) (World.rp_scale hrp)
      simp only
      refine Same.bind (crossTick_same fun _ e hm => h1.bottom (by rw [e] at hm; exact hm)) fun q hq => ?_
      rw [leftLimit_eq]
      refine Same.next fun g _ => ?_
      split
      · exact .refl _
      split
      · exact .refl _
      · exact (left_same tks (h1.cross hq)).1
    · intro p' g rp h'
      rw [bind_ok] at h'; obtain ⟨rp0, hrp, h'⟩ := h'
      have h1 := h.move (t := tk) (World.rp_scale hrp)
      simp only at h'
      rw [bind_ok] at h'; obtain ⟨q, hq, h'⟩ := h'
      have h2 := h1.cross hq
      rw [bind_ok] at h'; obtain ⟨g', _, h'⟩ := h'
      rw [ite_ok] at h'; rcases h' with ⟨_, h'⟩ | ⟨_, h'⟩
      · simp [rpanic] at h'
      rw [ite_ok] at h'; rcases h' with ⟨_, h'⟩ | ⟨_, h'⟩
      · simp only [pure_ok, Prod.mk.injEq] at h'
        obtain ⟨rfl, rfl, rfl⟩ := h'
        exact ⟨h2, h2.rp⟩
      · exact (left_same tks h2).2 _ _ _ h'

theorem right_same {Z : Prop} : ∀ (tks : List Nat) {p : Pool}, Flat Z p →
    tryInRangeRight tks p = Pool.tryInRangeRight tks p ∧
    ∀ p' g rp, Pool.tryInRangeRight tks p = .ok (p', g, rp) → Flat Z p' ∧ rp.scale = 12
  | [], p, h => by
    refine ⟨rfl, fun p' g rp h' => ?_⟩
    simp only [Pool.tryInRangeRight, ok_inj, Prod.mk.injEq] at h'
    obtain ⟨rfl, rfl, rfl⟩ := h'
    exact ⟨h, h.rp⟩
  | tk :: tks, p, h => by
    unfold tryInRangeRight Pool.tryInRangeRight
    by_cases hg : tk ≤ p.gs.tick
    · rw [if_pos hg, if_pos hg]
      exact right_same tks h
    rw [if_neg hg, if_neg hg, tickToRp_eq]
    constructor
    · refine bind_same fun rp hrp => ?_
      have h1 := h.move (t := tk) (World.rp_scale hrp)
      simp only
      refine bind_both crossTick_right fun q hq => ?_
      rw [rightLimit_eq]
      refine bind_same fun g _ => ?_
      split
      · rfl
      split
      · rfl
      · exact (right_same tks (h1.cross hq)).1
    · intro p' g rp h'
      rw [bind_ok] at h'; obtain ⟨rp0, hrp, h'⟩ := h'
      have h1 := h.move (t := tk) (World.rp_scale hrp)
      simp only at h'
      rw [bind_ok] at h'; obtain ⟨q, hq, h'⟩ := h'
      have h2 := h1.cross hq
      rw [bind_ok] at h'; obtain ⟨g', _, h'⟩ := h'
      rw [ite_ok] at h'; rcases h' with ⟨_, h'⟩ | ⟨_, h'⟩
      · simp [rpanic] at h'
      rw [ite_ok] at h'; rcases h' with ⟨_, h'⟩ | ⟨_, h'⟩
      · simp only [pure_ok, Prod.mk.injEq] at h'
        obtain ⟨rfl, rfl, rfl⟩ := h'
        exact ⟨h2, h2.rp⟩
      · exact (right_same tks h2).2 _ _ _ h'

theorem getX_same {Z : Prop} {p : Pool} (h : Flat Z p) : Same Z (tryGetInRange p false) (p.tryGetInRange false) := by
  unfold tryGetInRange Pool.tryGetInRange
  split
  · exact .refl _
  · simp only [Bool.false_eq_true, if_false]
    exact Same.bind (left_same _ h).1 fun _ _ => .refl _

theorem getY_eq {Z : Prop} {p : Pool} (h : Flat Z p) : tryGetInRange p true = p.tryGetInRange true := by
  unfold tryGetInRange Pool.tryGetInRange
  split
  · rfl
  · simp only [if_true]
    rw [(right_same _ h).1]

theorem get_flat {Z : Prop} {p p' : Pool} (h : Flat Z p) {b : Bool} {g : Option Nat} {rp : Decimal}
    (hg : p.tryGetInRange b = .ok (p', g, rp)) : Flat Z p' ∧ rp.scale = 12 := by
  obtain ⟨h1, _, _⟩ := Pool.tryGetInRange_ok hg
  cases b with
  | true => simp only [if_true] at h1; exact (right_same _ h).2 _ _ _ h1
  | false => simp only [Bool.false_eq_true, if_false] at h1; exact (left_same _ h).2 _ _ _ h1

theorem tickLoop_panics {t : Nat} (h1 : 2 ^ 19 ≤ t) (h2 : t < 2 ^ 128) (rp : Decimal) (b : Bool) :
    PoolMath.rpToTickLoop rp b t = .error .panic := by
  have h := PoolMath.tickToRp_panics h1 h2
  unfold PoolMath.tickToRp at h
  unfold PoolMath.rpToTickLoop
  rw [PoolMath.tickBaseRoot_eq] at h ⊢
  rw [PoolMath.bind_eq] at h ⊢
  rw [h]
  rfl

theorem tk_top {sp : Nat} (h0 : sp ≠ 0) :
    PoolMath.tkToPossibleTk (2 ^ 128 - 1) sp false = .ok ((2 ^ 128 - 1) / sp * sp) := by
  have h1 : (1 : ℕ) < u128Size := by decide
  have hu : (2 : ℕ) ^ 128 = u128Size := rfl
  generalize hN : (2 : ℕ) ^ 128 - 1 = N
  have hlt : N < u128Size := by rw [← hN, hu]; decide
  have hd : (Decimal.fromInt N).div (Decimal.fromInt sp) = .ok ⟨N / sp, 0, false⟩ :=
    div_ok.2 ⟨by unfold Decimal.fromInt; simpa using hlt, by unfold Decimal.fromInt; simpa using h1, h0, by simp [Decimal.fromInt]⟩
  have hm : (Decimal.mk (N / sp) 0 false).mul (Decimal.fromInt sp) = .ok ⟨N / sp * sp, 0, false⟩ := by
    refine mul_ok.2 ⟨?_, by unfold Decimal.fromInt; simpa using h1, by simp [Decimal.fromInt]⟩
    have := Nat.div_mul_le_self N sp
    unfold Decimal.fromInt; simp only; omega
  unfold PoolMath.tkToPossibleTk
  simp only [Bool.false_eq_true, if_false, hd, bind, Except.bind, hm]
  rfl

theorem seek_panics {sp : Nat} (hs : sp < 2 ^ 128) (rp : Decimal) {β : Type} (f : Nat → R β) :
    (PoolMath.tkToPossibleTk (wrapSub 0 1) sp false >>= fun sk => PoolMath.rpToTickLoop rp false sk >>= f) =
      .error .panic := by
  have e : wrapSub 0 1 = 2 ^ 128 - 1 := by decide
  rw [e]
  by_cases h0 : sp = 0
  · subst h0
    rw [PoolMath.tk_zero]
    rfl
  · rw [tk_top h0, PoolMath.bind_eq]
    generalize hN : (2 : ℕ) ^ 128 - 1 = N
    have h1 : 1 ≤ N / sp := (Nat.one_le_div_iff (by omega)).2 (by omega)
    have h2 := Nat.div_add_mod N sp
    have h3 := Nat.mod_lt N (Nat.pos_of_ne_zero h0)
    have h4 : sp ≤ N / sp * sp := Nat.le_mul_of_pos_left _ h1
    rw [Nat.mul_comm sp] at h2
    rw [tickLoop_panics (by omega) (by omega)]
    rfl

/-- Where the tick above which the search starts wraps, the search panics. -/
theorem fillX_eq {p : Pool} {o : Decimal} {g : Nat} {l d : Decimal} (hl : l.scale = 12) (ho : o.scale = 12) :
    fillX p o g l d = p.fillX o g l d := by
  unfold fillX Pool.fillX
  rw [tickToRp_eq]
  refine bind_same fun rpG hG => ?_
  have eG := World.rp_scale hG
  refine bind_same fun t _ => ?_
  split
  · rfl
  refine bind_same fun ff hff => ?_
  have e1 := sub_scale hff
  have e2 := (sub_ok.1 (unwrap_ok.1 hff)).1
  have e3 := one_scale
  rw [mul_eq (by omega)]
  refine bind_same fun m _ => ?_
  rw [dxFromLDrp_eq (by omega) (by omega)]
  refine bind_same fun k _ => ?_
  split
  · rfl
  refine bind_same fun t _ => ?_
  split
  · rw [div_eq (by omega)]
    refine bind_same fun q _ => ?_
    rw [mul_eq (by omega)]
  · refine bind_same fun fee _ => ?_
    rw [rpNewFromLDx_eq (by omega) (by omega)]
    refine bind_same fun e _ => ?_
    by_cases h0 : g = 0
    · subst h0
      rw [rpToTickLoop_eq, tickLoop_panics (by decide) (by decide)]
      rfl
    · rw [wrapSub_eq (by omega), rpToTickLoop_eq]
      rfl

theorem fillY_eq {p : Pool} {o : Decimal} {g : Nat} {l d : Decimal} (hs : p.spacing < 2 ^ 128) (hl : l.scale = 12)
    (ho : o.scale = 12) : fillY p o g l d = p.fillY o g l d := by
  unfold fillY Pool.fillY
  rw [tickToRp_eq]
  refine bind_same fun rpG hG => ?_
  have eG := World.rp_scale hG
  refine bind_same fun t _ => ?_
  split
  · rfl
  refine bind_same fun ff hff => ?_
  have e1 := sub_scale hff
  have e2 := (sub_ok.1 (unwrap_ok.1 hff)).1
  have e3 := one_scale
  rw [mul_eq (by omega)]
  refine bind_same fun m _ => ?_
  rw [dyFromLDrp_eq (by omega)]
  refine bind_same fun k _ => ?_
  split
  · rfl
  refine bind_same fun t _ => ?_
  split
  · rw [div_eq (by omega)]
    refine bind_same fun q _ => ?_
    rw [mul_eq (by omega)]
  · refine bind_same fun fee _ => ?_
    rw [rpNewFromLDy_eq (by omega)]
    refine bind_same fun e _ => ?_
    unfold tickToPossibleTick Pool.tickToPossibleTick
    rw [tkToPossibleTk_eq]
    by_cases h0 : p.gs.tick = 0
    · rw [h0, checked_zero]
      simp only [rpToTickLoop_eq]
      rw [seek_panics hs]
      rfl
    · rw [wrapSub_eq (by omega), PoolMath.bind_eq]
      simp only [rpToTickLoop_eq]

theorem gte_scales {a b : Decimal} {t : Bool} (h : unwrap (a.gte b) = .ok t) : a.scale = b.scale := by
  rw [unwrap_ok] at h
  unfold Decimal.gte at h
  rw [ite_ok] at h
  rcases h with ⟨_, h⟩ | ⟨h, _⟩
  · simp [rerr] at h
  · simpa using h

theorem lte_scales {a b : Decimal} {t : Bool} (h : unwrap (a.lte b) = .ok t) : a.scale = b.scale := by
  rw [unwrap_ok] at h
  unfold Decimal.lte at h
  rw [ite_ok] at h
  rcases h with ⟨_, h⟩ | ⟨h, _⟩
  · simp [rerr] at h
  · simpa using h

theorem doneDyX_eq {fl : FloatEnv} {p : Pool} {a b l o d : Decimal} (hc : p.c.scale ≤ 50) (ha : a.scale = 12) (hb : b.scale = 12)
    (hl : l.scale = 12) : doneDyX fl p a b l o d = Pool.doneDyX fl p a b l o d := by
  unfold doneDyX Pool.doneDyX
  split
  · rfl
  refine bind_same fun t ht => ?_
  have := gte_scales ht
  split
  · rfl
  refine bind_same fun t ht => ?_
  split
  · rw [dyFromLDrpHmm_eq (by omega) (by omega) hc (by omega), dyFromLDrp_eq (by omega)]
  · refine bind_same fun t ht => ?_
    split
    · exact dyFromLDrpHmm_eq (by omega) (by omega) hc (by omega)
    · rfl

theorem doneDxY_eq {fl : FloatEnv} {p : Pool} {a b l o d : Decimal} (hc : p.c.scale ≤ 50) (ha : a.scale = 12) (hb : b.scale = 12) :
    doneDxY fl p a b l o d = Pool.doneDxY fl p a b l o d := by
  unfold doneDxY Pool.doneDxY
  split
  · rfl
  refine bind_same fun t ht => ?_
  have := lte_scales ht
  split
  · rfl
  refine bind_same fun t ht => ?_
  split
  · rw [dxFromLDrpHmm_eq (by omega) (by omega) hc (by omega), dxFromLDrp_eq (by omega) (by omega)]
  · refine bind_same fun t ht => ?_
    split
    · exact dxFromLDrpHmm_eq (by omega) (by omega) hc (by omega)
    · rfl

theorem dxFromLDrp_scale {l o n c : Decimal} (h : PoolMath.dxFromLDrp l o n = .ok c) : c.scale = l.scale := by
  unfold PoolMath.dxFromLDrp at h
  rw [ite_ok] at h
  rcases h with ⟨_, h⟩ | ⟨_, h⟩
  · simp [rpanic] at h
  rw [bind_ok] at h; obtain ⟨_, _, h⟩ := h
  rw [bind_ok] at h; obtain ⟨_, _, h⟩ := h
  rw [bind_ok] at h; obtain ⟨_, hm, h⟩ := h
  rw [div_scale h, mul_scale hm]

theorem fillX_scale {p : Pool} {o l d c f rp : Decimal} {g t : Nat} {b : Bool} (hl : l.scale = 12) (hd : d.scale = 12)
    (h : p.fillX o g l d = .ok (c, f, b, t, rp)) : c.scale = 12 ∧ rp.scale = 12 := by
  obtain ⟨rpG, _, m, k, hG, _, _, hm, hk, _, ⟨_, _, e, _, e', _⟩ | ⟨_, _, e, _, _, _, _, _, e'⟩⟩ := Pool.fillX_ok h
  · rw [e, e', dxFromLDrp_scale hk]; exact ⟨hl, World.rp_scale hG⟩
  · rw [e, (lt_le e').1, mul_scale hm]; exact ⟨hd, World.rp_scale hG⟩

theorem fillY_scale {p : Pool} {o l d c f rp : Decimal} {g t : Nat} {b : Bool}
    (h : p.fillY o g l d = .ok (c, f, b, t, rp)) : rp.scale = 12 := by
  obtain ⟨rpG, _, m, k, hG, _, _, hm, hk, _, ⟨_, _, e, _, e', _⟩ | ⟨_, _, e, _, _, _, _, _, e'⟩⟩ := Pool.fillY_ok h
  · rw [e']; exact World.rp_scale hG
  · rw [(gt_le e').1]; exact World.rp_scale hG

theorem swapWithinX_eq {fl : FloatEnv} {p : Pool} {rp l d o : Decimal} {g : Nat} (hc : p.c.scale ≤ 50) (hr : rp.scale = 12)
    (hl : l.scale = 12) (hd : d.scale = 12) : swapWithinX fl p rp g l d o = p.swapWithinX fl rp g l d o := by
  unfold swapWithinX Pool.swapWithinX
  split
  · rfl
  refine bind_both (fillX_eq hl hr) fun ⟨dx, fee, cr, t, e⟩ hf => ?_
  obtain ⟨s1, s2⟩ := fillX_scale hl hd hf
  simp only
  rw [dyFromLDrp_eq (by omega)]
  refine bind_same fun m _ => ?_
  rw [doneDyX_eq hc hr s2 hl]
  refine bind_same fun k _ => bind_same fun j _ => ?_
  split
  · rfl
  split
  · rfl
  refine bind_same fun z _ => ?_
  split
  · rfl
  refine ?_
  split
  · refine bind_same fun q hq => ?_
    have := Pool.add_scale (unwrap_ok.1 hq)
    rw [div_eq (by omega), powInt_eq (by omega)]
  · rfl

theorem swapWithinY_eq {fl : FloatEnv} {p : Pool} {rp l d o : Decimal} {g : Nat} (hs : p.spacing < 2 ^ 128)
    (hc : p.c.scale ≤ 50) (hr : rp.scale = 12)
    (hl : l.scale = 12) : swapWithinY fl p rp g l d o = p.swapWithinY fl rp g l d o := by
  unfold swapWithinY Pool.swapWithinY
  split
  · rfl
  refine bind_both (fillY_eq hs hl hr) fun ⟨dy, fee, cr, t, e⟩ hf => ?_
  have s2 := fillY_scale hf
  simp only
  rw [dxFromLDrp_eq (by omega) (by omega)]
  refine bind_same fun m hm => ?_
  have := dxFromLDrp_scale hm
  rw [doneDxY_eq hc hr s2]
  refine bind_same fun k _ => bind_same fun j hj => ?_
  have e1 := (sub_ok.1 (unwrap_ok.1 hj)).1
  split
  · rfl
  split
  · rfl
  refine bind_same fun z _ => ?_
  split
  · rfl
  refine ?_
  split
  · refine bind_same fun q _ => ?_
    rw [div_eq (by omega), powInt_eq (by omega)]
  · rfl

/-- The totals of a sale have twelve decimal places. -/
structure Level (a : Pool.SwapAcc) : Prop where
  recv : a.recv.scale = 12
  send : a.send.scale = 12
  rp : a.currRp.scale = 12

theorem finishX_eq {p : Pool} {a : Pool.SwapAcc} (hp : p.gs.rp.scale = 12) (ha : Level a) : finishX p a = Pool.finishX p a := by
  unfold finishX Pool.finishX
  rw [div_eq (by have := ha.recv; omega), powInt_eq (by omega)]

theorem finishY_eq {p : Pool} {a : Pool.SwapAcc} (hp : p.gs.rp.scale = 12) (ha : Level a) : finishY p a = Pool.finishY p a := by
  unfold finishY Pool.finishY
  rw [div_eq (by have := ha.send; rw [neg_scale]; omega), powInt_eq (by omega)]

theorem stepX_same {Z : Prop} {fl : FloatEnv} {d o : Decimal} {p : Pool} {a : Pool.SwapAcc} {g : Nat} (hp : Flat Z p)
    (ha : Level a) : Same Z (stepX fl d o p a g) (Pool.stepX fl d o p a g) := by
  unfold stepX Pool.stepX
  refine Same.next fun rem hrem => ?_
  have e1 := Pool.rem_scale ha.recv (unwrap_ok.1 hrem)
  rw [swapWithinX_eq hp.c ha.rp hp.liq e1]
  refine Same.next fun r _ => Same.next fun _ _ => Same.next fun _ _ => Same.next fun _ _ => Same.next fun _ _ =>
    Same.next fun _ _ => Same.next fun _ _ => Same.next fun _ _ => Same.next fun _ _ => Same.next fun _ _ =>
    Same.next fun _ _ => Same.next fun _ _ => Same.next fun _ _ => Same.next fun _ _ => Same.next fun _ _ => ?_
  simp only
  have hl : p.gs.liq.scale ≤ 38 := by have := hp.liq; omega
  refine Same.bind (.of ?_) fun q hq => ?_
  · split
    · refine bind_both (div_eq hl) fun _ _ => bind_same fun _ _ => bind_both (div_eq hl) fun _ _ => rfl
    · rfl
  have hq : q.ticks = p.ticks := by
    rw [ite_ok] at hq
    rcases hq with ⟨_, hq⟩ | ⟨_, hq⟩
    · rw [bind_ok] at hq; obtain ⟨_, _, hq⟩ := hq
      rw [bind_ok] at hq; obtain ⟨_, _, hq⟩ := hq
      rw [bind_ok] at hq; obtain ⟨_, _, hq⟩ := hq
      rw [bind_ok] at hq; obtain ⟨_, _, hq⟩ := hq
      rw [pure_ok] at hq; rw [← hq]; rfl
    · cases hq; rfl
  refine Same.bind ?_ fun _ _ => .refl _
  split
  · refine Same.next fun _ _ => ?_
    split
    · exact crossTick_same fun _ e hm => hp.bottom (by rw [e, hq] at hm; exact hm)
    · exact .refl _
  · exact .refl _

theorem stepY_eq {Z : Prop} {fl : FloatEnv} {d o : Decimal} {p : Pool} {a : Pool.SwapAcc} {g : Nat} (hp : Flat Z p)
    (ha : Level a) : stepY fl d o p a g = Pool.stepY fl d o p a g := by
  unfold stepY Pool.stepY
  refine bind_same fun rem _ => ?_
  rw [swapWithinY_eq hp.spacing hp.c ha.rp hp.liq]
  refine bind_same fun r _ => bind_same fun _ _ => bind_same fun _ _ => bind_same fun _ _ => bind_same fun _ _ =>
    bind_same fun _ _ => bind_same fun _ _ => bind_same fun _ _ => bind_same fun _ _ => bind_same fun _ _ =>
    bind_same fun _ _ => bind_same fun _ _ => bind_same fun _ _ => bind_same fun _ _ => bind_same fun _ _ => ?_
  simp only
  have hl : p.gs.liq.scale ≤ 38 := by have := hp.liq; omega
  refine bind_both ?_ fun q hq => ?_
  · split
    · refine bind_both (div_eq hl) fun _ _ => bind_same fun _ _ => bind_both (div_eq hl) fun _ _ => rfl
    · rfl
  refine bind_both ?_ fun _ _ => rfl
  split
  · refine bind_same fun _ _ => ?_
    split
    · exact crossTick_right
    · rfl
  · rfl

theorem stepX_flat {Z : Prop} {fl : FloatEnv} {d o : Decimal} {p p' : Pool} {a a' : Pool.SwapAcc} {g : Nat} (hp : Flat Z p)
    (ha : Level a) (h : Pool.stepX fl d o p a g = .ok (p', a')) : Flat Z p' ∧ Level a' := by
  obtain ⟨rem, r, ysum, newY, c1, chk, rs, newX, xFee, yAdj, fees, p1, h1, h2, _, _, _, _, _, _, h3, h4, h5,
    _, _, _, hr, _, _, _, _, hp1, hc⟩ := Pool.stepX_ok h
  obtain ⟨_, _, _, hf, _⟩ := Pool.swapWithinX_ok h2
  have e := (fillX_scale hp.liq (Pool.rem_scale ha.recv h1) hf).2
  have hp1' : Flat Z p1 := by rw [hp1]; exact ⟨hp.liq, e, hp.c, hp.spacing, hp.bottom⟩
  refine ⟨?_, ⟨by rw [Pool.add_scale h4, Pool.add_scale h3, ha.recv], by rw [Pool.add_scale h5, ha.send], by rw [hr, e]⟩⟩
  rcases hc with ⟨_, _, _, hc⟩ | ⟨_, _, _, rfl⟩ | ⟨_, rfl⟩
  · exact hp1'.cross hc
  · exact hp1'
  · exact hp1'

theorem stepY_flat {Z : Prop} {fl : FloatEnv} {d o : Decimal} {p p' : Pool} {a a' : Pool.SwapAcc} {g : Nat} (hp : Flat Z p)
    (ha : Level a) (h : Pool.stepY fl d o p a g = .ok (p', a')) : Flat Z p' ∧ Level a' := by
  obtain ⟨rem, r, ysum, newY, c1, chk, rs, newX, xFee, yAdj, fees, p1, h1, h2, _, _, _, _, _, _, h3, h4, h5,
    _, _, _, hr, _, _, _, _, hp1, hc⟩ := Pool.stepY_ok h
  obtain ⟨_, _, _, hf, _⟩ := Pool.swapWithinY_ok h2
  have e := fillY_scale hf
  have hp1' : Flat Z p1 := by rw [hp1]; exact ⟨hp.liq, e, hp.c, hp.spacing, hp.bottom⟩
  refine ⟨?_, ⟨by rw [Pool.add_scale h4, Pool.add_scale h3, ha.recv], by rw [Pool.add_scale h5, ha.send], by rw [hr, e]⟩⟩
  rcases hc with ⟨_, _, _, hc⟩ | ⟨_, _, _, rfl⟩ | ⟨_, rfl⟩
  · exact hp1'.cross hc
  · exact hp1'
  · exact hp1'

theorem loopX_same {Z : Prop} {fl : FloatEnv} {d o : Decimal} : ∀ (n : Nat) {p : Pool} {a : Pool.SwapAcc}, Flat Z p → Level a →
    Same Z (loopX fl d o n p a) (Pool.loopX fl d o n p a)
  | 0, _, _, _, _ => .refl _
  | n + 1, p, a, hp, ha => by
    unfold loopX Pool.loopX
    refine Same.next fun t _ => ?_
    split
    · refine Same.bind ?_ fun ⟨q, goal, b⟩ hq => ?_
      · split
        · rw [leftLimit_eq]; exact .refl _
        · exact Same.bind (getX_same hp) fun _ _ => .refl _
      have hqb : Flat Z q ∧ Level b := by
        rw [ite_ok] at hq
        rcases hq with ⟨_, hq⟩ | ⟨_, hq⟩
        · rw [bind_ok] at hq; obtain ⟨_, _, hq⟩ := hq
          simp only [pure_ok, Prod.mk.injEq] at hq
          obtain ⟨rfl, rfl, rfl⟩ := hq
          exact ⟨hp, ha⟩
        · rw [bind_ok] at hq; obtain ⟨⟨q', g', rp'⟩, h1, hq⟩ := hq
          simp only [pure_ok, Prod.mk.injEq] at hq
          obtain ⟨rfl, rfl, rfl⟩ := hq
          obtain ⟨f1, f2⟩ := get_flat hp h1
          exact ⟨f1, ha.recv, ha.send, f2⟩
      cases goal with
      | none => exact .of (finishX_eq hqb.1.rp hqb.2)
      | some g =>
        refine Same.bind (stepX_same hqb.1 hqb.2) fun ⟨q', b'⟩ hs => ?_
        obtain ⟨f1, f2⟩ := stepX_flat hqb.1 hqb.2 hs
        exact loopX_same n f1 f2
    · exact .of (finishX_eq hp.rp ha)

theorem loopY_eq {Z : Prop} {fl : FloatEnv} {d o : Decimal} : ∀ (n : Nat) {p : Pool} {a : Pool.SwapAcc}, Flat Z p → Level a →
    loopY fl d o n p a = Pool.loopY fl d o n p a
  | 0, _, _, _, _ => rfl
  | n + 1, p, a, hp, ha => by
    unfold loopY Pool.loopY
    refine bind_same fun t _ => ?_
    split
    · refine bind_both ?_ fun ⟨q, goal, b⟩ hq => ?_
      · split
        · rw [rightLimit_eq]
        · rw [getY_eq hp]
      have hqb : Flat Z q ∧ Level b := by
        rw [ite_ok] at hq
        rcases hq with ⟨_, hq⟩ | ⟨_, hq⟩
        · rw [bind_ok] at hq; obtain ⟨_, _, hq⟩ := hq
          simp only [pure_ok, Prod.mk.injEq] at hq
          obtain ⟨rfl, rfl, rfl⟩ := hq
          exact ⟨hp, ha⟩
        · rw [bind_ok] at hq; obtain ⟨⟨q', g', rp'⟩, h1, hq⟩ := hq
          simp only [pure_ok, Prod.mk.injEq] at hq
          obtain ⟨rfl, rfl, rfl⟩ := hq
          obtain ⟨f1, f2⟩ := get_flat hp h1
          exact ⟨f1, ha.recv, ha.send, f2⟩
      cases goal with
      | none => exact finishY_eq hqb.1.rp hqb.2
      | some g =>
        refine bind_both (stepY_eq hqb.1 hqb.2) fun ⟨q', b'⟩ hs => ?_
        obtain ⟨f1, f2⟩ := stepY_flat hqb.1 hqb.2 hs
        exact loopY_eq n f1 f2
    · exact finishY_eq hp.rp ha

theorem acc0_level {p : Pool} (h : p.gs.rp.scale = 12) : Level p.acc0 := ⟨rfl, rfl, h⟩

theorem Kept.reachable {p : Pool} (h : Pool.Reachable p) : Kept p := by
  have ht := Pool.Tidy.reachable h
  exact ⟨(Pool.Owned.reachable h).rp, fun k => (ht.growth k).1.1, fun k t ts hm => ((ht.tick t ts hm).1 k).1⟩

/-- Constant and spacing stay as they were. -/
def Fixed (p0 p : Pool) : Prop := p.c = p0.c ∧ p.spacing = p0.spacing

theorem Fixed.step {p p' : Pool} (h : Pool.Step p p') : Fixed p p' := by
  cases h with
  | deposit h =>
    obtain ⟨_, _, _, _, _, _, _, _, _, _, _, _, _, _, _, _, _, _, _, _, _, _, _, _, hs, _, _, _, _, hf, rfl⟩ := Pool.deposit_ok h
    obtain ⟨_, _, _, e4, _, _, e7, _⟩ := Pool.payFees_frame hf
    have e := Pool.setPosition_frame hs
    have e1 := congrArg Pool.c e
    have e2 := congrArg Pool.spacing e
    exact ⟨e7.trans e1, e4.trans e2⟩
  | withdraw h =>
    obtain ⟨_, _, _, _, _, _, _, _, _, _, _, _, _, _, _, _, _, hs, _, _, _, _, _, _, _, _, _, _, _, hf, rfl⟩ := Pool.withdraw_ok h
    obtain ⟨_, _, _, e4, _, _, e7, _⟩ := Pool.payFees_frame hf
    have e := Pool.setPosition_frame hs
    have e1 := congrArg Pool.c e
    have e2 := congrArg Pool.spacing e
    exact ⟨e7.trans e1, e4.trans e2⟩
  | sellX h =>
    refine Pool.sellX_inv (P := Fixed p) h ⟨rfl, rfl⟩ (fun hp hg => ?_) (fun hp hs => ?_)
    · obtain ⟨sb, _⟩ := Pool.goalX_ok hg
      exact ⟨sb.c.trans hp.1, sb.spacing.trans hp.2⟩
    · obtain ⟨_, _, _, _, _, _, _, _, _, _, _, p1, _, _, _, _, _, _, _, _, _, _, _, _, _, _, _, _, _, _, _, hp1, hc⟩ :=
        Pool.stepX_ok hs
      have e : Fixed p p1 := by rw [hp1]; exact hp
      rcases hc with ⟨_, _, _, hc⟩ | ⟨_, _, _, rfl⟩ | ⟨_, rfl⟩
      · have sb := Pool.SameBooks.cross hc
        exact ⟨sb.c.trans e.1, sb.spacing.trans e.2⟩
      · exact e
      · exact e
  | sellY h =>
    refine Pool.sellY_inv (P := Fixed p) h ⟨rfl, rfl⟩ (fun hp hg => ?_) (fun hp hs => ?_)
    · obtain ⟨sb, _⟩ := Pool.goalY_ok hg
      exact ⟨sb.c.trans hp.1, sb.spacing.trans hp.2⟩
    · obtain ⟨_, _, _, _, _, _, _, _, _, _, _, p1, _, _, _, _, _, _, _, _, _, _, _, _, _, _, _, _, _, _, _, hp1, hc⟩ :=
        Pool.stepY_ok hs
      have e : Fixed p p1 := by rw [hp1]; exact hp
      rcases hc with ⟨_, _, _, hc⟩ | ⟨_, _, _, rfl⟩ | ⟨_, rfl⟩
      · have sb := Pool.SameBooks.cross hc
        exact ⟨sb.c.trans e.1, sb.spacing.trans e.2⟩
      · exact e
      · exact e

/-- A pool exists only with a constant of at most fifty decimal places. -/
theorem c_places {p : Pool} (h : Pool.Reachable p) : p.c.scale ≤ 50 := by
  induction h with
  | @new rp spacing c fee p h =>
    obtain ⟨_, _, _, _, _, _, _, e⟩ := Pool.new_ok h
    rw [e]
    show c.scale ≤ 50
    unfold Pool.new at h
    rw [ite_ok] at h; rcases h with ⟨_, h⟩ | ⟨_, h⟩; · simp [rpanic] at h
    rw [ite_ok] at h; rcases h with ⟨_, h⟩ | ⟨_, h⟩; · simp [rpanic] at h
    rw [bind_ok] at h; obtain ⟨c', hc, _⟩ := h
    unfold Decimal.toComputeScale at hc
    have h12 : computeScale = 12 := rfl
    rcases toScale_ok.1 hc with ⟨h1, h2, _⟩ | ⟨h1, h2, _⟩
    · have := pow10_lt_iff.1 h2; omega
    · omega
  | step hp h ih => rw [(Fixed.step h).1]; exact ih

theorem Flat.reachable {p : Pool} (h : Pool.Reachable p) (hs : p.spacing < 2 ^ 128) : Flat (0 ∈ p.ticks.map (·.1)) p :=
  ⟨(Pool.Tidy.reachable h).liq.1, (Pool.Owned.reachable h).rp, c_places h, hs, fun h0 => mapGet_isSome.1 h0⟩

theorem loopX_more {fl : FloatEnv} {d o : Decimal} {r : Pool × SwapOutput} : ∀ (n : Nat) {p : Pool} {a : Pool.SwapAcc},
    Pool.loopX fl d o n p a = .ok r → ∀ m, n ≤ m → Pool.loopX fl d o m p a = .ok r
  | 0, _, _, h, _, _ => by cases h
  | n + 1, p, a, h, m, hm => by
    obtain ⟨k, rfl⟩ : ∃ k, m = k + 1 := ⟨m - 1, by omega⟩
    rw [Pool.loopX_succ, bind_ok] at h
    obtain ⟨t, ht, h⟩ := h
    rw [Pool.loopX_succ, ht, PoolMath.bind_eq]
    cases t with
    | false => exact h
    | true =>
      rw [if_pos rfl] at h ⊢
      rw [bind_ok] at h
      obtain ⟨⟨q, g, b⟩, hg, h⟩ := h
      rw [hg, PoolMath.bind_eq]
      unfold Pool.afterGoalX at h ⊢
      cases g with
      | none => exact h
      | some g =>
        simp only at h ⊢
        rw [bind_ok] at h
        obtain ⟨⟨q', b'⟩, hs, h⟩ := h
        rw [hs, PoolMath.bind_eq]
        exact loopX_more n h k (by omega)

theorem loopY_more {fl : FloatEnv} {d o : Decimal} {r : Pool × SwapOutput} : ∀ (n : Nat) {p : Pool} {a : Pool.SwapAcc},
    Pool.loopY fl d o n p a = .ok r → ∀ m, n ≤ m → Pool.loopY fl d o m p a = .ok r
  | 0, _, _, h, _, _ => by cases h
  | n + 1, p, a, h, m, hm => by
    obtain ⟨k, rfl⟩ : ∃ k, m = k + 1 := ⟨m - 1, by omega⟩
    rw [Pool.loopY_succ, bind_ok] at h
    obtain ⟨t, ht, h⟩ := h
    rw [Pool.loopY_succ, ht, PoolMath.bind_eq]
    cases t with
    | false => exact h
    | true =>
      rw [if_pos rfl] at h ⊢
      rw [bind_ok] at h
      obtain ⟨⟨q, g, b⟩, hg, h⟩ := h
      rw [hg, PoolMath.bind_eq]
      unfold Pool.afterGoalY at h ⊢
      cases g with
      | none => exact h
      | some g =>
        simp only at h ⊢
        rw [bind_ok] at h
        obtain ⟨⟨q', b'⟩, hs, h⟩ := h
        rw [hs, PoolMath.bind_eq]
        exact loopY_more n h k (by omega)

end Hmm.Release.InMemory
