import Verif.Props.ProtoDeposit
import Verif.Props.ProtoCalls

/-
C132: withdrawals of the prototype and of the Rust twin, at the price of a tick.
-/

namespace Hmm.Proto

open F64

section
attribute [local irreducible] F64.unit limit

theorem holds_of {p : Flt.Pool} (hs : Sane p) {lo up : Nat} {l : F64} (h : Covers p lo up l) : Holds p lo up l.neg := by
  obtain ⟨ts, g1, n1⟩ := h.lower
  obtain ⟨tu, g2, n2⟩ := h.upper
  have e1 : p.tickOr lo = ts := by unfold Flt.Pool.tickOr; rw [g1]
  have e2 : p.tickOr up = tu := by unfold Flt.Pool.tickOr; rw [g2]
  have hn : NN (F64.add (p.tickOr lo).liqGross l.neg) := by rw [e1]; exact n1
  refine ⟨hn, ?_, fun hc => h.inside hc.1 hc.2, fun _ => hs.positions⟩
  obtain ⟨_, ticks, e, ho, _, _⟩ := Flt.Pool.updateTick_ok (update_eq (up := false) hn)
  have e : updated p lo l.neg false = ticks := congrArg Flt.Pool.ticks e
  have : Flt.Pool.tickOr { p with ticks := updated p lo l.neg false } up = tu := by
    unfold Flt.Pool.tickOr
    simp only [e]
    rw [ho up h.proper.symm, g2]
  rw [this]
  exact n2

theorem neg_is' {a : F64} {n : Int} (h : a.Is n) : a.neg.Is ((-n : Int) : ℚ) := by
  have := neg_is h
  push_cast
  exact this

/-- C132: a withdrawal that the prototype pays, the Rust code pays, times its factor for withdrawals, with the same fees, and apart
from the reserves the pools stay the same. -/
theorem C132_withdraw_partial {m m' : LibM} {p : Flt.Pool} {q q' : Pool} (ht : Twin p q) (hf : Fits p) (ho : Ordinary m')
    (ha : Alike p.c m m') (hs : Sane p) (hE : Exact q.positions) (hE' : Exact q'.positions) {u : Nat} {liq : Num} {l rpa rpb : F64}
    (hrpa : lt rpa one = false) (hrpb : lt rpb one = false) (hprice : tickToRp m' q.tick = .ok q.rp)
    (hl : liq.toFlt = .ok l) (hx : ∀ n, liq = .int n → l.Is n) (h0 : liq.isZero = false) {lo up : Nat}
    (hlo : q.rpToPossibleTick m' rpa false = .ok (lo : Int)) (hup : q.rpToPossibleTick m' rpb false = .ok (up : Int))
    (hc : Covers p lo up l) {r : Pool.Receipt} (h : Pool.withdraw m' u liq rpa rpb q = .ok r q') :
    ∃ p' r', p.withdraw m u l rpa rpb = .ok (p', r') ∧ r'.x = mul r.x Flt.adjWithdrawal ∧ r'.y = mul r.y Flt.adjWithdrawal ∧
      r'.fees = r.fees ∧ p'.x = sub p.x r'.x ∧ p'.y = sub p.y r'.y ∧ Twin { p' with x := q'.x, y := q'.y } q' ∧ Fits p' ∧ Sane p' := by
  have hS : Same p.positions q.positions := ht.positions
  have hq := ht.eq
  generalize q.positions = qs at hS hE hq
  subst hq
  obtain ⟨elo, llo⟩ := place_ok hf ho ha hrpa hlo
  obtain ⟨eup, lup⟩ := place_ok hf ho ha hrpb hup
  have elo : p.rpToPossibleTick m rpa false = lo := by exact_mod_cast elo.symm
  have eup : p.rpToPossibleTick m rpb false = up := by exact_mod_cast eup.symm
  rw [elo] at llo
  rw [eup] at lup
  unfold Flt.Pool.withdraw
  simp only [elo, eup]
  unfold Pool.withdraw at h
  obtain ⟨cl, h⟩ := checks_ok h
  replace h := gets_ok h
  obtain ⟨l1, e1, h⟩ := comps_ok h
  rw [hlo, ok_inj] at e1; subst e1
  obtain ⟨l2, e2, h⟩ := comps_ok h
  rw [hup, ok_inj] at e2; subst e2
  rw [bind_eq_ok] at h
  obtain ⟨f, q1, h1, h⟩ := h
  have hun : Untouched u (of p qs) q1 := setPosition_leaves.1 _ _ h1
  replace h := gets_ok h
  obtain ⟨rp, e3, h⟩ := comps_ok h
  rw [hun.tick, hprice, ok_inj] at e3
  obtain ⟨a, e4, h⟩ := comps_ok h
  obtain ⟨b, e5, h⟩ := comps_ok h
  obtain ⟨l', e6, h⟩ := comps_ok h
  rw [hl, ok_inj] at e6; subst e6
  obtain ⟨xOut, e9, h⟩ := comps_ok h
  rw [bind_eq_ok] at h
  obtain ⟨_, q2, h2, h⟩ := h
  have h2 := modify_eq_ok.1 h2
  obtain ⟨er, eq⟩ := pure_eq_ok.1 h
  have hrp : rp = p.gs.rp := e3.symm
  rw [hrp] at e9 er h2
  have hx9' := xFrom_rep e9
  rw [mul_one_rep hx9'] at er h2
  have hy9' : (yFromLRpRng l p.gs.rp a b).Rep := mul_rep _ _
  rw [mul_one_rep hy9'] at er h2
  have e4 := price_ok ha llo e4
  have e5 := price_ok ha lup e5
  rw [← e4, ← e5]
  have rmin : Proto.max (Proto.min p.gs.rp b) a = F64.max (F64.min p.gs.rp b) a := by
    rw [min_eq (le_ne hf.rp).2, max_eq (min_ne (le_ne hf.rp).2)]
  have hx9 : xOut = Flt.xFromLRpRng l p.gs.rp a b := by
    unfold xFromLRpRng at e9
    simp only at e9
    rw [(fdiv_ok e9).1, rmin]
    rfl
  have hy9 : yFromLRpRng l p.gs.rp a b = Flt.yFromLRpRng l p.gs.rp a b := by
    unfold yFromLRpRng
    simp only
    rw [rmin]
    rfl
  have hqpos : q'.positions = q1.positions := by rw [eq, h2]; rfl
  rw [hqpos] at hE'
  have hd := Num.neg_of hl h0
  have hz : liq.neg.isZero = false := by
    cases liq with
    | int n =>
      have : n ≠ 0 := of_decide_eq_false h0
      exact decide_eq_false (by omega)
    | flt z =>
      rw [Num.isZero_of hd]
      rw [Num.isZero_of hl] at h0
      cases l with
      | nan => rfl
      | inf s => exact h0
      | fin s n =>
        revert h0
        cases s <;> simp [F64.eq, F64.neg, zero, signed]
  obtain ⟨p1, hp1, hq1, hS1⟩ := position_of hS (u := u) hd
    (fun k hk => by
      cases liq with
      | int n => cases hk; exact neg_is' (hx n rfl)
      | flt z => cases hk) hz (holds_of hs hc) hE hE' (fees := f) (q := q1) h1
  have hln : lt l zero = false := by
    cases liq with
    | int n =>
      rw [(ofInt_sign hl).1]
      have : 0 ≤ n := of_decide_eq_true cl
      exact decide_eq_false (by omega)
    | flt z => cases hl; exact lt_false cl
  rw [hln]
  simp only [Bool.false_eq_true, if_false]
  rw [hp1, okb]
  have hrp1 : p1.gs.rp = p.gs.rp := by
    have := hun.rp
    rw [hq1] at this
    exact this
  have hxy : p1.x = p.x ∧ p1.y = p.y := by
    have h1 := hun.x
    have h2 := hun.y
    rw [hq1] at h1 h2
    exact ⟨h1, h2⟩
  simp only
  rw [hrp1, ← hx9, ← hy9]
  obtain ⟨hf1, hs1⟩ := kept_sane hf hs llo lup hp1
  refine ⟨_, _, rfl, by rw [er], by rw [er], by rw [er], by rw [← hxy.1]; rfl, by rw [← hxy.2]; rfl, ?_,
    ⟨hf1.spacing, hf1.tick, hf1.keys, hf1.rp⟩, ⟨hs1.liq, hs1.ticks, hs1.positions⟩⟩
  rw [eq, h2, hq1]
  exact twin_of (p := Flt.Pool.payFees { p1 with x := sub p1.x xOut, y := sub p1.y (yFromLRpRng l p.gs.rp a b) } f) hS1

end

namespace Sample

open Flt.Sample (get rt)

/-- Part of the provider's liquidity. -/
def some' : Py Pool.Receipt := Pool.withdraw safe 1 (.int 200) (rt 1333) (rt 3000)

def rsSome (p : Flt.Pool) : R (Flt.Pool × Flt.Pool.Receipt) := p.withdraw table 1 (ofNat 200) (rt 1333) (rt 3000)

theorem covers_of {p : Flt.Pool} {lo up : Nat} {l : F64} (h : lo ≠ up)
    (h1 : ((mapGet lo p.ticks).map fun ts => lt (sub ts.liqGross l) zero) = some false)
    (h2 : ((mapGet up p.ticks).map fun ts => lt (sub ts.liqGross l) zero) = some false)
    (h3 : lt (sub p.gs.liq l) zero = false) : Covers p lo up l := by
  refine ⟨h, ?_, ?_, fun _ _ => h3⟩
  · obtain ⟨ts, e1, e2⟩ := Option.map_eq_some_iff.1 h1
    exact ⟨ts, e1, e2⟩
  · obtain ⟨ts, e1, e2⟩ := Option.map_eq_some_iff.1 h2
    exact ⟨ts, e1, e2⟩

theorem covers_eth : Covers (rsEth (lit 1 2) (lit 3 1000)) 71955 80067 (ofNat 200) :=
  covers_of (by decide) (by decide +kernel) (by decide +kernel) (by decide +kernel)

/-- C132 applies to a withdrawal of part of the notebook's deposit. -/
example : ∃ p' r', rsSome (rsEth (lit 1 2) (lit 3 1000)) = .ok (p', r') ∧
    r'.x = mul (told (pyEth (lit 1 2) (lit 3 1000)) some').x Flt.adjWithdrawal ∧ lt zero r'.x = true := by
  have h := told_kept (p := pyEth (lit 1 2) (lit 3 1000)) (f := some') (by decide +kernel)
  obtain ⟨p', r', h1, h2, _⟩ := C132_withdraw_partial twin_eth fits_eth ordinary_safe alike_eth sane_eth
    (exact_small (by decide +kernel)) (exact_small (by decide +kernel)) (l := ofNat 200) (by decide +kernel) (by decide +kernel)
    (by decide +kernel) (by decide +kernel)
    (fun n hn => by cases hn; exact_mod_cast Flt.ofNat_is (k := 200) (by norm_num)) (by decide)
    (lo := 71955) (up := 80067) (by decide +kernel) (by decide +kernel) covers_eth h
  refine ⟨p', r', h1, h2, ?_⟩
  rw [h2]
  decide +kernel

/-- C132 without the condition on the price is false: after a sale within a tick the prototype pays more X and
less Y than the Rust code does. -/
theorem C132_false : Twin rsMid mid ∧ Fits rsMid ∧ Sane rsMid ∧ Exact mid.positions ∧ Covers rsMid 71955 80067 (ofNat 200) ∧
    ∃ r q' p' r', some' mid = .ok r q' ∧ Exact q'.positions ∧ rsSome rsMid = .ok (p', r') ∧
      lt r'.x (mul r.x Flt.adjWithdrawal) = true ∧ lt (mul r.y Flt.adjWithdrawal) r'.y = true := by
  have h := told_kept (p := mid) (f := some') (by decide +kernel)
  refine ⟨twin_mid, fits_mid, sane_mid, exact_small (by decide +kernel),
    covers_of (by decide) (by decide +kernel) (by decide +kernel) (by decide +kernel), ?_⟩
  have h1 : (kept mid some').positions.all (fun e => match e.2.liq with | .int n => decide (0 ≤ n ∧ n ≤ 2 ^ 53) | .flt _ => true) =
      true := by decide +kernel
  have h2 : (rsSome rsMid).isOk = true := by decide +kernel
  have h3 : lt (get (rsSome rsMid)).2.x (mul (told mid some').x Flt.adjWithdrawal) = true := by decide +kernel
  have h4 : lt (mul (told mid some').y Flt.adjWithdrawal) (get (rsSome rsMid)).2.y = true := by decide +kernel
  exact ⟨told mid some', kept mid some', (get (rsSome rsMid)).1, (get (rsSome rsMid)).2, h, exact_small h1, got h2, h3, h4⟩

end Sample

end Hmm.Proto
