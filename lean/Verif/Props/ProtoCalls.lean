import Verif.Proofs.ProtoCalls
import Verif.Proofs.F64
import Verif.Tests.ProtoConformance

/-
C128: what is deposited in the prototype can be withdrawn.  C129: calls of the prototype that raise.
-/

namespace Hmm.Proto

open F64

section
attribute [local irreducible] F64.unit limit

theorem mul_one_rep {a : F64} (h : a.Rep) : mul a one = a := by
  have hu : 0 < F64.unit := unit_pos
  cases a with
  | nan => rfl
  | inf s =>
    unfold mul one
    simp only
    rw [if_neg hu.ne']
    cases s <;> rfl
  | fin s n =>
    obtain ⟨hl, hr⟩ := rep_fin.1 h
    unfold mul one ofRatio
    simp only
    have e : roundNat (n * F64.unit) F64.unit = n := by
      have := roundNat_nearest (num := n * F64.unit) hu hr
      push_cast at this
      rw [sub_self, abs_zero, abs_nonpos_iff, sub_eq_zero] at this
      have : n * F64.unit = roundNat (n * F64.unit) F64.unit * F64.unit := by exact_mod_cast this
      exact (Nat.eq_of_mul_eq_mul_right hu this).symm
    rw [e, if_pos hl]
    cases s <;> rfl

theorem updateTick_positions {t : Int} {d : Num} {up : Bool} {s : Pool} {ps : List (Key × PositionState)} (h : s.positions = ps) :
    Leaves (fun s => s.positions = ps) (Pool.updateTick t d up) s :=
  updateTick_leaves (P := fun s => s.positions = ps) (fun _ _ h => h) h

/-- The positions after `_set_position`. -/
theorem setPosition_positions {u : Nat} {lo up : Int} {d : Num} {p q : Pool} {f : Flt.Fees}
    (h : Pool.setPosition u lo up d p = .ok f q) :
    ∃ n o b, Pool.setPositionMap p.positions ⟨u, lo, up⟩ d n = .ok (q.positions, o, b) := by
  unfold Pool.setPosition at h
  replace h := gets_ok h
  obtain ⟨fx, _, h⟩ := comps_ok h
  obtain ⟨fy, _, h⟩ := comps_ok h
  obtain ⟨hx, _, h⟩ := comps_ok h
  obtain ⟨hy, _, h⟩ := comps_ok h
  obtain ⟨⟨ps, old, base⟩, h5, h⟩ := comps_ok h
  refine ⟨⟨fx, fy, hx, hy⟩, old, base, ?_⟩
  rw [h5]
  suffices q.positions = ps by rw [this]
  have key : ∀ s : Pool, Leaves (fun s => s.positions = ps) (do
      modify fun p => { p with positions := ps }
      let u : Flt.Fees := ⟨sub fx old.fx, sub fy old.fy, sub hx old.hx, sub hy old.hy⟩
      check (le zero u.fx && le zero u.fy)
      check (le zero u.hx && le zero u.hy)
      Pool.updateTick lo d false
      Pool.updateTick up d true
      let p ← get
      if p.tick ≥ lo ∧ p.tick < up then
        let l ← comp d.toFlt
        modify fun p => { p with liq := F64.add p.liq l }
      let b ← comp base.toFlt
      return (⟨mul b u.fx, mul b u.fy, mul b u.hx, mul b u.hy⟩ : Flt.Fees) : Py Flt.Fees) s := by
    intro s
    refine Leaves.modifys (Leaves.checks rfl fun _ => Leaves.checks rfl fun _ => ?_)
    refine Leaves.bind (updateTick_positions rfl) fun _ q1 _ h2 => ?_
    refine Leaves.bind (updateTick_positions h2) fun _ q2 _ h3 => ?_
    refine Leaves.gets ?_
    split
    · refine Leaves.comps h3 fun _ _ => Leaves.modifys ?_
      exact Leaves.comps (P := fun s => s.positions = ps) h3 fun _ _ => Leaves.ofPure h3
    · exact Leaves.comps h3 fun _ _ => Leaves.ofPure h3
  exact (key _).1 _ _ h

theorem xFrom_rep {l rp a b v : F64} (h : xFromLRpRng l rp a b = .ok v) : v.Rep := by
  unfold xFromLRpRng fdiv at h
  simp only at h
  split at h
  · cases h
  · cases h; exact div_rep _ _

/-- C128: a new position that is withdrawn at once pays out, apart from fees, exactly what was deposited. -/
theorem C128_round_trip_partial {m : LibM} {p q q' : Pool} {u : Nat} {x y rpa rpb : F64} {r r' : Pool.Receipt} {lo up : Int}
    {ps : PositionState} (hd : Pool.deposit m u x y rpa rpb p = .ok r q)
    (hlo : p.rpToPossibleTick m rpa false = .ok lo) (hup : p.rpToPossibleTick m rpb false = .ok up)
    (hnew : mapGet ⟨u, lo, up⟩ p.positions = none) (hps : mapGet ⟨u, lo, up⟩ q.positions = some ps)
    (hw : Pool.withdraw m u ps.liq rpa rpb q = .ok r' q') : r'.x = r.x ∧ r'.y = r.y := by
  unfold Pool.deposit at hd
  obtain ⟨_, hd⟩ := checks_ok hd
  obtain ⟨_, hd⟩ := checks_ok hd
  replace hd := gets_ok hd
  obtain ⟨lo', h2a, hd⟩ := comps_ok hd
  obtain ⟨up', h3a, hd⟩ := comps_ok hd
  rw [hlo] at h2a; cases h2a
  rw [hup] at h3a; cases h3a
  obtain ⟨rp, h4a, hd⟩ := comps_ok hd
  obtain ⟨a, h5a, hd⟩ := comps_ok hd
  obtain ⟨b, h6a, hd⟩ := comps_ok hd
  obtain ⟨liq, _, hd⟩ := comps_ok hd
  obtain ⟨l, h8a, hd⟩ := comps_ok hd
  obtain ⟨xIn, h9a, hd⟩ := comps_ok hd
  obtain ⟨_, hd⟩ := checks_ok hd
  obtain ⟨_, hd⟩ := checks_ok hd
  rw [bind_eq_ok] at hd; obtain ⟨f, q1, h12, hd⟩ := hd
  rw [bind_eq_ok] at hd; obtain ⟨_, q2, h13, hd⟩ := hd
  have e13 := modify_eq_ok.1 h13
  obtain ⟨er, eq⟩ := pure_eq_ok.1 hd
  have hun : Untouched u p q1 := setPosition_leaves.1 _ _ h12
  have hq : q.tick = p.tick ∧ q.spacing = p.spacing ∧ q.positions = q1.positions := by
    rw [eq, e13]
    exact ⟨hun.tick, hun.spacing, rfl⟩
  obtain ⟨n, o, b0, hmap⟩ := setPosition_positions h12
  have hliq : ps.liq = .int liq := by
    unfold Pool.setPositionMap at hmap
    rw [hnew] at hmap
    simp only at hmap
    split at hmap
    · cases hmap
    · have e : mapSet (⟨u, lo, up⟩ : Key) ⟨.int liq, Flt.Fees.zero⟩ p.positions = q1.positions := by
        injection hmap with h; injection h
      rw [hq.2.2, ← e, mapGet_set_same] at hps
      cases hps
      rfl
  rw [hliq] at hw
  unfold Pool.withdraw at hw
  obtain ⟨_, hw⟩ := checks_ok hw
  replace hw := gets_ok hw
  obtain ⟨lo', w2a, hw⟩ := comps_ok hw
  obtain ⟨up', w3a, hw⟩ := comps_ok hw
  have same : ∀ v, q.rpToPossibleTick m v false = p.rpToPossibleTick m v false := by
    intro v
    unfold Pool.rpToPossibleTick Pool.tickToPossibleTick
    rw [hq.2.1]
  rw [same, hlo] at w2a; cases w2a
  rw [same, hup] at w3a; cases w3a
  rw [bind_eq_ok] at hw; obtain ⟨f', q3, w4, hw⟩ := hw
  have hun' : Untouched u q q3 := setPosition_leaves.1 _ _ w4
  replace hw := gets_ok hw
  obtain ⟨rp', w6a, hw⟩ := comps_ok hw
  rw [hun'.tick, hq.1, h4a] at w6a; cases w6a
  obtain ⟨a', w7a, hw⟩ := comps_ok hw
  rw [h5a] at w7a; cases w7a
  obtain ⟨b', w8a, hw⟩ := comps_ok hw
  rw [h6a] at w8a; cases w8a
  obtain ⟨l', w9a, hw⟩ := comps_ok hw
  have hl : l' = l := by
    have : ofInt liq = .ok l' := w9a
    rw [h8a] at this
    cases this
    rfl
  subst hl
  obtain ⟨xOut, w10a, hw⟩ := comps_ok hw
  rw [h9a] at w10a; cases w10a
  rw [bind_eq_ok] at hw; obtain ⟨_, q4, w11, hw⟩ := hw
  obtain ⟨er', _⟩ := pure_eq_ok.1 hw
  rw [er, er']
  exact ⟨mul_one_rep (xFrom_rep h9a), mul_one_rep (mul_rep _ _)⟩

/-- C129: a deposit that raises leaves alone the reserves, the pots, the price and the positions of everybody else. -/
theorem C129_deposit_partial {m : LibM} {p q : Pool} {u : Nat} {x y rpa rpb : F64} {e : Err}
    (h : Pool.deposit m u x y rpa rpb p = .error e q) : Untouched u p q := by
  have h0 := Untouched.refl u p
  suffices Raises (Untouched u p) (Pool.deposit m u x y rpa rpb) p from this _ _ h
  unfold Pool.deposit
  refine Raises.checks h0 (Raises.checks h0 (Raises.gets ?_))
  refine Raises.comps h0 fun _ _ => Raises.comps h0 fun _ _ => Raises.comps h0 fun _ _ => Raises.comps h0 fun _ _ => ?_
  refine Raises.comps h0 fun _ _ => Raises.comps h0 fun _ _ => Raises.comps h0 fun _ _ => Raises.comps h0 fun _ _ => ?_
  refine Raises.checks h0 (Raises.checks h0 (Raises.bind setPosition_leaves.2 fun _ _ _ => ?_))
  exact Raises.last

/-- C129: the same for a withdrawal. -/
theorem C129_withdraw_partial {m : LibM} {p q : Pool} {u : Nat} {l : Num} {rpa rpb : F64} {e : Err}
    (h : Pool.withdraw m u l rpa rpb p = .error e q) : Untouched u p q := by
  have h0 := Untouched.refl u p
  suffices Raises (Untouched u p) (Pool.withdraw m u l rpa rpb) p from this _ _ h
  unfold Pool.withdraw
  refine Raises.checks h0 (Raises.gets (Raises.comps h0 fun _ _ => Raises.comps h0 fun _ _ => ?_))
  refine Raises.bind setPosition_leaves.2 fun _ q hq => ?_
  have h1 : Untouched u p q := setPosition_leaves.1 _ _ hq
  refine Raises.gets ?_
  refine Raises.comps h1 fun _ _ => Raises.comps h1 fun _ _ => Raises.comps h1 fun _ _ => Raises.comps h1 fun _ _ => ?_
  exact Raises.comps h1 fun _ _ => Raises.last

/-- C129: a sale leaves alone all positions, the spacing, `C` and the fee rate, whether it raises or not. -/
theorem C129_sale_partial {m : LibM} {p q : Pool} {n : Nat} {d : F64} {o : Option F64} {e : Err}
    (h : Pool.executeSwapFromX m n d o p = .error e q ∨ Pool.executeSwapFromY m n d o p = .error e q) :
    q.positions = p.positions ∧ q.spacing = p.spacing ∧ q.c = p.c ∧ q.feeRate = p.feeRate := by
  have key : Fixed p q := by
    rcases h with h | h
    · exact executeX_leaves.2 _ _ h
    · exact executeY_leaves.2 _ _ h
  exact ⟨key.1, key.2, key.3, key.4⟩

end

/-! ### What does not hold -/

section
open Sample
open Flt.Sample (libm rt)

/-- The pool of the notebooks with a fee, after sales in both directions: the provider's range is in use. -/
example : feePool2.tick = 75961 ∧ mapGet (⟨1, 71955, 80067⟩ : Key) feePool2.positions = some ⟨.int 487, Flt.Fees.zero⟩ := by
  decide +kernel

/-- C128: a withdrawal can leave a reserve below zero: that of the notebook does. -/
theorem C128_false : ¬ ∀ (m : LibM) (p q : Pool) (u : Nat) (l : Num) (rpa rpb : F64) (r : Pool.Receipt),
    le zero p.x = true → Pool.withdraw m u l rpa rpb p = .ok r q → le zero q.x = true := by
  intro h
  have key : ∀ r q, Pool.withdraw libm 1 (.int 487) (rt 1333) (rt 3000) feePool2 = .ok r q → le zero q.x = true :=
    fun r q => h libm feePool2 q 1 (.int 487) (rt 1333) (rt 3000) r (by decide +kernel)
  have bad : (match Pool.withdraw libm 1 (.int 487) (rt 1333) (rt 3000) feePool2 with
      | .ok _ q => le zero q.x
      | .error _ _ => true) = false := by decide +kernel
  split at bad
  · rename_i r q e
    rw [key r q e] at bad
    cases bad
  · cases bad

/-- Another provider joins the range in use. -/
def joined : Pool := left feePool2 (Pool.deposit libm 2 (ofNat 2) (ofNat 4000) (rt 1333) (rt 3000))
def paidIn : Flt.Pool.Receipt := result feePool2 (Pool.deposit libm 2 (ofNat 2) (ofNat 4000) (rt 1333) (rt 3000))
def joinedLiq : Num := ((mapGet (⟨2, 71955, 80067⟩ : Key) joined.positions).map (·.liq)).getD (.int 0)
def paidOut : Flt.Pool.Receipt := result joined (Pool.withdraw libm 2 joinedLiq (rt 1333) (rt 3000))

/-- The hypotheses of `C128_round_trip_partial` in that case. -/
example : (feePool2.rpToPossibleTick libm (rt 1333) false).toOption = some 71955 ∧
    (feePool2.rpToPossibleTick libm (rt 3000) false).toOption = some 80067 ∧
    mapGet (⟨2, 71955, 80067⟩ : Key) feePool2.positions = none ∧ joinedLiq.isNonneg = true ∧ joinedLiq.isZero = false := by
  refine ⟨?_, ?_, ?_, ?_, ?_⟩ <;> decide +kernel

/-- C128: and it is paid fees of before it came. -/
theorem C128_fees_false : paidOut.x = paidIn.x ∧ paidOut.y = paidIn.y ∧ paidIn.totalX = paidIn.x ∧ paidIn.totalY = paidIn.y ∧
    lt paidIn.totalX paidOut.totalX = true ∧ lt paidIn.totalY paidOut.totalY = true := by decide +kernel

/-! Providers 1 and 2 hold adjacent ranges, and there have been sales across both.  The deposit of user 3 raises. -/

def stage1 : Pool := left (eth zero (d 3 3)) (Pool.deposit libm 2 (ofNat 2) zero (rt 3000) (rt 4000))
def stage2 : Pool := left stage1 (swapY (ofNat 8000) none)
def stage3 : Pool := left stage2 (swapX (ofNat 3) none)
def stage4 : Pool := left stage3 (Pool.deposit libm 3 (ofNat 2) (ofNat 4000) (rt 1800) (rt 3000))
def stage5 : Pool := left stage4 (Pool.deposit libm 4 (lit 1 50) (ofNat 40) (rt 1800) (rt 2900))
def stage6 : Pool := left stage5 (swapY (ofNat 3000) none)
def stage7 : Pool := left stage6 (swapX (lit 17 10) none)

/-- Whether a call raises. -/
def raises {α : Type} (p : Pool) (f : Py α) : Bool :=
  match f p with
  | .ok _ _ => false
  | .error _ _ => true

/-- C129: a deposit that raises can leave a position behind, and later that position is paid out. -/
theorem C129_false :
    raises stage3 (Pool.deposit libm 3 (ofNat 2) (ofNat 4000) (rt 1800) (rt 3000)) = true ∧
    (mapGet (⟨3, 74959, 80067⟩ : Key) stage3.positions = none) ∧
    mapGet (⟨3, 74959, 80067⟩ : Key) stage4.positions = some ⟨.int 479, Flt.Fees.zero⟩ ∧
    raises stage4 (Pool.deposit libm 4 (lit 1 50) (ofNat 40) (rt 1800) (rt 2900)) = false ∧
    raises stage5 (swapY (ofNat 3000) none) = false ∧ raises stage6 (swapX (lit 17 10) none) = false ∧
    lt (ofNat 2) (result stage7 (Pool.withdraw libm 3 (.int 479) (rt 1800) (rt 3000))).totalX = true ∧
    lt (ofNat 340) (result stage7 (Pool.withdraw libm 3 (.int 479) (rt 1800) (rt 3000))).totalY = true := by
  refine ⟨?_, ?_, ?_, ?_, ?_, ?_, ?_, ?_⟩ <;> decide +kernel

/-- Two providers with adjacent ranges, and adjustment. -/
def tandem : Pool := left (eth (lit 1 2) (d 3 3)) (Pool.deposit libm 2 zero (ofNat 4000) (rt 1000) (rt 1333))

/-- An oracle's price barely below the price between the two ranges. -/
def barely : F64 := sub ((tickToRp libm 71955).toOption.getD zero) (lit 1 (2 ^ 47))

/-- C129: a sale that raises in the second range has moved the reserves and the price all the same. -/
theorem C129_sale_false : raises tandem (swapX (ofNat 4) (some barely)) = true ∧
    lt tandem.x (left tandem (swapX (ofNat 4) (some barely))).x = true ∧
    lt (left tandem (swapX (ofNat 4) (some barely))).y tandem.y = true ∧
    lt (left tandem (swapX (ofNat 4) (some barely))).rp tandem.rp = true := by
  refine ⟨?_, ?_, ?_, ?_⟩ <;> decide +kernel

end

end Hmm.Proto
