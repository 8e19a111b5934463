import Verif.Proofs.Stored
import Verif.Proofs.Leave
import Verif.Spec.Order

/-
Deposits in a different order.
-/

namespace Hmm.Pool

open Decimal PoolMath

theorem bind_of {α β : Type} {x : R α} {f : α → R β} {a : α} {b : R β} (h : x = .ok a) (h' : f a = b) :
    (x >>= f) = b := by rw [h]; exact h'

/-! ### Growth inside a range -/

/-- Price, growth and the growth recorded at ticks are the same. -/
structure Kin (p q : Pool) : Prop where
  spacing : q.spacing = p.spacing
  tick : q.gs.tick = p.gs.tick
  rp : q.gs.rp = p.gs.rp
  fees : q.gs.fees = p.gs.fees
  ticks : ∀ t, (q.tickOrNew t).fees = (p.tickOrNew t).fees

theorem Kin.refl (p : Pool) : Kin p p := ⟨rfl, rfl, rfl, rfl, fun _ => rfl⟩

theorem Kin.symm {p q : Pool} (h : Kin p q) : Kin q p :=
  ⟨h.spacing.symm, h.tick.symm, h.rp.symm, h.fees.symm, fun t => (h.ticks t).symm⟩

theorem Kin.trans {p q r : Pool} (h : Kin p q) (h' : Kin q r) : Kin p r :=
  ⟨h'.spacing.trans h.spacing, h'.tick.trans h.tick, h'.rp.trans h.rp, h'.fees.trans h.fees,
    fun t => (h'.ticks t).trans (h.ticks t)⟩

theorem feeBelowAbove_new {p : Pool} (ht : Tidy p) (k : Kind) (t : Nat) :
    p.feeBelowAbove (fun f => f.at k) t = (do
      let o ← unwrap ((p.gs.fees.at k).sub ((p.tickOrNew t).fees.at k))
      if p.gs.tick ≥ t then return ((p.tickOrNew t).fees.at k, o) else return (o, (p.tickOrNew t).fees.at k)) := by
  unfold feeBelowAbove tickOrNew
  cases hm : mapGet t p.ticks with
  | some ts => rfl
  | none =>
    obtain ⟨g, hg⟩ := (ht.growth k).1.eq
    simp only [Option.getD_none]
    by_cases hb : p.gs.tick ≥ t
    · simp only [if_pos hb, hg]
      rw [sub_nn_le 12 le_rfl, Nat.sub_self]
      rfl
    · simp only [if_neg hb, hg]
      have : Fees.zero.at k = ⟨0, 12, false⟩ := by cases k <;> rfl
      rw [this, sub_nn_le 12 (Nat.zero_le _)]
      rfl

theorem feeRng_kin {p q : Pool} (hp : Tidy p) (hq : Tidy q) (h : Kin p q) (k : Kind) (l u : Nat) :
    q.feeRng (fun f => f.at k) l u = p.feeRng (fun f => f.at k) l u := by
  have e : ∀ t, q.feeBelowAbove (fun f => f.at k) t = p.feeBelowAbove (fun f => f.at k) t := fun t => by
    rw [feeBelowAbove_new hp, feeBelowAbove_new hq, h.tick, h.fees, h.ticks]
  unfold feeRng
  rw [e, e]

theorem updateTick_fees {p p' : Pool} {t : Nat} {d : Decimal} {u : Bool} (h : p.updateTick t d u = .ok p')
    (hd : 0 ≤ d.toRat) (hi : ∀ ts, mapGet t p.ticks = some ts → 0 < ts.liqGross.toRat) (j : Nat) :
    (p'.tickOrNew j).fees = (p.tickOrNew j).fees := by
  have hf := updateTick_frame h
  have eg : p'.gs = p.gs := by rw [hf]
  obtain ⟨h1, n, g, h2, _, h3⟩ := updateTick_get h
  by_cases hj : j = t
  · subst hj
    rcases h3 with ⟨h4, h5⟩ | ⟨_, h5⟩
    · cases hm : mapGet j p.ticks with
      | none => unfold tickOrNew; rw [h5, hm, eg]
      | some ts =>
        have := hi ts hm
        unfold grossAt at h2
        rw [hm] at h2
        simp only [Option.elim] at h2
        linarith
    · have e : p'.tickOrNew j = ⟨n, g, (p.tickOrNew j).fees⟩ := by unfold tickOrNew; rw [h5]; rfl
      rw [e]
  · unfold tickOrNew
    rw [h1 j hj, eg]

theorem setPosition_kin {p p' : Pool} (hb : Booked p) {user lower upper : Nat} {d : Decimal} {f : Fees}
    (hlu : lower < upper) (hd : 0 ≤ d.toRat) (h : p.setPosition user lower upper d = .ok (p', f)) : Kin p p' := by
  have hf := setPosition_frame h
  obtain ⟨nf, ps', old, base, fu, p1, p2, _, _, _, _, h0, _, _, _, _, _, h1, h2, h3, _⟩ := setPosition_ok h
  have htk : p'.ticks = p2.ticks := by
    rw [ite_ok] at h3
    rcases h3 with ⟨_, h3⟩ | ⟨_, h3⟩
    · obtain ⟨n, _, _, rfl⟩ := addGlblLiq_ok.1 h3; rfl
    · cases h3; rfl
  have k1 := updateTick_fees h1 hd (fun ts hm => hb.init lower ts hm)
  have k2 := updateTick_fees h2 hd (fun ts hm => by
    rw [(updateTick_get h1).1 upper hlu.ne'] at hm
    exact hb.init upper ts hm)
  have e2 : p2.gs = p.gs := by rw [updateTick_frame h2, updateTick_frame h1]
  have et : p'.gs.tick = p.gs.tick := by rw [hf]
  have ef : p'.gs.fees = p.gs.fees := by rw [hf]
  refine ⟨by rw [hf], et, by rw [hf], ef, fun t => ?_⟩
  have : p'.tickOrNew t = p2.tickOrNew t := by
    unfold tickOrNew
    rw [htk, et, ef, e2]
  rw [this, k2, k1]
  rfl

theorem deposit_kin {p p' : Pool} (hb : Booked p) {user : Nat} {x y rpa rpb : Decimal} {r : Receipt}
    (h : p.deposit user x y rpa rpb = .ok (p', r)) : Kin p p' := by
  obtain ⟨lower, upper, a, b, liq, p1, p2, px, py, _, _, _, _, _, _, g3, _, _, _, g4, _, _, _, _, h1, _, _, _, _,
    h4, rfl⟩ := deposit_ok h
  have k := setPosition_kin hb g3 g4 h1
  obtain ⟨_, e2, e4, e5, _⟩ := payFees_frame h4
  refine k.trans ⟨e5, by simp only [e4], by simp only [e4], by simp only [e4], fun t => ?_⟩
  unfold tickOrNew
  simp only [e2, e4]

/-! ### Gross liquidity fits -/

/-- The gross liquidity of every tick fits into 128 bits. -/
def GrossFits (p : Pool) : Prop := ∀ t, (p.startingAt t + p.endingAt t) * 10 ^ 12 < 2 ^ 128

theorem tick_room {p p' : Pool} {t : Nat} {d : Decimal} {u : Bool} (ht : Tidy p) (h : p.updateTick t d u = .ok p')
    (hg : p.grossAt t * 10 ^ 12 < 2 ^ 128) : (p.grossAt t + d.toRat) * 10 ^ 12 < 2 ^ 128 := by
  obtain ⟨n, g, _, h2, h3, _, rfl⟩ := updateTick_ok h
  have e1 : (p.tickOrNew t).liqGross.toRat = p.grossAt t := by
    unfold tickOrNew grossAt
    cases mapGet t p.ticks <;> simp [zero_toRat]
  have ka := (ht.tickOrNew t).2.1
  have hv : (p.tickOrNew t).liqGross.value < u128Size := by
    rw [← e1] at hg
    obtain ⟨v, hv⟩ := ka.eq
    rw [hv, toRat_mk, div_mul_cancel₀ _ (by norm_num)] at hg
    rw [hv]
    exact_mod_cast hg
  have hgv := stored_add ka hv h2 (not_isNegative.1 h3)
  have hga := ka.add h2 (not_isNegative.1 h3)
  rw [← e1, ← add_toRat h2]
  obtain ⟨v, rfl⟩ := hga.eq
  rw [toRat_mk, div_mul_cancel₀ _ (by norm_num)]
  exact_mod_cast hgv

theorem GrossFits.setPosition {p p' : Pool} (hg : GrossFits p) (hb : Booked p) (ht : Tidy p) {user lower upper : Nat}
    {d : Decimal} {f : Fees} (hlu : lower < upper) (h : p.setPosition user lower upper d = .ok (p', f)) :
    GrossFits p' := by
  obtain ⟨_, q2, q3, _⟩ := setPosition_sums hb.unique h
  obtain ⟨nf, ps', old, base, fu, p1, p2, _, _, _, _, h0, _, _, _, _, _, h1, h2, h3, _⟩ := setPosition_ok h
  have k0 : Tidy { p with positions := ps' } := ht.congr rfl rfl rfl rfl rfl rfl rfl rfl rfl
  have r1 := tick_room k0 h1 (by show p.grossAt lower * _ < _; rw [hb.gross]; exact hg lower)
  have e : p1.grossAt upper = p.grossAt upper := by
    unfold grossAt
    rw [(updateTick_get h1).1 upper hlu.ne']
  have r2 := tick_room (k0.updateTick h1) h2 (by rw [e, hb.gross]; exact hg upper)
  rw [show ({ p with positions := ps' } : Pool).grossAt lower = p.grossAt lower from rfl, hb.gross] at r1
  rw [e, hb.gross] at r2
  intro t
  rw [q2, q3]
  by_cases hl : lower = t
  · subst hl
    rw [if_pos rfl, if_neg (by omega)]
    linarith
  · by_cases hu : upper = t
    · subst hu
      rw [if_neg hl, if_pos rfl]
      linarith
    · rw [if_neg hl, if_neg hu, add_zero, add_zero]
      exact hg t

theorem GrossFits.congr {p p' : Pool} (hg : GrossFits p) (e : p'.positions = p.positions) : GrossFits p' := by
  intro t
  have := hg t
  unfold startingAt endingAt at *
  rwa [e]

theorem GrossFits.reachable {p : Pool} (h : Reachable p) : GrossFits p := by
  induction h with
  | new h =>
    obtain ⟨tk, q, _, _, _, _, _, rfl⟩ := new_ok h
    intro t
    simp [startingAt, endingAt, sumPos]
  | step hr hs ih =>
    have ht := Tidy.reachable hr
    have hb := Booked.reachable hr
    cases hs with
    | deposit h =>
      obtain ⟨_, _, _, _, _, _, g3, hset, e, _⟩ := deposit_set h
      exact (ih.setPosition hb ht g3 hset).congr e
    | withdraw h =>
      obtain ⟨_, _, _, _, _, _, g3, hset, e, _⟩ := withdraw_set h
      exact (ih.setPosition hb ht g3 hset).congr e
    | sellX h => exact ih.congr (Plain.sellX h (Owned.reachable hr).rp).2.2
    | sellY h => exact ih.congr (Plain.sellY h (Owned.reachable hr).rp).2.2

end Hmm.Pool
