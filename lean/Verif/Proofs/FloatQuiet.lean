import Verif.Proofs.FloatBooks

/-
The floating-point pool before any swap: no fees anywhere, active liquidity exact, withdrawals accepted.
-/

namespace Hmm.Flt

open F64

attribute [local irreducible] unit limit

theorem sub_zero_zero : sub F64.zero F64.zero = F64.zero := by decide +kernel

theorem add_zero_zero : add F64.zero F64.zero = F64.zero := by decide +kernel

theorem eq_zero_zero : F64.eq F64.zero F64.zero = true := by decide +kernel

theorem le_zero_zero : le F64.zero F64.zero = true := by decide +kernel

/-- No fee has been recorded anywhere. -/
structure NoFees (p : Pool) : Prop where
  gs : p.gs.fees = Fees.zero
  ticks : ∀ t ts, mapGet t p.ticks = some ts → ts.fees = Fees.zero
  positions : ∀ k v, mapGet k p.positions = some v → v.fees = Fees.zero

theorem NoFees.below {p : Pool} (h : NoFees p) {sel : Fees → F64} (hs : sel Fees.zero = F64.zero) (t : Nat) :
    p.feeBelowAbove sel t = (F64.zero, F64.zero) := by
  unfold Pool.feeBelowAbove
  simp only
  rw [h.gs]
  cases hg : mapGet t p.ticks with
  | none => simp only [hs]
  | some ts =>
    simp only
    rw [h.ticks t ts hg, hs, sub_zero_zero]
    split <;> rfl

theorem NoFees.rng {p : Pool} (h : NoFees p) {sel : Fees → F64} (hs : sel Fees.zero = F64.zero) (l u : Nat) :
    p.feeRng sel l u = .ok F64.zero := by
  unfold Pool.feeRng
  rw [h.below hs, h.below hs]
  simp only [add_zero_zero, eq_zero_zero, sub_zero_zero]
  rfl

theorem NoFees.setPosition {p p' : Pool} (h : NoFees p) {user lower upper : Nat} {δ : F64} {f : Fees}
    (hp : p.setPosition user lower upper δ = .ok (p', f)) : NoFees p' := by
  obtain ⟨nf, old, base, pos, q1, q2, h1, h2, h3, h4, h5, _, h7, h8, h9, _⟩ := Pool.setPosition_ok hp
  rw [h.rng rfl, ok_inj] at h1 h2 h3 h4
  have hnf : nf = Fees.zero := by
    obtain ⟨a, b, c, d⟩ := nf
    simp only at h1 h2 h3 h4
    rw [← h1, ← h2, ← h3, ← h4]; rfl
  subst hnf
  have hpos : ∀ k v, mapGet k pos = some v → v.fees = Fees.zero := by
    intro k v hk
    by_cases he : k = ⟨user, lower, upper⟩
    · rcases Pool.setPositionMap_ok h5 with ⟨_, _, rfl, _⟩ | ⟨poz, _, _, _, _, ⟨_, rfl⟩ | ⟨_, _, rfl⟩⟩
      · rw [he, mapGet_set_same, Option.some.injEq] at hk; rw [← hk]
      · rw [he, mapGet_erase_same] at hk; cases hk
      · rw [he, mapGet_set_same, Option.some.injEq] at hk; rw [← hk]
    · rcases Pool.setPositionMap_ok h5 with ⟨_, _, rfl, _⟩ | ⟨poz, _, _, _, _, ⟨_, rfl⟩ | ⟨_, _, rfl⟩⟩
      · rw [mapGet_set_other he] at hk; exact h.positions k v hk
      · rw [mapGet_erase_other he] at hk; exact h.positions k v hk
      · rw [mapGet_set_other he] at hk; exact h.positions k v hk
  have hup : ∀ {q q' : Pool} {t : Nat} {up : Bool}, q.updateTick t δ up = .ok q' → q.gs.fees = Fees.zero →
      (∀ t ts, mapGet t q.ticks = some ts → ts.fees = Fees.zero) →
      (∀ t ts, mapGet t q'.ticks = some ts → ts.fees = Fees.zero) := by
    intro q q' t up hq hg ht
    obtain ⟨_, ticks, rfl, ho, he, _⟩ := Pool.updateTick_ok hq
    intro j ts hj
    simp only at hj
    by_cases hjt : j = t
    · subst hjt
      rw [he] at hj
      split at hj
      · cases hj
      · rw [Option.some.injEq] at hj
        rw [← hj]
        simp only
        unfold Pool.tickOr
        cases hg' : mapGet j q.ticks with
        | none => simp only; rw [hg]; split <;> rfl
        | some ts' => exact ht j ts' hg'
    · rw [ho j hjt] at hj; exact ht j ts hj
  have k1 := hup h7 h.gs h.ticks
  have g1 : q1.gs = p.gs := by obtain ⟨_, _, rfl, _⟩ := Pool.updateTick_ok h7; rfl
  have k2 := hup h8 (by rw [g1]; exact h.gs) k1
  have g2 : q2.gs = p.gs := by obtain ⟨_, _, e, _⟩ := Pool.updateTick_ok h8; rw [e]; exact g1
  have e2 : q2.positions = pos := by
    obtain ⟨_, _, rfl, _⟩ := Pool.updateTick_ok h7
    obtain ⟨_, _, rfl, _⟩ := Pool.updateTick_ok h8; rfl
  rcases h9 with ⟨_, _, _, rfl⟩ | ⟨_, rfl⟩
  · exact ⟨h.gs, k2, by simp only; rw [e2]; exact hpos⟩
  · exact ⟨by rw [g2]; exact h.gs, k2, by rw [e2]; exact hpos⟩

theorem inRange_step {p p' : Pool} {key : PositionKey} {d : ℤ} (ht : p'.gs.tick = p.gs.tick)
    (h : ∀ w, p'.sumLiq w = p.sumLiq w + w key * d) :
    p'.inRange = p.inRange + (if key.lower ≤ p.gs.tick ∧ p.gs.tick < key.upper then 1 else 0) * d := by
  unfold Pool.inRange; rw [ht, h]

theorem inRange_le {p : Pool} (h : p.Whole) : p.inRange ≤ p.total :=
  h.sum_le fun k => by split <;> norm_num

theorem inRange_nonneg {p : Pool} (h : p.Whole) : 0 ≤ p.inRange := by
  unfold Pool.inRange
  rw [sumLiq_eq]
  refine mapSum_nonneg fun k v hm => mul_nonneg ?_ (h.val_nonneg hm)
  split <;> norm_num

/-- The active liquidity is that of the positions in range, exactly. -/
def Active (p : Pool) : Prop := ∃ a : ℤ, p.inRange = a ∧ p.gs.liq.IsInt a

theorem setPosition_active {p p' : Pool} (hi : Inv p) (ha : Active p) {user lower upper : Nat} {δ : F64} {f : Fees}
    {d : ℤ} (hd : δ.IsInt d) (h : p.setPosition user lower upper δ = .ok (p', f)) (hb : d ≤ 0 ∨ p'.Bounded) :
    Active p' := by
  have hi' := setPosition_inv hi hd h hb
  obtain ⟨nf, old, base, pos, q1, q2, _, _, _, _, h5, _, h7, h8, h9, _⟩ := Pool.setPosition_ok h
  obtain ⟨_, t1, rfl, _⟩ := Pool.updateTick_ok h7
  obtain ⟨_, t2, rfl, _⟩ := Pool.updateTick_ok h8
  have ep1 : p'.positions = pos := by
    rcases h9 with ⟨_, _, _, rfl⟩ | ⟨_, rfl⟩ <;> rfl
  have etick : p'.gs.tick = p.gs.tick := by
    rcases h9 with ⟨_, _, _, rfl⟩ | ⟨_, rfl⟩ <;> rfl
  have hsum : ∀ w, p'.sumLiq w = Pool.sumLiq { p with positions := pos } w := by
    intro w; unfold Pool.sumLiq; rw [ep1]
  have hb' : d ≤ 0 ∨ Pool.Bounded { p with positions := pos } := by
    rcases hb with hb | hb
    · exact Or.inl hb
    · refine Or.inr ⟨fun k v hm => hb.1 k v (by rw [ep1]; exact hm), ?_⟩
      have := hb.2
      unfold Pool.total at this ⊢
      rw [← hsum]; exact this
  obtain ⟨_, _, hs, _⟩ := positions_step hi hd h5 hb'
  have hs' : ∀ w, p'.sumLiq w = p.sumLiq w + w ⟨user, lower, upper⟩ * d := fun w => by rw [hsum, hs]
  have hr := inRange_step etick hs'
  obtain ⟨a, ea, hA⟩ := ha
  simp only at hr
  rcases h9 with ⟨c1, c2, _, rfl⟩ | ⟨c, rfl⟩
  · rw [if_pos ⟨c1, c2⟩, ea, one_mul] at hr
    refine ⟨a + d, by rw [hr]; push_cast; rfl, add_int hA hd ?_⟩
    have u1 := inRange_nonneg hi'.whole
    have u2 := inRange_le hi'.whole
    have u3 := hi'.bound
    rw [hr] at u1 u2
    have l1 : (0 : ℚ) ≤ ((a + d : ℤ) : ℚ) := by push_cast; exact u1
    have l2 : ((a + d : ℤ) : ℚ) ≤ ((2 ^ 52 : ℤ) : ℚ) := by push_cast; linarith
    have l3 : 0 ≤ a + d := by exact_mod_cast l1
    have l4 : a + d ≤ 2 ^ 52 := by exact_mod_cast l2
    have b53 : (2 : ℤ) ^ 53 = 9007199254740992 := by norm_num
    have b52 : (2 : ℤ) ^ 52 = 4503599627370496 := by norm_num
    rw [abs_le]; omega
  · rw [if_neg c, zero_mul, add_zero, ea] at hr
    exact ⟨a, hr, hA⟩

structure QInv (p : Pool) : Prop where
  inv : Inv p
  fees : NoFees p
  active : Active p

theorem NoFees.frame {p p' : Pool} (h : NoFees p) (h1 : p'.gs = p.gs) (h2 : p'.ticks = p.ticks)
    (h3 : p'.positions = p.positions) : NoFees p' :=
  ⟨by rw [h1]; exact h.gs, by rw [h2]; exact h.ticks, by rw [h3]; exact h.positions⟩

theorem Active.frame {p p' : Pool} (h : Active p) (h1 : p'.gs = p.gs) (h3 : p'.positions = p.positions) : Active p' := by
  unfold Active Pool.inRange Pool.sumLiq at *
  rw [h1, h3]; exact h

/-- The liquidity a bounded deposit adds is a whole number. -/
theorem deposit_whole {p q : Pool} {f : Fees} {x : F64} {user lower upper : Nat} (hb : q.Bounded)
    (h : p.setPosition user lower upper x.floor = .ok (q, f)) : ∃ z : ℤ, x.floor.IsInt z := by
  obtain ⟨nf, old, base, pos, q1, q2, _, _, _, _, h5, _, h7, h8, h9, _⟩ := Pool.setPosition_ok h
  have ep : q.positions = pos := by
    obtain ⟨_, t, rfl, _⟩ := Pool.updateTick_ok h7
    obtain ⟨_, t, rfl, _⟩ := Pool.updateTick_ok h8
    rcases h9 with ⟨_, _, _, rfl⟩ | ⟨_, rfl⟩ <;> rfl
  have hf : x.floor.Finite := by
    rcases Pool.setPositionMap_ok h5 with ⟨hn, hl, rfl, _, rfl⟩ | ⟨poz, hg, _, rfl, hl, hcase⟩
    · exact hb.1 ⟨user, lower, upper⟩ ⟨x.floor, Fees.zero⟩ (by
        rw [ep]; exact mapGet_mem' (mapGet_set_same _ _ _))
    · rcases hcase with ⟨he, _⟩ | ⟨_, _, rfl⟩
      · exact (add_finite ⟨_, zero_of_eq he⟩).2
      · exact (add_finite (hb.1 ⟨user, lower, upper⟩ ⟨add poz.liq x.floor, nf⟩ (by
          rw [ep]; exact mapGet_mem' (mapGet_set_same _ _ _)))).2
  obtain ⟨v, hv⟩ := floor_finite hf
  exact ⟨_, floor_is hv⟩

theorem withdraw_nonneg {liq : F64} {n : ℤ} (hn : liq.IsInt n) (h : lt liq F64.zero = false) : -n ≤ 0 := by
  by_contra hc
  have := (lt_zero_is hn).2 (by exact_mod_cast (by omega : n < (0 : ℤ)))
  rw [this] at h; cases h

theorem Quiet.inv {m : LibM} {p : Pool} (h : Quiet m p) : QInv p := by
  induction h with
  | @new rp c fee spacing p h =>
    have hw := (WholeReach.new (m := m) h).inv
    unfold Pool.new at h
    simp only at h
    rw [bind_ok] at h
    obtain ⟨g, h1, h⟩ := h
    rw [pure_ok] at h
    unfold GlobalState.new at h1
    rw [Pool.ite_eq_ok] at h1
    rcases h1 with ⟨_, h1⟩ | ⟨_, h1⟩
    · exact absurd h1 (by simp [rpanic])
    rw [ok_inj] at h1
    subst h1 h
    exact ⟨hw, ⟨rfl, by simp [mapGet], by simp [mapGet]⟩, 0, by simp [Pool.inRange, Pool.sumLiq], zero_int⟩
  | deposit h0 h hb ih =>
    have hw := (WholeReach.deposit h0.whole h hb).inv
    obtain ⟨lower, upper, rpaU, rpbU, liq, q, f, _, _, _, _, rfl, _, _, _, _, h1, rfl, _⟩ := Pool.deposit_ok h
    have hbq : q.Bounded := hb
    obtain ⟨z, hz⟩ := deposit_whole hbq h1
    exact ⟨hw, (ih.fees.setPosition h1).frame rfl rfl rfl,
      (setPosition_active ih.inv ih.active hz h1 (Or.inr hbq)).frame rfl rfl⟩
  | withdraw h0 hn h ih =>
    have hw := (WholeReach.withdraw h0.whole hn h).inv
    obtain ⟨lower, upper, rpaU, rpbU, q, f, _, _, _, _, hl, h1, rfl, _⟩ := Pool.withdraw_ok h
    exact ⟨hw, (ih.fees.setPosition h1).frame rfl rfl rfl,
      (setPosition_active ih.inv ih.active (neg_int hn) h1 (Or.inl (withdraw_nonneg hn hl))).frame rfl rfl⟩

/-! ### Acceptance -/

theorem addLiqGross_returns {ts : TickState} {d e : F64} (h : lt (add ts.liqGross d) F64.zero = false) :
    (ts.addLiqNet e).addLiqGross d = .ok ⟨add ts.liqNet e, add ts.liqGross d, ts.fees⟩ := by
  have h' : lt (add (ts.addLiqNet e).liqGross d) F64.zero = false := h
  unfold TickState.addLiqGross
  rw [h']
  rfl

theorem updateTick_returns {p : Pool} {t : Nat} {d : F64} {up : Bool}
    (h : lt (add (p.tickOr t).liqGross d) F64.zero = false) : ∃ p', p.updateTick t d up = .ok p' := by
  unfold Pool.tickOr at h
  unfold Pool.updateTick
  cases hg : mapGet t p.ticks with
  | none =>
    rw [hg] at h
    have h0 : lt F64.zero F64.zero = false := by decide +kernel
    simp only [Pool.initializeTick, TickState.new, h0, Bool.false_eq_true, if_false]
    simp only [bind, Except.bind, pure, Except.pure, mapGet_treeInsert_same]
    rw [addLiqGross_returns h]
    simp only
    generalize F64.eq _ _ = c
    cases c
    · exact ⟨_, rfl⟩
    · exact ⟨_, rfl⟩
  | some ts =>
    rw [hg] at h
    simp only at h
    simp only [bind, Except.bind, pure, Except.pure, hg]
    rw [addLiqGross_returns h]
    simp only
    generalize F64.eq _ _ = c
    cases c
    · exact ⟨_, rfl⟩
    · exact ⟨_, rfl⟩

/-- The fee records of a range and of a position in it pass the checks of `_set_position`. -/
def FeesPass (p : Pool) (lower upper : Nat) (old nf : Fees) : Prop :=
  p.feeRng (·.fx) lower upper = .ok nf.fx ∧ p.feeRng (·.fy) lower upper = .ok nf.fy ∧
  p.feeRng (·.hx) lower upper = .ok nf.hx ∧ p.feeRng (·.hy) lower upper = .ok nf.hy ∧
  (le F64.zero (sub nf.fx old.fx) && le F64.zero (sub nf.fy old.fy) && le F64.zero (sub nf.hx old.hx) &&
    le F64.zero (sub nf.hy old.hy)) = true

/-- When the fee records pass, a whole amount up to what the position holds can be taken out. -/
theorem take_returns' {p : Pool} (hi : Inv p) (ha : Active p) {user lower upper : Nat} {v : PositionState} {liq : F64}
    {n b : ℤ} {nf : Fees} (hf : FeesPass p lower upper v.fees nf)
    (hv : mapGet ⟨user, lower, upper⟩ p.positions = some v) (hb : v.liq.IsInt b) (hn : liq.IsInt n) (h0 : 0 ≤ n)
    (hle : n ≤ b) : ∃ p' f, p.setPosition user lower upper liq.neg = .ok (p', f) := by
  have hd := neg_int hn
  obtain ⟨b', hb0, hb'⟩ := hi.whole _ _ (mapGet_mem' hv)
  have hbb : b' = b := by
    have := hb'.unique hb
    exact_mod_cast this
  subst hbb
  -- the position is one of those that make up the sums
  have hge : ∀ w : PositionKey → ℚ, (∀ k, 0 ≤ w k) → w ⟨user, lower, upper⟩ * b' ≤ p.sumLiq w := by
    intro w hw
    have := List.single_le_sum (l := p.positions.map fun e => w e.1 * e.2.liq.val) (by
      intro x hx
      obtain ⟨⟨k', v'⟩, hm', rfl⟩ := List.mem_map.1 hx
      exact mul_nonneg (hw _) (hi.whole.val_nonneg hm')) (w ⟨user, lower, upper⟩ * v.liq.val)
      (List.mem_map.2 ⟨_, mapGet_mem' hv, rfl⟩)
    rw [IsInt.val hb] at this
    exact this
  have hbT : (b' : ℚ) ≤ p.total := by
    have := hge (fun _ => 1) (fun _ => by norm_num)
    rw [one_mul] at this; exact this
  have hT := hi.bound
  have hb52 : b' ≤ 2 ^ 52 := by
    have : (b' : ℚ) ≤ ((2 ^ 52 : ℤ) : ℚ) := by push_cast; linarith
    exact_mod_cast this
  have b53 : (2 : ℤ) ^ 53 = 9007199254740992 := by norm_num
  have b52 : (2 : ℤ) ^ 52 = 4503599627370496 := by norm_num
  have hsum := add_int hb hd (by rw [abs_le]; omega)
  have hnl : lt (add v.liq liq.neg) F64.zero = false := by
    cases hc : lt (add v.liq liq.neg) F64.zero
    · rfl
    · have := (lt_zero_is hsum).1 hc
      have : b' + -n < 0 := by exact_mod_cast this
      omega
  -- the position part
  have hmap : ∃ pos old base, Pool.setPositionMap p.positions ⟨user, lower, upper⟩ liq.neg nf = .ok (pos, old, base) ∧
      old = v.fees := by
    unfold Pool.setPositionMap
    rw [hv]
    simp only
    rw [hnl, Bool.and_false]
    simp only [Bool.false_eq_true, if_false]
    split
    · exact ⟨_, _, _, rfl, rfl⟩
    · unfold PositionState.addLiq
      rw [hnl]
      exact ⟨_, _, _, rfl, rfl⟩
  obtain ⟨pos, old, base, hm, rfl⟩ := hmap
  -- the ticks
  have tick_ok : ∀ t g nn, TickIs p t g nn → n ≤ g → g ≤ 2 ^ 53 →
      lt (add (p.tickOr t).liqGross liq.neg) F64.zero = false := by
    intro t g nn hT hng hg53
    have h2 := add_int hT.tickOr.1 hd (by rw [abs_le]; omega)
    cases hc : lt (add (p.tickOr t).liqGross liq.neg) F64.zero
    · rfl
    · have := (lt_zero_is h2).1 hc
      have : g + -n < 0 := by exact_mod_cast this
      omega
  obtain ⟨g1, n1, e1, f1, T1⟩ := hi.books lower
  obtain ⟨g2, n2, e2, f2, T2⟩ := hi.books upper
  have tl : ∀ t (g : ℤ), p.touching t = g → g ≤ 2 ^ 53 := by
    intro t g e
    have := touching_le hi.whole t
    rw [e] at this
    have : (g : ℚ) ≤ ((2 ^ 53 : ℤ) : ℚ) := by push_cast; linarith
    exact_mod_cast this
  have g1b : b' ≤ g1 := by
    have h3 := hge (fun k => (if k.lower = lower then 1 else 0) + (if k.upper = lower then 1 else 0))
      (fun k => by split <;> split <;> norm_num)
    have h4 : p.touching lower = _ := e1
    unfold Pool.touching at h4
    rw [h4] at h3
    simp only [if_true] at h3
    have hbq : (0 : ℚ) ≤ b' := by exact_mod_cast hb0
    have : (b' : ℚ) ≤ g1 := by
      refine le_trans ?_ h3
      split
      · linarith
      · linarith
    exact_mod_cast this
  have g2b : (if lower = upper then 2 * b' else b') ≤ g2 := by
    have h3 := hge (fun k => (if k.lower = upper then 1 else 0) + (if k.upper = upper then 1 else 0))
      (fun k => by split <;> split <;> norm_num)
    have h4 : p.touching upper = _ := e2
    unfold Pool.touching at h4
    rw [h4] at h3
    simp only [if_true] at h3
    split
    · rename_i he
      rw [if_pos he] at h3
      have : ((2 * b' : ℤ) : ℚ) ≤ g2 := by push_cast; linarith
      exact_mod_cast this
    · rename_i he
      rw [if_neg he] at h3
      have : (b' : ℚ) ≤ g2 := by linarith
      exact_mod_cast this
  have l1 := tick_ok lower g1 n1 T1 (by omega) (tl _ _ e1)
  have l1' : lt (add (Pool.tickOr { p with positions := pos } lower).liqGross liq.neg) F64.zero = false := l1
  obtain ⟨q1, h7⟩ := updateTick_returns (p := { p with positions := pos }) (up := false) l1'
  have hq1 := Pool.updateTick_ok h7
  obtain ⟨_, t1, rfl, ho1, hs1, _⟩ := hq1
  have l2 : lt (add (Pool.tickOr { p with positions := pos, ticks := t1 } upper).liqGross liq.neg) F64.zero = false := by
    by_cases he : upper = lower
    · subst he
      rw [if_pos rfl] at g2b
      have hgg : g1 = g2 := by rw [e1] at e2; exact_mod_cast e2
      subst hgg
      have hS := T1.tickOr
      have h2 := add_int hS.1 hd (by rw [abs_le]; have := tl _ _ e1; omega)
      -- gross after the first update
      have hz : F64.eq (add (p.tickOr upper).liqGross liq.neg) F64.zero = true ↔ g1 + -n = 0 := by
        rw [eq_is h2 zero_is]
        constructor
        · intro h; exact_mod_cast h
        · intro h; exact_mod_cast h
      have h9 : ∃ g : ℤ, (Pool.tickOr { p with positions := pos, ticks := t1 } upper).liqGross.IsInt g ∧ g = g1 - n := by
        unfold Pool.tickOr
        simp only
        rw [hs1]
        have e0 : Pool.tickOr { p with positions := pos } upper = p.tickOr upper := rfl
        rw [e0]
        by_cases hc : F64.eq (add (p.tickOr upper).liqGross liq.neg) F64.zero = true
        · rw [if_pos hc]
          rw [hz] at hc
          exact ⟨0, zero_int, by omega⟩
        · rw [if_neg hc]
          exact ⟨_, h2, by omega⟩
      obtain ⟨g, hG, rfl⟩ := h9
      have h3 := add_int hG hd (by rw [abs_le]; have := tl _ _ e1; omega)
      cases hc : lt (add (Pool.tickOr { p with positions := pos, ticks := t1 } upper).liqGross liq.neg) F64.zero
      · rfl
      · have := (lt_zero_is h3).1 hc
        have : g1 - n + -n < 0 := by exact_mod_cast this
        omega
    · have hh : n ≤ g2 := by
        rw [if_neg (Ne.symm he)] at g2b; omega
      have l3 := tick_ok upper g2 n2 T2 hh (tl _ _ e2)
      have e0 : (Pool.tickOr { p with positions := pos, ticks := t1 } upper).liqGross = (p.tickOr upper).liqGross := by
        unfold Pool.tickOr
        simp only
        rw [ho1 upper he]
      rw [e0]; exact l3
  obtain ⟨q2, h8⟩ := updateTick_returns (up := true) l2
  obtain ⟨_, t2, rfl, _⟩ := Pool.updateTick_ok h8
  -- the active liquidity
  obtain ⟨a, ea, hA⟩ := ha
  have l4 : lower ≤ p.gs.tick → p.gs.tick < upper → lt (add p.gs.liq liq.neg) F64.zero = false := by
    intro c1 c2
    have h3 := hge (fun k => if k.lower ≤ p.gs.tick ∧ p.gs.tick < k.upper then 1 else 0)
      (fun k => by split <;> norm_num)
    simp only [if_pos (And.intro c1 c2), one_mul] at h3
    have h4 : p.inRange = _ := ea
    unfold Pool.inRange at h4
    rw [h4] at h3
    have h5 : b' ≤ a := by exact_mod_cast h3
    have h6 : a ≤ 2 ^ 52 := by
      have := inRange_le hi.whole
      rw [ea] at this
      have : (a : ℚ) ≤ ((2 ^ 52 : ℤ) : ℚ) := by push_cast; linarith
      exact_mod_cast this
    have h7 := add_int hA hd (by rw [abs_le]; omega)
    cases hc : lt (add p.gs.liq liq.neg) F64.zero
    · rfl
    · have := (lt_zero_is h7).1 hc
      have : a + -n < 0 := by exact_mod_cast this
      omega
  obtain ⟨f1, f2, f3, f4, f5⟩ := hf
  unfold Pool.setPosition
  rw [f1, f2, f3, f4]
  simp only [bind, Except.bind]
  rw [hm]
  simp only
  rw [f5]
  simp only [rassert, if_true]
  rw [h7]
  simp only
  rw [h8]
  simp only
  by_cases c : lower ≤ p.gs.tick ∧ p.gs.tick < upper
  · have hl := l4 c.1 c.2
    rw [if_pos c]
    simp only [Pool.addGlblLiq, GlobalState.addLiq, bind, Except.bind, pure, Except.pure]
    rw [hl]
    exact ⟨_, _, rfl⟩
  · rw [if_neg c]
    exact ⟨_, _, rfl⟩

/-- Without fees, a whole amount up to what the position holds can be taken out. -/
theorem take_returns {p : Pool} (hq : QInv p) {user lower upper : Nat} {v : PositionState} {liq : F64} {n b : ℤ}
    (hv : mapGet ⟨user, lower, upper⟩ p.positions = some v) (hb : v.liq.IsInt b) (hn : liq.IsInt n) (h0 : 0 ≤ n)
    (hle : n ≤ b) : ∃ p' f, p.setPosition user lower upper liq.neg = .ok (p', f) := by
  refine take_returns' hq.inv hq.active (nf := Fees.zero) ⟨hq.fees.rng rfl _ _, hq.fees.rng rfl _ _, hq.fees.rng rfl _ _,
    hq.fees.rng rfl _ _, ?_⟩ hv hb hn h0 hle
  rw [hq.fees.positions _ _ hv]
  have hz : sub Fees.zero.fx Fees.zero.fx = F64.zero ∧ sub Fees.zero.fy Fees.zero.fy = F64.zero ∧
    sub Fees.zero.hx Fees.zero.hx = F64.zero ∧ sub Fees.zero.hy Fees.zero.hy = F64.zero :=
    ⟨sub_zero_zero, sub_zero_zero, sub_zero_zero, sub_zero_zero⟩
  rw [hz.1, hz.2.1, hz.2.2.1, hz.2.2.2, le_zero_zero]
  rfl

end Hmm.Flt
