import Verif.Props.FloatWithdraw

/-
C83: fees of the floating-point pool are collected once.
-/

namespace Hmm.Flt.Pool

open F64 Sample

/-- All four amounts are zero. -/
def NoPay (f : Fees) : Prop := f.fx.Is 0 ∧ f.fy.Is 0 ∧ f.hx.Is 0 ∧ f.hy.Is 0

/-- C83, full statement: right after a deposit or a withdrawal by a user, withdrawing from the same range pays
that user no fees. -/
def CollectedOnce : Prop := ∀ (m : LibM) (p p' p'' : Pool) (user : Nat) (rpa rpb liq : F64) (r r' : Receipt),
  Reach m p → p'.Bounded →
  ((∃ x y, p.deposit m user x y rpa rpb = .ok (p', r)) ∨ (∃ l, p.withdraw m user l rpa rpb = .ok (p', r))) →
  p'.withdraw m user liq rpa rpb = .ok (p'', r') → NoPay r'.fees

section
attribute [local irreducible] unit limit

theorem mul_zero_is {a b : F64} (ha : a.Finite) (hb : b.Is 0) : (mul a b).Is 0 := by
  obtain ⟨q, hq⟩ := ha
  have hR := mul_rounded hq hb
  rw [mul_zero] at hR
  exact hR.exact zero_is zero_rep

theorem sub_self_is {a : F64} (ha : a.Finite) : (sub a a).Is 0 := by
  obtain ⟨q, hq⟩ := ha
  have hR := sub_rounded hq hq
  rw [sub_self] at hR
  exact hR.exact zero_is zero_rep

/-- Before any swap no call pays fees. -/
theorem NoFees.setPosition_pays {p p' : Pool} (h : NoFees p) (hi : p.Whole) {user lower upper : Nat} {δ : F64}
    {f : Fees} (hp : p.setPosition user lower upper δ = .ok (p', f)) : NoPay f := by
  obtain ⟨nf, old, base, pos, q1, q2, h1, h2, h3, h4, h5, _, h7, h8, h9, rfl⟩ := setPosition_ok hp
  rw [h.rng rfl, ok_inj] at h1 h2 h3 h4
  have hold : old = Fees.zero ∧ base.Finite := by
    rcases setPositionMap_ok h5 with ⟨_, _, _, rfl, rfl⟩ | ⟨poz, hg, rfl, rfl, _⟩
    · exact ⟨rfl, _, zero_is⟩
    · refine ⟨h.positions _ _ hg, ?_⟩
      obtain ⟨z, _, hz⟩ := hi _ _ (mapGet_mem' hg)
      exact ⟨_, hz⟩
  obtain ⟨rfl, hb⟩ := hold
  rw [← h1, ← h2, ← h3, ← h4]
  have hz : (sub F64.zero F64.zero).Is 0 := by rw [sub_zero_zero]; exact zero_is
  exact ⟨mul_zero_is hb hz, mul_zero_is hb hz, mul_zero_is hb hz, mul_zero_is hb hz⟩

/-- C83 before any swap.  Missing: histories with swaps, for which see the next theorem and
`collected_once_false`. -/
theorem quiet_pays_nothing_partial {m : LibM} {p p' : Pool} (hp : Quiet m p) {user : Nat} {rpa rpb : F64} {r : Receipt}
    (h : (∃ x y, p.deposit m user x y rpa rpb = .ok (p', r)) ∨ (∃ l, p.withdraw m user l rpa rpb = .ok (p', r))) :
    NoPay r.fees := by
  rcases h with ⟨x, y, h⟩ | ⟨l, h⟩
  · obtain ⟨lower, upper, _, _, liq, q, f, _, _, _, _, _, _, _, _, _, h1, _, hr⟩ := deposit_ok h
    rw [hr]
    exact NoFees.setPosition_pays hp.inv.fees hp.inv.inv.whole h1
  · obtain ⟨lower, upper, _, _, q, f, _, _, _, _, _, h1, _, hr⟩ := withdraw_ok h
    rw [hr]
    exact NoFees.setPosition_pays hp.inv.fees hp.inv.inv.whole h1

/-- A change of a position leaves alone the fee growth at an initialised tick that stays initialised. -/
theorem feeBelowAbove_kept {p p' : Pool} {t j : Nat} {d : F64} {up : Bool} {sel : Fees → F64}
    (h : p.updateTick t d up = .ok p') (h0 : (mapGet j p.ticks).isSome) (h1 : (mapGet j p'.ticks).isSome) :
    p'.feeBelowAbove sel j = p.feeBelowAbove sel j := by
  obtain ⟨_, ticks, rfl, ho, he, _⟩ := updateTick_ok h
  unfold feeBelowAbove
  simp only at h1 ⊢
  by_cases hj : j = t
  · subst hj
    cases hg : mapGet j p.ticks with
    | none => rw [hg] at h0; cases h0
    | some ts =>
      rw [he] at h1 ⊢
      split
      · rename_i hc
        split at hc
        · rename_i hz; rw [if_pos hz] at h1; cases h1
        · cases hc
      · rename_i hc
        split at hc
        · cases hc
        · rw [Option.some.injEq] at hc
          rw [← hc]
          unfold tickOr
          rw [hg]
  · rw [ho j hj]

theorem updateTick_isSome_other {p p' : Pool} {t j : Nat} {d : F64} {up : Bool} (h : p.updateTick t d up = .ok p')
    (hj : j ≠ t) : mapGet j p'.ticks = mapGet j p.ticks := by
  obtain ⟨_, ticks, rfl, ho, _, _⟩ := updateTick_ok h
  exact ho j hj

/-- C83 for positions that already existed, in every pool and with every library: after a deposit to or a
withdrawal from an existing position that keeps it and its two ticks, another withdrawal at once pays no fees.
Missing: the call that opens the position, for which the statement is false (`collected_once_false`). -/
theorem collected_once_partial {m : LibM} {p p' p'' : Pool} {user lower upper : Nat} {rpa rpb liq : F64} {r r' : Receipt}
    {poz v : PositionState} (hl : lower = p.rpToPossibleTick m rpa false) (hu : upper = p.rpToPossibleTick m rpb false)
    (hne : lower ≠ upper)
    (h : (∃ x y, p.deposit m user x y rpa rpb = .ok (p', r)) ∨ (∃ l, p.withdraw m user l rpa rpb = .ok (p', r)))
    (hw : p'.withdraw m user liq rpa rpb = .ok (p'', r'))
    (h0 : mapGet ⟨user, lower, upper⟩ p.positions = some poz)
    (h1 : mapGet ⟨user, lower, upper⟩ p'.positions = some v) (hv : v.liq.Finite)
    (t0 : (mapGet lower p.ticks).isSome ∧ (mapGet upper p.ticks).isSome)
    (t1 : (mapGet lower p'.ticks).isSome ∧ (mapGet upper p'.ticks).isSome)
    (hf : v.fees.fx.Finite ∧ v.fees.fy.Finite ∧ v.fees.hx.Finite ∧ v.fees.hy.Finite) : NoPay r'.fees := by
  -- both calls change the position through `_set_position`
  have key : ∃ d q f, p.setPosition user lower upper d = .ok (q, f) ∧ p'.positions = q.positions ∧
      p'.ticks = q.ticks ∧ p'.gs = q.gs ∧ p'.spacing = q.spacing := by
    rcases h with ⟨x, y, h⟩ | ⟨l, h⟩
    · obtain ⟨l', u', _, _, liq', q, f, rfl, rfl, _, _, _, _, _, _, _, hsp, rfl, _⟩ := deposit_ok h
      rw [← hl, ← hu] at hsp
      exact ⟨_, q, f, hsp, rfl, rfl, rfl, rfl⟩
    · obtain ⟨l', u', _, _, q, f, rfl, rfl, _, _, _, hsp, rfl, _⟩ := withdraw_ok h
      rw [← hl, ← hu] at hsp
      exact ⟨_, q, f, hsp, rfl, rfl, rfl, rfl⟩
  obtain ⟨d, q, f, hs, ep, et, eg, es⟩ := key
  have hsp : p'.spacing = p.spacing := by
    obtain ⟨_, _, _, e, _⟩ := setPosition_frame hs
    rw [es, e]
  obtain ⟨nf, old, base, pos, q1, q2, n1, n2, n3, n4, h5, _, h7, h8, h9, _⟩ := setPosition_ok hs
  have e2 : q.ticks = q2.ticks ∧ q.positions = pos ∧ q.gs.tick = p.gs.tick ∧ q.gs.fees = p.gs.fees := by
    obtain ⟨_, _, rfl, _⟩ := updateTick_ok h7
    obtain ⟨_, _, rfl, _⟩ := updateTick_ok h8
    rcases h9 with ⟨_, _, _, rfl⟩ | ⟨_, rfl⟩ <;> exact ⟨rfl, rfl, rfl, rfl⟩
  -- the fee record of the position
  have hvf : v.fees = nf := by
    rw [ep, e2.2.1] at h1
    rcases setPositionMap_ok h5 with ⟨hn, _⟩ | ⟨poz', _, _, _, _, ⟨_, rfl⟩ | ⟨_, _, rfl⟩⟩
    · rw [hn] at h0; cases h0
    · rw [mapGet_erase_same] at h1; cases h1
    · rw [mapGet_set_same, Option.some.injEq] at h1; rw [← h1]
  -- the range's fee growth is unchanged
  have hq2 : p'.ticks = q2.ticks := by rw [et, e2.1]
  have hu1 : (mapGet upper q1.ticks).isSome := by
    rw [updateTick_isSome_other h7 (Ne.symm hne)]; exact t0.2
  have hl2 : (mapGet lower q2.ticks).isSome := by rw [← hq2]; exact t1.1
  have hl1 : (mapGet lower q1.ticks).isSome := by
    rw [← updateTick_isSome_other h8 hne]; exact hl2
  have hB : ∀ (sel : Fees → F64) (j : Nat), j = lower ∨ j = upper → p'.feeBelowAbove sel j = p.feeBelowAbove sel j := by
    intro sel j hj
    have a1 : p'.feeBelowAbove sel j = q2.feeBelowAbove sel j := by
      have g2 : q2.gs = p.gs := by
        obtain ⟨_, _, rfl, _⟩ := updateTick_ok h7
        obtain ⟨_, _, rfl, _⟩ := updateTick_ok h8; rfl
      unfold feeBelowAbove
      rw [hq2, eg, e2.2.2.1, e2.2.2.2, g2]
    rw [a1]
    rcases hj with rfl | rfl
    · rw [feeBelowAbove_kept h8 hl1 hl2]
      exact (feeBelowAbove_kept h7 t0.1 hl1).trans rfl
    · rw [feeBelowAbove_kept h8 hu1 (by rw [← hq2]; exact t1.2)]
      exact (feeBelowAbove_kept h7 t0.2 hu1).trans rfl
  have hR : ∀ (sel : Fees → F64), p'.feeRng sel lower upper = p.feeRng sel lower upper := by
    intro sel
    unfold feeRng
    rw [hB sel lower (Or.inl rfl), hB sel upper (Or.inr rfl)]
  -- the second call
  obtain ⟨l', u', _, _, q', f', hl', hu', _, _, _, hs', _, hr⟩ := withdraw_ok hw
  have el : l' = lower := by rw [hl', hl]; unfold rpToPossibleTick; rw [hsp]
  have eu : u' = upper := by rw [hu', hu]; unfold rpToPossibleTick; rw [hsp]
  rw [el, eu] at hs'
  obtain ⟨nf', old', base', _, _, _, m1, m2, m3, m4, m5, _, _, _, _, rfl⟩ := setPosition_ok hs'
  have hold : old' = nf ∧ base' = v.liq := by
    rcases setPositionMap_ok m5 with ⟨hn, _⟩ | ⟨poz', hg, rfl, rfl, _⟩
    · rw [h1] at hn; cases hn
    · rw [h1, Option.some.injEq] at hg
      rw [← hg]; exact ⟨hvf, rfl⟩
  obtain ⟨rfl, rfl⟩ := hold
  rw [hR, n1, ok_inj] at m1
  rw [hR, n2, ok_inj] at m2
  rw [hR, n3, ok_inj] at m3
  rw [hR, n4, ok_inj] at m4
  rw [hvf] at hf
  rw [hr]
  unfold NoPay
  simp only
  rw [← m1, ← m2, ← m3, ← m4]
  exact ⟨mul_zero_is hv (sub_self_is hf.1), mul_zero_is hv (sub_self_is hf.2.1),
    mul_zero_is hv (sub_self_is hf.2.2.1), mul_zero_is hv (sub_self_is hf.2.2.2)⟩

end

/-- A case meeting the hypotheses of `collected_once_partial`: after a sale of 1 X user 1 withdraws 100, collecting
fees, and then 100 more. -/
theorem collected_once_case : ∃ (p p' p'' : Pool) (r r' : Receipt) (poz v : PositionState),
    p.rpToPossibleTick libm (rt 1333) false = 71955 ∧ p.rpToPossibleTick libm (rt 3000) false = 80067 ∧
    p.withdraw libm 1 (ofNat 100) (rt 1333) (rt 3000) = .ok (p', r) ∧
    p'.withdraw libm 1 (ofNat 100) (rt 1333) (rt 3000) = .ok (p'', r') ∧
    mapGet ⟨1, 71955, 80067⟩ p.positions = some poz ∧ mapGet ⟨1, 71955, 80067⟩ p'.positions = some v ∧
    (mapGet 71955 p.ticks).isSome ∧ (mapGet 80067 p.ticks).isSome ∧ (mapGet 71955 p'.ticks).isSome ∧
    (mapGet 80067 p'.ticks).isSome ∧ lt F64.zero r.fees.fx = true ∧ v.liq = ofNat 387 ∧
    lt F64.zero v.fees.fx = true ∧ lt v.fees.fx F64.one = true := by
  have h : (match eth F64.zero (lit 3 1000) with
    | .error _ => false
    | .ok p0 => match p0.executeSwapFromX libm 9 (ofNat 1) (rt 2000) with
      | .error _ => false
      | .ok (p, _) => match p.withdraw libm 1 (ofNat 100) (rt 1333) (rt 3000) with
        | .error _ => false
        | .ok (p', r) => match p'.withdraw libm 1 (ofNat 100) (rt 1333) (rt 3000) with
          | .error _ => false
          | .ok (_, _) => match mapGet ⟨1, 71955, 80067⟩ p.positions with
            | none => false
            | some _ => match mapGet ⟨1, 71955, 80067⟩ p'.positions with
              | none => false
              | some v => decide (p.rpToPossibleTick libm (rt 1333) false = 71955) &&
                decide (p.rpToPossibleTick libm (rt 3000) false = 80067) &&
                (mapGet 71955 p.ticks).isSome && (mapGet 80067 p.ticks).isSome && (mapGet 71955 p'.ticks).isSome &&
                (mapGet 80067 p'.ticks).isSome && lt F64.zero r.fees.fx && decide (v.liq = ofNat 387) &&
                lt F64.zero v.fees.fx && lt v.fees.fx F64.one) = true := by decide +kernel
  split at h
  · cases h
  split at h
  · cases h
  rename_i p _ _
  split at h
  · cases h
  rename_i p' r h1
  split at h
  · cases h
  rename_i p'' r' h2
  split at h
  · cases h
  rename_i poz h3
  split at h
  · cases h
  rename_i v h4
  simp only [Bool.and_eq_true, decide_eq_true_eq] at h
  exact ⟨p, p', p'', r, r', poz, v, h.1.1.1.1.1.1.1.1.1, h.1.1.1.1.1.1.1.1.2, h1, h2, h3, h4, h.1.1.1.1.1.1.1.2,
    h.1.1.1.1.1.1.2, h.1.1.1.1.1.2, h.1.1.1.1.2, h.1.1.1.2, h.1.1.2, h.1.2, h.2⟩

/-- 2 X are sold; then user 2 deposits and withdraws everything at once. -/
def lateDeposit : R (Pool × Pool × Pool × Receipt × Receipt) := do
  let p ← eth F64.zero (lit 3 1000)
  let (p, _) ← p.executeSwapFromX libm 9 (ofNat 2) (rt 2000)
  let (p', r) ← p.deposit libm 2 (ofNat 20) (ofNat 40000) (rt 1333) (rt 3000)
  match mapGet ⟨2, 71955, 80067⟩ p'.positions with
  | none => rpanic
  | some v => do
    let (p'', r') ← p'.withdraw libm 2 v.liq (rt 1333) (rt 3000)
    return (p, p', p'', r, r')

/-- User 2 is charged less than 19.995 X and 3144.15 Y and gets back more than 20.025 X and 3144.14 Y: fees paid
by a sale before the deposit.  The pool's pot of X fees, which held 0.006 X, ends below -0.024. -/
theorem late_deposit_pays : ∃ p p' p'' r r', lateDeposit = .ok (p, p', p'', r, r') ∧ p'.boundedB = true ∧
    lt r.totalX (lit 19995 1000) = true ∧ lt r.totalY (lit 314415 100) = true ∧
    lt (lit 20025 1000) r'.totalX = true ∧ lt (lit 314414 100) r'.totalY = true ∧
    lt p''.xFee (lit 24 1000).neg = true ∧ lt F64.zero r'.fees.fx = true := by
  have h : (match lateDeposit with
    | .ok (_, p', p'', r, r') => p'.boundedB &&
      lt r.totalX (lit 19995 1000) && lt r.totalY (lit 314415 100) &&
      lt (lit 20025 1000) r'.totalX && lt (lit 314414 100) r'.totalY &&
      lt p''.xFee (lit 24 1000).neg && lt F64.zero r'.fees.fx
    | .error _ => false) = true := by decide +kernel
  split at h
  · rename_i p p' p'' r r' he
    simp only [Bool.and_eq_true] at h
    exact ⟨p, p', p'', r, r', he, h.1.1.1.1.1.1, h.1.1.1.1.1.2, h.1.1.1.1.2, h.1.1.1.2, h.1.1.2, h.1.2, h.2⟩
  · cases h

theorem eth_reach {c fee : F64} {p : Pool} (h : eth c fee = .ok p) : Reach libm p := by
  unfold eth at h
  rw [bind_ok] at h
  obtain ⟨q0, h2, h⟩ := h
  rw [bind_ok] at h
  obtain ⟨⟨q1, r⟩, h3, h⟩ := h
  rw [pure_ok] at h; subst h
  exact .deposit (.new h2) h3

/-- C83 as stated is false: a new position starts with a zero fee record, so it is paid the fees of all earlier
trades in its range. -/
theorem collected_once_false : ¬ CollectedOnce := by
  intro hall
  obtain ⟨p, p', p'', r, r', hl, hb, _, _, _, _, _, hpos⟩ := late_deposit_pays
  unfold lateDeposit at hl
  rw [bind_ok] at hl
  obtain ⟨p0, h0, hl⟩ := hl
  rw [bind_ok] at hl
  obtain ⟨⟨p1, o⟩, h1, hl⟩ := hl
  simp only at hl
  rw [bind_ok] at hl
  obtain ⟨⟨p2, r2⟩, h2, hl⟩ := hl
  simp only at hl
  split at hl
  · exact absurd hl (by simp [rpanic])
  rename_i v hv
  rw [bind_ok] at hl
  obtain ⟨⟨p3, r3⟩, h3, hl⟩ := hl
  simp only [pure_ok, Prod.mk.injEq] at hl
  obtain ⟨rfl, rfl, rfl, rfl, rfl⟩ := hl
  have := hall libm p1 p2 p3 2 (rt 1333) (rt 3000) v.liq r2 r3 (.swapX (eth_reach h0) h1) (bounded_of hb)
    (Or.inl ⟨_, _, h2⟩) h3
  have h4 := (zero_lt_is this.1).1 hpos
  exact absurd h4 (lt_irrefl _)

end Hmm.Flt.Pool
