import Verif.Props.FloatNan

/-
C88: what the operations of the floating-point pool leave alone.
-/

namespace Hmm.Flt.Pool

open F64 Sample

/-- Two pools with the same market: price, tick, growth and parameters, all positions but one, and the same tick
records except for the liquidity of two ticks. -/
structure SameBut (user lower upper : Nat) (p p' : Pool) : Prop where
  rp : p'.gs.rp = p.gs.rp
  tick : p'.gs.tick = p.gs.tick
  growth : p'.gs.fees = p.gs.fees
  spacing : p'.spacing = p.spacing
  c : p'.c = p.c
  feeRate : p'.feeRate = p.feeRate
  position : ∀ k, k ≠ (⟨user, lower, upper⟩ : PositionKey) → mapGet k p'.positions = mapGet k p.positions
  other : ∀ t, t ≠ lower → t ≠ upper → mapGet t p'.ticks = mapGet t p.ticks
  record : lower ≠ upper → ∀ t s s', mapGet t p.ticks = some s → mapGet t p'.ticks = some s' → s'.fees = s.fees

/-- The fee pots pay exactly the fees `f`. -/
structure Paid (f : Fees) (p p' : Pool) : Prop where
  xFee : p'.xFee = sub p.xFee f.fx
  yFee : p'.yFee = sub p.yFee f.fy
  xAdj : p'.xAdj = sub p.xAdj f.hx
  yAdj : p'.yAdj = sub p.yAdj f.hy

section
attribute [local irreducible] unit limit

theorem updateTick_record {p p' : Pool} {t : Nat} {d : F64} {up : Bool} (h : p.updateTick t d up = .ok p') :
    ∀ j s s', mapGet j p.ticks = some s → mapGet j p'.ticks = some s' → s'.fees = s.fees := by
  obtain ⟨_, ticks, rfl, ho, he, _⟩ := updateTick_ok h
  intro j s s' hs hs'
  simp only at hs'
  by_cases hj : j = t
  · subst hj
    rw [he] at hs'
    split at hs'
    · cases hs'
    · rw [Option.some.injEq] at hs'
      rw [← hs']
      unfold tickOr
      rw [hs]
  · rw [ho j hj, hs, Option.some.injEq] at hs'
    rw [hs']

theorem setPosition_record {p p' : Pool} {user lower upper : Nat} {d : F64} {f : Fees} (hlu : lower ≠ upper)
    (h : p.setPosition user lower upper d = .ok (p', f)) :
    ∀ t s s', mapGet t p.ticks = some s → mapGet t p'.ticks = some s' → s'.fees = s.fees := by
  obtain ⟨nf, old, base, pos, q1, q2, _, _, _, _, _, _, h7, h8, h9, _⟩ := setPosition_ok h
  have ht : p'.ticks = q2.ticks := by rcases h9 with ⟨_, _, _, rfl⟩ | ⟨_, rfl⟩ <;> rfl
  intro t s s' hs hs'
  rw [ht] at hs'
  have a1 := updateTick_isSome_other (j := t) h7
  by_cases htu : t = upper
  · have : mapGet t q1.ticks = some s := by
      rw [a1 (by rw [htu]; exact hlu.symm)]; exact hs
    exact updateTick_record h8 t s s' this hs'
  · have e := updateTick_isSome_other h8 htu
    rw [e] at hs'
    exact updateTick_record h7 t s s' hs hs'

/-- C88 for deposits: every pool, library, user, amounts and range. -/
theorem deposit_frame {m : LibM} {p p' : Pool} {r : Receipt} {user : Nat} {x y rpa rpb : F64}
    (h : p.deposit m user x y rpa rpb = .ok (p', r)) :
    SameBut user (p.rpToPossibleTick m rpa false) (p.rpToPossibleTick m rpb false) p p' ∧ Paid r.fees p p' ∧
      p'.x = add p.x r.x ∧ p'.y = add p.y r.y := by
  obtain ⟨lower, upper, _, _, liq, q, f, rfl, rfl, _, _, _, _, _, _, _, h1, rfl, hr⟩ := deposit_ok h
  have hrec := setPosition_record (h := h1)
  obtain ⟨ticks, positions, l, rfl, ht, hp, _, _⟩ := setPosition_frame h1
  have hf : r.fees = f := by rw [hr]
  rw [hf]
  exact ⟨⟨rfl, rfl, rfl, rfl, rfl, rfl, hp, ht, fun hlu => hrec hlu⟩, ⟨rfl, rfl, rfl, rfl⟩, rfl, rfl⟩

/-- C88 for withdrawals. -/
theorem withdraw_frame {m : LibM} {p p' : Pool} {r : Receipt} {user : Nat} {liq rpa rpb : F64}
    (h : p.withdraw m user liq rpa rpb = .ok (p', r)) :
    SameBut user (p.rpToPossibleTick m rpa false) (p.rpToPossibleTick m rpb false) p p' ∧ Paid r.fees p p' ∧
      p'.x = sub p.x r.x ∧ p'.y = sub p.y r.y := by
  obtain ⟨lower, upper, _, _, q, f, rfl, rfl, _, _, _, h1, rfl, hr⟩ := withdraw_ok h
  have hrec := setPosition_record (h := h1)
  obtain ⟨ticks, positions, l, rfl, ht, hp, _, _⟩ := setPosition_frame h1
  have hf : r.fees = f := by rw [hr]
  rw [hf]
  exact ⟨⟨rfl, rfl, rfl, rfl, rfl, rfl, hp, ht, fun hlu => hrec hlu⟩, ⟨rfl, rfl, rfl, rfl⟩, rfl, rfl⟩

/-- Two pools with the same positions, parameters and liquidity at every tick. -/
structure SameLiquidity (p p' : Pool) : Prop where
  spacing : p'.spacing = p.spacing
  c : p'.c = p.c
  feeRate : p'.feeRate = p.feeRate
  positions : p'.positions = p.positions
  liquidity : ∀ t, (mapGet t p'.ticks).map (fun s => (s.liqNet, s.liqGross)) =
    (mapGet t p.ticks).map fun s => (s.liqNet, s.liqGross)

theorem sameLiquidity_kept (p : Pool) : Kept (SameLiquidity p) := by
  constructor
  · intro q q' h1 h2 h3 h4 h5 _ h
    exact ⟨h3.trans h.spacing, h4.trans h.c, h5.trans h.feeRate, h2.trans h.positions, fun t => by
      rw [h1]; exact h.liquidity t⟩
  · intro q q' t d hc h
    obtain ⟨ts, new, hg, _, _, _, _, rfl⟩ := crossTick_ok hc
    refine ⟨h.spacing, h.c, h.feeRate, h.positions, fun j => ?_⟩
    rw [← h.liquidity j]
    by_cases hj : j = t
    · subst hj
      simp only
      rw [mapGet_set_same, hg]
      rfl
    · simp only
      rw [mapGet_set_other hj]

/-- C88 for swaps: whatever a swap does, it changes no position, no liquidity recorded at any tick, and no
parameter. -/
theorem swap_frame {m : LibM} {p p' : Pool} {fuel : Nat} {d o : F64} {out : SwapOutput}
    (h : p.executeSwapFromX m fuel d o = .ok (p', out) ∨ p.executeSwapFromY m fuel d o = .ok (p', out)) :
    SameLiquidity p p' := by
  have h0 : SameLiquidity p p := ⟨rfl, rfl, rfl, rfl, fun _ => rfl⟩
  rcases h with h | h
  · exact swapX_kept (sameLiquidity_kept p) h h0
  · exact swapY_kept (sameLiquidity_kept p) h h0

end

/-- Cases: a deposit next to another position, a sale that crosses its lower bound, and a withdrawal that pays
fees. -/
theorem frame_case : ∃ p p1 p2 p3 r1 r3 out, eth F64.zero (lit 3 1000) = .ok p ∧
    p.deposit libm 3 (ofNat 2) (ofNat 4000) (rt 1950) (rt 2100) = .ok (p1, r1) ∧
    p1.executeSwapFromX libm 9 (ofNat 4) (rt 2000) = .ok (p2, out) ∧
    p2.withdraw libm 3 (ofNat 10) (rt 1950) (rt 2100) = .ok (p3, r3) ∧
    p2.gs.tick < p2.rpToPossibleTick libm (rt 1950) false ∧ lt F64.zero r3.fees.fx = true := by
  have h : (match eth F64.zero (lit 3 1000) with
    | .error _ => false
    | .ok p => match p.deposit libm 3 (ofNat 2) (ofNat 4000) (rt 1950) (rt 2100) with
      | .error _ => false
      | .ok (p1, _) => match p1.executeSwapFromX libm 9 (ofNat 4) (rt 2000) with
        | .error _ => false
        | .ok (p2, _) => match p2.withdraw libm 3 (ofNat 10) (rt 1950) (rt 2100) with
          | .error _ => false
          | .ok (_, r3) => decide (p2.gs.tick < p2.rpToPossibleTick libm (rt 1950) false) &&
            lt F64.zero r3.fees.fx) = true := by decide +kernel
  split at h
  · cases h
  rename_i p hp
  split at h
  · cases h
  rename_i p1 r1 h1
  split at h
  · cases h
  rename_i p2 out h2
  split at h
  · cases h
  rename_i p3 r3 h3
  rw [Bool.and_eq_true, decide_eq_true_eq] at h
  exact ⟨p, p1, p2, p3, r1, r3, out, hp, h1, h2, h3, h⟩

end Hmm.Flt.Pool
