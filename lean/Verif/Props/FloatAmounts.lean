import Verif.Proofs.FloatAmounts
import Verif.Proofs.FloatPool
import Verif.Proofs.FloatTicks
import Verif.Tests.FloatSample

/-
C90: amounts of deposits into the floating-point pool.
C91: amounts of withdrawals.
-/

namespace Hmm.Flt.Pool

open F64 Sample

section
attribute [local irreducible] unit limit

theorem floor_bounds {l : F64} {E : ℚ} {k : ℕ} (h : Near k l E) :
    ∃ L : ℕ, l.floor.Is L ∧ L * shrink ^ k ≤ E ∧ E * shrink ^ k < L + 1 := by
  obtain ⟨r, hr, h0, h1, h2⟩ := h.val
  have hf := floor_is hr
  obtain ⟨L, hL⟩ := Int.eq_ofNat_of_zero_le (Int.floor_nonneg.2 h0)
  rw [hL] at hf
  have h3 : (L : ℚ) ≤ r := by
    have := Int.floor_le r
    rw [hL] at this; exact_mod_cast this
  have h4 : r < L + 1 := by
    have := Int.lt_floor_add_one r
    rw [hL] at this; exact_mod_cast this
  refine ⟨L, ?_, ?_, by linarith⟩
  · unfold IsInt at hf; exact_mod_cast hf
  · exact le_trans (mul_le_mul_of_nonneg_right h3 (shrink_pow_pos k).le) h2

/-- C90: a deposit buys a whole number of units of liquidity.  The amounts taken are what that liquidity is worth
at the current price, to 16 decimal digits, and one unit more would have cost more than the offer. -/
theorem deposit_amounts {m : LibM} {p p' : Pool} {user : Nat} {x y rpa rpb : F64} {r : Receipt} {v a b X Y : ℚ}
    (h : p.deposit m user x y rpa rpb = .ok (p', r))
    (hp : Prices p.gs.rp (tickToRp m (p.rpToPossibleTick m rpa false)) (tickToRp m (p.rpToPossibleTick m rpb false)) v a b)
    (hx : x.Is X) (hy : y.Is Y) (hX : Tame 200 X) (hY : Tame 200 Y) :
    ∃ L : ℕ, r.x.Within (heldX L v a b) 4 ∧ r.y.Within (heldY L v a b) 2 ∧ r.x.val ≤ X ∧ r.y.val ≤ Y ∧
      (X * (1 - 4 / 2 ^ 53) < heldX (L + 1) v a b ∨ Y * (1 - 4 / 2 ^ 53) < heldY (L + 1) v a b) ∧
      (mapGet ⟨user, p.rpToPossibleTick m rpa false, p.rpToPossibleTick m rpb false⟩ p.positions = none →
        ∃ s, mapGet ⟨user, p.rpToPossibleTick m rpa false, p.rpToPossibleTick m rpb false⟩ p'.positions = some s ∧
          s.liq.Is L) ∧
      (∀ s s', mapGet ⟨user, p.rpToPossibleTick m rpa false, p.rpToPossibleTick m rpb false⟩ p.positions = some s →
        mapGet ⟨user, p.rpToPossibleTick m rpa false, p.rpToPossibleTick m rpb false⟩ p'.positions = some s' →
          ∃ l, l.Is L ∧ s'.liq = add s.liq l) := by
  obtain ⟨lower, upper, rpaU, rpbU, liq, q, f, rfl, rfl, rfl, rfl, hliq, _, _, cx, cy, hset, hp', hr⟩ := deposit_ok h
  have tX : Tame 300 X := hX.mono (by norm_num)
  have tY : Tame 300 Y := hY.mono (by norm_num)
  obtain ⟨hn, ht⟩ := liqFrom_near hx hy tX tY hp
  obtain ⟨L, hL, hL1, hL2⟩ := floor_bounds hn
  rw [← hliq] at hL
  have hx0 := tX.nonneg
  have hy0 := tY.nonneg
  have hE := fullLiq_nonneg (v := v) hp.sa.pos hp.lt hx0 hy0
  -- the liquidity is of moderate size
  have tE : fullLiq X Y v a b ≤ 2 ^ 553 := by
    unfold fullLiq
    have hd : ∀ {s t : F64} {c d : ℚ}, s.Is c → t.Is d → s.Rep → t.Rep → Sized 100 c → Sized 100 d → c < d →
        X * c * d / (d - c) ≤ 2 ^ 553 ∧ Y / (d - c) ≤ 2 ^ 553 := by
      intro s t c d hs ht rs rt sc sd hcd
      have s1 := sized_sub ht hs rt rs sd sc (by norm_num) hcd
      have t1 : Tame 553 (X * c * d / (d - c)) := (((hX.mul (Or.inr sc)).mul (Or.inr sd)).div s1).mono (by norm_num)
      have t2 : Tame 553 (Y / (d - c)) := (hY.div s1).mono (by norm_num)
      constructor
      · rcases t1 with h | h
        · rw [h]; positivity
        · exact h.2
      · rcases t2 with h | h
        · rw [h]; positivity
        · exact h.2
    split
    · exact (hd hp.ia hp.ib hp.ra hp.rb hp.sa hp.sb hp.lt).1
    · rename_i c1
      split
      · rename_i c2
        exact le_trans (min_le_left _ _) (hd hp.iv hp.ib hp.rv hp.rb hp.sv hp.sb c2).1
      · exact (hd hp.ia hp.ib hp.ra hp.rb hp.sa hp.sb hp.lt).2
  have tL : Tame 600 (L : ℚ) := by
    rcases Nat.eq_zero_or_pos L with h0 | h0
    · left; rw [h0]; norm_num
    · right
      refine ⟨?_, ?_⟩
      · have h1 : (1 : ℚ) ≤ L := by exact_mod_cast h0
        refine le_trans ?_ h1
        rw [div_le_one (by positivity)]
        exact one_le_pow₀ (by norm_num)
      · have hh := shrink_pow_half (k := 4) (by norm_num)
        have h1 : (L : ℚ) * (1 / 2) ≤ 2 ^ 553 :=
          le_trans (mul_le_mul_of_nonneg_left hh (by positivity)) (le_trans hL1 tE)
        calc (L : ℚ) ≤ 2 * 2 ^ 553 := by linarith
          _ = 2 ^ 554 := (pow_succ' 2 553).symm
          _ ≤ 2 ^ 600 := pow_le_pow_right₀ (by norm_num) (by norm_num)
  obtain ⟨nx, _⟩ := xFrom_near hL tL hp
  obtain ⟨ny, _⟩ := yFrom_near hL tL hp
  have ex : r.x = xFromLRpRng liq p.gs.rp (tickToRp m (p.rpToPossibleTick m rpa false))
      (tickToRp m (p.rpToPossibleTick m rpb false)) := by rw [hr]
  have ey : r.y = yFromLRpRng liq p.gs.rp (tickToRp m (p.rpToPossibleTick m rpa false))
      (tickToRp m (p.rpToPossibleTick m rpb false)) := by rw [hr]
  have hpos : p'.positions = q.positions := by rw [hp']; rfl
  have lex : ∀ {s t : F64} {k : ℕ} {P Q : ℚ}, s.Is P → Near k t Q → lt s t = false → t.val ≤ P := by
    intro s t k P Q hs ⟨_, w, hw, _⟩ hlt
    rw [hw.val]
    by_contra hc
    rw [(lt_is hs hw).2 (not_le.1 hc)] at hlt
    cases hlt
  refine ⟨L, ?_, ?_, lex hx (ex ▸ nx) cx, lex hy (ey ▸ ny) cy, ?_, ?_, ?_⟩
  · rw [ex]; exact nx.within (by norm_num)
  · rw [ey]; exact ny.within (by norm_num)
  · -- one unit more
    have hs := shrink_pow_pos 4
    have hgt : ¬ ((L + 1 : ℚ) / shrink ^ 4 ≤ fullLiq X Y v a b) := by
      rw [not_le, lt_div_iff₀ hs]; exact hL2
    rw [← affords hp.sa.pos hp.lt hx0 hy0, not_and_or, not_le, not_le] at hgt
    have hge := shrink_pow_ge 4
    push_cast at hge
    rcases hgt with hgt | hgt
    · left
      rw [div_eq_inv_mul, heldX_mul, inv_mul_eq_div, lt_div_iff₀ hs] at hgt
      exact lt_of_le_of_lt (mul_le_mul_of_nonneg_left hge hx0) hgt
    · right
      rw [div_eq_inv_mul, heldY_mul, inv_mul_eq_div, lt_div_iff₀ hs] at hgt
      exact lt_of_le_of_lt (mul_le_mul_of_nonneg_left hge hy0) hgt
  · intro hnone
    obtain ⟨nf, old, base, pos, q1, q2, _, _, _, _, h5, _, h7, h8, h9, _⟩ := setPosition_ok hset
    have hq : q.positions = pos := by
      obtain ⟨_, t1, rfl, _⟩ := updateTick_ok h7
      obtain ⟨_, t2, rfl, _⟩ := updateTick_ok h8
      rcases h9 with ⟨_, _, _, rfl⟩ | ⟨_, rfl⟩ <;> rfl
    rw [hpos, hq]
    rcases setPositionMap_ok h5 with ⟨_, _, rfl, _⟩ | ⟨poz, h10, _⟩
    · exact ⟨_, mapGet_set_same _ _ _, hL⟩
    · rw [hnone] at h10; cases h10
  · intro s s' hs0 hs1
    obtain ⟨nf, old, base, pos, q1, q2, _, _, _, _, h5, _, h7, h8, h9, _⟩ := setPosition_ok hset
    have hq : q.positions = pos := by
      obtain ⟨_, t1, rfl, _⟩ := updateTick_ok h7
      obtain ⟨_, t2, rfl, _⟩ := updateTick_ok h8
      rcases h9 with ⟨_, _, _, rfl⟩ | ⟨_, rfl⟩ <;> rfl
    rw [hpos, hq] at hs1
    refine ⟨liq, hL, ?_⟩
    rcases setPositionMap_ok h5 with ⟨h10, _, rfl, _⟩ | ⟨poz, h10, _, _, _, ⟨_, rfl⟩ | ⟨_, _, rfl⟩⟩
    · rw [hs0] at h10; cases h10
    · rw [mapGet_erase_same] at hs1; cases hs1
    · rw [mapGet_set_same, Option.some.injEq] at hs1
      rw [hs0, Option.some.injEq] at h10
      rw [← hs1, h10]

/-! ### Withdrawals -/

theorem withdraw_near {m : LibM} {p p' : Pool} {user : Nat} {liq rpa rpb : F64} {r : Receipt} {v a b L : ℚ}
    (h : p.withdraw m user liq rpa rpb = .ok (p', r))
    (hp : Prices p.gs.rp (tickToRp m (p.rpToPossibleTick m rpa false)) (tickToRp m (p.rpToPossibleTick m rpb false)) v a b)
    (hl : liq.Is L) (hL : Tame 600 L) :
    Near 6 r.x (heldX L v a b * (1 - 1 / 10 ^ 12)) ∧ Near 4 r.y (heldY L v a b * (1 - 1 / 10 ^ 12)) := by
  obtain ⟨lower, upper, rpaU, rpbU, q, f, rfl, rfl, rfl, rfl, _, hset, _, hr⟩ := withdraw_ok h
  have hq : q.gs.rp = p.gs.rp := by
    obtain ⟨_, _, _, rfl, _⟩ := setPosition_frame hset; rfl
  obtain ⟨nx, tx⟩ := xFrom_near hl hL hp
  obtain ⟨ny, ty⟩ := yFrom_near hl hL hp
  have sw : Sized 1 (1 - 1 / 10 ^ 12 : ℚ) := by constructor <;> norm_num
  have ex : r.x = mul (xFromLRpRng liq p.gs.rp (tickToRp m (p.rpToPossibleTick m rpa false))
      (tickToRp m (p.rpToPossibleTick m rpb false))) adjWithdrawal := by rw [hr, hq]
  have ey : r.y = mul (yFromLRpRng liq p.gs.rp (tickToRp m (p.rpToPossibleTick m rpa false))
      (tickToRp m (p.rpToPossibleTick m rpb false))) adjWithdrawal := by rw [hr, hq]
  rw [ex, ey]
  exact ⟨nx.mul adj_near (tx.mul (Or.inr sw)) (by norm_num) (by norm_num),
    ny.mul adj_near (ty.mul (Or.inr sw)) (by norm_num) (by norm_num)⟩

/-- C91: a withdrawal pays what the liquidity is worth at the current price, less one part in 10^12, to 15
decimal digits. -/
theorem withdraw_amounts {m : LibM} {p p' : Pool} {user : Nat} {liq rpa rpb : F64} {r : Receipt} {v a b L : ℚ}
    (h : p.withdraw m user liq rpa rpb = .ok (p', r))
    (hp : Prices p.gs.rp (tickToRp m (p.rpToPossibleTick m rpa false)) (tickToRp m (p.rpToPossibleTick m rpb false)) v a b)
    (hl : liq.Is L) (hL : Tame 600 L) :
    r.x.Within (heldX L v a b * (1 - 1 / 10 ^ 12)) 6 ∧ r.y.Within (heldY L v a b * (1 - 1 / 10 ^ 12)) 4 :=
  let k := withdraw_near h hp hl hL
  ⟨k.1.within (by norm_num), k.2.within (by norm_num)⟩

theorem held_nonneg {L v a b : ℚ} (hL : 0 ≤ L) (ha : 0 < a) (hab : a < b) : 0 ≤ heldX L v a b ∧ 0 ≤ heldY L v a b := by
  have hc : 0 < max a (min v b) := lt_of_lt_of_le ha (le_max_left _ _)
  have hcb : max a (min v b) ≤ b := max_le hab.le (min_le_right _ _)
  refine ⟨mul_nonneg hL (sub_nonneg.2 (one_div_le_one_div_of_le hc hcb)), mul_nonneg hL (sub_nonneg.2 (le_max_left _ _))⟩

/-- What several withdrawals pay together. -/
theorem withdrawals_sum {m : LibM} {user : Nat} {rpa rpb : F64} {p q : Pool} {ws : List (F64 × Receipt)} {v a b : ℚ}
    (h : Withdrawals m user rpa rpb p ws q)
    (hp : Prices p.gs.rp (tickToRp m (p.rpToPossibleTick m rpa false)) (tickToRp m (p.rpToPossibleTick m rpb false)) v a b)
    (hw : ∀ w ∈ ws, w.1.Finite ∧ Tame 600 w.1.val) :
    (ws.map (·.2.x.val)).sum * shrink ^ 6 ≤ heldX (ws.map (·.1.val)).sum v a b * (1 - 1 / 10 ^ 12) ∧
    (ws.map (·.2.y.val)).sum * shrink ^ 6 ≤ heldY (ws.map (·.1.val)).sum v a b * (1 - 1 / 10 ^ 12) := by
  induction h with
  | none p => simp [heldX, heldY]
  | @more p p1 p2 liq r ws h hs ih =>
    obtain ⟨hf, ht⟩ := hw (liq, r) List.mem_cons_self
    have hf' : liq.Is liq.val := hf.is
    obtain ⟨nx, ny⟩ := withdraw_near h hp hf' ht
    have hp1 : p1.gs.rp = p.gs.rp ∧ p1.spacing = p.spacing := by
      obtain ⟨_, _, _, _, q, f, _, _, _, _, _, hset, hp', _⟩ := withdraw_ok h
      obtain ⟨_, _, _, rfl, _⟩ := setPosition_frame hset
      rw [hp']; exact ⟨rfl, rfl⟩
    have e1 : ∀ rp, p1.rpToPossibleTick m rp false = p.rpToPossibleTick m rp false := by
      intro rp; unfold rpToPossibleTick; rw [hp1.2]
    obtain ⟨i1, i2⟩ := ih (by rw [e1, e1, hp1.1]; exact hp) fun w hw' => hw w (List.mem_cons_of_mem _ hw')
    obtain ⟨rx, hrx, _, _, hx2⟩ := nx.val
    obtain ⟨ry, hry, _, _, hy2⟩ := (ny.mono (show 4 ≤ 6 by norm_num)).val
    simp only [List.map_cons, List.sum_cons]
    rw [hrx.val, hry.val]
    have eX : ∀ s t : ℚ, heldX (s + t) v a b = heldX s v a b + heldX t v a b := by intro s t; unfold heldX; ring
    have eY : ∀ s t : ℚ, heldY (s + t) v a b = heldY s v a b + heldY t v a b := by intro s t; unfold heldY; ring
    rw [eX, eY]
    constructor <;> linarith

/-- C91: depositing and withdrawing again at the same price, at once or piecemeal, never pays more than the
deposit took. -/
theorem deposit_withdraw_no_profit {m : LibM} {p p1 p2 : Pool} {user : Nat} {x y rpa rpb : F64} {r : Receipt}
    {v a b X Y : ℚ} {s : PositionState} {ws : List (F64 × Receipt)}
    (h : p.deposit m user x y rpa rpb = .ok (p1, r))
    (hp : Prices p.gs.rp (tickToRp m (p.rpToPossibleTick m rpa false)) (tickToRp m (p.rpToPossibleTick m rpb false)) v a b)
    (hx : x.Is X) (hy : y.Is Y) (hX : Tame 200 X) (hY : Tame 200 Y)
    (hnew : mapGet ⟨user, p.rpToPossibleTick m rpa false, p.rpToPossibleTick m rpb false⟩ p.positions = none)
    (hs : mapGet ⟨user, p.rpToPossibleTick m rpa false, p.rpToPossibleTick m rpb false⟩ p1.positions = some s)
    (hW : Withdrawals m user rpa rpb p1 ws p2) (hw : ∀ w ∈ ws, w.1.Finite ∧ Tame 600 w.1.val)
    (hsum : (ws.map (·.1.val)).sum ≤ s.liq.val) :
    (ws.map (·.2.x.val)).sum ≤ r.x.val ∧ (ws.map (·.2.y.val)).sum ≤ r.y.val := by
  obtain ⟨L, wx, wy, _, _, _, hn, _⟩ := deposit_amounts h hp hx hy hX hY
  obtain ⟨s', hs', hL⟩ := hn hnew
  rw [hs, Option.some.injEq] at hs'
  subst hs'
  rw [hL.val] at hsum
  have hp1 : p1.gs.rp = p.gs.rp ∧ p1.spacing = p.spacing := by
    obtain ⟨_, _, _, _, _, q, f, _, _, _, _, _, _, _, _, _, hset, hp', _⟩ := deposit_ok h
    obtain ⟨_, _, _, rfl, _⟩ := setPosition_frame hset
    rw [hp']; exact ⟨rfl, rfl⟩
  have e1 : ∀ rp, p1.rpToPossibleTick m rp false = p.rpToPossibleTick m rp false := by
    intro rp; unfold rpToPossibleTick; rw [hp1.2]
  obtain ⟨i1, i2⟩ := withdrawals_sum hW (by rw [e1, e1, hp1.1]; exact hp) hw
  have key : ∀ {S H R : ℚ} {k : ℕ}, S * shrink ^ 6 ≤ H * (1 - 1 / 10 ^ 12) → 0 ≤ H → |R - H| ≤ |H| * k / 2 ^ 52 → k ≤ 4 →
      S ≤ R := by
    intro S H R k h1 hH h2 hk
    have hk' : (k : ℚ) ≤ 4 := by exact_mod_cast hk
    rw [abs_of_nonneg hH] at h2
    have h3 := (abs_le.1 h2).1
    have h4 : H * k / 2 ^ 52 ≤ H * 4 / 2 ^ 52 :=
      div_le_div_of_nonneg_right (mul_le_mul_of_nonneg_left hk' hH) (by positivity)
    have h5 : H * (1 - 4 / 2 ^ 52) ≤ R := by
      have : H * (1 - 4 / 2 ^ 52) = H - H * 4 / 2 ^ 52 := by ring
      linarith
    have h6 : (1 - 1 / 10 ^ 12 : ℚ) ≤ (1 - 4 / 2 ^ 52) * shrink ^ 6 := by
      have := shrink_pow_ge 6
      push_cast at this
      refine le_trans ?_ (mul_le_mul_of_nonneg_left this (by norm_num))
      norm_num
    have hs := shrink_pow_pos 6
    have h7 : S * shrink ^ 6 ≤ R * shrink ^ 6 := by
      calc S * shrink ^ 6 ≤ H * (1 - 1 / 10 ^ 12) := h1
        _ ≤ H * ((1 - 4 / 2 ^ 52) * shrink ^ 6) := mul_le_mul_of_nonneg_left h6 hH
        _ = H * (1 - 4 / 2 ^ 52) * shrink ^ 6 := by ring
        _ ≤ R * shrink ^ 6 := mul_le_mul_of_nonneg_right h5 hs.le
    exact le_of_mul_le_mul_right h7 hs
  have hmono : heldX (ws.map (·.1.val)).sum v a b ≤ heldX L v a b ∧ heldY (ws.map (·.1.val)).sum v a b ≤ heldY L v a b := by
    obtain ⟨g1, g2⟩ := held_nonneg (v := v) (sub_nonneg.2 hsum) hp.sa.pos hp.lt
    unfold heldX at g1 ⊢
    unfold heldY at g2 ⊢
    constructor <;> linarith
  obtain ⟨g1, g2⟩ := held_nonneg (v := v) (show (0 : ℚ) ≤ L by positivity) hp.sa.pos hp.lt
  obtain ⟨rx, hrx, bx⟩ := wx
  obtain ⟨ry, hry, by'⟩ := wy
  rw [hrx.val, hry.val]
  have hw0 : (0 : ℚ) ≤ 1 - 1 / 10 ^ 12 := by norm_num
  exact ⟨key (le_trans i1 (mul_le_mul_of_nonneg_right hmono.1 hw0)) g1 bx (le_refl _),
    key (le_trans i2 (mul_le_mul_of_nonneg_right hmono.2 hw0)) g2 by' (by norm_num)⟩

end

/-! ### A case -/

/-- The number lies between two powers of two and its digits fit in a double. -/
def fits (lo hi n : ℕ) : Bool :=
  decide (2 ^ lo ≤ n) && decide (n ≤ 2 ^ hi) && decide (n / 2 ^ shiftOf n < 2 ^ 53) &&
    decide (n = n / 2 ^ shiftOf n * 2 ^ shiftOf n)

theorem fits_ok {lo hi n : ℕ} (h : fits lo hi n = true) :
    2 ^ lo ≤ n ∧ n ≤ 2 ^ hi ∧ n / 2 ^ shiftOf n < 2 ^ 53 ∧ n = n / 2 ^ shiftOf n * 2 ^ shiftOf n := by
  unfold fits at h
  simp only [Bool.and_eq_true, decide_eq_true_eq] at h
  exact ⟨h.1.1.1, h.1.1.2, h.1.2, h.2⟩

/-- The double is positive and lies between `2^(lo-1074)` and `2^(hi-1074)`. -/
def sizedBetween (lo hi : ℕ) : F64 → Bool
  | fin false n => fits lo hi n
  | _ => false

/-- The double is positive, of size between `2^-100` and `2^100`. -/
def moderate (a : F64) : Bool := sizedBetween 974 1174 a

section
attribute [local irreducible] unit limit

theorem sizedBetween_ok {lo hi : ℕ} {a : F64} (h : sizedBetween lo hi a = true) (hhi : hi < 2098) :
    a.Is a.val ∧ a.Rep ∧ (2 : ℚ) ^ lo ≤ a.val * 2 ^ 1074 ∧ a.val * 2 ^ 1074 ≤ 2 ^ hi := by
  match a, h with
  | fin false n, h =>
    obtain ⟨h1, h2, h3, h4⟩ := fits_ok (show fits lo hi n = true from h)
    have hI : (fin false n).Is ((n : ℚ) / 2 ^ 1074) := by
      refine ⟨false, n, rfl, ?_⟩
      rw [unit_mul_pow]; rfl
    have e : (fin false n).val * 2 ^ 1074 = n := by
      rw [hI.val]
      exact div_mul_cancel₀ _ (by positivity)
    have hI' := hI
    rw [← hI.val] at hI'
    refine ⟨hI', rep_fin.2 ⟨?_, _, _, h3, h4⟩, ?_, ?_⟩
    · rw [limit_eq]
      exact lt_of_le_of_lt h2 (Nat.pow_lt_pow_right (by decide) hhi)
    · rw [e]; exact_mod_cast h1
    · rw [e]; exact_mod_cast h2

theorem moderate_ok {a : F64} (h : moderate a = true) : a.Is a.val ∧ a.Rep ∧ Sized 100 a.val := by
  obtain ⟨h1, h2, h3, h4⟩ := sizedBetween_ok h (by norm_num)
  refine ⟨h1, h2, ?_, ?_⟩
  · rw [div_le_iff₀ (by positivity)]
    have e : (2 : ℚ) ^ 1074 = 2 ^ 100 * 2 ^ 974 := by rw [← pow_add]
    rw [e, ← mul_assoc] at h3
    exact le_of_mul_le_mul_right (by rw [one_mul]; exact h3) (show (0 : ℚ) < 2 ^ 974 by positivity)
  · have e : (2 : ℚ) ^ 1174 = 2 ^ 100 * 2 ^ 1074 := by rw [← pow_add]
    rw [e] at h4
    exact le_of_mul_le_mul_right h4 (by positivity)

theorem prices_of {rp rpa rpb : F64} (h : (moderate rp && moderate rpa && moderate rpb && lt rpa rpb) = true) :
    Prices rp rpa rpb rp.val rpa.val rpb.val := by
  simp only [Bool.and_eq_true] at h
  obtain ⟨⟨⟨h1, h2⟩, h3⟩, h4⟩ := h
  obtain ⟨i1, r1, s1⟩ := moderate_ok h1
  obtain ⟨i2, r2, s2⟩ := moderate_ok h2
  obtain ⟨i3, r3, s3⟩ := moderate_ok h3
  exact ⟨i1, i2, i3, r1, r2, r3, s1, s2, s3, (lt_is i2 i3).1 h4⟩

end

/-- The pool of the unit tests: a deposit buys 487 units of liquidity, which are withdrawn in two parts. -/
def amountsCheck : Bool :=
  match Pool.new libm (rt 2000) 1 F64.zero F64.zero with
  | .ok p =>
    match p.deposit libm 1 (ofNat 2) (ofNat 4000) (rt 1333) (rt 3000) with
    | .ok (p1, _) =>
      match mapGet ⟨1, p.rpToPossibleTick libm (rt 1333) false, p.rpToPossibleTick libm (rt 3000) false⟩ p1.positions with
      | some s =>
        match p1.withdraw libm 1 (ofNat 50) (rt 1333) (rt 3000) with
        | .ok (p2, _) =>
          match p2.withdraw libm 1 (ofNat 437) (rt 1333) (rt 3000) with
          | .ok _ => moderate p.gs.rp && moderate (tickToRp libm (p.rpToPossibleTick libm (rt 1333) false)) &&
              moderate (tickToRp libm (p.rpToPossibleTick libm (rt 3000) false)) &&
              lt (tickToRp libm (p.rpToPossibleTick libm (rt 1333) false))
                (tickToRp libm (p.rpToPossibleTick libm (rt 3000) false)) &&
              decide (s.liq = ofNat 487) &&
              (mapGet ⟨1, p.rpToPossibleTick libm (rt 1333) false, p.rpToPossibleTick libm (rt 3000) false⟩
                p.positions).isNone
          | _ => false
        | _ => false
      | _ => false
    | _ => false
  | _ => false

/-- The hypotheses of C90 and C91 hold in the pool of the unit tests. -/
theorem deposit_amounts_case : ∃ (p p1 p2 : Pool) (x y rpa rpb : F64) (r : Receipt) (v a b X Y : ℚ) (s : PositionState)
    (ws : List (F64 × Receipt)), p.deposit libm 1 x y rpa rpb = .ok (p1, r) ∧
    Prices p.gs.rp (tickToRp libm (p.rpToPossibleTick libm rpa false)) (tickToRp libm (p.rpToPossibleTick libm rpb false)) v a b ∧
    x.Is X ∧ y.Is Y ∧ Tame 200 X ∧ Tame 200 Y ∧
    mapGet ⟨1, p.rpToPossibleTick libm rpa false, p.rpToPossibleTick libm rpb false⟩ p.positions = none ∧
    mapGet ⟨1, p.rpToPossibleTick libm rpa false, p.rpToPossibleTick libm rpb false⟩ p1.positions = some s ∧
    Withdrawals libm 1 rpa rpb p1 ws p2 ∧ (∀ w ∈ ws, w.1.Finite ∧ Tame 600 w.1.val) ∧
    (ws.map (·.1.val)).sum = s.liq.val ∧ ws.length = 2 := by
  have h : amountsCheck = true := by decide +kernel
  unfold amountsCheck at h
  split at h <;> [skip; cases h]
  rename_i p h0
  split at h <;> [skip; cases h]
  rename_i p1 r h1
  split at h <;> [skip; cases h]
  rename_i s hs
  split at h <;> [skip; cases h]
  rename_i p2 r2 h2
  split at h <;> [skip; cases h]
  rename_i w h3
  obtain ⟨p3, r3⟩ := w
  rw [Bool.and_eq_true, Bool.and_eq_true, decide_eq_true_eq] at h
  obtain ⟨⟨h4, h5⟩, h6⟩ := h
  have sz : ∀ {n : ℕ} (e : ℕ), 1 ≤ n → n ≤ 2 ^ 20 → 20 ≤ e → Tame e (n : ℚ) := by
    intro n e h1 h2 h3
    right
    refine ⟨?_, ?_⟩
    · have : (1 : ℚ) ≤ n := by exact_mod_cast h1
      refine le_trans ?_ this
      rw [div_le_one (by positivity)]
      exact one_le_pow₀ (by norm_num)
    · have : (n : ℚ) ≤ 2 ^ 20 := by exact_mod_cast h2
      exact le_trans this (pow_le_pow_right₀ (by norm_num) h3)
  have i2 := ofNat_is (k := 2) (by norm_num)
  have i4 := ofNat_is (k := 4000) (by norm_num)
  have i5 := ofNat_is (k := 50) (by norm_num)
  have i43 := ofNat_is (k := 437) (by norm_num)
  have i48 := ofNat_is (k := 487) (by norm_num)
  generalize ofNat 50 = A at h2 i5
  generalize ofNat 437 = B at h3 i43
  refine ⟨p, p1, p3, ofNat 2, ofNat 4000, rt 1333, rt 3000, r, _, _, _, (2 : ℕ), (4000 : ℕ), s,
    [(A, r2), (B, r3)], h1, prices_of h4, i2, i4, sz _ (by norm_num) (by norm_num) (by norm_num),
    sz _ (by norm_num) (by norm_num) (by norm_num), Option.isNone_iff_eq_none.1 h6, hs, .more h2 (.more h3 (.none _)),
    ?_, ?_, rfl⟩
  · intro w hw
    rcases List.mem_cons.1 hw with rfl | hw
    · exact ⟨⟨_, i5⟩, by rw [i5.val]; exact sz _ (by norm_num) (by norm_num) (by norm_num)⟩
    · rcases List.mem_cons.1 hw with rfl | hw
      · exact ⟨⟨_, i43⟩, by rw [i43.val]; exact sz _ (by norm_num) (by norm_num) (by norm_num)⟩
      · cases hw
  · rw [h5]
    simp only [List.map_cons, List.map_nil, List.sum_cons, List.sum_nil]
    rw [i5.val, i43.val, i48.val]
    norm_num

end Hmm.Flt.Pool
