import Verif.Proofs.WorldBuy
import Verif.Tests.WorldSample

/-
Exactly when a deposit succeeds, what it takes and what it mints; which offers are refused although they could be paid.
-/

namespace Hmm.OnChain.World

open Decimal PoolMath World.Sample

/-! ### C121: a deposit succeeds exactly when it should -/

/-- A deposit takes `dx` and `dy` and mints `n` exactly when that is, in whole tokens, what the offer buys, the X does not
exceed the offer, and everything is ready. -/
theorem C121_when {w : World} (hw : Reachable w) {lp : Nat} {p : PoolAcc} (hp : mapGet lp w.pools = some p)
    {c : Accounts} {lower upper current x y dx dy n : Nat} (hx : x < 2 ^ 64) (hy : y < 2 ^ 64) :
    (∃ v, w.deposit lp c lower upper current x y = .ok (v, ⟨dx, dy, n⟩)) ↔
      ∃ l X Y, Quote p.gs.tick lower upper x y l X Y ∧ X ≤ x * 10 ^ 12 ∧ dx = X / 10 ^ 12 ∧ dy = Y / 10 ^ 12 ∧
        n = l / 10 ^ 12 ∧ Prepared w lp p c lower upper current l dx dy := by
  constructor
  · rintro ⟨v, h⟩
    exact deposit_prepared hw hp h
  · rintro ⟨l, X, Y, h1, h2, h3, h4, rfl, h5⟩
    exact deposit_when hw hp hx hy h1 h2 h3 h4 h5

/-- What an offer buys, and for how much, is determined by the ticks. -/
theorem C121_unique {tick lower upper x y l X Y l' X' Y' : Nat} (h : Quote tick lower upper x y l X Y)
    (h' : Quote tick lower upper x y l' X' Y') : l = l' ∧ X = X' ∧ Y = Y' := by
  obtain ⟨p, a, b, q, h1, h2, h3, h4, _, _, _, h5, h6, h7⟩ := h
  obtain ⟨p', a', b', q', k1, k2, k3, k4, _, _, _, k5, k6, k7⟩ := h'
  rw [h1] at k1; cases k1
  rw [h2] at k2; cases k2
  rw [h3] at k3; cases k3
  subst h4 k4
  subst h5 k5
  exact ⟨rfl, h6.trans k6.symm, h7.trans k7.symm⟩

/-- User 1 offers 100 of each token; 99 of each buy 199860. -/
example : ∃ w, Reachable w ∧ ∃ p, mapGet 100 w.pools = some p ∧ ∃ l X Y, Quote p.gs.tick 10 30 100 100 l X Y ∧
    X ≤ 100 * 10 ^ 12 ∧ 99 = X / 10 ^ 12 ∧ 99 = Y / 10 ^ 12 ∧ 199860 = l / 10 ^ 12 ∧
    Prepared w 100 p (user 1 1 2 3) 10 30 20 l 99 99 := by
  obtain ⟨w, h, e⟩ := holds_reachable (as := start) (p := fun w => (mapGet 100 w.pools).isSome &&
    match w.deposit 100 (user 1 1 2 3) 10 30 20 100 100 with
      | .ok (_, m) => decide (m = ⟨99, 99, 199860⟩)
      | .error _ => false) (by decide +kernel)
  rw [Bool.and_eq_true] at e
  obtain ⟨e1, e2⟩ := e
  obtain ⟨p, hp⟩ := Option.isSome_iff_exists.1 e1
  split at e2
  · next r m hw =>
    rw [of_decide_eq_true e2] at hw
    exact ⟨w, h, p, hp, (C121_when h hp (by norm_num) (by norm_num)).1 ⟨r, hw⟩⟩
  · cases e2

/-! ### C122: an offer that can be paid is accepted -/

/-- Full statement: an offer is accepted if everything is ready for what it buys and the user could even pay all of it. -/
def C122_full : Prop :=
  ∀ {w : World}, Reachable w → ∀ {lp : Nat} {p : PoolAcc}, mapGet lp w.pools = some p →
    ∀ {c : Accounts} {lower upper current x y l X Y : Nat}, x < 2 ^ 64 → y < 2 ^ 64 →
      Quote p.gs.tick lower upper x y l X Y → Prepared w lp p c lower upper current l x y →
        ∃ r, w.deposit lp c lower upper current x y = .ok r

theorem Prepared.less {w : World} {lp : Nat} {p : PoolAcc} {c : Accounts} {lower upper current l dx dy x y : Nat}
    (h : Prepared w lp p c lower upper current l x y) (hx : dx ≤ x) (hy : dy ≤ y) :
    Prepared w lp p c lower upper current l dx dy := by
  obtain ⟨tx, x1, x2, x3, x4, x5, x6⟩ := h.tokenX
  obtain ⟨ty, y1, y2, y3, y4, y5, y6⟩ := h.tokenY
  exact { h with
    tokenX := ⟨tx, x1, x2, x3, x4, hx.trans x5, x6.imp id fun ⟨j, j1, j2⟩ => ⟨j, j1, hx.trans j2⟩⟩
    tokenY := ⟨ty, y1, y2, y3, y4, hy.trans y5, y6.imp id fun ⟨j, j1, j2⟩ => ⟨j, j1, hy.trans j2⟩⟩ }

/-- The Y that an offer takes is within the offer. -/
theorem Quote.y_le {tick lower upper x y l X Y : Nat} (ho : lower < upper) (h : Quote tick lower upper x y l X Y) :
    Y ≤ y * 10 ^ 12 := by
  obtain ⟨p, a, b, q, h1, h2, h3, rfl, _, _, _, h5, h6, h7⟩ := h
  obtain ⟨_, _, o3, o4⟩ := offer_le (tickToRp_order ho h2 h3) h5
  rw [h7]
  have : l * (clampAt p a b - a) ≤ y * 10 ^ 24 := by
    by_cases e : a < p
    · exact o3 e
    · rw [o4 (by omega), Nat.mul_zero]; exact Nat.zero_le _
  refine (Nat.div_le_div_right this).trans (le_of_eq ?_)
  rw [show y * 10 ^ 24 = y * 10 ^ 12 * 10 ^ 12 by ring]
  exact Nat.mul_div_cancel _ (by norm_num)

/-- C122, missing: offers of which the computed X exceeds the offer. -/
theorem C122_accepted_partial {w : World} (hw : Reachable w) {lp : Nat} {p : PoolAcc} (hp : mapGet lp w.pools = some p)
    {c : Accounts} {lower upper current x y l X Y : Nat} (hx : x < 2 ^ 64) (hy : y < 2 ^ 64)
    (hq : Quote p.gs.tick lower upper x y l X Y) (h : Prepared w lp p c lower upper current l x y) :
    (∃ r, w.deposit lp c lower upper current x y = .ok r) ↔ X ≤ x * 10 ^ 12 := by
  constructor
  · rintro ⟨⟨v, m⟩, hd⟩
    obtain ⟨l', X', Y', k1, k2, _⟩ := deposit_prepared hw hp hd
    obtain ⟨_, rfl, _⟩ := C121_unique hq k1
    exact k2
  · intro hX
    have hY := hq.y_le h.order
    have le : ∀ {z v : Nat}, z ≤ v * 10 ^ 12 → z / 10 ^ 12 ≤ v := fun {z v} hz => by omega
    obtain ⟨v, hd⟩ := deposit_when hw hp hx hy hq hX rfl rfl (h.less (le hX) (le hY))
    exact ⟨_, hd⟩

/-- With `q b = m 10^12 + r` in units of the twelfth place, the X computed from the liquidity that X buys. -/
theorem x_exceeds {x m r d T N l : Nat} (hT : 0 < T) (hm : 0 < m) (hd : 0 < d) (hN : N = x * m + x * r / T)
    (hl : l = N * T / d) (h : (2 + d / T + m / T) * T ≤ x * r) : x * T < l * d / T * T / m := by
  have h1 : 2 + d / T + m / T ≤ x * r / T := (Nat.le_div_iff_mul_le hT).2 h
  have h2 : N * T < l * d + d := by
    rw [hl]
    have h8 := Nat.div_add_mod' (N * T) d
    have h9 := Nat.mod_lt (N * T) hd
    omega
  have h3 : d < (d / T + 1) * T := by
    have := Nat.div_add_mod d T
    have := Nat.mod_lt d hT
    nlinarith
  have h3' : m < (m / T + 1) * T := by
    have := Nat.div_add_mod m T
    have := Nat.mod_lt m hT
    nlinarith
  have h4 : x * m + 1 + m / T ≤ l * d / T := by
    rw [Nat.le_div_iff_mul_le hT]
    have h5 : (x * m + 2 + d / T + m / T) * T ≤ N * T := Nat.mul_le_mul_right _ (by omega)
    nlinarith
  have h6 : (x * T + 1) * m ≤ l * d / T * T := by
    have h7 : (x * m + 1 + m / T) * T ≤ l * d / T * T := Nat.mul_le_mul_right _ h4
    nlinarith
  exact (Nat.le_div_iff_mul_le hm).2 h6

theorem x_within {x m r d T N l : Nat} (hN : N = x * m + x * r / T)
    (hl : l ≤ N * T / d) (h : x * r < T) : l * d / T * T / m ≤ x * T := by
  rw [Nat.div_eq_of_lt h, Nat.add_zero] at hN
  have h1 : l * d ≤ N * T := (Nat.mul_le_mul_right _ hl).trans (Nat.div_mul_le_self _ _)
  have h2 : l * d / T * T ≤ N * T := (Nat.div_mul_le_self _ _).trans h1
  rcases Nat.eq_zero_or_pos m with rfl | hm
  · rw [Nat.div_zero]; exact Nat.zero_le _
  · refine (Nat.div_le_div_right h2).trans (le_of_eq ?_)
    rw [hN, show x * m * T = x * T * m by ring]
    exact Nat.mul_div_cancel _ hm

theorem split_product (x z : Nat) {T : Nat} (hT : 0 < T) : x * z / T = x * (z / T) + x * (z % T) / T := by
  conv_lhs => rw [← Nat.div_add_mod z T]
  rw [Nat.mul_add, show x * (T * (z / T)) = T * (x * (z / T)) by ring, Nat.mul_add_div hT]

/-- Offers of which the X counts are refused once `x` times the remainder of `q b` at the twelfth place reaches
`(2 + ⌊b - q⌋ + ⌊q b⌋) 10^12`: for root prices up to 2 that is at most `7 · 10^12`, so on average an offer of more than 14 base
units of X. -/
theorem C122_refused {w : World} (hw : Reachable w) {lp : Nat} {p : PoolAcc} (hp : mapGet lp w.pools = some p)
    {c : Accounts} {lower upper current x y rp a b q : Nat} (h1 : tickToRp p.gs.tick = .ok ⟨rp, 12, false⟩)
    (h2 : tickToRp lower = .ok ⟨a, 12, false⟩) (h3 : tickToRp upper = .ok ⟨b, 12, false⟩) (hq : q = clampAt rp a b)
    (hb : rp ≤ a ∨ rp < b ∧ x * q * b / 10 ^ 12 * 10 ^ 12 / (b - q) ≤ y * 10 ^ 24 / (q - a))
    (h : (2 + (b - q) / 10 ^ 12 + q * b / 10 ^ 12 / 10 ^ 12) * 10 ^ 12 ≤ x * (q * b % 10 ^ 12)) :
    ∀ r, w.deposit lp c lower upper current x y ≠ .ok r := by
  rintro ⟨v, m⟩ hd
  obtain ⟨l, X, Y, k1, k2, _, _, _, hprep⟩ := deposit_prepared hw hp hd
  obtain ⟨rp', a', b', q', g1, g2, g3, g4, _, _, _, g5, g6, _⟩ := k1
  rw [h1] at g1; cases g1
  rw [h2] at g2; cases g2
  rw [h3] at g3; cases g3
  rw [← hq] at g4; subst g4
  have hab := tickToRp_order hprep.order h2 h3
  have ha := tickToRp_ge h2
  have hl : l = x * q' * b / 10 ^ 12 * 10 ^ 12 / (b - q') := by
    rcases hb with hb | ⟨hb1, hb2⟩
    · rw [if_pos hb] at g5; exact g5
    · rw [if_pos hb1, min_eq_left hb2, ite_self] at g5; exact g5
  have hqb : q' < b ∧ a ≤ q' := by
    rw [hq]; unfold clampAt
    rcases hb with hb | ⟨hb1, hb2⟩ <;> omega
  have hm : 0 < q' * b / 10 ^ 12 := by
    have : 10 ^ 12 * 10 ^ 12 ≤ q' * b := Nat.mul_le_mul (ha.trans hqb.2) (by omega)
    exact Nat.div_pos (le_trans (by norm_num) this) (by norm_num)
  have := x_exceeds (T := 10 ^ 12) (by norm_num) hm (Nat.sub_pos_of_lt hqb.1)
    (by rw [Nat.mul_assoc]; exact split_product x (q' * b) (by norm_num)) hl h
  rw [← g6] at this
  exact absurd k2 (not_le.2 this)

/-- Offers are not refused for the X if `x` times that remainder is less than `10^12`. -/
theorem C122_small {tick lower upper x y l X Y b q : Nat} (hq : Quote tick lower upper x y l X Y)
    (h : ∀ p a, tickToRp tick = .ok ⟨p, 12, false⟩ → tickToRp lower = .ok ⟨a, 12, false⟩ → q = clampAt p a b)
    (hb : tickToRp upper = .ok ⟨b, 12, false⟩) (hr : x * (q * b % 10 ^ 12) < 10 ^ 12) : X ≤ x * 10 ^ 12 := by
  obtain ⟨p, a, b', q', g1, g2, g3, rfl, _, _, _, g5, g6, _⟩ := hq
  rw [hb] at g3; cases g3
  rw [← h p a g1 g2] at g5 g6
  rw [g6]
  by_cases e : p < b
  · refine x_within (r := q * b % 10 ^ 12) (split_product x (q * b) (by norm_num)) ?_ hr
    rw [g5, if_pos e, ← Nat.mul_assoc]
    split
    · exact le_rfl
    · exact min_le_left _ _
  · have : b - q = 0 := by rw [h p a g1 g2]; unfold clampAt; omega
    rw [this, Nat.mul_zero]
    simp

/-- A test of an entry of a map. -/
theorem any_some {α : Type} {o : Option α} {f : α → Bool} (h : o.any f = true) : ∃ t, o = some t ∧ f t = true := by
  cases o with
  | none => cases h
  | some t => exact ⟨t, rfl, h⟩

/-- A test of the accounts that user 2 needs between the ticks 25 and 30. -/
def readyFor (w : World) : Bool :=
  (mapGet 100 w.pools).any fun (p : PoolAcc) =>
    decide (p.gs.tick = 20 ∧ p.xMint = 1 ∧ p.yMint = 2 ∧ p.bitmap.isSome ∧ (mapGet 20 p.ticks).isSome) &&
    ((mapGet (⟨2, 25, 30⟩ : PosKey) p.positions).any fun (t : Position) => decide (t.liq = 0)) &&
    ((mapGet 25 p.ticks).any fun (t : Tick) => decide (t.gross = 0)) && ((mapGet 30 p.ticks).any fun (t : Tick) => decide (t.gross = 0)) &&
    ((mapGet (.key 21) w.tokens).any fun (t : Token) => decide (t = ⟨1, .user 2, 1000, none, false⟩)) &&
    ((mapGet (.key 22) w.tokens).any fun (t : Token) => decide (t = ⟨2, .user 2, 1000, none, false⟩)) &&
    ((mapGet (.key 23) w.tokens).any fun (t : Token) => decide (t.mint = 100 ∧ t.frozen = false)) &&
    ((mapGet (.vault 1 100) w.tokens).any fun (t : Token) => decide (t.frozen = false)) &&
    ((mapGet (.vault 2 100) w.tokens).any fun (t : Token) => decide (t.frozen = false)) &&
    ((mapGet 100 w.mints).any fun (t : Mint) => decide (t.supply = 0))

/-- User 2 can pay 20 X for the liquidity that they buy between the ticks 25 and 30. -/
theorem offered : ∃ w, Reachable w ∧ ∃ p, mapGet 100 w.pools = some p ∧ p.gs.tick = 20 ∧
    Prepared w 100 p (user 2 1 2 3) 25 30 20 80114077141458471 20 0 := by
  obtain ⟨w, h, e⟩ := holds_reachable (as := start) (p := readyFor) (by decide +kernel)
  unfold readyFor at e
  obtain ⟨p, hp, e⟩ := any_some e
  simp only [Bool.and_eq_true] at e
  obtain ⟨⟨⟨⟨⟨⟨⟨⟨⟨e1, e2⟩, e3⟩, e4⟩, e5⟩, e6⟩, e7⟩, e8⟩, e9⟩, e10⟩ := e
  obtain ⟨a1, a2, a3, a4, a5⟩ := of_decide_eq_true e1
  obtain ⟨t2, g2, f2⟩ := any_some e2
  obtain ⟨t3, g3, f3⟩ := any_some e3
  obtain ⟨t4, g4, f4⟩ := any_some e4
  obtain ⟨t5, g5, f5⟩ := any_some e5
  obtain ⟨t6, g6, f6⟩ := any_some e6
  obtain ⟨t7, g7, f7⟩ := any_some e7
  obtain ⟨t8, g8, f8⟩ := any_some e8
  obtain ⟨t9, g9, f9⟩ := any_some e9
  obtain ⟨t10, g10, f10⟩ := any_some e10
  have f2 := of_decide_eq_true f2
  have f3 := of_decide_eq_true f3
  have f4 := of_decide_eq_true f4
  have f5 := of_decide_eq_true f5
  have f6 := of_decide_eq_true f6
  have f7 := of_decide_eq_true f7
  have f8 := of_decide_eq_true f8
  have f9 := of_decide_eq_true f9
  have f10 := of_decide_eq_true f10
  subst f5 f6
  refine ⟨w, h, p, hp, a1, ⟨a1.symm, by norm_num, a4, a1 ▸ a5, ⟨t2, g2, ?_⟩, ⟨t3, g3, ?_⟩, ⟨t4, g4, ?_⟩, ?_,
    ⟨_, g5, a2.symm, rfl, rfl, ?_, .inl ⟨rfl, fun k => nofun⟩⟩, ⟨_, g6, a3.symm, rfl, rfl, ?_, .inl ⟨rfl, fun k => nofun⟩⟩,
    ⟨t8, a2 ▸ g8, f8⟩, ⟨t9, a3 ▸ g9, f9⟩, ⟨t7, g7, f7⟩, ⟨t10, g10, ?_⟩⟩⟩
  · rw [f2]; norm_num
  · rw [f3]; norm_num
  · rw [f4]; norm_num
  · rw [a1]; intro h; exact absurd h (by norm_num)
  · exact le_trans (by norm_num) (Nat.le_add_right _ _)
  · exact Nat.zero_le _
  · rw [f10]; norm_num

theorem quoted : Quote 20 25 30 20 0 80114077141458471 20000000000003 0 :=
  ⟨1001000450103, 1001250718980, 1001501050428, 1001250718980, by decide +kernel, by decide +kernel, by decide +kernel,
    by decide +kernel, by decide +kernel, by decide +kernel, by decide +kernel, by decide +kernel, by decide +kernel,
    by decide +kernel⟩

/-- C122 is false of the code: 20 X between the ticks 25 and 30, above the pool's tick 20, are refused because the liquidity
that they buy is computed to need 20.000000000003 X. -/
theorem C122_false : ¬ C122_full := by
  intro h
  obtain ⟨w, hw, p, hp, ht, hr⟩ := offered
  obtain ⟨r, hd⟩ := h hw hp (by norm_num) (by norm_num) (by rw [ht]; exact quoted) hr
  refine C122_refused hw hp (rp := 1001000450103) (a := 1001250718980) (b := 1001501050428) (q := 1001250718980)
    (by rw [ht]; decide +kernel) (by decide +kernel) (by decide +kernel) (by decide +kernel) (.inl (by norm_num))
    (by decide +kernel) r hd

/-- Ten are accepted. -/
example : holds start (fun w => match w.deposit 100 (user 2 1 2 3) 25 30 20 10 0 with
    | .ok (_, m) => decide (m = ⟨10, 0, 40057⟩)
    | .error _ => false) = true := by decide +kernel

end Hmm.OnChain.World
