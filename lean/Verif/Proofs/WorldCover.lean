import Verif.Proofs.WorldWhen
import Verif.Spec.WorldCover

/-
The vaults of a pool on the ledger and what its positions are worth in whole tokens.
-/

namespace Hmm.OnChain.World

open Decimal PoolMath

/-! ### Whole tokens -/

theorem wholeX_add (p a b l k : Nat) : wholeX p a b l + wholeX p a b k ≤ wholeX p a b (l + k) := by
  unfold wholeX
  refine Nat.div_add_div_le_add_div.trans (Nat.div_le_div_right ?_)
  refine Nat.div_add_div_le_add_div.trans (Nat.div_le_div_right ?_)
  rw [← Nat.add_mul]
  refine Nat.mul_le_mul_right _ (Nat.div_add_div_le_add_div.trans (Nat.div_le_div_right ?_))
  rw [← Nat.add_mul]

theorem wholeY_add (p a b l k : Nat) : wholeY p a b l + wholeY p a b k ≤ wholeY p a b (l + k) := by
  unfold wholeY
  refine Nat.div_add_div_le_add_div.trans (Nat.div_le_div_right ?_)
  refine Nat.div_add_div_le_add_div.trans (Nat.div_le_div_right ?_)
  rw [← Nat.add_mul]

theorem add_div_le (x y d : Nat) : (x + y) / d ≤ x / d + y / d + 1 := by
  rcases Nat.eq_zero_or_pos d with rfl | hd
  · simp
  · rw [Nat.add_div hd]; split <;> omega

theorem wholeY_le (p a b l k : Nat) : wholeY p a b (l + k) ≤ wholeY p a b l + wholeY p a b k + 1 := by
  unfold wholeY
  rw [Nat.add_mul]
  have h := add_div_le (l * (clampAt p a b - a)) (k * (clampAt p a b - a)) (10 ^ 12)
  have h' := Nat.div_le_div_right (c := 10 ^ 12) h
  refine h'.trans ?_
  generalize l * (clampAt p a b - a) / 10 ^ 12 = u
  generalize k * (clampAt p a b - a) / 10 ^ 12 = v
  omega

theorem div_three (L K m T : Nat) (hT : 4 ≤ T) (hm : T ≤ m) :
    (L + K) / T * T / m / T ≤ L / T * T / m / T + K / T * T / m / T + 2 := by
  have h := add_div_le L K T
  have h2 := Nat.mul_le_mul_right T h
  rw [Nat.add_mul, Nat.add_mul, Nat.one_mul] at h2
  have h3 := Nat.div_le_div_right (c := m) h2
  have h4 := add_div_le (L / T * T + K / T * T) T m
  have h5 := add_div_le (L / T * T) (K / T * T) m
  have h6 : T / m ≤ 1 := by
    refine Nat.div_le_of_le_mul ?_
    omega
  generalize L / T * T / m = u at *
  generalize K / T * T / m = v at *
  generalize (L + K) / T * T / m = z at *
  have h7 : z ≤ u + (v + 3) := by omega
  have h8 := Nat.div_le_div_right (c := T) h7
  have h9 := add_div_le u (v + 3) T
  have h10 := add_div_le v 3 T
  have h11 : 3 / T = 0 := Nat.div_eq_of_lt (by omega)
  omega

theorem wholeX_le {p a b : Nat} (l k : Nat) (hm : 10 ^ 12 ≤ clampAt p a b * b / 10 ^ 12) :
    wholeX p a b (l + k) ≤ wholeX p a b l + wholeX p a b k + 2 := by
  unfold wholeX
  rw [Nat.add_mul]
  exact div_three _ _ _ _ (by norm_num) hm

theorem claimX_eq {p user lower upper a b : Nat} {q : Position} (ha : tickToRp lower = .ok ⟨a, 12, false⟩)
    (hb : tickToRp upper = .ok ⟨b, 12, false⟩) : claimX p ⟨user, lower, upper⟩ q = wholeX p a b q.liq := by
  unfold claimX; simp only [ha, hb]

theorem claimY_eq {p user lower upper a b : Nat} {q : Position} (ha : tickToRp lower = .ok ⟨a, 12, false⟩)
    (hb : tickToRp upper = .ok ⟨b, 12, false⟩) : claimY p ⟨user, lower, upper⟩ q = wholeY p a b q.liq := by
  unfold claimY; simp only [ha, hb]

theorem wholeX_zero (p a b : Nat) : wholeX p a b 0 = 0 := by unfold wholeX; simp

theorem wholeY_zero (p a b : Nat) : wholeY p a b 0 = 0 := by unfold wholeY; simp

theorem claim_empty {p : Nat} {k : PosKey} {q : Position} (h : q.liq = 0) : claimX p k q = 0 ∧ claimY p k q = 0 := by
  unfold claimX claimY
  rw [h]
  constructor <;> split <;> simp [wholeX_zero, wholeY_zero]

/-! ### One pool -/

/-- X that the positions are worth. -/
def sumX (s : Chain) : ℚ := mapSum (fun k q => (claimX s.gs.rp k q : ℚ)) s.positions

/-- Y that the positions are worth. -/
def sumY (s : Chain) : ℚ := mapSum (fun k q => (claimY s.gs.rp k q : ℚ)) s.positions

theorem amount_eq {k : PosKey} {q : Position} (h : GoodPosition k q) : q.amount = (q.liq : ℚ) / 10 ^ 12 := by
  unfold Position.amount; rw [h.scale]

section

variable {s t : Chain} {c : Caller} {lower upper current xa ya n : Nat} {m : Moved}

theorem deposit_sums (hs : Good s) (h : OnChain.deposit s c lower upper current xa ya = .ok (t, m)) :
    ∃ q, mapGet (⟨c.user, lower, upper⟩ : PosKey) s.positions = some q ∧
      sumX t ≤ sumX s + m.x + (if q.liq = 0 then 0 else 2) ∧ sumY t ≤ sumY s + m.y + (if q.liq = 0 then 0 else 1) ∧
      t.vaultX = s.vaultX + m.x ∧ t.vaultY = s.vaultY + m.y := by
  obtain ⟨d, p, a, b, l, v⟩ := hs.deposit h
  have ha := v.raw.rpa
  have hb := v.raw.rpb
  rw [v.rpa] at ha
  rw [v.rpb] at hb
  obtain ⟨q, hq, hq'⟩ := hs.gs.rp
  have hp := v.raw.rp
  rw [v.cur, hq, v.rp] at hp
  cases hp
  simp only at hq'
  have hx := v.raw.xIn
  have hy := v.raw.yIn
  rw [v.delta, v.rp, v.rpa, v.rpb] at hx hy
  obtain ⟨o1, o2, o3⟩ := xFrom_order v.prices hx
  have o4 := yFrom_nn hy
  have hl := (OnChain.loadAccounts_ok.1 v.raw.load).2.1
  have ep : t.positions = mapSet ⟨c.user, lower, upper⟩ d.pos s.positions := by rw [v.raw.result]; rfl
  have er : t.gs.rp = s.gs.rp := by rw [v.raw.result]; exact v.gRp
  have hk := v.posAmount
  rw [amount_eq v.pos, amount_eq (hs.pos _ _ hl), v.delta, toRat_mk, ← add_div,
    div_left_inj' (by norm_num : (10 : ℚ) ^ 12 ≠ 0)] at hk
  have hk' : d.pos.liq = d.a.pos.liq + l := by exact_mod_cast hk
  have mx : m.x = wholeX s.gs.rp a b l := by
    rw [v.x, o3, hq']; rfl
  have my : m.y = wholeY s.gs.rp a b l := by
    rw [v.y, o4, hq']; rfl
  refine ⟨d.a.pos, hl, ?_, ?_, by rw [v.raw.result], by rw [v.raw.result]⟩
  · unfold sumX
    rw [er, ep, mapSum_set, hl, Option.elim, claimX_eq ha hb, claimX_eq ha hb, hk', mx]
    have k1 : 10 ^ 12 ≤ clampAt s.gs.rp a b * b / 10 ^ 12 := by
      have := tickToRp_ge ha
      have hc : 10 ^ 12 ≤ clampAt s.gs.rp a b := this.trans (le_max_right _ _)
      have hb' : 10 ^ 12 ≤ b := this.trans v.prices.le
      rw [Nat.le_div_iff_mul_le (by norm_num)]
      exact Nat.mul_le_mul hc hb'
    have k2 : (wholeX s.gs.rp a b (d.a.pos.liq + l) : ℚ) ≤ wholeX s.gs.rp a b d.a.pos.liq + wholeX s.gs.rp a b l +
        (if d.a.pos.liq = 0 then 0 else 2) := by
      split
      · next e => rw [e, wholeX_zero]; simp
      · exact_mod_cast wholeX_le _ _ k1
    linarith
  · unfold sumY
    rw [er, ep, mapSum_set, hl, Option.elim, claimY_eq ha hb, claimY_eq ha hb, hk', my]
    have k2 : (wholeY s.gs.rp a b (d.a.pos.liq + l) : ℚ) ≤ wholeY s.gs.rp a b d.a.pos.liq + wholeY s.gs.rp a b l +
        (if d.a.pos.liq = 0 then 0 else 1) := by
      split
      · next e => rw [e, wholeY_zero]; simp
      · exact_mod_cast wholeY_le _ _ _ _ _
    linarith

theorem withdraw_sums (hs : Good s) (h : OnChain.withdraw s c lower upper current n = .ok (t, m)) :
    sumX t + m.x ≤ sumX s ∧ sumY t + m.y ≤ sumY s ∧ t.vaultX + m.x = s.vaultX ∧ t.vaultY + m.y = s.vaultY := by
  obtain ⟨d, p, a, b, v⟩ := hs.withdraw h
  have ha := v.raw.rpa
  have hb := v.raw.rpb
  rw [v.rpa] at ha
  rw [v.rpb] at hb
  obtain ⟨q, hq, hq'⟩ := hs.gs.rp
  have hp := v.raw.rp
  rw [v.cur, hq, v.rp] at hp
  cases hp
  simp only at hq'
  obtain ⟨o1, o2, o3⟩ := xFrom_order v.prices v.xOut
  have o4 := yFrom_nn v.yOut
  have hl := (OnChain.loadAccounts_ok.1 v.raw.load).2.1
  have ep : t.positions = mapSet ⟨c.user, lower, upper⟩ d.pos s.positions := by rw [v.raw.result]; rfl
  have er : t.gs.rp = s.gs.rp := by rw [v.raw.result]; exact v.gRp
  have hk := v.posAmount
  rw [amount_eq v.pos, amount_eq (hs.pos _ _ hl)] at hk
  have hk' : d.a.pos.liq = d.pos.liq + n * 10 ^ 12 := by
    have : (d.a.pos.liq : ℚ) = d.pos.liq + n * 10 ^ 12 := by
      field_simp at hk; linarith
    exact_mod_cast this
  have mx : m.x = wholeX s.gs.rp a b (n * 10 ^ 12) := by
    rw [v.x, o3, hq']; rfl
  have my : m.y = wholeY s.gs.rp a b (n * 10 ^ 12) := by
    rw [v.y, o4, hq']; rfl
  have vx := v.raw.vaultX
  have vy := v.raw.vaultY
  refine ⟨?_, ?_, by rw [v.raw.result]; simp only; omega, by rw [v.raw.result]; simp only; omega⟩
  · unfold sumX
    rw [er, ep, mapSum_set, hl, Option.elim, claimX_eq ha hb, claimX_eq ha hb, hk', mx]
    have : (wholeX s.gs.rp a b d.pos.liq : ℚ) + wholeX s.gs.rp a b (n * 10 ^ 12) ≤
      wholeX s.gs.rp a b (d.pos.liq + n * 10 ^ 12) := by exact_mod_cast wholeX_add _ _ _ _ _
    linarith
  · unfold sumY
    rw [er, ep, mapSum_set, hl, Option.elim, claimY_eq ha hb, claimY_eq ha hb, hk', my]
    have : (wholeY s.gs.rp a b d.pos.liq : ℚ) + wholeY s.gs.rp a b (n * 10 ^ 12) ≤
      wholeY s.gs.rp a b (d.pos.liq + n * 10 ^ 12) := by exact_mod_cast wholeY_add _ _ _ _ _
    linarith

theorem external_sums (h : External s t) :
    sumX t = sumX s ∧ sumY t = sumY s ∧ s.vaultX ≤ t.vaultX ∧ s.vaultY ≤ t.vaultY := by
  unfold sumX sumY
  rw [h.positions, h.gs]
  exact ⟨rfl, rfl, h.vaultX, h.vaultY⟩

theorem quiet_sums (h : Quiet s t) :
    sumX t = sumX s ∧ sumY t = sumY s ∧ s.vaultX ≤ t.vaultX ∧ s.vaultY ≤ t.vaultY := by
  induction h with
  | refl => exact ⟨rfl, rfl, le_rfl, le_rfl⟩
  | external _ h ih =>
    obtain ⟨e1, e2, e3, e4⟩ := external_sums h
    exact ⟨e1.trans ih.1, e2.trans ih.2.1, ih.2.2.1.trans e3, ih.2.2.2.trans e4⟩
  | bitmap _ h ih =>
    obtain ⟨_, rfl⟩ := OnChain.initializeBitmap_ok.1 h
    exact ih
  | tick _ h ih =>
    obtain ⟨_, rfl⟩ := OnChain.initializeTick_ok.1 h
    exact ih
  | position _ h ih =>
    obtain ⟨h0, h1, _, _, rfl⟩ := OnChain.createPosition_ok h
    refine ⟨?_, ?_, ih.2.2.1, ih.2.2.2⟩
    · rw [← ih.1]
      unfold sumX
      simp only
      rw [mapSum_set, h0]
      simp only [Option.elim, sub_zero, add_eq_left, Nat.cast_eq_zero]
      exact (claim_empty rfl).1
    · rw [← ih.2.1]
      unfold sumY
      simp only
      rw [mapSum_set, h0]
      simp only [Option.elim, sub_zero, add_eq_left, Nat.cast_eq_zero]
      exact (claim_empty rfl).2

end

/-! ### On the ledger -/

theorem Shows.sums {w : World} {lp : Nat} {p : PoolAcc} {s : Chain} (h : Shows w lp p s) :
    sumX s = claimsX p ∧ sumY s = claimsY p := by
  unfold sumX sumY claimsX claimsY mapSum
  rw [h.gs, h.positions]
  constructor <;> (induction p.positions with
    | nil => simp
    | cons e l ih => simp only [List.map_cons, List.sum_cons, ih, Nat.cast_add])

/-- The claims against a pool and its vaults after a step: what a deposit adds of one to the other. -/
structure Grew (w v : World) (lp : Nat) (p p' : PoolAcc) (dx dy : Nat) : Prop where
  xMint : p'.xMint = p.xMint
  yMint : p'.yMint = p.yMint
  x : claimsX p' + w.balance (.vault p.xMint lp) ≤ claimsX p + v.balance (.vault p.xMint lp) + dx
  y : claimsY p' + w.balance (.vault p.yMint lp) ≤ claimsY p + v.balance (.vault p.yMint lp) + dy

theorem grew_of {w v : World} {lp : Nat} {p p' : PoolAcc} {s t : Chain} {dx dy : Nat} (h : Shows w lp p s) (h' : Shows v lp p' t)
    (e1 : p'.xMint = p.xMint) (e2 : p'.yMint = p.yMint)
    (hx : sumX t + s.vaultX ≤ sumX s + t.vaultX + dx) (hy : sumY t + s.vaultY ≤ sumY s + t.vaultY + dy) :
    Grew w v lp p p' dx dy := by
  rw [h.sums.1, h'.sums.1, h.vaultX, h'.vaultX, e1] at hx
  rw [h.sums.2, h'.sums.2, h.vaultY, h'.vaultY, e2] at hy
  exact ⟨e1, e2, by exact_mod_cast hx, by exact_mod_cast hy⟩

theorem deposit_grew {w v : World} (hr : Reachable w) {lp : Nat} {p : PoolAcc} (hp : mapGet lp w.pools = some p) {c : Accounts}
    {lower upper current x y : Nat} {m : Moved} (h : w.deposit lp c lower upper current x y = .ok (v, m)) :
    ∃ p' q, mapGet lp v.pools = some p' ∧ mapGet (⟨c.user, lower, upper⟩ : PosKey) p.positions = some q ∧
      Grew w v lp p p' (if q.liq = 0 then 0 else 2) (if q.liq = 0 then 0 else 1) := by
  obtain ⟨hg, supply0, s, h1, h2⟩ := hr.guarded hp
  obtain ⟨p', s1, s2, s3, c', k1, _, k2, k3, k4, k5, k6, k7, k8⟩ := h2.deposit hp hg hr.small h
  obtain ⟨q, q1, q2, q3, q4, q5⟩ := deposit_sums (Good.step (Good.reachable h1) (.external k4)) k6
  obtain ⟨e1, e2, e3, e4⟩ := external_sums k4
  obtain ⟨f1, f2, f3, f4⟩ := external_sums k7
  rw [k5, k4.positions, h2.positions] at q1
  refine ⟨p', q, k1, q1, grew_of h2 k8 k2 k3 ?_ ?_⟩
  · have g1 : (s.vaultX : ℚ) ≤ s1.vaultX := by exact_mod_cast e3
    have g2 : (s2.vaultX : ℚ) ≤ s3.vaultX := by exact_mod_cast f3
    have g3 : (s2.vaultX : ℚ) = s1.vaultX + m.x := by exact_mod_cast q4
    rw [f1]; push_cast
    linarith
  · have g1 : (s.vaultY : ℚ) ≤ s1.vaultY := by exact_mod_cast e4
    have g2 : (s2.vaultY : ℚ) ≤ s3.vaultY := by exact_mod_cast f4
    have g3 : (s2.vaultY : ℚ) = s1.vaultY + m.y := by exact_mod_cast q5
    rw [f2]; push_cast
    linarith

theorem exec_grew {w v : World} (hr : Reachable w) {lp : Nat} {p : PoolAcc} (hp : mapGet lp w.pools = some p) {i : Instr}
    (hi : ¬ i.puts lp) (h : w.exec i = .ok v) : ∃ p', mapGet lp v.pools = some p' ∧ Grew w v lp p p' 0 0 := by
  obtain ⟨hg, supply0, s, h1, h2⟩ := hr.guarded hp
  by_cases hq : i.pays lp
  · cases i with
    | withdraw q c lo up cu n =>
      have : q = lp := hq
      subst this
      obtain ⟨⟨v', m⟩, h3, h4⟩ := bind_ok.1 h
      cases h4
      obtain ⟨p', s1, s2, c', k1, _, k2, k3, k4, k5, k6, k7⟩ := h2.withdraw hp hg hr.small h3
      obtain ⟨q1, q2, q3, q4⟩ := withdraw_sums (Good.step (Good.reachable h1) (.external k4)) k6
      obtain ⟨e1, e2, e3, e4⟩ := external_sums k4
      refine ⟨p', k1, grew_of h2 k7 k2 k3 ?_ ?_⟩
      · have g1 : (s.vaultX : ℚ) ≤ s1.vaultX := by exact_mod_cast e3
        have g3 : (s2.vaultX : ℚ) + m.x = s1.vaultX := by exact_mod_cast q3
        push_cast
        linarith
      · have g1 : (s.vaultY : ℚ) ≤ s1.vaultY := by exact_mod_cast e4
        have g3 : (s2.vaultY : ℚ) + m.y = s1.vaultY := by exact_mod_cast q4
        push_cast
        linarith
    | deposit q c lo up cu x y => exact absurd hq hi
    | _ => exact hq.elim
  · obtain ⟨p', s', k1, ⟨_, k2, k3⟩, k4, k5⟩ := h2.program hp hg hq h
    obtain ⟨e1, e2, e3, e4⟩ := quiet_sums k4
    refine ⟨p', k1, grew_of h2 k5 k2 k3 ?_ ?_⟩
    · have g1 : (s.vaultX : ℚ) ≤ s'.vaultX := by exact_mod_cast e3
      push_cast; linarith
    · have g1 : (s.vaultY : ℚ) ≤ s'.vaultY := by exact_mod_cast e4
      push_cast; linarith

theorem token_grew {w v : World} (hr : Reachable w) {lp : Nat} {p : PoolAcc} (hp : mapGet lp w.pools = some p) {s : Nat}
    {i : TokenInstr} (h : w.tokenExec s i = .ok v) : mapGet lp v.pools = some p ∧ Grew w v lp p p 0 0 := by
  obtain ⟨hg, supply0, s, h1, h2⟩ := hr.guarded hp
  obtain ⟨s', k1, k2⟩ := h2.token hg h
  obtain ⟨e1, e2, e3, e4⟩ := external_sums k1
  refine ⟨by rw [(tokenExec_secure (E := fun _ => False) h).2]; exact hp, grew_of h2 k2 rfl rfl ?_ ?_⟩
  · have g1 : (s.vaultX : ℚ) ≤ s'.vaultX := by exact_mod_cast e3
    push_cast; linarith
  · have g1 : (s.vaultY : ℚ) ≤ s'.vaultY := by exact_mod_cast e4
    push_cast; linarith

theorem Grew.refl (w : World) (lp : Nat) (p : PoolAcc) : Grew w w lp p p 0 0 := ⟨rfl, rfl, le_rfl, le_rfl⟩

theorem Grew.trans {w v u : World} {lp : Nat} {p q r : PoolAcc} {a b c d : Nat} (h : Grew w v lp p q a b)
    (g : Grew v u lp q r c d) : Grew w u lp p r (a + c) (b + d) := by
  have h1 := h.x
  have h2 := g.x
  have h3 := h.y
  have h4 := g.y
  rw [h.xMint] at h2
  rw [h.yMint] at h4
  exact ⟨g.xMint.trans h.xMint, g.yMint.trans h.yMint, by omega, by omega⟩

/-- Over any number of steps the claims outgrow the vaults by at most two X and one Y for each deposit into a position
that had liquidity. -/
theorem Filled.grew {lp : Nat} {w v : World} {n : Nat} (h : Filled lp w v n) (hr : Reachable w) {p : PoolAcc}
    (hp : mapGet lp w.pools = some p) : Reachable v ∧ ∃ p', mapGet lp v.pools = some p' ∧ Grew w v lp p p' (2 * n) n := by
  induction h with
  | refl => exact ⟨hr, p, hp, .refl w lp p⟩
  | first _ he hd ih =>
    obtain ⟨i1, p', i2, i3⟩ := ih
    obtain ⟨p'', q, j1, j2, j3⟩ := deposit_grew i1 i2 hd
    have := he _ _ i2 j2
    rw [if_pos this, if_pos this] at j3
    exact ⟨i1.step (.program (.deposit _ _ _ _ _ _ _) (bind_ok.2 ⟨_, hd, rfl⟩)), p'', j1, i3.trans j3⟩
  | @more v u n c lo up cu x y m _ hd ih =>
    obtain ⟨i1, p', i2, i3⟩ := ih
    obtain ⟨p'', q, j1, j2, j3⟩ := deposit_grew i1 i2 hd
    have := i3.trans j3
    refine ⟨i1.step (.program (.deposit _ _ _ _ _ _ _) (bind_ok.2 ⟨_, hd, rfl⟩)), p'', j1, this.xMint, this.yMint, ?_, ?_⟩
    · refine this.x.trans ?_
      split <;> omega
    · refine this.y.trans ?_
      split <;> omega
  | program i _ hn he ih =>
    obtain ⟨i1, p', i2, i3⟩ := ih
    obtain ⟨p'', j1, j2⟩ := exec_grew i1 i2 hn he
    exact ⟨i1.step (.program i he), p'', j1, i3.trans j2⟩
  | token s i _ he ih =>
    obtain ⟨i1, p', i2, i3⟩ := ih
    obtain ⟨j1, j2⟩ := token_grew i1 i2 he
    exact ⟨i1.step (.token s i he), p', j1, i3.trans j2⟩

theorem Covered.grew {w v : World} {lp : Nat} {p p' : PoolAcc} (h : Covered w lp p) (g : Grew w v lp p p' 0 0) :
    Covered v lp p' := by
  obtain ⟨h1, h2⟩ := h
  have g1 := g.x
  have g2 := g.y
  unfold Covered
  rw [g.xMint, g.yMint]
  omega

/-- A position of a covered pool can be paid. -/
theorem Covered.pays {w : World} (hr : Reachable w) {lp : Nat} {p : PoolAcc} (hp : mapGet lp w.pools = some p)
    (hc : Covered w lp p) {user lower upper n x y : Nat} {q : Position}
    (hq : mapGet (⟨user, lower, upper⟩ : PosKey) p.positions = some q) (hn : (n : ℚ) ≤ q.amount)
    (hw : Worth p.gs.tick lower upper n x y) :
    x ≤ w.balance (.vault p.xMint lp) ∧ y ≤ w.balance (.vault p.yMint lp) := by
  obtain ⟨hg, supply0, s, h1, h2⟩ := hr.guarded hp
  have hgood := Good.reachable h1
  obtain ⟨e1, e2⟩ := h2.sums
  have hq' := hq
  rw [← h2.positions] at hq'
  obtain ⟨rp, a, b, w1, w2, w3, _, _, w4, w5⟩ := hw
  obtain ⟨r, r1, r2⟩ := hgood.gs.rp
  rw [h2.gs, w1] at r1
  cases r1
  simp only at r2
  rw [amount_eq (hgood.pos _ _ hq')] at hn
  have hl : n * 10 ^ 12 ≤ q.liq := by
    rw [le_div_iff₀ (by norm_num)] at hn
    exact_mod_cast hn
  obtain ⟨k, hk⟩ := Nat.exists_eq_add_of_le hl
  have cx := le_mapSum (f := fun k q => (claimX s.gs.rp k q : ℚ)) (fun _ _ _ => Nat.cast_nonneg _) (mapGet_mem hq')
  have cy := le_mapSum (f := fun k q => (claimY s.gs.rp k q : ℚ)) (fun _ _ _ => Nat.cast_nonneg _) (mapGet_mem hq')
  simp only [claimX_eq w2 w3] at cx
  simp only [claimY_eq w2 w3] at cy
  rw [← sumX, e1, ← r2] at cx
  rw [← sumY, e2, ← r2] at cy
  have cx' : wholeX rp a b q.liq ≤ claimsX p := by exact_mod_cast cx
  have cy' : wholeY rp a b q.liq ≤ claimsY p := by exact_mod_cast cy
  have dx := (Nat.le_add_right _ _).trans (wholeX_add rp a b (n * 10 ^ 12) k)
  have dy := (Nat.le_add_right _ _).trans (wholeY_add rp a b (n * 10 ^ 12) k)
  rw [← hk] at dx dy
  have f : ∀ z : Nat, n * 10 ^ 12 * z / 10 ^ 12 = n * z := fun z => by
    rw [Nat.mul_right_comm]; exact Nat.mul_div_cancel _ (by norm_num)
  unfold wholeX at dx
  unfold wholeY at dy
  rw [f] at dx dy
  rw [← w4] at dx
  rw [← w5] at dy
  exact ⟨dx.trans (cx'.trans hc.1), dy.trans (cy'.trans hc.2)⟩

/-- Accounts of a pool that nobody can freeze stay the pool's and unfrozen. -/
def Stays (w v : World) : Prop := ∀ a t q, mapGet a w.tokens = some t → t.owner = .pool q → t.frozen = false →
  Unfreezable w t.mint → ∃ t', mapGet a v.tokens = some t' ∧ t'.mint = t.mint ∧ t'.owner = .pool q ∧ t'.frozen = false

theorem exec_stays {w v : World} {i : Instr} (h : w.exec i = .ok v) : Stays w v := by
  intro a t q h1 h2 h3 h4
  by_cases hi : i.takes q
  · cases i with
    | withdraw r c lo up cu n =>
      obtain ⟨⟨v', m⟩, hw', e⟩ := bind_ok.1 h
      cases e
      obtain ⟨p, s, mt, _, _, _, _, _, _, _, hm, _⟩ := withdraw_effect hw'
      obtain ⟨n, k, e1, _⟩ := hm.present h1
      exact ⟨_, e1, rfl, h2, h3⟩
    | _ => exact hi.elim
  · obtain ⟨t', k1, k2, k3, k4, _⟩ := (exec_calm (o := .pool q) (fun _ _ e => by cases e)
      (fun r hr e => by cases e; exact hi hr) h).token a t h1 h2 h3 h4
    exact ⟨t', k1, k2, k3, k4⟩

theorem token_stays {w v : World} {s : Nat} {i : TokenInstr} (h : w.tokenExec s i = .ok v) : Stays w v := by
  intro a t q h1 h2 h3 h4
  obtain ⟨t', k1, k2, k3, k4, _⟩ := (tokenExec_calm (o := .pool q) (fun e => by cases e) h).token a t h1 h2 h3 h4
  exact ⟨t', k1, k2, k3, k4⟩

/-- A withdrawal changes one position. -/
theorem withdraw_keeps {w v : World} (hr : Reachable w) {lp : Nat} {p : PoolAcc} (hp : mapGet lp w.pools = some p)
    {c : Accounts} {lower upper current n : Nat} {m : Moved} (h : w.withdraw lp c lower upper current n = .ok (v, m)) :
    ∃ p', mapGet lp v.pools = some p' ∧ p'.xMint = p.xMint ∧ p'.yMint = p.yMint ∧ p'.gs.tick = p.gs.tick ∧
      Grew w v lp p p' 0 0 ∧
      ∀ k, k ≠ (⟨c.user, lower, upper⟩ : PosKey) → mapGet k p'.positions = mapGet k p.positions := by
  obtain ⟨p2, l1, l2⟩ := exec_grew (i := .withdraw lp c lower upper current n) hr hp (by simp [Instr.puts])
    (bind_ok.2 ⟨_, h, rfl⟩)
  obtain ⟨hg, supply0, s, h1, h2⟩ := hr.guarded hp
  obtain ⟨p', s1, s2, c', k1, _, k2, k3, k4, k5, k6, k7⟩ := h2.withdraw hp hg hr.small h
  rw [k1, Option.some.injEq] at l1; subst l1
  obtain ⟨d, rp, a, b, view⟩ := (Good.reachable (h1.step (.external k4))).withdraw k6
  refine ⟨p', k1, k2, k3, ?_, l2, fun k hk => ?_⟩
  · rw [← k7.gs, ← h2.gs, ← k4.gs, view.raw.result]; exact view.gTick
  · rw [← k7.positions, ← h2.positions, ← k4.positions, view.raw.result]
    show mapGet k (mapSet _ _ _) = _
    exact mapGet_set_other (by rw [k5]; exact hk) _ _

theorem exec_keeps' {w v : World} (hw : Reachable w) {u lp : Nat} {p : PoolAcc} {i : Instr} (hp : mapGet lp w.pools = some p)
    (hu : i.payer ≠ some u) (h : w.exec i = .ok v) : ∃ p', mapGet lp v.pools = some p' ∧ Keeps u p p' := by
  by_cases hi : i.takes lp
  · cases i with
    | withdraw r c lo up cu n =>
      have : r = lp := hi
      subst this
      obtain ⟨⟨v', m⟩, hw', e⟩ := bind_ok.1 h
      cases e
      obtain ⟨p', k1, k2, k3, k4, _, k5⟩ := withdraw_keeps hw hp hw'
      refine ⟨p', k1, k2, k3, k4, fun k q hk hq => ?_⟩
      rw [k5 k (by rintro rfl; exact hu (congrArg some hk))]
      exact hq
    | _ => exact hi.elim
  · exact exec_keeps hw hp hi hu h

theorem LeavingSteps.keeps {u lp : Nat} {w v : World} (h : LeavingSteps u lp w v) (hr : Reachable w) {p : PoolAcc}
    (hp : mapGet lp w.pools = some p) (hc : Covered w lp p) : Reachable v ∧ Calm (.user u) w v ∧ Stays w v ∧
      ∃ p', mapGet lp v.pools = some p' ∧ Keeps u p p' ∧ Covered v lp p' := by
  have trans : ∀ {v x : World}, Calm (.user u) w v → Stays w v → Stays v x → Stays w x := by
    intro v x hcalm h g a t q h1 h2 h3 h4
    obtain ⟨t1, k1, k2, k3, k4⟩ := h a t q h1 h2 h3 h4
    obtain ⟨t2, l1, l2, l3, l4⟩ := g a t1 q k1 k3 k4 (k2 ▸ hcalm.mint _ h4)
    exact ⟨t2, l1, l2.trans k2, l3, l4⟩
  induction h with
  | refl => exact ⟨hr, calm_same rfl rfl, fun a t q h1 h2 h3 _ => ⟨t, h1, rfl, h2, h3⟩, p, hp, Keeps.refl u p, hc⟩
  | @first v x c lo up cu a b m _ hne he hd ih =>
    obtain ⟨i1, i2, i3, p', i4, i5, i6⟩ := ih
    have hx : v.exec (.deposit lp c lo up cu a b) = .ok x := bind_ok.2 ⟨_, hd, rfl⟩
    obtain ⟨p'', j1, j2⟩ := exec_keeps' (u := u) i1 i4 (by simpa [Instr.payer] using hne) hx
    obtain ⟨p3, q, k1, k2, k3⟩ := deposit_grew i1 i4 hd
    rw [j1] at k1; cases k1
    have := he _ _ i4 k2
    rw [if_pos this, if_pos this] at k3
    refine ⟨i1.step (.program _ hx), i2.trans ?_, trans i2 i3 (exec_stays hx), p'', j1, i5.trans j2, i6.grew k3⟩
    exact exec_calm (fun s e => by intro e'; cases e'; exact hne (Option.some.inj e)) (fun q _ e => by cases e) hx
  | @program v x i h hn hs he ih =>
    obtain ⟨i1, i2, i3, p', i4, i5, i6⟩ := ih
    obtain ⟨p'', j1, j2⟩ := exec_keeps' i1 i4 hs he
    obtain ⟨p3, k1, k2⟩ := exec_grew i1 i4 hn he
    rw [j1] at k1; cases k1
    refine ⟨i1.step (.program i he), i2.trans ?_, trans i2 i3 (exec_stays he), p'', j1, i5.trans j2, i6.grew k2⟩
    exact exec_calm (fun s e => by intro e'; cases e'; exact hs e) (fun q _ e => by cases e) he
  | @token v x s i h hs he ih =>
    obtain ⟨i1, i2, i3, p', i4, i5, i6⟩ := ih
    obtain ⟨j1, j2⟩ := token_grew i1 i4 he
    exact ⟨i1.step (.token s i he), i2.trans (tokenExec_calm (fun e => hs (Party.user.inj e)) he),
      trans i2 i3 (token_stays he), p', j1, i5, i6.grew j2⟩

/-! ### One after the other -/

/-- What an exit needs besides the amounts: everything that is not changed by the exits of others. -/
structure CanLeave (w : World) (lp : Nat) (p : PoolAcc) (e : Exit) (m : Moved) : Prop where
  burned : m.lp = e.n
  pos : 0 < e.n
  atTick : e.current = p.gs.tick
  starts : e.lower ≠ p.gs.tick
  ends : e.upper ≠ p.gs.tick
  position : ∃ q, mapGet e.key p.positions = some q ∧ (e.n : ℚ) ≤ q.amount
  worth : Worth p.gs.tick e.lower e.upper e.n m.x m.y
  tokenX : ∃ t, mapGet e.accounts.tokenX w.tokens = some t ∧ t.mint = p.xMint ∧ t.owner = .user e.accounts.user ∧ t.frozen = false
  tokenY : ∃ t, mapGet e.accounts.tokenY w.tokens = some t ∧ t.mint = p.yMint ∧ t.owner = .user e.accounts.user ∧ t.frozen = false
  vaultX : ∃ t, mapGet (.vault p.xMint lp) w.tokens = some t ∧ t.frozen = false
  vaultY : ∃ t, mapGet (.vault p.yMint lp) w.tokens = some t ∧ t.frozen = false
  lpTokens : ∃ t, mapGet e.accounts.lp w.tokens = some t ∧ t.mint = lp ∧ t.frozen = false ∧ t.owner = .user e.accounts.user ∧
    t.delegate = none

theorem CanLeave.withdraw {w : World} (hr : Reachable w) {lp : Nat} {p : PoolAcc} (hp : mapGet lp w.pools = some p)
    (hc : Covered w lp p) {e : Exit} {m : Moved} (h : CanLeave w lp p e m) (hn : e.n ≤ w.balance e.accounts.lp) :
    ∃ v, w.withdraw lp e.accounts e.lower e.upper e.current e.n = .ok (v, m) := by
  obtain ⟨q, q1, q2⟩ := h.position
  obtain ⟨b1, b2⟩ := hc.pays hr hp q1 q2 h.worth
  obtain ⟨vx, x1, x2⟩ := h.vaultX
  obtain ⟨vy, y1, y2⟩ := h.vaultY
  obtain ⟨t, t1, t2, t3, t4, t5⟩ := h.lpTokens
  unfold balance at b1 b2 hn
  rw [x1] at b1
  rw [y1] at b2
  rw [t1] at hn
  obtain ⟨v, hv⟩ := withdraw_when hr hp h.pos (c := e.accounts) (lower := e.lower) (upper := e.upper) (current := e.current)
    (x := m.x) (y := m.y) ⟨h.atTick, h.starts, h.ends, ⟨q, q1, q2⟩, h.worth, h.tokenX, h.tokenY, ⟨vx, x1, x2, b1⟩,
      ⟨vy, y1, y2, b2⟩, ⟨t, t1, t2, t3, hn, .inl ⟨t4, fun k e => by rw [t5] at e; cases e⟩⟩⟩
  exact ⟨v, by rw [hv, ← h.burned]⟩

theorem CanLeave.after {w v : World} (hr : Reachable w) {lp : Nat} {p : PoolAcc} (hp : mapGet lp w.pools = some p)
    {e d : Exit} {m k : Moved} (h : CanLeave w lp p e m) (hk : e.key ≠ d.key)
    (hw : w.withdraw lp d.accounts d.lower d.upper d.current d.n = .ok (v, k)) :
    ∃ p', mapGet lp v.pools = some p' ∧ Grew w v lp p p' 0 0 ∧ CanLeave v lp p' e m := by
  obtain ⟨p', k1, k2, k3, k4, k5, k6⟩ := withdraw_keeps hr hp hw
  obtain ⟨_, _, _, _, _, _, _, _, _, _, hm, _⟩ := withdraw_effect hw
  have keep : ∀ {a : Addr} {t : Token}, mapGet a w.tokens = some t → ∃ t', mapGet a v.tokens = some t' ∧
      t'.mint = t.mint ∧ t'.owner = t.owner ∧ t'.frozen = t.frozen ∧ (t.delegate = none → t'.delegate = none) := by
    intro a t ha
    obtain ⟨n, j, e1, _, e3⟩ := hm.present ha
    exact ⟨_, e1, rfl, rfl, rfl, e3⟩
  obtain ⟨q, q1, q2⟩ := h.position
  obtain ⟨tx, a1, a2, a3, a4⟩ := h.tokenX
  obtain ⟨ty, b1, b2, b3, b4⟩ := h.tokenY
  obtain ⟨vx, x1, x2⟩ := h.vaultX
  obtain ⟨vy, y1, y2⟩ := h.vaultY
  obtain ⟨t, t1, t2, t3, t4, t5⟩ := h.lpTokens
  obtain ⟨tx', c1, c2, c3, c4, _⟩ := keep a1
  obtain ⟨ty', d1, d2, d3, d4, _⟩ := keep b1
  obtain ⟨vx', f1, _, _, f4, _⟩ := keep x1
  obtain ⟨vy', g1, _, _, g4, _⟩ := keep y1
  obtain ⟨t', i1, i2, i3, i4, i5⟩ := keep t1
  exact ⟨p', k1, k5, ⟨h.burned, h.pos, k4 ▸ h.atTick, k4 ▸ h.starts, k4 ▸ h.ends, ⟨q, (k6 _ hk).trans q1, q2⟩, k4 ▸ h.worth,
    ⟨tx', c1, (c2.trans a2).trans k2.symm, c3.trans a3, c4.trans a4⟩,
    ⟨ty', d1, (d2.trans b2).trans k3.symm, d3.trans b3, d4.trans b4⟩,
    ⟨vx', k2 ▸ f1, f4.trans x2⟩, ⟨vy', k3 ▸ g1, g4.trans y2⟩,
    ⟨t', i1, i2.trans t2, i4.trans t3, i3.trans t4, i5 t5⟩⟩⟩

/-- Everybody whose exit is possible on its own can leave, in any order, if the pool is covered. -/
theorem leave_all {lp : Nat} (es : List (Exit × Moved)) : ∀ {w : World} (_ : Reachable w) {p : PoolAcc}
    (_ : mapGet lp w.pools = some p) (_ : Covered w lp p) (_ : (es.map fun e => e.1.key).Nodup)
    (_ : ∀ e ∈ es, CanLeave w lp p e.1 e.2) (_ : ∀ e ∈ es, takenFrom e.1.accounts.lp (es.map (·.1)) ≤ w.balance e.1.accounts.lp),
    ∃ v, w.leave lp (es.map (·.1)) = .ok (v, es.map (·.2)) := by
  induction es with
  | nil => intro w _ p _ _ _ _ _; exact ⟨w, rfl⟩
  | cons e es ih =>
    intro w hr p hp hc hd hl hb
    rw [List.map_cons, List.nodup_cons] at hd
    have hle : e.1.n ≤ w.balance e.1.accounts.lp := by
      refine le_trans ?_ (hb e (List.mem_cons_self ..))
      unfold takenFrom
      rw [List.map_cons, List.map_cons, List.sum_cons, if_pos rfl]
      exact Nat.le_add_right _ _
    obtain ⟨v, hv⟩ := (hl e (List.mem_cons_self ..)).withdraw hr hp hc hle
    have hrv : Reachable v := hr.step (.program (.withdraw lp e.1.accounts e.1.lower e.1.upper e.1.current e.1.n)
      (bind_ok.2 ⟨_, hv, rfl⟩))
    obtain ⟨p', k1, k2, k3, k4, k5, k6⟩ := withdraw_keeps hr hp hv
    have hl' : ∀ d ∈ es, CanLeave v lp p' d.1 d.2 := by
      intro d hdm
      have hne : d.1.key ≠ e.1.key := fun he => hd.1 (he ▸ List.mem_map_of_mem (f := fun e => e.1.key) hdm)
      obtain ⟨p'', l1, _, l3⟩ := (hl d (List.mem_cons_of_mem _ hdm)).after hr hp hne hv
      rw [k1] at l1; cases l1
      exact l3
    obtain ⟨p0, _, _, h0, hps, _, _, _, _, _, hm, _⟩ := withdraw_effect hv
    rw [hp] at h0; cases h0
    have hg := (hr.guarded hp).1
    have hb' : ∀ d ∈ es, takenFrom d.1.accounts.lp (es.map (·.1)) ≤ v.balance d.1.accounts.lp := by
      intro d hdm
      have b1 := hb d (List.mem_cons_of_mem _ hdm)
      have b2 := hm.balance d.1.accounts.lp
      obtain ⟨t, t1, t2, t3, t4, t5⟩ := (hl d (List.mem_cons_of_mem _ hdm)).lpTokens
      have nx : d.1.accounts.lp ≠ .vault p.xMint lp := by
        intro e'
        obtain ⟨s, s1, _, s3, _⟩ := hg.vaultX
        rw [e', s1] at t1; cases t1
        rw [s3] at t4; cases t4
      have ny : d.1.accounts.lp ≠ .vault p.yMint lp := by
        intro e'
        obtain ⟨s, s1, _, s3, _⟩ := hg.vaultY
        rw [e', s1] at t1; cases t1
        rw [s3] at t4; cases t4
      unfold takenFrom at b1 ⊢
      rw [List.map_cons, List.map_cons, List.sum_cons] at b1
      have p1 : (0 : ℤ) ≤ at_ e.1.accounts.tokenX d.1.accounts.lp e.2.x := by unfold at_; split <;> simp
      have p2 : (0 : ℤ) ≤ at_ e.1.accounts.tokenY d.1.accounts.lp e.2.y := by unfold at_; split <;> simp
      have p3 : at_ (.vault p.xMint lp) d.1.accounts.lp e.2.x = 0 := by unfold at_; rw [if_neg nx]
      have p4 : at_ (.vault p.yMint lp) d.1.accounts.lp e.2.y = 0 := by unfold at_; rw [if_neg ny]
      have p5 : at_ e.1.accounts.lp d.1.accounts.lp e.1.n = ((if e.1.accounts.lp = d.1.accounts.lp then e.1.n else 0 : ℕ) : ℤ) := by
        unfold at_
        by_cases he : d.1.accounts.lp = e.1.accounts.lp
        · rw [if_pos he, if_pos he.symm]
        · rw [if_neg he, if_neg (Ne.symm he)]; rfl
      rw [p3, p4, p5] at b2
      generalize (if e.1.accounts.lp = d.1.accounts.lp then e.1.n else 0 : ℕ) = z at *
      omega
    obtain ⟨u, hu⟩ := ih hrv k1 (hc.grew k5) hd.2 hl' hb'
    refine ⟨u, ?_⟩
    simp only [List.map_cons, leave]
    rw [hv]
    show (v.leave lp (es.map (·.1)) >>= _) = _
    rw [hu]
    rfl

end Hmm.OnChain.World
