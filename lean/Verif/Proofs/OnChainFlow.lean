import Verif.Proofs.OnChain

/-
What users of the on-chain program can take out, against what they paid in.
-/

namespace Hmm.OnChain

open Decimal PoolMath

/-- Prices are at least one. -/
theorem tickToRp_ge {t v : Nat} (h : tickToRp t = .ok ⟨v, 12, false⟩) : 10 ^ 12 ≤ v := by
  have h0 : tickToRp 0 = .ok ⟨10 ^ 12, 12, false⟩ := by decide +kernel
  rcases Nat.eq_zero_or_pos t with rfl | ht
  · rw [h0] at h; cases h; exact le_rfl
  · exact (tickToRp_order ht h0 h).le

theorem rateX_nonneg (p : Nat) (k : PosKey) : 0 ≤ rateX p k := by
  unfold rateX; split
  · positivity
  · exact le_rfl

theorem rateY_nonneg (p : Nat) (k : PosKey) : 0 ≤ rateY p k := by
  unfold rateY; split
  · positivity
  · exact le_rfl

/-- The X of some liquidity lies between its rate, less two units in the last place, and its rate. -/
theorem x_rate {l p a b : Nat} {c : Decimal} (ha : 10 ^ 12 ≤ a) (hab : a < b)
    (h : xFromLRpRng ⟨l, 12, false⟩ ⟨p, 12, false⟩ ⟨a, 12, false⟩ ⟨b, 12, false⟩ = .ok c) :
    (c.value : ℚ) ≤ l * ((b - clampAt p a b : Nat) / (clampAt p a b * b / 10 ^ 12 : Nat)) ∧
    l * ((b - clampAt p a b : Nat) / (clampAt p a b * b / 10 ^ 12 : Nat)) < (c.value : ℚ) + 2 := by
  obtain ⟨h1, h2, rfl⟩ := xFrom_order hab h
  unfold clampAt
  have hq : 10 ^ 12 ≤ max (min p b) a := le_trans ha (le_max_right _ _)
  have hm : 10 ^ 12 ≤ max (min p b) a * b / 10 ^ 12 := by
    rw [Nat.le_div_iff_mul_le (by norm_num)]
    exact Nat.mul_le_mul hq (by omega)
  generalize hmm : max (min p b) a * b / 10 ^ 12 = m at *
  generalize hww : b - max (min p b) a = w at *
  simp only
  have hmq : (0 : ℚ) < m := by exact_mod_cast h2
  have hD : (10 ^ 12 : ℚ) ≤ m := by exact_mod_cast hm
  have e1 := Nat.div_mul_le_self (l * w) (10 ^ 12)
  have e2 := Nat.div_mul_le_self (l * w / 10 ^ 12 * 10 ^ 12) m
  have e3 := Nat.lt_div_mul_add (a := l * w) (b := 10 ^ 12) (by norm_num)
  have e4 := Nat.lt_div_mul_add (a := l * w / 10 ^ 12 * 10 ^ 12) (b := m) h2
  generalize l * w / 10 ^ 12 * 10 ^ 12 / m = v at *
  generalize l * w / 10 ^ 12 * 10 ^ 12 = u at *
  have e5 : v * m ≤ l * w := le_trans e2 e1
  have e6 : l * w < v * m + m + 10 ^ 12 := by omega
  have e5' : (v : ℚ) * m ≤ l * w := by exact_mod_cast e5
  have e6' : (l : ℚ) * w < v * m + m + 10 ^ 12 := by exact_mod_cast e6
  rw [← mul_div_assoc, le_div_iff₀ hmq, div_lt_iff₀ hmq]
  exact ⟨e5', by nlinarith⟩

theorem y_rate {l p a b : Nat} {c : Decimal}
    (h : yFromLRpRng ⟨l, 12, false⟩ ⟨p, 12, false⟩ ⟨a, 12, false⟩ ⟨b, 12, false⟩ = .ok c) :
    (c.value : ℚ) ≤ l * ((clampAt p a b - a : Nat) / 10 ^ 12) ∧
    l * ((clampAt p a b - a : Nat) / 10 ^ 12) < (c.value : ℚ) + 1 := by
  have := yFrom_nn h
  subst this
  unfold clampAt
  generalize max (min p b) a - a = w
  simp only
  have e1 := Nat.div_mul_le_self (l * w) (10 ^ 12)
  have e3 := Nat.lt_div_mul_add (a := l * w) (b := 10 ^ 12) (by norm_num)
  generalize l * w / 10 ^ 12 = v at *
  rw [← mul_div_assoc, le_div_iff₀ (by norm_num), div_lt_iff₀ (by norm_num)]
  have e1' : (v : ℚ) * 10 ^ 12 ≤ l * w := by exact_mod_cast e1
  have e3' : (l : ℚ) * w < v * 10 ^ 12 + 10 ^ 12 := by exact_mod_cast e3
  exact ⟨e1', by linarith⟩

theorem floor_gt (v : Nat) : (v : ℚ) / 10 ^ 12 + 1 / 10 ^ 12 ≤ ((v / 10 ^ 12 : Nat) : ℚ) + 1 := by
  have e3 := Nat.lt_div_mul_add (a := v) (b := 10 ^ 12) (by norm_num)
  rw [← add_div, div_le_iff₀ (by norm_num)]
  have : v + 1 ≤ v / 10 ^ 12 * 10 ^ 12 + 10 ^ 12 := e3
  have e3' : (v : ℚ) + 1 ≤ (v / 10 ^ 12 : Nat) * 10 ^ 12 + 10 ^ 12 := by exact_mod_cast this
  linarith

section

variable {s t : Chain} {c : Caller} {lower upper current xa ya n : Nat} {m : Moved}

theorem rateX_eq {user p : Nat} {a b : Nat} (ha : tickToRp lower = .ok ⟨a, 12, false⟩)
    (hb : tickToRp upper = .ok ⟨b, 12, false⟩) :
    rateX p ⟨user, lower, upper⟩ = ((b - clampAt p a b : Nat) : ℚ) / (clampAt p a b * b / 10 ^ 12 : Nat) := by
  unfold rateX
  simp only [ha, hb]

theorem rateY_eq {user p : Nat} {a b : Nat} (ha : tickToRp lower = .ok ⟨a, 12, false⟩)
    (hb : tickToRp upper = .ok ⟨b, 12, false⟩) :
    rateY p ⟨user, lower, upper⟩ = ((clampAt p a b - a : Nat) : ℚ) / 10 ^ 12 := by
  unfold rateY
  simp only [ha, hb]

/-- A deposit pays for its liquidity, less at most one token. -/
theorem DepositView.pays {d : DepositData} {p a b l : Nat} (hs : Good s)
    (h : DepositView s c lower upper current xa ya t m d p a b l) :
    rateX s.gs.rp ⟨c.user, lower, upper⟩ * d.delta.toRat < m.x + 1 + 1 / 10 ^ 12 ∧
    rateY s.gs.rp ⟨c.user, lower, upper⟩ * d.delta.toRat < m.y + 1 := by
  have ha := h.raw.rpa
  have hb := h.raw.rpb
  rw [h.rpa] at ha
  rw [h.rpb] at hb
  obtain ⟨q, hq, hq'⟩ := hs.gs.rp
  have hp := h.raw.rp
  rw [h.cur, hq, h.rp] at hp
  cases hp
  simp only at hq'
  subst hq'
  rw [rateX_eq ha hb, rateY_eq ha hb, h.delta, toRat_mk]
  have hx := h.raw.xIn
  have hy := h.raw.yIn
  rw [h.delta, h.rp, h.rpa, h.rpb] at hx hy
  have x2 := (x_rate (tickToRp_ge ha) h.prices hx).2
  have y2 := (y_rate hy).2
  have fx := floor_gt d.xIn.value
  have fy := floor_gt d.yIn.value
  rw [← h.x] at fx
  rw [← h.y] at fy
  constructor
  · have : ∀ r : ℚ, r * ((l : ℚ) / 10 ^ 12) = l * r / 10 ^ 12 := fun r => by ring
    rw [this, div_lt_iff₀ (by norm_num)]
    rw [← add_div, div_le_iff₀ (by norm_num)] at fx
    have h12 : ((1 : ℚ) / 10 ^ 12) * 10 ^ 12 = 1 := by norm_num
    rw [add_mul _ (1 / 10 ^ 12), h12]
    linarith
  · have : ∀ r : ℚ, r * ((l : ℚ) / 10 ^ 12) = l * r / 10 ^ 12 := fun r => by ring
    rw [this, div_lt_iff₀ (by norm_num)]
    rw [← add_div, div_le_iff₀ (by norm_num)] at fy
    linarith

/-- A withdrawal pays out no more than its liquidity is worth. -/
theorem WithdrawView.pays {d : WithdrawData} {p a b : Nat} (hs : Good s)
    (h : WithdrawView s c lower upper current n t m d p a b) :
    (m.x : ℚ) ≤ rateX s.gs.rp ⟨c.user, lower, upper⟩ * n ∧
    (m.y : ℚ) ≤ rateY s.gs.rp ⟨c.user, lower, upper⟩ * n := by
  have ha := h.raw.rpa
  have hb := h.raw.rpb
  rw [h.rpa] at ha
  rw [h.rpb] at hb
  obtain ⟨q, hq, hq'⟩ := hs.gs.rp
  have hp := h.raw.rp
  rw [h.cur, hq, h.rp] at hp
  cases hp
  simp only at hq'
  subst hq'
  rw [rateX_eq ha hb, rateY_eq ha hb]
  have x2 := (x_rate (tickToRp_ge ha) h.prices h.xOut).1
  have y2 := (y_rate h.yOut).1
  have fx := floor_le d.xOut.value
  have fy := floor_le d.yOut.value
  rw [← h.x] at fx
  rw [← h.y] at fy
  rw [le_div_iff₀ (by norm_num)] at fx fy
  rw [Nat.cast_mul] at x2 y2
  have h12 : ((10 ^ 12 : Nat) : ℚ) = 10 ^ 12 := by norm_num
  rw [h12] at x2 y2
  constructor
  · have h2 := le_trans fx x2
    have : ∀ r : ℚ, (n : ℚ) * 10 ^ 12 * r = r * n * 10 ^ 12 := fun r => by ring
    rw [this] at h2
    exact le_of_mul_le_mul_right h2 (by norm_num)
  · have h2 := le_trans fy y2
    have : ∀ r : ℚ, (n : ℚ) * 10 ^ 12 * r = r * n * 10 ^ 12 := fun r => by ring
    rw [this] at h2
    exact le_of_mul_le_mul_right h2 (by norm_num)

end

theorem sumPos_nonneg {s : Chain} {w : PosKey → ℚ} (h : ∀ k, 0 ≤ w k) : 0 ≤ s.sumPos w := by
  rw [sumPos_eq]
  exact mapSum_nonneg fun k p _ => mul_nonneg (h k) (amount_nonneg p)

theorem worthX_nonneg (who : Nat → Bool) (s : Chain) : 0 ≤ worthX who s :=
  sumPos_nonneg fun k => by split <;> simp [rateX_nonneg]

theorem worthY_nonneg (who : Nat → Bool) (s : Chain) : 0 ≤ worthY who s :=
  sumPos_nonneg fun k => by split <;> simp [rateY_nonneg]

theorem Tracked.reachable {supply0 : Nat} {who : Nat → Bool} {s : Chain} {a : Account}
    (h : Tracked supply0 who s a) : Reachable supply0 s := by
  induction h with
  | init tick h => exact .init tick h
  | deposit _ h ih => exact .step ih (.instr (.deposit _ _ _ _ _ _) (bind_ok.2 ⟨_, h, rfl⟩))
  | withdraw _ h ih => exact .step ih (.instr (.withdraw _ _ _ _ _) (bind_ok.2 ⟨_, h, rfl⟩))
  | initializeBitmap _ h ih => exact .step ih (.instr .initializeBitmap h)
  | initializeTick _ h ih => exact .step ih (.instr (.initializeTick _) h)
  | createPosition _ h ih => exact .step ih (.instr (.createPosition _ _ _) h)
  | external _ h ih => exact .step ih (.external h)

/-- What a group took out, plus what its positions are worth, exceeds what it paid in by at most about
one token per deposit. -/
theorem Tracked.bound {supply0 : Nat} {who : Nat → Bool} {s : Chain} {a : Account}
    (h : Tracked supply0 who s a) :
    a.takenX + worthX who s ≤ a.paidX + a.deposits * (1 + 1 / 10 ^ 12) ∧
    a.takenY + worthY who s ≤ a.paidY + a.deposits := by
  induction h with
  | init tick h =>
    obtain ⟨_, _, h3, _⟩ := initPool_ok h
    unfold worthX worthY Chain.sumPos
    rw [h3]; simp
  | @deposit s t a c lower upper current x y m hr h ih =>
    have hs := Good.reachable hr.reachable
    obtain ⟨d, p, a', b, l, v⟩ := hs.deposit h
    have e : t.gs.rp = s.gs.rp := by rw [v.raw.result]; exact v.gRp
    obtain ⟨p1, p2⟩ := v.pays hs
    unfold worthX worthY at *
    rw [e, v.sumPos, v.sumPos]
    by_cases hw : who c.user = true
    · simp only [hw, if_true]
      push_cast
      constructor <;> linarith
    · simp only [hw, Bool.false_eq_true, if_false]
      constructor <;> linarith
  | @withdraw s t a c lower upper current n m hr h ih =>
    have hs := Good.reachable hr.reachable
    obtain ⟨d, p, a', b, v⟩ := hs.withdraw h
    have e : t.gs.rp = s.gs.rp := by rw [v.raw.result]; exact v.gRp
    obtain ⟨p1, p2⟩ := v.pays hs
    unfold worthX worthY at *
    rw [e, v.sumPos, v.sumPos]
    by_cases hw : who c.user = true
    · simp only [hw, if_true]
      push_cast
      constructor <;> linarith
    · simp only [hw, Bool.false_eq_true, if_false]
      constructor <;> linarith
  | initializeBitmap _ h ih =>
    obtain ⟨_, rfl⟩ := initializeBitmap_ok.1 h
    exact ih
  | initializeTick _ h ih =>
    obtain ⟨_, rfl⟩ := initializeTick_ok.1 h
    exact ih
  | @createPosition s t a u lower upper _ h ih =>
    have e := create_sumPos h
    obtain ⟨_, _, _, _, he⟩ := createPosition_ok h
    have eg : t.gs = s.gs := by rw [he]
    unfold worthX worthY at *
    rw [e, e, eg]
    exact ih
  | external _ h ih =>
    unfold worthX worthY at *
    rw [sumPos_of_eq h.positions, sumPos_of_eq h.positions, h.gs]
    exact ih

/-- What everybody paid in and did not take out is in the vaults. -/
theorem Tracked.vaults {supply0 : Nat} {s : Chain} {a : Account}
    (h : Tracked supply0 (fun _ => true) s a) :
    a.paidX ≤ s.vaultX + a.takenX ∧ a.paidY ≤ s.vaultY + a.takenY := by
  induction h with
  | init tick h => simp
  | deposit hr h ih =>
    obtain ⟨d, v⟩ := deposit_ok.1 h
    rw [v.result]
    simp only [if_true]
    constructor <;> omega
  | withdraw hr h ih =>
    obtain ⟨d, v⟩ := withdraw_ok.1 h
    rw [v.result]
    have := v.vaultX
    have := v.vaultY
    simp only [if_true]
    constructor <;> omega
  | initializeBitmap _ h ih =>
    obtain ⟨_, rfl⟩ := initializeBitmap_ok.1 h
    exact ih
  | initializeTick _ h ih =>
    obtain ⟨_, rfl⟩ := initializeTick_ok.1 h
    exact ih
  | createPosition _ h ih =>
    obtain ⟨_, _, _, _, rfl⟩ := createPosition_ok h
    exact ih
  | external _ h ih =>
    have := h.vaultX
    have := h.vaultY
    constructor <;> omega

end Hmm.OnChain
