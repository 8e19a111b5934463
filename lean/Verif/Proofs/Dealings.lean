import Verif.Proofs.OffersInParts
import Verif.Spec.Dealings

/-
What the owner of a position gets out of deposits and withdrawals, while nothing is sold.
-/

namespace Hmm.Pool

open Decimal PoolMath
open Hmm.OnChain.World (Super)

theorem xFrom_any {l p a b : Nat} {n : Bool} {c : Decimal} (hab : a ≤ b)
    (h : xFromLRpRng ⟨l, 12, n⟩ ⟨p, 12, false⟩ ⟨a, 12, false⟩ ⟨b, 12, false⟩ = .ok c) :
    c = ⟨memX (10 ^ 12) p a b l, 12, n⟩ ∧ 0 < max (min p b) a * b / 10 ^ 12 := by
  unfold xFromLRpRng at h
  rw [ite_ok] at h
  rcases h with ⟨_, h⟩ | ⟨hz, h⟩
  · cases h
  have hq : max (min p b) a ≤ b := by omega
  rw [min_nn, bind_eq, max_nn, bind_eq, sub_nn_le 12 hq, unwrap_eq, bind_eq] at h
  unfold memX
  generalize max (min p b) a = q at *
  rw [bind_ok] at h; obtain ⟨m, h1, h⟩ := h
  rw [bind_ok] at h; obtain ⟨k, h2, h⟩ := h
  obtain ⟨_, _, rfl⟩ := mul_ok.1 h1
  obtain ⟨_, _, rfl⟩ := mul_ok.1 h2
  obtain ⟨_, _, m4, rfl⟩ := div_ok.1 h
  simp only at m4
  exact ⟨by cases n <;> rfl, Nat.pos_of_ne_zero m4⟩

theorem yFrom_any {l p a b : Nat} {n : Bool} {c : Decimal}
    (h : yFromLRpRng ⟨l, 12, n⟩ ⟨p, 12, false⟩ ⟨a, 12, false⟩ ⟨b, 12, false⟩ = .ok c) :
    c = ⟨memY (10 ^ 12) p a b l, 12, n⟩ := by
  unfold yFromLRpRng at h
  have hn : ¬ (Decimal.mk (max (min p b) a - a) 12 false).isNegative = true := by
    rw [amount_not_negative (amount_mk _ _)]; simp
  rw [min_nn, bind_eq, max_nn, bind_eq, sub_nn_le 12 (le_max_right _ _), unwrap_eq, bind_eq, if_neg hn] at h
  obtain ⟨_, _, rfl⟩ := mul_ok.1 h
  unfold memY
  cases n <;> rfl

/-- A number that is not negative is its digits, and so is what is computed from it. -/
theorem any_nonneg {l : Nat} {n : Bool} (h : 0 ≤ (⟨l, 12, n⟩ : Decimal).toRat) {f : Nat → Nat} (hf : f 0 = 0) :
    (⟨l, 12, n⟩ : Decimal).toRat = (l : ℚ) / 10 ^ 12 ∧ (⟨f l, 12, n⟩ : Decimal).toRat = (f l : ℚ) / 10 ^ 12 := by
  cases n with
  | false => exact ⟨units, units⟩
  | true =>
    have e : l = 0 := by
      rw [toRat_of_neg rfl] at h
      have h1 : mag ⟨l, 12, true⟩ = (l : ℚ) / 10 ^ 12 := rfl
      rw [h1] at h
      have : (l : ℚ) ≤ 0 := by
        by_contra hc
        have : (0 : ℚ) < (l : ℚ) / 10 ^ 12 := div_pos (by linarith) (by norm_num)
        linarith
      have : l ≤ 0 := by exact_mod_cast this
      omega
    subst e
    rw [hf]
    have : (⟨0, 12, true⟩ : Decimal).toRat = 0 := by norm_num [toRat]
    rw [this]
    simp

theorem memX_near {K p a b : Nat} (hK : 0 < K) (hM : K ≤ max (min p b) a * b / K) (l l' : Nat) :
    memX K p a b (l + l') ≤ memX K p a b l + memX K p a b l' + 2 := by
  unfold memX
  have a1 : (l + l') * (b - max (min p b) a) / K ≤ l * (b - max (min p b) a) / K + l' * (b - max (min p b) a) / K + 0 + 1 :=
    div_parts (e := 0) hK (by rw [add_mul l]; omega)
  generalize l * (b - max (min p b) a) / K = n at *
  generalize l' * (b - max (min p b) a) / K = n' at *
  generalize (l + l') * (b - max (min p b) a) / K = s at *
  refine div_parts (e := 1) (by omega) ?_
  have := Nat.mul_le_mul_right K a1
  have e : (n + n' + 0 + 1) * K = n * K + n' * K + K := by ring
  omega

theorem memY_near {K p a b : Nat} (hK : 0 < K) (l l' : Nat) :
    memY K p a b (l + l') ≤ memY K p a b l + memY K p a b l' + 1 := by
  unfold memY
  exact div_parts (e := 0) hK (by rw [add_mul l]; omega)

theorem memX_zero (K p a b : Nat) : memX K p a b 0 = 0 := by unfold memX; simp

theorem memY_zero (K p a b : Nat) : memY K p a b 0 = 0 := by unfold memY; simp

theorem put_step {p p' : Pool} (rp : Reachable p) {o : Offer} {r : Receipt} {key : PositionKey} {rv av bv : Nat}
    (h : p.deposit o.user o.x o.y o.rpa o.rpb = .ok (p', r)) (hk : o.For p key) (er : p.gs.rp = ⟨rv, 12, false⟩)
    (ha : tickToRp key.lower = .ok ⟨av, 12, false⟩) (hb : tickToRp key.upper = .ok ⟨bv, 12, false⟩) :
    ∃ l : Nat, r.x.toRat = (memX (10 ^ 12) rv av bv l : ℚ) / 10 ^ 12 ∧ r.y.toRat = (memY (10 ^ 12) rv av bv l : ℚ) / 10 ^ 12 ∧
      liqOf p'.positions key = liqOf p.positions key + (l : ℚ) / 10 ^ 12 := by
  obtain ⟨lower, upper, a, b, liq, p1, p2, px, py, _, _, _, _, g1, g2, hlu, g3, g4, _, hl, kx, _, ky, _, hs, _, _, _, _,
    hf, rfl⟩ := deposit_ok h
  rw [hk.2.1] at g1; cases g1
  rw [hk.2.2] at g2; cases g2
  rw [ha] at g3; cases g3
  rw [hb] at g4; cases g4
  have hab := price_mono hlu.le ha hb
  rw [toRat_le_mk] at hab
  rw [er] at kx ky
  have hsc := delta_scale (Tidy.reachable rp) hs
  obtain ⟨l, s, n⟩ := liq
  simp only at hsc
  subst hsc
  have ex := (xFrom_any hab kx).1
  have ey := yFrom_any ky
  obtain ⟨f1, _, _, _, _⟩ := payFees_frame hf
  refine ⟨l, ?_, ?_, ?_⟩
  · rw [ex]; exact (any_nonneg hl (memX_zero _ _ _ _)).2
  · rw [ey]; exact (any_nonneg hl (memY_zero _ _ _ _)).2
  · obtain ⟨_, _, _, _, _, e, _⟩ := setPosition_sums (Booked.reachable rp).unique hs
    have ek : key = ⟨o.user, key.lower, key.upper⟩ := by rw [← hk.1]
    rw [← ek] at e
    rw [← (any_nonneg hl (memX_zero (10 ^ 12) rv av bv)).1, ← e]
    show liqOf p2.positions key = _
    rw [f1]

theorem take_step {p p' : Pool} (rp : Reachable p) {o : Request} {r : Receipt} {key : PositionKey} {rv av bv : Nat}
    (h : p.withdraw o.user o.liq o.rpa o.rpb = .ok (p', r)) (hk : o.For p key) (er : p.gs.rp = ⟨rv, 12, false⟩)
    (ha : tickToRp key.lower = .ok ⟨av, 12, false⟩) (hb : tickToRp key.upper = .ok ⟨bv, 12, false⟩) :
    ∃ l : Nat, r.x.toRat ≤ (memX (10 ^ 12) rv av bv l : ℚ) / 10 ^ 12 ∧ r.y.toRat ≤ (memY (10 ^ 12) rv av bv l : ℚ) / 10 ^ 12 ∧
      liqOf p'.positions key = liqOf p.positions key - (l : ℚ) / 10 ^ 12 ∧ 0 ≤ liqOf p'.positions key := by
  obtain ⟨lower, upper, a, b, p1, p2, x0, y0, adj, px, py, hl, g1, g2, hlu, g3, g4, hs, kx, ky, hadj, mx, my, _, _, _, _, _,
    _, hf, rfl⟩ := withdraw_ok h
  rw [hk.2.1] at g1; cases g1
  rw [hk.2.2] at g2; cases g2
  rw [ha] at g3; cases g3
  rw [hb] at g4; cases g4
  have hab := price_mono hlu.le ha hb
  rw [toRat_le_mk] at hab
  have fr := setPosition_frame hs
  rw [show p1.gs.rp = p.gs.rp by rw [fr], er] at kx ky
  have hsc := delta_scale (Tidy.reachable rp) hs
  rw [neg_scale] at hsc
  have hadj' : PoolMath.one.sub adjWithdrawal = .ok ⟨keep, 12, false⟩ := by decide +kernel
  rw [hadj'] at hadj; cases hadj
  generalize ho : o.liq = liq at *
  obtain ⟨l, s, n⟩ := liq
  simp only at hsc
  subst hsc
  have ex := (xFrom_any hab kx).1
  have ey := yFrom_any ky
  subst ex ey
  obtain ⟨f1, _, _, _, _⟩ := payFees_frame hf
  obtain ⟨_, _, _, _, _, e, e', _⟩ := setPosition_sums (Booked.reachable rp).unique hs
  have ek : key = ⟨o.user, key.lower, key.upper⟩ := by rw [← hk.1]
  rw [← ek] at e e'
  have less : ∀ m : Nat, m * keep / 10 ^ 12 ≤ m := fun m => by
    refine Nat.div_le_of_le_mul ?_
    rw [mul_comm]
    exact Nat.mul_le_mul_right _ (by decide)
  have upto : ∀ {m : Nat} {c : Decimal}, (⟨m, 12, n⟩ : Decimal).mul ⟨keep, 12, false⟩ = .ok c → c.toRat ≤ (m : ℚ) / 10 ^ 12 := by
    intro m c hc
    obtain ⟨_, _, rfl⟩ := mul_ok.1 hc
    have h1 : ((m * keep / 10 ^ 12 : ℕ) : ℚ) / 10 ^ 12 ≤ (m : ℚ) / 10 ^ 12 :=
      div_le_div_of_nonneg_right (by exact_mod_cast less m) (by norm_num)
    cases n with
    | false => exact (le_of_eq units).trans h1
    | true =>
      refine le_trans ?_ (div_nonneg (Nat.cast_nonneg m) (by norm_num))
      show Decimal.toRat ⟨m * keep / 10 ^ 12, 12, true⟩ ≤ 0
      rw [toRat_of_neg rfl]
      have := mag_nonneg ⟨m * keep / 10 ^ 12, 12, true⟩
      linarith
  refine ⟨l, upto mx, upto my, ?_, ?_⟩
  · rw [← (any_nonneg hl (memX_zero (10 ^ 12) rv av bv)).1]
    rw [neg_toRat] at e
    show liqOf p2.positions key = _
    rw [f1, e]
    ring
  · show 0 ≤ liqOf p2.positions key
    rw [f1]
    exact e'

/-! ### Many deposits and withdrawals -/

theorem other_put {p p' : Pool} (rp : Reachable p) {o : Offer} {r : Receipt} {key : PositionKey}
    (h : p.deposit o.user o.x o.y o.rpa o.rpb = .ok (p', r)) :
    p'.gs.rp = p.gs.rp ∧ (¬ o.For p key → liqOf p'.positions key = liqOf p.positions key) := by
  obtain ⟨key', d, hf, m⟩ := deposit_moved rp h
  refine ⟨m.kin.rp, fun hk => ?_⟩
  unfold liqOf
  rw [m.others key fun e => hk (e ▸ hf)]

theorem other_take {p p' : Pool} (rp : Reachable p) {o : Request} {r : Receipt} {key : PositionKey}
    (h : p.withdraw o.user o.liq o.rpa o.rpb = .ok (p', r)) :
    p'.gs.rp = p.gs.rp ∧ (¬ o.For p key → liqOf p'.positions key = liqOf p.positions key) := by
  obtain ⟨key', d, hf, m⟩ := withdraw_left rp h
  refine ⟨m.rp, fun hk => ?_⟩
  unfold liqOf
  rw [m.others key fun e => hk (e ▸ hf)]

theorem dealings_bound {key : PositionKey} {rv av bv : Nat} {X Y : Nat → Nat}
    (hX : X = memX (10 ^ 12) rv av bv) (hY : Y = memY (10 ^ 12) rv av bv)
    (nx : ∀ l l', X (l + l') ≤ X l + X l' + 2) (ny : ∀ l l', Y (l + l') ≤ Y l + Y l' + 1) (sx : Super X) (sy : Super Y)
    (ha : tickToRp key.lower = .ok ⟨av, 12, false⟩) (hb : tickToRp key.upper = .ok ⟨bv, 12, false⟩)
    {p q : Pool} {x y : ℚ} {n : Nat} (g : Dealings key p x y n q) : Reachable p → p.gs.rp = ⟨rv, 12, false⟩ →
    ∀ L : Nat, liqOf p.positions key = (L : ℚ) / 10 ^ 12 → ∃ L' : Nat, liqOf q.positions key = (L' : ℚ) / 10 ^ 12 ∧
      x + (X L' : ℚ) / 10 ^ 12 ≤ ((X L + 2 * n : ℕ) : ℚ) / 10 ^ 12 ∧ y + (Y L' : ℚ) / 10 ^ 12 ≤ ((Y L + n : ℕ) : ℚ) / 10 ^ 12 := by
  have X0 : X 0 = 0 := by rw [hX, memX_zero]
  have Y0 : Y 0 = 0 := by rw [hY, memY_zero]
  have mono : ∀ {a b : ℕ}, a ≤ b → (a : ℚ) / 10 ^ 12 ≤ (b : ℚ) / 10 ^ 12 := fun h =>
    div_le_div_of_nonneg_right (by exact_mod_cast h) (by norm_num)
  induction g with
  | none =>
    intro _ _ L hL
    exact ⟨L, hL, by simp, by simp⟩
  | @put p p1 p' o r x y n h hk _ ih =>
    intro rp er L hL
    obtain ⟨l, e1, e2, e3⟩ := put_step rp h hk er ha hb
    rw [← hX] at e1
    rw [← hY] at e2
    obtain ⟨L', i1, i2, i3⟩ := ih (.step rp (.deposit h)) ((other_put (key := key) rp h).1.trans er) (L + l) (by
      rw [e3, hL]; push_cast; ring)
    refine ⟨L', i1, ?_, ?_⟩
    · by_cases h0 : liqOf p.positions key = 0
      · rw [if_pos h0]
        have : L = 0 := by
          rw [hL] at h0
          have : (L : ℚ) = 0 := by
            rcases div_eq_zero_iff.1 h0 with h | h
            · exact h
            · norm_num at h
          exact_mod_cast this
        subst this
        rw [e1]
        rw [zero_add] at i2
        rw [X0]
        have : ((X l + 2 * n : ℕ) : ℚ) / 10 ^ 12 = ((0 + 2 * n : ℕ) : ℚ) / 10 ^ 12 + (X l : ℚ) / 10 ^ 12 := by push_cast; ring
        linarith
      · rw [if_neg h0, e1]
        have k := mono (show X (L + l) + 2 * n ≤ X L + 2 * (n + 1) + X l by have := nx L l; omega)
        have : ((X L + 2 * (n + 1) + X l : ℕ) : ℚ) / 10 ^ 12 = ((X L + 2 * (n + 1) : ℕ) : ℚ) / 10 ^ 12 + (X l : ℚ) / 10 ^ 12 := by
          push_cast; ring
        linarith
    · by_cases h0 : liqOf p.positions key = 0
      · rw [if_pos h0]
        have : L = 0 := by
          rw [hL] at h0
          have : (L : ℚ) = 0 := by
            rcases div_eq_zero_iff.1 h0 with h | h
            · exact h
            · norm_num at h
          exact_mod_cast this
        subst this
        rw [e2]
        rw [zero_add] at i3
        rw [Y0]
        have : ((Y l + n : ℕ) : ℚ) / 10 ^ 12 = ((0 + n : ℕ) : ℚ) / 10 ^ 12 + (Y l : ℚ) / 10 ^ 12 := by push_cast; ring
        linarith
      · rw [if_neg h0, e2]
        have k := mono (show Y (L + l) + n ≤ Y L + (n + 1) + Y l by have := ny L l; omega)
        have : ((Y L + (n + 1) + Y l : ℕ) : ℚ) / 10 ^ 12 = ((Y L + (n + 1) : ℕ) : ℚ) / 10 ^ 12 + (Y l : ℚ) / 10 ^ 12 := by
          push_cast; ring
        linarith
  | @take p p1 p' o r x y n h hk _ ih =>
    intro rp er L hL
    obtain ⟨l, e1, e2, e3, e4⟩ := take_step rp h hk er ha hb
    rw [← hX] at e1
    rw [← hY] at e2
    have hle : l ≤ L := by
      rw [e3, hL] at e4
      have : (l : ℚ) / 10 ^ 12 ≤ (L : ℚ) / 10 ^ 12 := by linarith
      rw [div_le_div_iff_of_pos_right (by norm_num)] at this
      exact_mod_cast this
    obtain ⟨m, rfl⟩ := Nat.exists_eq_add_of_le hle
    obtain ⟨L', i1, i2, i3⟩ := ih (.step rp (.withdraw h)) ((other_take (key := key) rp h).1.trans er) m (by
      rw [e3, hL]; push_cast; ring)
    refine ⟨L', i1, ?_, ?_⟩
    · have k := mono (show X m + 2 * n + X l ≤ X (l + m) + 2 * n by have := sx l m; omega)
      have : ((X m + 2 * n + X l : ℕ) : ℚ) / 10 ^ 12 = ((X m + 2 * n : ℕ) : ℚ) / 10 ^ 12 + (X l : ℚ) / 10 ^ 12 := by push_cast; ring
      linarith
    · have k := mono (show Y m + n + Y l ≤ Y (l + m) + n by have := sy l m; omega)
      have : ((Y m + n + Y l : ℕ) : ℚ) / 10 ^ 12 = ((Y m + n : ℕ) : ℚ) / 10 ^ 12 + (Y l : ℚ) / 10 ^ 12 := by push_cast; ring
      linarith
  | otherPut h hk _ ih =>
    intro rp er L hL
    obtain ⟨e1, e2⟩ := other_put rp h
    exact ih (.step rp (.deposit h)) (e1.trans er) L ((e2 hk).trans hL)
  | otherTake h hk _ ih =>
    intro rp er L hL
    obtain ⟨e1, e2⟩ := other_take rp h
    exact ih (.step rp (.withdraw h)) (e1.trans er) L ((e2 hk).trans hL)

/-- Without a range there is no position to deal with. -/
theorem dealings_no_range {key : PositionKey}
    (hno : ¬ ∃ av bv, key.lower < key.upper ∧ tickToRp key.lower = .ok av ∧ tickToRp key.upper = .ok bv)
    {p q : Pool} {x y : ℚ} {n : Nat} (g : Dealings key p x y n q) : x = 0 ∧ y = 0 := by
  induction g with
  | none => exact ⟨rfl, rfl⟩
  | put h hk _ _ =>
    obtain ⟨lower, upper, a, b, _, _, _, _, _, _, _, _, _, g1, g2, hlu, g3, g4, _⟩ := deposit_ok h
    rw [hk.2.1] at g1; cases g1
    rw [hk.2.2] at g2; cases g2
    exact absurd ⟨a, b, hlu, g3, g4⟩ hno
  | take h hk _ _ =>
    obtain ⟨lower, upper, a, b, _, _, _, _, _, _, _, _, g1, g2, hlu, g3, g4, _⟩ := withdraw_ok h
    rw [hk.2.1] at g1; cases g1
    rw [hk.2.2] at g2; cases g2
    exact absurd ⟨a, b, hlu, g3, g4⟩ hno
  | otherPut _ _ _ ih => exact ih
  | otherTake _ _ _ ih => exact ih

end Hmm.Pool
