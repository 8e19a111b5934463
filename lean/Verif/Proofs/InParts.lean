import Verif.Proofs.OrderWithdrawals

/-
A withdrawal in parts.
-/

namespace Hmm.Pool

open Decimal PoolMath

/-! ### Parts of an amount -/

theorem div_parts {u v w d e : Nat} (hd : 0 < d) (h : w ≤ u + v + e * d) : w / d ≤ u / d + v / d + e + 1 := by
  refine Nat.lt_succ_iff.1 ((Nat.div_lt_iff_lt_mul hd).2 ?_)
  have h1 := Nat.lt_mul_div_succ u hd
  have h2 := Nat.lt_mul_div_succ v hd
  generalize u / d = a at *
  generalize v / d = b at *
  have : (a + b + e + 1).succ * d = d * (a + 1) + d * (b + 1) + e * d := by rw [Nat.succ_eq_add_one]; ring
  omega

theorem div_super {u v w d : Nat} (h : u + v ≤ w) : u / d + v / d ≤ w / d :=
  Nat.div_add_div_le_add_div.trans (Nat.div_le_div_right h)

theorem parts_of_x {l l' d K M A : Nat} (hK : 0 < K) (hM : K ≤ M) (hA : A ≤ K) :
    l * d / K * K / M * A / K + l' * d / K * K / M * A / K ≤ (l + l') * d / K * K / M * A / K ∧
    (l + l') * d / K * K / M * A / K ≤ l * d / K * K / M * A / K + l' * d / K * K / M * A / K + 3 := by
  have a1 : (l + l') * d / K ≤ l * d / K + l' * d / K + 0 + 1 := div_parts (e := 0) hK (by rw [add_mul l]; omega)
  have b1 : l * d / K + l' * d / K ≤ (l + l') * d / K := div_super (by rw [add_mul])
  generalize l * d / K = n at *
  generalize l' * d / K = n' at *
  generalize (l + l') * d / K = s at *
  have a2 : s * K / M ≤ n * K / M + n' * K / M + 1 + 1 := div_parts (by omega) (by
    have := Nat.mul_le_mul_right K a1
    have e : (n + n' + 0 + 1) * K = n * K + n' * K + K := by ring
    omega)
  have b2 : n * K / M + n' * K / M ≤ s * K / M := div_super (by rw [← add_mul]; exact Nat.mul_le_mul_right K b1)
  generalize n * K / M = m at *
  generalize n' * K / M = m' at *
  generalize s * K / M = t at *
  refine ⟨div_super (by rw [← add_mul]; exact Nat.mul_le_mul_right A b2), ?_⟩
  refine div_parts (e := 2) hK ?_
  have := Nat.mul_le_mul_right A a2
  have e : (m + m' + 1 + 1) * A = m * A + m' * A + 2 * A := by ring
  omega

theorem parts_of_y {l l' d K A : Nat} (hK : 0 < K) (hA : A ≤ K) :
    l * d / K * A / K + l' * d / K * A / K ≤ (l + l') * d / K * A / K ∧
    (l + l') * d / K * A / K ≤ l * d / K * A / K + l' * d / K * A / K + 2 := by
  have a1 : (l + l') * d / K ≤ l * d / K + l' * d / K + 0 + 1 := div_parts (e := 0) hK (by rw [add_mul l]; omega)
  have b1 : l * d / K + l' * d / K ≤ (l + l') * d / K := div_super (by rw [add_mul])
  generalize l * d / K = m at *
  generalize l' * d / K = m' at *
  generalize (l + l') * d / K = t at *
  refine ⟨div_super (by rw [← add_mul]; exact Nat.mul_le_mul_right A b1), ?_⟩
  refine div_parts (e := 1) hK ?_
  have := Nat.mul_le_mul_right A a1
  have e : (m + m' + 0 + 1) * A = m * A + m' * A + A := by ring
  omega

/-- What is left of one, in units, after the share a withdrawal leaves behind. -/
def keep : Nat := 999999999999

/-- The X for part of some liquidity. -/
theorem xFrom_part {l p a b : Nat} {c : Decimal} (ha : 10 ^ 12 ≤ a) (hab : a ≤ b)
    (h : xFromLRpRng ⟨l, 12, false⟩ ⟨p, 12, false⟩ ⟨a, 12, false⟩ ⟨b, 12, false⟩ = .ok c) :
    ∃ g : Nat → Nat, (∀ l' ≤ l, xFromLRpRng ⟨l', 12, false⟩ ⟨p, 12, false⟩ ⟨a, 12, false⟩ ⟨b, 12, false⟩ =
      .ok ⟨g l', 12, false⟩) ∧ (∀ m m', m ≤ m' → g m ≤ g m') ∧ ∀ m m',
      g m * keep / 10 ^ 12 + g m' * keep / 10 ^ 12 ≤ g (m + m') * keep / 10 ^ 12 ∧
      g (m + m') * keep / 10 ^ 12 ≤ g m * keep / 10 ^ 12 + g m' * keep / 10 ^ 12 + 3 := by
  unfold xFromLRpRng at h ⊢
  rw [ite_ok] at h
  rcases h with ⟨_, h⟩ | ⟨hz, h⟩
  · cases h
  have hq : max (min p b) a ≤ b := by omega
  have hqa : a ≤ max (min p b) a := by omega
  rw [min_nn, bind_eq, max_nn, bind_eq, sub_nn_le 12 hq, unwrap_eq, bind_eq] at h
  simp only [if_neg hz, min_nn, bind_eq, max_nn, sub_nn_le 12 hq, unwrap_eq]
  generalize max (min p b) a = q at *
  rw [bind_ok] at h; obtain ⟨m, h1, h⟩ := h
  rw [bind_ok] at h; obtain ⟨n, h2, h⟩ := h
  have hd : 10 ^ 12 < u128Size := by decide
  obtain ⟨m1, _, rfl⟩ := mul_ok.1 h1
  obtain ⟨m2, _, rfl⟩ := mul_ok.1 h2
  obtain ⟨m3, _, m4, _⟩ := div_ok.1 h
  simp only at m1 m2 m3 m4
  have hM : 10 ^ 12 ≤ q * b / 10 ^ 12 := by
    rw [Nat.le_div_iff_mul_le (by norm_num)]
    exact Nat.mul_le_mul (by omega) (by omega)
  refine ⟨fun l => l * (b - q) / 10 ^ 12 * 10 ^ 12 / (q * b / 10 ^ 12), fun l' hl => ?_, fun m m' h =>
    Nat.div_le_div_right (Nat.mul_le_mul_right _ (Nat.div_le_div_right (Nat.mul_le_mul_right _ h))), fun m m' =>
    parts_of_x (by norm_num) hM (by decide)⟩
  have k1 : l' * (b - q) ≤ l * (b - q) := Nat.mul_le_mul_right _ hl
  refine bind_of h1 (bind_of (mul_ok.2 ⟨k1.trans_lt m2, hd, rfl⟩) ?_)
  exact div_ok.2 ⟨(Nat.mul_le_mul_right _ (Nat.div_le_div_right k1)).trans_lt m3, hd, m4, rfl⟩

/-- The Y for part of some liquidity. -/
theorem yFrom_part {l p a b : Nat} {c : Decimal}
    (h : yFromLRpRng ⟨l, 12, false⟩ ⟨p, 12, false⟩ ⟨a, 12, false⟩ ⟨b, 12, false⟩ = .ok c) :
    ∃ g : Nat → Nat, (∀ l' ≤ l, yFromLRpRng ⟨l', 12, false⟩ ⟨p, 12, false⟩ ⟨a, 12, false⟩ ⟨b, 12, false⟩ =
      .ok ⟨g l', 12, false⟩) ∧ (∀ m m', m ≤ m' → g m ≤ g m') ∧ ∀ m m',
      g m * keep / 10 ^ 12 + g m' * keep / 10 ^ 12 ≤ g (m + m') * keep / 10 ^ 12 ∧
      g (m + m') * keep / 10 ^ 12 ≤ g m * keep / 10 ^ 12 + g m' * keep / 10 ^ 12 + 2 := by
  unfold yFromLRpRng at h ⊢
  have hn : ¬ (Decimal.mk (max (min p b) a - a) 12 false).isNegative = true := by
    rw [amount_not_negative (amount_mk _ _)]; simp
  rw [min_nn, bind_eq, max_nn, bind_eq, sub_nn_le 12 (le_max_right _ _), unwrap_eq, bind_eq, if_neg hn] at h
  simp only [min_nn, bind_eq, max_nn, sub_nn_le 12 (le_max_right _ _), unwrap_eq, if_neg hn]
  obtain ⟨m2, _, _⟩ := mul_ok.1 h
  exact ⟨fun l => l * (max (min p b) a - a) / 10 ^ 12,
    fun l' hl => mul_ok.2 ⟨(Nat.mul_le_mul_right _ hl).trans_lt m2, by show 10 ^ 12 < u128Size; decide, rfl⟩,
    fun m m' h => Nat.div_le_div_right (Nat.mul_le_mul_right _ h), fun m m' => parts_of_y (by norm_num) (by decide)⟩

/-! ### Taking part of a position -/

/-- A position with enough liquidity can be reduced, if the growth inside its range can be computed and is no less
than recorded, and if the liquidity is there to be taken. -/
theorem setPosition_by {q : Pool} (rq : Reachable q) {user lower upper l L : Nat} {nf fu f old : Fees}
    (hlu : lower < upper) (hl : l ≤ L)
    (hm : mapGet ⟨user, lower, upper⟩ q.positions = some ⟨⟨L, 12, false⟩, old⟩)
    (hnf : ∀ k, q.feeRng (fun f => f.at k) lower upper = .ok (nf.at k))
    (hfu : ∀ k, (nf.at k).sub (old.at k) = .ok (fu.at k)) (hfu0 : ∀ k, 0 ≤ (fu.at k).toRat)
    (hf : ∀ k, (⟨L, 12, false⟩ : Decimal).mul (fu.at k) = .ok (f.at k))
    (hliq : lower ≤ q.gs.tick ∧ q.gs.tick < upper → (⟨l, 12, false⟩ : Decimal).toRat ≤ q.gs.liq.toRat)
    (hlo : (⟨l, 12, false⟩ : Decimal).toRat ≤ q.startingAt lower)
    (hup : (⟨l, 12, false⟩ : Decimal).toRat ≤ q.endingAt upper) :
    ∃ q', q.setPosition user lower upper ⟨l, 12, true⟩ = .ok (q', f) ∧
      mapGet ⟨user, lower, upper⟩ q'.positions = if L - l = 0 then none else some ⟨⟨L - l, 12, false⟩, nf⟩ := by
  have tq := Tidy.reachable rq
  have sq := Stored.reachable rq
  have gq := GrossFits.reachable rq
  have bq := Booked.reachable rq
  have hd : (⟨l, 12, true⟩ : Decimal).toRat = -(⟨l, 12, false⟩ : Decimal).toRat := by rw [toRat_mk_neg, toRat_mk]
  have h0 := (amount_mk l 12).nonneg
  have net : ∀ t, (q.tickOrNew t).liqNet.toRat = q.startingAt t - q.endingAt t := fun t => by
    rw [← bq.net]
    unfold tickOrNew netAt
    cases mapGet t q.ticks <;> simp [zero_toRat]
  have gl := gq lower
  have gu := gq upper
  have z2 := ending_nonneg rq lower
  have z3 := starting_nonneg rq upper
  have hnn' : ∀ v : Nat, ¬ (⟨v, 12, false⟩ : Decimal).isNegative = true := fun v => by
    rw [amount_not_negative (amount_mk _ _)]; simp
  obtain ⟨qs', hqs, eqs⟩ : ∃ ps', setPositionMap q.positions ⟨user, lower, upper⟩ ⟨l, 12, true⟩ nf =
      .ok (ps', old, ⟨L, 12, false⟩) ∧ mapGet ⟨user, lower, upper⟩ ps' =
        if L - l = 0 then none else some ⟨⟨L - l, 12, false⟩, nf⟩ := by
    unfold setPositionMap
    rw [hm]
    simp only
    rw [if_neg (hnn' _), add_neg_le hl, unwrap_eq, bind_eq, if_neg (by simp [amount_not_negative (amount_mk _ _)])]
    simp only [isZero_mk]
    split
    · exact ⟨_, rfl, mapGet_erase_same _ _⟩
    · unfold PositionState.addLiq
      simp only
      rw [add_neg_le hl, unwrap_eq, bind_eq, if_neg (hnn' _)]
      exact ⟨_, rfl, mapGet_set_same _ _ _⟩
  have t0 : Tidy { q with positions := qs' } := tq.congr rfl rfl rfl rfl rfl rfl rfl rfl rfl
  obtain ⟨q1, hq1⟩ := updateTick_does t0 (t := lower) (d := ⟨l, 12, true⟩) (u := false) rfl
    (by show 0 ≤ (q.tickOrNew lower).liqGross.toRat + _; rw [tickOrNew_gross rq, hd]; linarith)
    (by show ((q.tickOrNew lower).liqGross.toRat + _) * _ < _; rw [tickOrNew_gross rq, hd]; linarith)
    (by
      show |(q.tickOrNew lower).liqNet.toRat + _| * _ < _
      rw [net, if_neg (by simp), hd]
      have : |q.startingAt lower - q.endingAt lower + -(⟨l, 12, false⟩ : Decimal).toRat| ≤
          q.startingAt lower + q.endingAt lower := by
        rw [abs_le]; constructor <;> linarith
      linarith)
  have t1 := t0.updateTick hq1
  have e1 := updateTick_frame hq1
  have et : q1.tickOrNew upper = q.tickOrNew upper := by
    have := (updateTick_get hq1).1 upper (by omega)
    unfold Pool.tickOrNew
    rw [this, e1]
  obtain ⟨q2, hq2⟩ := updateTick_does t1 (t := upper) (d := ⟨l, 12, true⟩) (u := true) rfl
    (by rw [et, tickOrNew_gross rq, hd]; linarith) (by rw [et, tickOrNew_gross rq, hd]; linarith)
    (by
      rw [et, net, if_pos rfl, hd]
      have : |q.startingAt upper - q.endingAt upper + - -(⟨l, 12, false⟩ : Decimal).toRat| ≤
          q.startingAt upper + q.endingAt upper := by
        rw [abs_le]; constructor <;> linarith
      linarith)
  have e2 := updateTick_frame hq2
  have eg : q2.gs = q.gs := by rw [e2, e1]
  obtain ⟨q3, hq3⟩ : ∃ q3, (if q2.gs.tick ≥ lower ∧ q2.gs.tick < upper then q2.addGlblLiq ⟨l, 12, true⟩ else .ok q2) =
      .ok q3 := by
    split
    · rename_i hin
      rw [eg] at hin
      have l1 := hliq hin
      have l2 := stored_rat tq.liq sq.liq
      obtain ⟨n, hn⟩ := sum_goes tq.liq.1 (b := ⟨l, 12, true⟩) rfl (by
        rw [hd, abs_of_nonneg (by linarith)]; linarith)
      refine ⟨_, addGlblLiq_ok.2 ⟨n, by rw [eg]; exact hn, ?_, rfl⟩⟩
      rw [not_isNegative, add_toRat hn, hd]
      linarith
    · exact ⟨_, rfl⟩
  have eq3 : q3.positions = qs' := by
    rw [ite_ok] at hq3
    rcases hq3 with ⟨_, hq3⟩ | ⟨_, hq3⟩
    · obtain ⟨n, _, _, rfl⟩ := addGlblLiq_ok.1 hq3
      rw [e2, e1]
    · cases hq3
      rw [e2, e1]
  have ass : ∀ k, rassert (!(fu.at k).isNegative) = .ok () := fun k => by
    rw [not_isNegative.2 (hfu0 k)]; rfl
  refine ⟨q3, ?_, by rw [eq3, eqs]⟩
  unfold setPosition
  refine bind_of (hnf .fx) (bind_of (hnf .fy) (bind_of (hnf .hx) (bind_of (hnf .hy) (bind_of hqs ?_))))
  simp only
  refine bind_of (unwrap_ok.2 (hfu .fx)) (bind_of (unwrap_ok.2 (hfu .fy)) (bind_of (unwrap_ok.2 (hfu .hx))
    (bind_of (unwrap_ok.2 (hfu .hy)) ?_)))
  refine bind_of (ass .fx) (bind_of (ass .fy) (bind_of (ass .hx) (bind_of (ass .hy) ?_)))
  refine bind_of hq1 (bind_of hq2 (bind_of hq3 ?_))
  exact bind_of (hf .fx) (bind_of (hf .fy) (bind_of (hf .hx) (bind_of (hf .hy) rfl)))

/-- Once the position is reduced, the withdrawal goes through if reserves and pots hold the amounts. -/
theorem withdraw_by {q q1 : Pool} (rq : Reachable q) {key : PositionKey} {l xv yv : Nat} {a b rpa rpb : Decimal}
    {f : Fees} (hl : l ≠ 0) (hn : Names q key rpa rpb) (hlu : key.lower < key.upper)
    (ha : tickToRp key.lower = .ok a) (hb : tickToRp key.upper = .ok b)
    (h1 : q.setPosition key.user key.lower key.upper ⟨l, 12, true⟩ = .ok (q1, f))
    (hx : xFromLRpRng ⟨l, 12, false⟩ q.gs.rp a b = .ok ⟨xv, 12, false⟩)
    (hy : yFromLRpRng ⟨l, 12, false⟩ q.gs.rp a b = .ok ⟨yv, 12, false⟩)
    (mx : xv * keep < u128Size) (my : yv * keep < u128Size)
    (lx : (⟨xv * keep / 10 ^ 12, 12, false⟩ : Decimal).toRat ≤ q.x.toRat)
    (ly : (⟨yv * keep / 10 ^ 12, 12, false⟩ : Decimal).toRat ≤ q.y.toRat)
    (hf : ∀ k, (f.at k).Amount 12) (hpot : ∀ k, (f.at k).toRat ≤ (q.pot k).toRat)
    (sx : xv * keep / 10 ^ 12 + f.fx.value + f.hx.value < u128Size)
    (sy : yv * keep / 10 ^ 12 + f.fy.value + f.hy.value < u128Size) :
    ∃ q' r, q.withdraw key.user ⟨l, 12, false⟩ rpa rpb = .ok (q', r) ∧ r.x = ⟨xv * keep / 10 ^ 12, 12, false⟩ ∧
      r.y = ⟨yv * keep / 10 ^ 12, 12, false⟩ ∧ r.fees = f ∧ Left q q' key (⟨l, 12, false⟩ : Decimal).toRat r ∧
      q'.positions = q1.positions := by
  have tq := Tidy.reachable rq
  have sq := Stored.reachable rq
  have tq1 := tq.setPosition h1
  have sq1 := sq.setPosition tq h1
  have fq := setPosition_frame h1
  have ex : q1.x = q.x := by rw [fq]
  have ey : q1.y = q.y := by rw [fq]
  have erp : q1.gs.rp = q.gs.rp := by rw [fq]
  have hadj : PoolMath.one.sub adjWithdrawal = .ok ⟨keep, 12, false⟩ := by decide +kernel
  have hd : 10 ^ 12 < u128Size := by decide
  generalize hxo : xv * keep / 10 ^ 12 = xo at *
  generalize hyo : yv * keep / 10 ^ 12 = yo at *
  have kx : (⟨xv, 12, false⟩ : Decimal).mul ⟨keep, 12, false⟩ = .ok ⟨xo, 12, false⟩ := mul_ok.2 ⟨mx, hd, by rw [← hxo]; rfl⟩
  have ky : (⟨yv, 12, false⟩ : Decimal).mul ⟨keep, 12, false⟩ = .ok ⟨yo, 12, false⟩ := mul_ok.2 ⟨my, hd, by rw [← hyo]; rfl⟩
  obtain ⟨cx, qx, hqx⟩ := take_goes tq1.x sq1.x rfl (amount_mk xo 12).nonneg (by rw [ex]; exact lx)
  obtain ⟨cy, qy, hqy⟩ := take_goes tq1.y sq1.y rfl (amount_mk yo 12).nonneg (by rw [ey]; exact ly)
  obtain ⟨q2, hq2⟩ := payFees_goes tq1 sq1 (f := f) (fun k => (hf k).1) (fun k => (hf k).nonneg)
    (fun k => by rw [setPosition_pot h1]; exact hpot k)
  obtain ⟨f1, e1⟩ := (hf .fx).eq
  obtain ⟨f2, e2⟩ := (hf .fy).eq
  obtain ⟨f3, e3⟩ := (hf .hx).eq
  obtain ⟨f4, e4⟩ := (hf .hy).eq
  simp only [Fees.at] at e1 e2 e3 e4
  rw [e1, e3] at sx
  rw [e2, e4] at sy
  simp only at sx sy
  have hlo : 0 ≤ (⟨l, 12, false⟩ : Decimal).toRat := (amount_mk l 12).nonneg
  have ok : q.withdraw key.user ⟨l, 12, false⟩ rpa rpb = .ok ({ q2 with x := qx, y := qy },
      ⟨⟨xo, 12, false⟩, ⟨yo, 12, false⟩, f, ⟨xo + f1 + f3, 12, false⟩, ⟨yo + f2 + f4, 12, false⟩⟩) := by
    unfold withdraw
    refine bind_of (a := ()) (by rw [amount_not_negative (amount_mk _ _)]; rfl) ?_
    refine bind_of hn.1 (bind_of hn.2 (bind_of (a := ()) (by rw [decide_eq_true hlu]; rfl) ?_))
    refine bind_of ha (bind_of hb (bind_of (by rw [neg_mk hl]; exact h1) ?_))
    simp only [erp]
    refine bind_of hx (bind_of hy (bind_of (by rw [hadj]; rfl) (bind_of kx (bind_of ky ?_))))
    rw [e1, e2, e3, e4]
    refine bind_of (by rw [add_nn_eq (by omega)]; rfl) (bind_of (by rw [add_nn_eq (by omega)]; rfl) ?_)
    refine bind_of (by rw [add_nn_eq (by omega)]; rfl) (bind_of (by rw [add_nn_eq (by omega)]; rfl) ?_)
    refine bind_of (unwrap_ok.2 cx) ?_
    rw [if_neg (by simp)]
    refine bind_of (unwrap_ok.2 cy) ?_
    rw [if_neg (by simp)]
    refine bind_of (unwrap_ok.2 hqx) (bind_of (unwrap_ok.2 hqy) (bind_of hq2 ?_))
    exact bind_of (by rw [add_nn_eq (by omega)]; rfl) (bind_of (by rw [add_nn_eq (by omega)]; rfl) rfl)
  have rq' : Reachable { q2 with x := qx, y := qy } := .step rq (.withdraw ok)
  refine ⟨_, _, ok, rfl, rfl, rfl, ?_, (payFees_frame hq2).1⟩
  exact left_of rq rq' hlu hlo (by rw [neg_mk hl]; exact h1) hqx hqy hq2 rfl (amount_mk xo 12).nonneg (amount_mk yo 12).nonneg

/-! ### A withdrawal in two parts -/

/-- The same records, whatever the reserves hold. -/
theorem same_but {p q : Pool} (rp : Reachable p) (rq : Reachable q) (hsp : q.spacing = p.spacing)
    (htk : q.gs.tick = p.gs.tick) (hrp : q.gs.rp = p.gs.rp) (hfe : q.gs.fees = p.gs.fees)
    (hus : ∀ t, 0 < p.usedAt t → (q.tickOrNew t).fees = (p.tickOrNew t).fees) (hc : q.c = p.c)
    (hf : q.feeRate = p.feeRate) (hl : q.gs.liq.toRat = p.gs.liq.toRat) (hs : ∀ t, q.startingAt t = p.startingAt t)
    (he : ∀ t, q.endingAt t = p.endingAt t)
    (hpot : ∀ k, (q.pot k).toRat = (p.pot k).toRat)
    (hpos : ∀ key, mapGet key q.positions = mapGet key p.positions) :
    SameRecords p { q with x := p.x, y := p.y } := by
  have tp := Tidy.reachable rp
  have tq := Tidy.reachable rq
  have bp := Booked.reachable rp
  have bq := Booked.reachable rq
  refine ⟨hsp, ?_, fun t => ?_, hpos, rfl, rfl, tq.xAdj.ext tp.xAdj (hpot .hx),
    tq.yAdj.ext tp.yAdj (hpot .hy), tq.xFee.ext tp.xFee (hpot .fx), tq.yFee.ext tp.yFee (hpot .fy), hc, hf⟩
  · have := tq.liq.ext tp.liq hl
    have h1 := hrp
    have h2 := htk
    have h3 := hfe
    show q.gs = p.gs
    cases hq : q.gs
    cases hp : p.gs
    rw [hq, hp] at this h1 h2 h3
    simp only at this h1 h2 h3
    rw [this, h1, h2, h3]
  · have hg : q.grossAt t = p.grossAt t := by rw [bq.gross, bp.gross, hs, he]
    have hn : q.netAt t = p.netAt t := by rw [bq.net, bp.net, hs, he]
    have hk := hus t
    have hb := bp.gross t
    unfold usedAt at hk
    rw [← hb] at hk
    unfold grossAt at hg hk
    unfold netAt at hn
    unfold tickOrNew at hk
    show q.atTick t = _
    unfold atTick
    cases h1 : mapGet t q.ticks with
    | none =>
      cases h2 : mapGet t p.ticks with
      | none => rfl
      | some ts =>
        rw [h1, h2] at hg
        simp only [Option.elim] at hg
        have := bp.init t ts h2
        linarith
    | some ts =>
      cases h2 : mapGet t p.ticks with
      | none =>
        rw [h1, h2] at hg
        simp only [Option.elim] at hg
        have := bq.init t ts h1
        linarith
      | some ts' =>
        rw [h1, h2] at hg hn hk
        simp only [Option.elim, Option.getD_some] at hg hn hk
        have hk := hk (bp.init t ts' h2)
        have := (tq.tick t ts h1).2.1.ext (tp.tick t ts' h2).2.1 hg
        simp only [Option.map_some, hn, this, hk]

/-- A withdrawal that goes through can be made in two parts: the fees come with the first. -/
theorem withdraw_two {p p' : Pool} (rp : Reachable p) {user l l' : Nat} {rpa rpb : Decimal} {r : Receipt}
    (hl : l ≠ 0) (hl' : l' ≠ 0) (h : p.withdraw user ⟨l + l', 12, false⟩ rpa rpb = .ok (p', r)) :
    ∃ p1 r1 p2 r2, p.withdraw user ⟨l, 12, false⟩ rpa rpb = .ok (p1, r1) ∧
      p1.withdraw user ⟨l', 12, false⟩ rpa rpb = .ok (p2, r2) ∧
      r1.fees = r.fees ∧ (∀ k, (r2.fees.at k).toRat = 0) ∧
      r1.x.toRat + r2.x.toRat ≤ r.x.toRat ∧ r.x.toRat ≤ r1.x.toRat + r2.x.toRat + 3 * ulp 12 ∧
      r1.y.toRat + r2.y.toRat ≤ r.y.toRat ∧ r.y.toRat ≤ r1.y.toRat + r2.y.toRat + 2 * ulp 12 ∧
      SameRecords p' { p2 with x := p'.x, y := p'.y } := by
  have tp := Tidy.reachable rp
  have rp' : Reachable p' := .step rp (.withdraw h)
  have tp' := Tidy.reachable rp'
  have op := Owned.reachable rp
  obtain ⟨hrx, hry⟩ := withdraw_amounts h
  unfold withdraw at h
  rw [bind_ok] at h; obtain ⟨_, a1, h⟩ := h
  rw [bind_ok] at h; obtain ⟨lower, h1, h⟩ := h
  rw [bind_ok] at h; obtain ⟨upper, h2, h⟩ := h
  rw [bind_ok] at h; obtain ⟨_, h3, h⟩ := h
  rw [bind_ok] at h; obtain ⟨a, h4, h⟩ := h
  rw [bind_ok] at h; obtain ⟨b, h5, h⟩ := h
  rw [bind_ok] at h; obtain ⟨⟨pm, f⟩, h6, h⟩ := h
  simp only at h
  rw [bind_ok] at h; obtain ⟨x0, h7, h⟩ := h
  rw [bind_ok] at h; obtain ⟨y0, h8, h⟩ := h
  rw [bind_ok] at h; obtain ⟨adj, h9, h⟩ := h
  rw [bind_ok] at h; obtain ⟨xOut, h10, h⟩ := h
  rw [bind_ok] at h; obtain ⟨yOut, h11, h⟩ := h
  rw [bind_ok] at h; obtain ⟨u1, s1, h⟩ := h
  rw [bind_ok] at h; obtain ⟨xS, s2, h⟩ := h
  rw [bind_ok] at h; obtain ⟨u2, s3, h⟩ := h
  rw [bind_ok] at h; obtain ⟨yS, s4, h⟩ := h
  rw [bind_ok] at h; obtain ⟨b1, h12, h⟩ := h
  rw [ite_ok] at h; rcases h with ⟨_, h⟩ | ⟨h13, h⟩; · simp [rpanic] at h
  rw [bind_ok] at h; obtain ⟨b2, h14, h⟩ := h
  rw [ite_ok] at h; rcases h with ⟨_, h⟩ | ⟨h15, h⟩; · simp [rpanic] at h
  rw [bind_ok] at h; obtain ⟨px, s5, h⟩ := h
  rw [bind_ok] at h; obtain ⟨py, s6, h⟩ := h
  rw [bind_ok] at h; obtain ⟨p2', s7, h⟩ := h
  rw [bind_ok] at h; obtain ⟨v1, s8, h⟩ := h
  rw [bind_ok] at h; obtain ⟨v2, s9, h⟩ := h
  simp only [pure_ok, Prod.mk.injEq] at h
  obtain ⟨e, rfl⟩ := h
  simp only at hrx hry
  have hlu : lower < upper := by
    have := h3
    rw [rassert_ok, decide_eq_true_eq] at this
    exact this
  have hls : l + l' ≠ 0 := by omega
  rw [neg_mk hls] at h6
  have mp := left_of rp rp' (l := ⟨l + l', 12, false⟩) (r := ⟨xOut, yOut, f, xS, yS⟩) hlu (amount_mk _ _).nonneg
    (by rw [neg_mk hls]; exact h6) (unwrap_ok.1 s5) (unwrap_ok.1 s6) s7 e.symm hrx hry
  have esum : (⟨l + l', 12, false⟩ : Decimal).toRat = (⟨l, 12, false⟩ : Decimal).toRat + (⟨l', 12, false⟩ : Decimal).toRat := by
    rw [toRat_mk, toRat_mk, toRat_mk]; push_cast; ring
  have nl := (amount_mk l 12).nonneg
  have nl' := (amount_mk l' 12).nonneg
  -- the position
  obtain ⟨nf, ps', old, base, fu, _, _, n1, n2, n3, n4, m0, w1, w2, w3, w4, hneg, _, _, _, g1, g2, g3, g4⟩ :=
    setPosition_ok h6
  have hnf : ∀ k, p.feeRng (fun f => f.at k) lower upper = .ok (nf.at k) := fun k => by cases k <;> assumption
  have hnfa : ∀ k, (nf.at k).Amount 12 := fun k => feeRng_amount tp (Recorded.reachable rp) (hnf k)
  obtain ⟨poz, n, hm, hb0, rfl, rfl, hadd, hn0, _⟩ :
      ∃ poz n, mapGet ⟨user, lower, upper⟩ p.positions = some poz ∧ 0 ≤ poz.liq.toRat ∧ base = poz.liq ∧
        old = poz.fees ∧ poz.liq.add ⟨l + l', 12, true⟩ = .ok n ∧ 0 ≤ n.toRat ∧ True := by
    rcases setPositionMap_ok m0 with ⟨_, hd, _⟩ | ⟨poz, n, k1, k2, k3, k4, k5, k6, _⟩
    · exfalso
      rw [toRat_mk_neg] at hd
      have : (0 : ℚ) < ((l + l' : ℕ) : ℚ) / 10 ^ 12 := by
        have : (0 : ℚ) < ((l + l' : ℕ) : ℚ) := by exact_mod_cast Nat.pos_of_ne_zero hls
        positivity
      linarith
    · exact ⟨poz, n, k1, k2, k3, k4, k5, k6, trivial⟩
  have hlpos : (0 : ℚ) < (⟨l + l', 12, false⟩ : Decimal).toRat := by
    rw [toRat_mk]
    have : (0 : ℚ) < ((l + l' : ℕ) : ℚ) := by exact_mod_cast Nat.pos_of_ne_zero hls
    positivity
  have hle0 : (⟨l + l', 12, false⟩ : Decimal).toRat ≤ poz.liq.toRat := by
    rw [add_toRat hadd, toRat_mk_neg, ← toRat_mk] at hn0
    linarith
  have hk : 0 < liqOf p.positions ⟨user, lower, upper⟩ := by
    unfold liqOf; rw [hm]; show 0 < poz.liq.toRat; linarith
  have hfa := fun k => setPosition_amount tp (Recorded.reachable rp) h6 hk k
  obtain ⟨L, eL⟩ := (Amount.of_scale (op.pos _ _ hm).1 (by linarith)).eq
  obtain ⟨pl, old⟩ := poz
  simp only at eL hle0 g1 g2 g3 g4 w1 w2 w3 w4
  subst eL
  rw [toRat_le_mk] at hle0
  have hfu : ∀ k, (nf.at k).sub (old.at k) = .ok (fu.at k) := fun k => by cases k <;> assumption
  have hfu0 : ∀ k, 0 ≤ (fu.at k).toRat := fun k => by
    simp only [Fees.anyNegative, Bool.or_eq_false_iff, not_isNegative] at hneg
    cases k
    · exact hneg.1.1.1
    · exact hneg.1.1.2
    · exact hneg.1.2
    · exact hneg.2
  have hf : ∀ k, (⟨L, 12, false⟩ : Decimal).mul (fu.at k) = .ok (f.at k) := fun k => by cases k <;> assumption
  -- the amounts
  have fp := setPosition_frame h6
  have ermp : pm.gs.rp = p.gs.rp := by rw [fp]
  rw [ermp] at h7 h8
  have ha1 := tickPrice_ge h4
  have hab := price_mono hlu.le h4 h5
  have hrpa : p.gs.rp.Amount 12 := .of_scale op.rp (by linarith [rp_ge_one rp])
  have h4' := h4
  have h5' := h5
  obtain ⟨rv, er⟩ := hrpa.eq
  obtain ⟨av, rfl⟩ := (tickToRp_pos h4).1.eq
  obtain ⟨bv, rfl⟩ := (tickToRp_pos h5).1.eq
  have one_le : 10 ^ 12 ≤ av := by
    rw [toRat_mk, le_div_iff₀ (by norm_num), one_mul] at ha1
    exact_mod_cast ha1
  rw [toRat_le_mk] at hab
  rw [er] at h7 h8
  obtain ⟨gx, kx, mnx, ptx⟩ := xFrom_part one_le hab h7
  obtain ⟨gy, ky, mny, pty⟩ := yFrom_part h8
  rw [kx _ le_rfl] at h7; cases h7
  rw [ky _ le_rfl] at h8; cases h8
  have hadj : PoolMath.one.sub adjWithdrawal = .ok ⟨keep, 12, false⟩ := by decide +kernel
  rw [hadj] at h9; cases h9
  have px1 := ptx l l'
  have py1 := pty l l'
  have kx1 := kx l (by omega)
  have kx2 := kx l' (by omega)
  have ky1 := ky l (by omega)
  have ky2 := ky l' (by omega)
  have mx1 := mnx l (l + l') (by omega)
  have mx2 := mnx l' (l + l') (by omega)
  have my1 := mny l (l + l') (by omega)
  have my2 := mny l' (l + l') (by omega)
  clear kx ky mnx mny ptx pty
  generalize gx l = X1 at *
  generalize gx l' = X2 at *
  generalize gx (l + l') = X at *
  generalize gy l = Y1 at *
  generalize gy l' = Y2 at *
  generalize gy (l + l') = Y at *
  obtain ⟨mx, _, hxo⟩ := mul_ok.1 h10
  obtain ⟨my, _, hyo⟩ := mul_ok.1 h11
  have hxo : xOut = ⟨X * keep / 10 ^ 12, 12, false⟩ := hxo
  have hyo : yOut = ⟨Y * keep / 10 ^ 12, 12, false⟩ := hyo
  simp only at mx my
  have kx1' : X1 * keep < u128Size := (Nat.mul_le_mul_right _ mx1).trans_lt mx
  have kx2' : X2 * keep < u128Size := (Nat.mul_le_mul_right _ mx2).trans_lt mx
  have ky1' : Y1 * keep < u128Size := (Nat.mul_le_mul_right _ my1).trans_lt my
  have ky2' : Y2 * keep < u128Size := (Nat.mul_le_mul_right _ my2).trans_lt my
  obtain ⟨f1, e1⟩ := (hfa .fx).eq
  obtain ⟨f2, e2⟩ := (hfa .fy).eq
  obtain ⟨f3, e3⟩ := (hfa .hx).eq
  obtain ⟨f4, e4⟩ := (hfa .hy).eq
  simp only [Fees.at] at e1 e2 e3 e4
  subst hxo hyo
  rw [e1] at s1
  have s1' := add_nn (unwrap_ok.1 s1)
  subst s1'
  rw [e3] at s2
  have bx := (add_ok.1 (unwrap_ok.1 s2)).2.1 rfl
  rw [e2] at s3
  have s3' := add_nn (unwrap_ok.1 s3)
  subst s3'
  rw [e4] at s4
  have by' := (add_ok.1 (unwrap_ok.1 s4)).2.1 rfl
  simp only at bx by'
  have lx : (⟨X * keep / 10 ^ 12, 12, false⟩ : Decimal).toRat ≤ p.x.toRat := by
    have := mp.x; have := tp'.x.nonneg; simp only at *; linarith
  have ly : (⟨Y * keep / 10 ^ 12, 12, false⟩ : Decimal).toRat ≤ p.y.toRat := by
    have := mp.y; have := tp'.y.nonneg; simp only at *; linarith
  have qx1 : (⟨X1 * keep / 10 ^ 12, 12, false⟩ : Decimal).toRat + (⟨X2 * keep / 10 ^ 12, 12, false⟩ : Decimal).toRat ≤
      (⟨X * keep / 10 ^ 12, 12, false⟩ : Decimal).toRat ∧ (⟨X * keep / 10 ^ 12, 12, false⟩ : Decimal).toRat ≤
      (⟨X1 * keep / 10 ^ 12, 12, false⟩ : Decimal).toRat + (⟨X2 * keep / 10 ^ 12, 12, false⟩ : Decimal).toRat +
        3 * ulp 12 := by
    obtain ⟨i1, i2⟩ := px1
    rw [toRat_mk, toRat_mk, toRat_mk, ← add_div, ulp, mul_one_div, ← add_div]
    exact ⟨div_le_div_of_nonneg_right (by exact_mod_cast i1) (by positivity),
      div_le_div_of_nonneg_right (by exact_mod_cast i2) (by positivity)⟩
  have qy1 : (⟨Y1 * keep / 10 ^ 12, 12, false⟩ : Decimal).toRat + (⟨Y2 * keep / 10 ^ 12, 12, false⟩ : Decimal).toRat ≤
      (⟨Y * keep / 10 ^ 12, 12, false⟩ : Decimal).toRat ∧ (⟨Y * keep / 10 ^ 12, 12, false⟩ : Decimal).toRat ≤
      (⟨Y1 * keep / 10 ^ 12, 12, false⟩ : Decimal).toRat + (⟨Y2 * keep / 10 ^ 12, 12, false⟩ : Decimal).toRat +
        2 * ulp 12 := by
    obtain ⟨i1, i2⟩ := py1
    rw [toRat_mk, toRat_mk, toRat_mk, ← add_div, ulp, mul_one_div, ← add_div]
    exact ⟨div_le_div_of_nonneg_right (by exact_mod_cast i1) (by positivity),
      div_le_div_of_nonneg_right (by exact_mod_cast i2) (by positivity)⟩
  have nx1 := (amount_mk (X1 * keep / 10 ^ 12) 12).nonneg
  have nx2 := (amount_mk (X2 * keep / 10 ^ 12) 12).nonneg
  have ny1 := (amount_mk (Y1 * keep / 10 ^ 12) 12).nonneg
  have ny2 := (amount_mk (Y2 * keep / 10 ^ 12) 12).nonneg
  -- the first part
  have stl := starting_nonneg rp' lower
  rw [mp.starting, if_pos rfl] at stl
  have enu := ending_nonneg rp' upper
  rw [mp.ending, if_pos rfl] at enu
  have lq : lower ≤ p.gs.tick ∧ p.gs.tick < upper → (⟨l + l', 12, false⟩ : Decimal).toRat ≤ p.gs.liq.toRat := fun hin => by
    have := mp.liq
    have := tp'.liq.nonneg
    simp only [if_pos hin] at *
    linarith
  obtain ⟨pa, hpa, ma⟩ := setPosition_by rp (l := l) hlu (by omega) hm hnf hfu hfu0 hf
    (fun hin => by have := lq hin; linarith) (by linarith) (by linarith)
  obtain ⟨p1, r1, w1, r1x, r1y, r1f, m1, ep1⟩ := withdraw_by rp (key := ⟨user, lower, upper⟩) hl ⟨h1, h2⟩ hlu h4' h5'
    hpa (by rw [er]; exact kx1) (by rw [er]; exact ky1) kx1' ky1' (by linarith) (by linarith) hfa
    (fun k => by
      have := mp.pot k
      have := pot_nonneg rp' k
      simp only at *
      linarith)
    (by rw [e1, e3]; simp only; omega) (by rw [e2, e4]; simp only; omega)
  -- the second part
  have rp1 : Reachable p1 := .step rp (.withdraw w1)
  have tp1 := Tidy.reachable rp1
  rw [if_neg (by omega)] at ma
  have hm1 : mapGet ⟨user, lower, upper⟩ p1.positions = some ⟨⟨L - l, 12, false⟩, nf⟩ := by rw [ep1]; exact ma
  have us := held_used rp1 hm1 (by
    show 0 < (⟨L - l, 12, false⟩ : Decimal).toRat
    rw [toRat_mk]
    have : (0 : ℚ) < ((L - l : ℕ) : ℚ) := by exact_mod_cast (by omega : 0 < L - l)
    positivity)
  have kith : Kith p p1 ⟨user, lower, upper⟩ := ⟨m1.spacing, m1.tick, m1.rp, m1.fees, m1.ends _ us.1, m1.ends _ us.2⟩
  have hnf1 : ∀ k, p1.feeRng (fun f => f.at k) lower upper = .ok (nf.at k) := fun k =>
    (feeRng_kith tp tp1 kith k).trans (hnf k)
  have zat : ∀ k, (⟨⟨0, 12, false⟩, ⟨0, 12, false⟩, ⟨0, 12, false⟩, ⟨0, 12, false⟩⟩ : Fees).at k = ⟨0, 12, false⟩ :=
    fun k => by cases k <;> rfl
  have z0 : (⟨0, 12, false⟩ : Decimal).toRat = 0 := by rw [toRat_mk]; simp
  have hst1 := m1.starting lower
  have hen1 := m1.ending upper
  rw [if_pos rfl] at hst1 hen1
  obtain ⟨pb, hpb, mb⟩ := setPosition_by rp1 (l := l') (L := L - l)
    (fu := ⟨⟨0, 12, false⟩, ⟨0, 12, false⟩, ⟨0, 12, false⟩, ⟨0, 12, false⟩⟩)
    (f := ⟨⟨0, 12, false⟩, ⟨0, 12, false⟩, ⟨0, 12, false⟩, ⟨0, 12, false⟩⟩) hlu (by omega) hm1 hnf1
    (fun k => by
      obtain ⟨v, ev⟩ := (hnfa k).eq
      rw [zat, ev, sub_nn_le 12 le_rfl, Nat.sub_self])
    (fun k => by rw [zat, z0])
    (fun k => by rw [zat]; exact mul_ok.2 ⟨by show _ * 0 < _; rw [Nat.mul_zero]; decide, by show 10 ^ 12 < _; decide, by simp⟩)
    (fun hin => by
      rw [m1.tick] at hin
      have := lq hin
      have := m1.liq
      simp only [if_pos hin] at *
      linarith)
    (by linarith) (by linarith)
  have x1 := m1.x
  have y1 := m1.y
  rw [r1x] at x1
  rw [r1y] at y1
  obtain ⟨p2, r2, w2, r2x, r2y, r2f, m2, ep2⟩ := withdraw_by rp1 (key := ⟨user, lower, upper⟩) hl'
    (Names.congr ⟨h1, h2⟩ m1.spacing) hlu h4' h5'
    hpb (by rw [m1.rp, er]; exact kx2) (by rw [m1.rp, er]; exact ky2) kx2' ky2' (by linarith) (by linarith)
    (fun k => by rw [zat]; exact amount_mk _ _)
    (fun k => by rw [zat, z0]; exact pot_nonneg rp1 k)
    (by simp only; omega) (by simp only; omega)
  have rp2 : Reachable p2 := .step rp1 (.withdraw w2)
  refine ⟨p1, r1, p2, r2, w1, w2, r1f, fun k => by rw [r2f, zat, z0], by rw [r1x, r2x]; exact qx1.1,
    by rw [r1x, r2x]; exact qx1.2, by rw [r1y, r2y]; exact qy1.1, by rw [r1y, r2y]; exact qy1.2, ?_⟩
  have hs : ∀ t, p2.startingAt t = p'.startingAt t := fun t => by
    rw [m2.starting, m1.starting, mp.starting, esum]
    split <;> ring
  have he : ∀ t, p2.endingAt t = p'.endingAt t := fun t => by
    rw [m2.ending, m1.ending, mp.ending, esum]
    split <;> ring
  refine same_but rp' rp2 (by rw [m2.spacing, m1.spacing, mp.spacing]) (by rw [m2.tick, m1.tick, mp.tick])
    (by rw [m2.rp, m1.rp, mp.rp]) (by rw [m2.fees, m1.fees, mp.fees]) (fun t ht => ?_) (by rw [m2.c, m1.c, mp.c])
    (by rw [m2.feeRate, m1.feeRate, mp.feeRate]) ?_ hs he (fun k => ?_) fun k => ?_
  · have v2 : 0 < p2.usedAt t := by
      unfold usedAt at ht ⊢
      rw [hs, he]; exact ht
    have v1 : 0 < p1.usedAt t := by
      have := m2.nonneg
      have h1 := m2.starting t
      have h2 := m2.ending t
      unfold usedAt at v2 ⊢
      split at h1 <;> split at h2 <;> linarith
    rw [m2.ends t v2, m1.ends t v1, mp.ends t ht]
  · rw [m2.liq, m1.liq, mp.liq, m1.tick, esum]
    split <;> ring
  · rw [m2.pot, m1.pot, mp.pot, r1f, r2f, zat, z0, sub_zero]
  by_cases hkk : k = ⟨user, lower, upper⟩
  · subst hkk
    obtain ⟨pm', hpm, mm⟩ := setPosition_by rp (l := l + l') hlu hle0 hm hnf hfu hfu0 hf lq (by linarith) (by linarith)
    rw [h6] at hpm
    cases hpm
    rw [ep2, mb, ← e]
    show _ = mapGet _ p2'.positions
    rw [(payFees_frame s7).1, mm, Nat.sub_sub]
  · rw [m2.others k hkk, m1.others k hkk, mp.others k hkk]

end Hmm.Pool
