import Verif.Props.HmmSwap
import Verif.Proofs.Solvency

/-
C154: where the oracle's price lies matters to what a sale within a tick range is paid.
-/

namespace Hmm

open Decimal PoolMath

namespace Pool

theorem dy_scale {l a b c : Decimal} (h : dyFromLDrp l a b = .ok c) : c.scale = b.scale := by
  unfold dyFromLDrp at h
  steps at h
  obtain ⟨d, hd, hc⟩ := h
  obtain ⟨h1, _, h3, _⟩ := sub_ok.1 hd
  rw [(mul_mag hc).1, h3]

theorem dy_near {l a b c : Decimal} (h : dyFromLDrp l a b = .ok c) (hs : b.scale = 12) (hl : 0 ≤ l.toRat) :
    |c.toRat - l.toRat * (b.toRat - a.toRat)| ≤ ulp 12 := by
  have hu := ulp_pos (s := 12)
  obtain ⟨k1, k2⟩ := dy_bounds h ((dy_scale h).trans hs) hl
  rw [abs_le]
  rcases le_total b.toRat a.toRat with hab | hab
  · obtain ⟨e1, e2⟩ := k1 hab; constructor <;> linarith
  · obtain ⟨e1, e2⟩ := k2 hab; constructor <;> linarith

/-- The price of the oracle is taken into account. -/
theorem heeded {p : Pool} {o : Decimal} (hc : p.c.toRat ≠ 0) (ho : o.toRat ≠ 0) : ¬(p.c.isZero || o.isZero) = true := by
  rw [Bool.or_eq_true]
  rintro (h | h)
  · exact hc (isZero_toRat.1 h)
  · exact ho (isZero_toRat.1 h)

/-! ### C154: what an oracle's price withholds -/

/-- C154, sales of X: while the price is below that of the oracle nothing is withheld.  If the price passes that of the
oracle, the adjusted amount is paid up to there and the full amount from there on, so what is withheld is what is withheld
up to there.  If the price stays above, the adjusted amount is paid for the whole way. -/
theorem C154_sellX {fl : FloatEnv} {p : Pool} {s l dx o : Decimal} {g : Nat} {r : SwapWithinResult}
    (hc : p.c.toRat ≠ 0) (ho : 0 < o.toRat) (hos : o.scale = 12) (hl : 0 ≤ l.toRat)
    (h : p.swapWithinX fl s g l dx o = .ok r) :
    (s.toRat < o.toRat → r.sendHmmAdj.toRat = 0 ∧
      (r.endRp.scale = 12 → |r.send.toRat - l.toRat * (r.endRp.toRat - s.toRat)| ≤ ulp 12)) ∧
    (r.endRp.toRat < o.toRat → o.toRat < s.toRat → ∃ w, dyFromLDrpHmm fl l s o p.c o = .ok w ∧ w.toRat ≤ 0 ∧
      |r.send.toRat - (w.toRat + l.toRat * (r.endRp.toRat - o.toRat))| ≤ ulp 12 ∧
      |r.sendHmmAdj.toRat - (w.toRat - l.toRat * (o.toRat - s.toRat))| ≤ 2 * ulp 12) ∧
    (o.toRat < r.endRp.toRat → o.toRat < s.toRat → dyFromLDrpHmm fl l s r.endRp p.c o = .ok r.send) := by
  obtain ⟨cp, _, _, _, hcp, hd, hadj, _⟩ := swapWithinX_ok h
  have ea := sub_toRat hadj
  unfold doneDyX at hd
  rw [if_neg (heeded hc ho.ne'), bind_ok] at hd
  obtain ⟨b1, e1, hd⟩ := hd
  obtain ⟨_, t1, f1⟩ := gte_le (unwrap_ok.1 e1)
  cases b1 with
  | true =>
    have := t1 rfl
    rw [if_pos rfl, pure_ok] at hd
    subst hd
    exact ⟨fun _ => ⟨by rw [ea]; ring, fun hs => dy_near hcp hs hl⟩, fun _ hh => by linarith, fun _ hh => by linarith⟩
  | false =>
    have := f1 rfl
    rw [if_neg (by simp), bind_ok] at hd
    obtain ⟨b2, e2, hd⟩ := hd
    obtain ⟨s2, t2, f2⟩ := gte_le (unwrap_ok.1 e2)
    refine ⟨fun hh => by linarith, ?_⟩
    cases b2 with
    | true =>
      have := t2 rfl
      rw [if_pos rfl] at hd
      refine ⟨fun _ _ => ?_, fun hh => by linarith⟩
      rw [bind_ok] at hd; obtain ⟨w, hw, hd⟩ := hd
      rw [bind_ok] at hd; obtain ⟨v, hv, hd⟩ := hd
      rw [ite_ok] at hd
      rcases hd with ⟨_, hd⟩ | ⟨hn, hd⟩
      · simp [rpanic] at hd
      rw [Bool.or_eq_true, not_or] at hn
      have n1 := dy_near hv (s2 ▸ hos) hl
      have n2 := dy_near hcp (s2 ▸ hos) hl
      have es := add_toRat (unwrap_ok.1 hd)
      refine ⟨w, hw, not_isPositive.1 (by simpa using hn.1), ?_, ?_⟩
      · rw [es]
        rw [abs_le] at n1 ⊢
        constructor <;> linarith [n1.1, n1.2]
      · rw [ea, es]
        rw [abs_le] at n1 n2 ⊢
        constructor <;> linarith [n1.1, n1.2, n2.1, n2.2]
    | false =>
      have := f2 rfl
      refine ⟨fun hh => by linarith, fun _ _ => ?_⟩
      rw [if_neg (by simp), bind_ok] at hd
      obtain ⟨b3, _, hd⟩ := hd
      rw [ite_ok] at hd
      rcases hd with ⟨_, hd⟩ | ⟨_, hd⟩
      · exact hd
      · simp [rpanic] at hd

/-- C154, sales of Y: the same, with the prices the other way round. -/
theorem C154_sellY {fl : FloatEnv} {p : Pool} {s l dy o : Decimal} {g : Nat} {r : SwapWithinResult}
    (hc : p.c.toRat ≠ 0) (hos : o.scale = 12) (hl : 0 ≤ l.toRat) (hls : l.scale = 12) (hs : 1 ≤ s.toRat) (ho : 1 ≤ o.toRat)
    (he : 1 ≤ r.endRp.toRat) (h : p.swapWithinY fl s g l dy o = .ok r) :
    (o.toRat < s.toRat → r.sendHmmAdj.toRat = 0 ∧
      (s.scale = 12 → |r.send.toRat - l.toRat * (1 / r.endRp.toRat - 1 / s.toRat)| ≤ (l.toRat + 2) * ulp 12)) ∧
    (o.toRat < r.endRp.toRat → s.toRat < o.toRat → ∃ w, dxFromLDrpHmm fl l s o p.c o = .ok w ∧ w.toRat ≤ 0 ∧
      |r.send.toRat - (w.toRat + l.toRat * (1 / r.endRp.toRat - 1 / o.toRat))| ≤ (l.toRat + 2) * ulp 12 ∧
      |r.sendHmmAdj.toRat - (w.toRat - l.toRat * (1 / o.toRat - 1 / s.toRat))| ≤ 2 * ((l.toRat + 2) * ulp 12)) ∧
    (r.endRp.toRat < o.toRat → s.toRat < o.toRat → dxFromLDrpHmm fl l s r.endRp p.c o = .ok r.send) := by
  obtain ⟨cp, _, _, _, hcp, hd, hadj, _⟩ := swapWithinY_ok h
  have ea := sub_toRat hadj
  unfold doneDxY at hd
  rw [if_neg (heeded hc (by linarith)), bind_ok] at hd
  obtain ⟨b1, e1, hd⟩ := hd
  obtain ⟨s1, t1, f1⟩ := lte_le (unwrap_ok.1 e1)
  cases b1 with
  | true =>
    have := t1 rfl
    rw [if_pos rfl, pure_ok] at hd
    subst hd
    exact ⟨fun _ => ⟨by rw [ea]; ring, fun hss => dx_bounds hcp hls hss hl hs he⟩, fun _ hh => by linarith,
      fun _ hh => by linarith⟩
  | false =>
    have := f1 rfl
    rw [if_neg (by simp), bind_ok] at hd
    obtain ⟨b2, e2, hd⟩ := hd
    obtain ⟨s2, t2, f2⟩ := lte_le (unwrap_ok.1 e2)
    refine ⟨fun hh => by linarith, ?_⟩
    cases b2 with
    | true =>
      have := t2 rfl
      rw [if_pos rfl] at hd
      refine ⟨fun _ _ => ?_, fun hh => by linarith⟩
      rw [bind_ok] at hd; obtain ⟨w, hw, hd⟩ := hd
      rw [bind_ok] at hd; obtain ⟨v, hv, hd⟩ := hd
      rw [ite_ok] at hd
      rcases hd with ⟨_, hd⟩ | ⟨hn, hd⟩
      · simp [rpanic] at hd
      rw [Bool.or_eq_true, not_or] at hn
      have n1 := dx_bounds hv hls hos hl ho he
      have n2 := dx_bounds hcp hls (s1 ▸ hos) hl hs he
      have es := add_toRat (unwrap_ok.1 hd)
      refine ⟨w, hw, not_isPositive.1 (by simpa using hn.1), ?_, ?_⟩
      · rw [es]
        rw [abs_le] at n1 ⊢
        constructor <;> linarith [n1.1, n1.2]
      · rw [ea, es]
        rw [abs_le] at n1 n2 ⊢
        constructor <;> linarith [n1.1, n1.2, n2.1, n2.2]
    | false =>
      have := f2 rfl
      refine ⟨fun hh => by linarith, fun _ _ => ?_⟩
      rw [if_neg (by simp), bind_ok] at hd
      obtain ⟨b3, _, hd⟩ := hd
      rw [ite_ok] at hd
      rcases hd with ⟨_, hd⟩ | ⟨_, hd⟩
      · exact hd
      · simp [rpanic] at hd

/-- C154: with an exponent above one, a sale of X that passes the price of the oracle, in closed form. -/
theorem C154_amountX {fl : FloatEnv} {p : Pool} {s l dx o : Decimal} {g : Nat} {r : SwapWithinResult}
    (hcs : p.c.scale = 12) (hw : p.c.WF) (h1 : 1 < p.c.toRat) (hos : o.scale = 12) (hon : o.negative = false) (hls : l.scale = 12)
    (hln : l.negative = false) (hsn : s.negative = false) (ho : 0 < o.toRat) (h : p.swapWithinX fl s g l dx o = .ok r)
    (he : r.endRp.toRat < o.toRat) (hs : o.toRat < s.toRat) :
    ∃ oc nw od : ℚ, 0 ≤ oc ∧ 0 < nw ∧ 0 < od ∧ PowNear (ulp 12) o.toRat p.c.toRat oc ∧
      PowNear (ulp 12) o.toRat (p.c.toRat - 1) nw ∧ PowNear (ulp 12) s.toRat (p.c.toRat - 1) od ∧
      |r.send.toRat - (l.toRat * oc * (1 / nw - 1 / od) / (1 - p.c.toRat) + l.toRat * (r.endRp.toRat - o.toRat))|
        ≤ ulp 12 * (|1 / nw - 1 / od| + ulp 12 + l.toRat * oc + 1) / (p.c.toRat - 1) + 2 * ulp 12 := by
  obtain ⟨w, hww, _, k, _⟩ := (C154_sellX (by linarith) ho hos (nonneg_toRat hln) h).2.1 he hs
  obtain ⟨oc, nw, od, a1, a2, a3, a4, a5, a6, a7, _⟩ := C79_dy_partial hls hln hsn hon hon hcs hw h1 hs.ne' hww
  refine ⟨oc, nw, od, a1, a2, a3, a4, a5, a6, ?_⟩
  rw [abs_le] at k a7 ⊢
  constructor <;> linarith [k.1, k.2, a7.1, a7.2]

/-- C154: and a sale of Y. -/
theorem C154_amountY {fl : FloatEnv} {p : Pool} {s l dy o : Decimal} {g : Nat} {r : SwapWithinResult}
    (hcs : p.c.scale = 12) (hw : p.c.WF) (h1 : 1 < p.c.toRat) (hos : o.scale = 12) (hon : o.negative = false) (hls : l.scale = 12)
    (hln : l.negative = false) (hsn : s.negative = false) (hs1 : 1 ≤ s.toRat) (h : p.swapWithinY fl s g l dy o = .ok r)
    (hs : s.toRat < o.toRat) (he : o.toRat < r.endRp.toRat) :
    ∃ oc nw od : ℚ, 0 < oc ∧ PowNear (ulp 12) o.toRat p.c.toRat oc ∧
      PowNear (ulp 12) o.toRat (p.c.toRat - 1) nw ∧ PowNear (ulp 12) s.toRat (p.c.toRat - 1) od ∧
      |r.send.toRat - (l.toRat / oc * (nw - od) / (1 - p.c.toRat) + l.toRat * (1 / r.endRp.toRat - 1 / o.toRat))|
        ≤ ulp 12 * (|nw - od| + 1) / (p.c.toRat - 1) + (l.toRat + 3) * ulp 12 := by
  obtain ⟨w, hww, _, k, _⟩ := (C154_sellY (by linarith) hos (nonneg_toRat hln) hls hs1 (by linarith) (by linarith) h).2.1 he hs
  obtain ⟨oc, nw, od, a1, a2, a3, a4, a5, _⟩ := C79_dx_partial hls hln hsn hon hon hcs hw h1 hs.ne hww
  refine ⟨oc, nw, od, a1, a2, a3, a4, ?_⟩
  rw [abs_le] at k a5 ⊢
  constructor <;> linarith [k.1, k.2, a5.1, a5.2]

end Pool

open Sample in
/-- Cases: with exponent two, sales of X from tick 20 past an oracle's price in tick 15, short of it, and with one above;
and sales of Y past a price in tick 25, short of it, and with one below. -/
example : let p := get (hmmPool ⟨2000000000000, 12, false⟩)
    let x := fun d o => p.swapWithinX flLog p.gs.rp 10 p.gs.liq d o
    let y := fun d o => p.swapWithinY flLog p.gs.rp 30 p.gs.liq d o
    p.gs.rp = ⟨1001000450103, 12, false⟩ ∧ p.gs.liq = ⟨19986005718851637, 12, false⟩ ∧
    x (D 8) (mid 15) = .ok ⟨D 8, ⟨8011789797375, 12, true⟩, 11, ⟨1000599529341, 12, false⟩, false, ⟨1014844763, 12, false⟩, PoolMath.zero⟩ ∧
    x (D 2) (mid 15) = .ok ⟨D 2, ⟨2003101193243, 12, true⟩, 17, ⟨1000900189795, 12, false⟩, false, ⟨701895818, 12, false⟩, PoolMath.zero⟩ ∧
    x (D 8) (mid 25) = .ok ⟨D 8, ⟨8012804642138, 12, true⟩, 11, ⟨1000599529341, 12, false⟩, false, PoolMath.zero, PoolMath.zero⟩ ∧
    y (D 8) (mid 25) = .ok ⟨D 8, ⟨7979324241372, 12, true⟩, 27, ⟨1001400730184, 12, false⟩, false, ⟨1501161993, 12, false⟩, PoolMath.zero⟩ ∧
    y (D 2) (mid 25) = .ok ⟨D 2, ⟨1994909729220, 12, true⟩, 21, ⟨1001100520123, 12, false⟩, false, ⟨894939188, 12, false⟩, PoolMath.zero⟩ ∧
    y (D 8) (mid 15) = .ok ⟨D 8, ⟨7980825403365, 12, true⟩, 27, ⟨1001400730184, 12, false⟩, false, PoolMath.zero, PoolMath.zero⟩ := by
  decide +kernel

end Hmm
