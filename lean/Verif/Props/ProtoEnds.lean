import Verif.Proofs.ProtoDeposit
import Verif.Props.FloatRangeEnds
import Verif.Props.Proto
import Verif.Tests.ProtoSample

/-
C134: the prototype's helpers for the ends of a range, and for amounts between ticks, against those of the Rust twin.
-/

namespace Hmm.Proto

open F64

section
attribute [local irreducible] F64.unit limit

theorem fdiv_of {a b : F64} (h : F64.eq b zero = false) : fdiv a b = .ok (div a b) := by
  unfold fdiv
  rw [h]
  rfl

/-- C134: what the prototype returns for the end of a range, the Rust code returns. -/
theorem C134_same_ends {l x y rp e r : F64} :
    (rpaFromLRpY l rp y = .ok r → Flt.rpaFromLRpY l rp y = r) ∧ (rpbFromLRpX l rp x = .ok r → Flt.rpbFromLRpX l rp x = r) ∧
    (rpaFromXYRpRpb x y rp e = .ok r → Flt.rpaFromXYRpRpb x y rp e = r) ∧
    (rpbFromXYRpRpa x y rp e = .ok r → Flt.rpbFromXYRpRpa x y rp e = r) := by
  refine ⟨fun h => ?_, fun h => ?_, fun h => ?_, fun h => ?_⟩
  · unfold rpaFromLRpY at h
    rw [bind_ok] at h
    obtain ⟨v, h1, h⟩ := h
    rw [pure_ok, (fdiv_ok h1).1] at h
    exact h.symm ▸ rfl
  · exact (fdiv_ok h).1.symm
  · unfold rpaFromXYRpRpb at h
    rw [bind_ok] at h
    obtain ⟨v, h1, h⟩ := h
    rw [bind_ok] at h
    obtain ⟨w, h2, h⟩ := h
    rw [pure_ok, (fdiv_ok h1).1, (fdiv_ok h2).1] at h
    exact h.symm ▸ rfl
  · exact (fdiv_ok h).1.symm

/-- C134: and so it finds the ends of a range of moderate size as exactly, without raising. -/
theorem C134_proto {x y l rp rpa rpb : F64} {X Y P A B L : ℚ} (hx : x.Is X) (hy : y.Is Y) (hl : l.Is L) (hp : rp.Is P)
    (ha : rpa.Is A) (hb : rpb.Is B) (rp' : rp.Rep) (ra : rpa.Rep) (sx : Sized 100 X) (sy : Sized 100 Y) (sl : Sized 100 L)
    (sp : Sized 100 P) (sa : Sized 100 A) (sb : Sized 100 B) (hAP : A < P) (hPB : P < B) (hB : B ≤ P * 2 ^ 40)
    (hX : X = L * (1 / P - 1 / B)) (hY : Y = L * (P - A)) :
    (∃ e r, rpaFromLRpY l rp y = .ok e ∧ e.Is r ∧ |r - A| ≤ P / 2 ^ 52) ∧
    (∃ e r, rpbFromLRpX l rp x = .ok e ∧ e.Is r ∧ |r - B| ≤ B * (B / P) * 5 / 2 ^ 52) ∧
    (∃ e r, rpaFromXYRpRpb x y rp rpb = .ok e ∧ e.Is r ∧ |r - A| ≤ (P + Y / (P * X)) * 6 / 2 ^ 52) ∧
    (∃ e r, rpbFromXYRpRpa x y rp rpa = .ok e ∧ e.Is r ∧ |r - B| ≤ B * (B / P) * 5 / 2 ^ 52) := by
  obtain ⟨r1, i1, e1⟩ := Flt.C134_lower_liq hl hp hy sl sp (.inr sy) sa.pos.le hAP.le hY
  obtain ⟨n2, r2, i2, e2⟩ := Flt.C134_upper_liq hl hp hx sl sp (.inr sx) sb hPB.le hB hX
  obtain ⟨⟨n3, n3'⟩, r3, i3, e3⟩ := Flt.C134_lower hx hy hp hb sx sy sp sb sl.pos hPB hX hY
  obtain ⟨n4, r4, i4, e4⟩ := Flt.C134_upper hx hy hp ha rp' ra sx sy sp sa sb sl.pos hAP hPB.le hB hX hY
  have n1 : F64.eq l zero = false := by
    by_contra h
    rw [Bool.not_eq_false, eq_is hl zero_is] at h
    exact sl.pos.ne' h
  refine ⟨⟨_, r1, ?_, i1, e1⟩, ⟨_, r2, fdiv_of n2, i2, e2⟩, ⟨_, r3, ?_, i3, e3⟩, ⟨_, r4, fdiv_of n4, i4, e4⟩⟩
  · unfold rpaFromLRpY
    rw [fdiv_of n1, okb]
    rfl
  · unfold rpaFromXYRpRpb
    rw [fdiv_of n3, okb, fdiv_of n3', okb]
    rfl

/-- C134: amounts and liquidity between ticks are the same. -/
theorem C134_same_ticks {c : F64} {m m' : LibM} (ho : Ordinary m') (ha : Alike c m m') {t ta tb : Nat} (ht : t < 2 ^ 32)
    (hta : ta < 2 ^ 32) (htb : tb < 2 ^ 32) {l x y v : F64} :
    (liqFromXYTickRng m' x y t ta tb = .ok v → v ≠ nan → Flt.liqFromXYTickRng m x y t ta tb = v) ∧
    (xFromLTickRng m' l t ta tb = .ok v → Flt.xFromLTickRng m l t ta tb = v) ∧
    (yFromLTickRng m' l t ta tb = .ok v → Flt.yFromLTickRng m l t ta tb = v) := by
  have hn : ∀ b a, Proto.max (Proto.min (Flt.tickToRp m t) b) a = F64.max (F64.min (Flt.tickToRp m t) b) a := by
    intro b a
    have hne : Flt.tickToRp m t ≠ nan := by
      rw [ha.price t ht]
      exact (le_ne (ho.above t ht)).2
    rw [min_eq hne, max_eq (min_ne hne)]
  refine ⟨fun h hv => ?_, fun h => ?_, fun h => ?_⟩
  · unfold liqFromXYTickRng at h
    rw [bind_ok] at h; obtain ⟨r, h1, h⟩ := h
    rw [bind_ok] at h; obtain ⟨a, h2, h⟩ := h
    rw [bind_ok] at h; obtain ⟨b, h3, h⟩ := h
    rw [price_ok ha ht h1, price_ok ha hta h2, price_ok ha htb h3] at h
    exact (liq_ok h hv).1
  · unfold xFromLTickRng at h
    rw [bind_ok] at h; obtain ⟨r, h1, h⟩ := h
    rw [bind_ok] at h; obtain ⟨a, h2, h⟩ := h
    rw [bind_ok] at h; obtain ⟨b, h3, h⟩ := h
    rw [price_ok ha ht h1, price_ok ha hta h2, price_ok ha htb h3] at h
    unfold xFromLRpRng at h
    simp only at h
    rw [hn] at h
    exact (fdiv_ok h).1.symm
  · unfold yFromLTickRng at h
    rw [bind_ok] at h; obtain ⟨r, h1, h⟩ := h
    rw [bind_ok] at h; obtain ⟨a, h2, h⟩ := h
    rw [bind_ok] at h; obtain ⟨b, h3, h⟩ := h
    rw [price_ok ha ht h1, price_ok ha hta h2, price_ok ha htb h3, pure_ok] at h
    unfold yFromLRpRng at h
    simp only at h
    rw [hn] at h
    exact h.symm ▸ rfl

end

namespace Sample

open Flt.Sample (rt get)

/-- Cases of `C134_same_ends` and `C134_same_ticks`: the numbers of the Rust code's tests. -/
example : (rpaFromLRpY (ofNat 12) (ofNat 2) (ofNat 12)).isOk = true ∧ (rpbFromLRpX (ofNat 12) (ofNat 2) (ofNat 2)).isOk = true ∧
    (rpaFromXYRpRpb (ofNat 2) (ofNat 12) (ofNat 2) (ofNat 3)).isOk = true ∧
    (rpbFromXYRpRpa (ofNat 2) (ofNat 12) (ofNat 2) (ofNat 1)).isOk = true := by decide +kernel

example : (liqFromXYTickRng safe (ofNat 2) (ofNat 4000) 76012 71955 80067).isOk = true ∧
    get (liqFromXYTickRng safe (ofNat 2) (ofNat 4000) 76012 71955 80067) ≠ nan ∧
    (xFromLTickRng safe (ofNat 487) 76012 71955 80067).isOk = true ∧
    (yFromLTickRng safe (ofNat 487) 76012 71955 80067).isOk = true := by decide +kernel

section
attribute [local irreducible] F64.unit limit F64.ofNat

/-- The case of `C134_proto`: as in `Verif.Props.FloatRangeEnds`. -/
example : ∃ e r, rpbFromXYRpRpa (ofNat 2) (ofNat 12) (ofNat 2) (ofNat 1) = .ok e ∧ e.Is r ∧ |r - 3| ≤ 3 * (3 / 2) * 5 / 2 ^ 52 := by
  obtain ⟨i1, s1⟩ := Flt.whole_case (n := 1) (by norm_num) (by norm_num)
  obtain ⟨i2, s2⟩ := Flt.whole_case (n := 2) (by norm_num) (by norm_num)
  obtain ⟨i3, s3⟩ := Flt.whole_case (n := 3) (by norm_num) (by norm_num)
  obtain ⟨i12, s12⟩ := Flt.whole_case (n := 12) (by norm_num) (by norm_num)
  have r1 := Flt.rep_whole 1
  have r2 := Flt.rep_whole 2
  push_cast at i1 i2 i3 i12 s1 s2 s3 s12
  exact (C134_proto i2 i12 i12 i2 i1 i3 r2 r1 s2 s12 s12 s2 s1 s3 (by norm_num) (by norm_num) (by norm_num) (by norm_num)
    (by norm_num)).2.2.2

end

end Sample

end Hmm.Proto
