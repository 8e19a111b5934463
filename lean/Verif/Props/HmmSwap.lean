import Verif.Props.HmmMath
import Verif.Tests.Sample

/-
Property of pools with an oracle adjustment: which exponents can be traded with, C80.
-/

namespace Hmm

open Decimal PoolMath

/-! ### C80 Every pool that can be created can be traded against any oracle: false -/

/-- The exponents with which an oracle-adjusted trade can be computed. -/
def Tradable (c : ℚ) : Prop := c = 1 ∨ c = 5 / 4 ∨ c = 3 / 2 ∨ c = 2

theorem powNear_exponent {u x c p : ℚ} (h1 : 1 < c) (h2 : c ≤ 2) (h : PowNear u x c p) : Tradable c := by
  rcases h with ⟨h, _⟩ | ⟨h, _⟩ | ⟨h, _⟩ | ⟨h, _⟩ | ⟨n, h, _⟩
  · linarith
  · linarith
  · exact .inr (.inl h)
  · exact .inr (.inr (.inl h))
  · right; right; right
    rw [h] at h1 h2 ⊢
    have a : 1 < n := by exact_mod_cast h1
    have b : n ≤ 2 := by exact_mod_cast h2
    have : n = 2 := by omega
    rw [this]; norm_num

/-- An amount is only computed with a tradable exponent, unless the prices are equal. -/
theorem hmm_exponent {fl : FloatEnv} {l old new c o r : Decimal} (hcs : c.scale = 12) (hw : c.WF)
    (h2 : c.toRat ≤ 2) (ho : o.negative = false)
    (h : dxFromLDrpHmm fl l old new c o = .ok r ∨ dyFromLDrpHmm fl l old new c o = .ok r) :
    Tradable c.toRat ∨ old.toRat = new.toRat := by
  by_cases hne : old.toRat = new.toRat
  · exact .inr hne
  left
  rcases lt_trichotomy c.toRat 1 with h1 | h1 | h1
  · obtain ⟨n1, n2⟩ := (C79_refused (fl := fl) (l := l) (old := old) (new := new) (o := o) hcs hw).1 h1
    rcases h with h | h
    · exact absurd h (n1 r)
    · exact absurd h (n2 r)
  · exact .inl h1
  obtain ⟨k1, k2, k3, k4⟩ := hmm_gates hw hcs h1 hne
  have key : ∀ oc, o.powDec c = .ok oc → Tradable c.toRat := by
    intro oc hp
    have hs : o.scale = 12 := by
      unfold powDec at hp
      obtain ⟨_, hp⟩ := powDecWith_ok hp
      rcases hp with ⟨h0, _⟩ | ⟨_, hh, _⟩
      · rw [isZero_toRat.1 (isZero_iff.2 h0)] at h1; norm_num at h1
      · omega
    obtain ⟨_, _, a3, _⟩ := C78_power_partial ho (by omega) hw hp
    exact powNear_exponent h1 h2 (a3 (by linarith))
  rcases h with h | h
  · unfold dxFromLDrpHmm at h
    rw [bind_ok] at h
    obtain ⟨_, e1, h⟩ := h
    rw [k1] at e1; cases e1
    rw [k2] at h
    simp only [bind_ok] at h
    obtain ⟨_, e1, h⟩ := h
    cases e1
    rw [ite_bool rfl, bind_ok] at h
    obtain ⟨b, e1, h⟩ := h
    rw [ite_bool (k4 _ (unwrap_ok.1 e1)).1, bind_ok] at h
    obtain ⟨_, e2, h⟩ := h
    rw [k1] at e2; cases e2
    rw [k3, bind_ok] at h
    obtain ⟨_, e2, h⟩ := h
    cases e2
    rw [ite_bool rfl, bind_ok] at h
    obtain ⟨cmo, _, h⟩ := h
    simp only [bind_ok] at h
    obtain ⟨oc, f2, _⟩ := h
    exact key oc f2
  · unfold dyFromLDrpHmm at h
    rw [bind_ok] at h
    obtain ⟨_, e1, h⟩ := h
    rw [k1] at e1; cases e1
    rw [k2] at h
    simp only [bind_ok] at h
    obtain ⟨_, e1, h⟩ := h
    cases e1
    rw [ite_bool rfl, bind_ok] at h
    obtain ⟨b, e1, h⟩ := h
    rw [ite_bool (k4 _ (unwrap_ok.1 e1)).1, ite_ok] at h
    rcases h with ⟨_, h⟩ | ⟨_, h⟩
    · cases h
    rw [bind_ok] at h
    obtain ⟨_, e2, h⟩ := h
    rw [k1] at e2; cases e2
    rw [k3, bind_ok] at h
    obtain ⟨_, e2, h⟩ := h
    cases e2
    rw [ite_bool rfl, bind_ok] at h
    obtain ⟨cmo, _, h⟩ := h
    simp only [bind_ok] at h
    obtain ⟨oc, f2, _⟩ := h
    exact key oc f2

namespace Pool

/-- C80 (partial): a step of a sale of X that starts above a positive oracle price moves the price only if the
exponent of the pool is 0, 1, 1.25, 1.5 or 2; with any other exponent between 0 and 2 it fails.
Missing: that the listed exponents do work (with 1 they do not, `C80_false`). -/
theorem C80_sell_x_partial {fl : FloatEnv} {p : Pool} {s l dx o : Decimal} {goal : Nat}
    {r : SwapWithinResult} (hcs : p.c.scale = 12) (hw : p.c.WF) (h2 : p.c.toRat ≤ 2)
    (hon : o.negative = false) (ho : 0 < o.toRat) (hlt : o.toRat < s.toRat)
    (h : p.swapWithinX fl s goal l dx o = .ok r) :
    p.c.toRat = 0 ∨ Tradable p.c.toRat ∨ r.endRp.toRat = s.toRat := by
  obtain ⟨dy, _, _, _, _, hd, _⟩ := swapWithinX_ok h
  unfold doneDyX at hd
  rw [ite_ok] at hd
  rcases hd with ⟨hz, _⟩ | ⟨_, hd⟩
  · rw [Bool.or_eq_true] at hz
    rcases hz with hz | hz
    · exact .inl (isZero_toRat.1 hz)
    · rw [isZero_toRat.1 hz] at ho; exact absurd ho (lt_irrefl _)
  right
  rw [bind_ok] at hd
  obtain ⟨b, e, hd⟩ := hd
  have e' := gte_le (unwrap_ok.1 e)
  rw [ite_ok] at hd
  rcases hd with ⟨hb, _⟩ | ⟨_, hd⟩
  · have := e'.2.1 hb; linarith
  rw [bind_ok] at hd
  obtain ⟨b2, e2, hd⟩ := hd
  rw [ite_ok] at hd
  rcases hd with ⟨_, hd⟩ | ⟨_, hd⟩
  · rw [bind_ok] at hd
    obtain ⟨d1, f1, _⟩ := hd
    rcases hmm_exponent hcs hw h2 hon (.inr f1) with h | h
    · exact .inl h
    · linarith
  · rw [bind_ok] at hd
    obtain ⟨b3, _, hd⟩ := hd
    rw [ite_ok] at hd
    rcases hd with ⟨_, hd⟩ | ⟨_, hd⟩
    · exact (hmm_exponent hcs hw h2 hon (.inr hd)).imp id Eq.symm
    · cases hd

/-- C80 (partial): the same for a step of a sale of Y that starts below the oracle price. -/
theorem C80_sell_y_partial {fl : FloatEnv} {p : Pool} {s l dy o : Decimal} {goal : Nat}
    {r : SwapWithinResult} (hcs : p.c.scale = 12) (hw : p.c.WF) (h2 : p.c.toRat ≤ 2)
    (hon : o.negative = false) (ho : 0 < o.toRat) (hlt : s.toRat < o.toRat)
    (h : p.swapWithinY fl s goal l dy o = .ok r) :
    p.c.toRat = 0 ∨ Tradable p.c.toRat ∨ r.endRp.toRat = s.toRat := by
  obtain ⟨dx, _, _, _, _, hd, _⟩ := swapWithinY_ok h
  unfold doneDxY at hd
  rw [ite_ok] at hd
  rcases hd with ⟨hz, _⟩ | ⟨_, hd⟩
  · rw [Bool.or_eq_true] at hz
    rcases hz with hz | hz
    · exact .inl (isZero_toRat.1 hz)
    · rw [isZero_toRat.1 hz] at ho; exact absurd ho (lt_irrefl _)
  right
  rw [bind_ok] at hd
  obtain ⟨b, e, hd⟩ := hd
  have e' := lte_le (unwrap_ok.1 e)
  rw [ite_ok] at hd
  rcases hd with ⟨hb, _⟩ | ⟨_, hd⟩
  · have := e'.2.1 hb; linarith
  rw [bind_ok] at hd
  obtain ⟨b2, e2, hd⟩ := hd
  rw [ite_ok] at hd
  rcases hd with ⟨_, hd⟩ | ⟨_, hd⟩
  · rw [bind_ok] at hd
    obtain ⟨d1, f1, _⟩ := hd
    rcases hmm_exponent hcs hw h2 hon (.inl f1) with h | h
    · exact .inl h
    · linarith
  · rw [bind_ok] at hd
    obtain ⟨b3, _, hd⟩ := hd
    rw [ite_ok] at hd
    rcases hd with ⟨_, hd⟩ | ⟨_, hd⟩
    · exact (hmm_exponent hcs hw h2 hon (.inl hd)).imp id Eq.symm
    · cases hd

end Pool

namespace Sample

/-- A float step with the right integer part of the binary logarithm. -/
def flLog : FloatEnv := fun v s =>
  if 10 ^ s ≤ v then (Nat.log2 (v / 10 ^ s) * 10 ^ s, false) else (Nat.log2 (10 ^ s * 2 / v) * 10 ^ s, true)

/-- A pool at tick 20 without fee and with exponent `c`, with one position on [10,30). -/
def hmmPool (c : Decimal) : R Pool := do
  let p ← Pool.new (mid 20) 1 c PoolMath.zero
  let (p, _) ← p.deposit 1 (D 10) (D 10) (mid 10) (mid 30)
  return p

/-- A sale of 1 X to such a pool, with an oracle price. -/
def hmmSale (c o : Decimal) : R (Pool × SwapOutput) := do (← hmmPool c).executeSwapFromX flLog (D 1) o

end Sample

open Sample in
/-- C80 is false of the code: pools with exponent 0.5, 1.1 and 1 are created and take a deposit, sell
without an oracle and with an oracle above the price, but refuse to buy any X while the price is above the oracle. -/
theorem C80_false : ∀ c ∈ [(⟨500000000000, 12, false⟩ : Decimal), ⟨1100000000000, 12, false⟩, ⟨1000000000000, 12, false⟩],
    (hmmPool c).isOk = true ∧ (hmmSale c PoolMath.zero).isOk = true ∧ (hmmSale c (mid 25)).isOk = true ∧
    hmmSale c (mid 15) = .error .panic := by
  decide +kernel

open Sample in
/-- The exponents 1.25, 1.5 and 2 do trade against a lower oracle, and the trader gets no more than without it. -/
example : ∀ c ∈ [(⟨1250000000000, 12, false⟩ : Decimal), ⟨1500000000000, 12, false⟩, ⟨2000000000000, 12, false⟩],
    (hmmSale c (mid 15)).isOk = true ∧
    (get (hmmSale c (mid 15))).2.send.value ≤ (get (hmmSale c PoolMath.zero)).2.send.value := by
  decide +kernel

end Hmm
