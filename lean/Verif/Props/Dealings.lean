import Verif.Proofs.Dealings
import Verif.Props.OffersInParts

/-
C148: while nothing is sold, deposits and withdrawals gain nothing but dust.
-/

namespace Hmm.Pool

open Decimal PoolMath Sample
open Hmm.OnChain.World (Super)

/-! ### C148: putting in and taking out -/

theorem liqOf_units {p : Pool} (rp : Reachable p) (key : PositionKey) : ∃ L : Nat, liqOf p.positions key = (L : ℚ) / 10 ^ 12 := by
  unfold liqOf
  cases hm : mapGet key p.positions with
  | none => exact ⟨0, by simp⟩
  | some s =>
    have h0 := ((Booked.reachable rp).pos key s hm).1
    have h1 := ((Owned.reachable rp).pos key s hm).1
    rcases h0.eq_or_lt with h | h
    · exact ⟨0, by simp [← h]⟩
    · obtain ⟨v, e⟩ := (Amount.of_scale h1 h).eq
      exact ⟨v, by rw [Option.elim_some, e, units]⟩

/-- C148: in any sequence of deposits and withdrawals, by anybody, after which a position has at least the liquidity it
had before, what was paid out for it exceeds what was paid in by at most two units of the last decimal of X, and one of
Y, for each deposit that was added to liquidity the position had already. -/
theorem C148_dust {p q : Pool} (rp : Reachable p) {key : PositionKey} {x y : ℚ} {n : Nat} (g : Dealings key p x y n q)
    (h : liqOf p.positions key ≤ liqOf q.positions key) : x ≤ 2 * n * ulp 12 ∧ y ≤ n * ulp 12 := by
  have hn : (0 : ℚ) ≤ n := Nat.cast_nonneg n
  by_cases hr : ∃ av bv, key.lower < key.upper ∧ tickToRp key.lower = .ok av ∧ tickToRp key.upper = .ok bv
  · obtain ⟨a, b, hlu, ha, hb⟩ := hr
    have ha1 := tickPrice_ge ha
    have hab := price_mono hlu.le ha hb
    obtain ⟨av, rfl⟩ := (tickToRp_pos ha).1.eq
    obtain ⟨bv, rfl⟩ := (tickToRp_pos hb).1.eq
    obtain ⟨rv, er⟩ := (Amount.of_scale (Owned.reachable rp).rp (by linarith [rp_ge_one rp])).eq
    have one_le : 10 ^ 12 ≤ av := by
      rw [toRat_mk, le_div_iff₀ (by norm_num), one_mul] at ha1
      exact_mod_cast ha1
    rw [toRat_le_mk] at hab
    obtain ⟨L, hL⟩ := liqOf_units rp key
    have hM : 10 ^ 12 ≤ max (min rv bv) av * bv / 10 ^ 12 := by
      rw [Nat.le_div_iff_mul_le (by norm_num)]
      exact Nat.mul_le_mul (by omega) (by omega)
    obtain ⟨L', hL', i1, i2⟩ := dealings_bound rfl rfl (memX_near (by norm_num) hM) (memY_near (by norm_num))
      (super_memX (10 ^ 12) rv av bv) (super_memY (10 ^ 12) rv av bv) ha hb g rp er L hL
    rw [hL, hL'] at h
    have hle := le_units h
    have mx := units_le ((super_memX (10 ^ 12) rv av bv).mono hle)
    have my := units_le ((super_memY (10 ^ 12) rv av bv).mono hle)
    generalize memX (10 ^ 12) rv av bv = X at *
    generalize memY (10 ^ 12) rv av bv = Y at *
    have e1 : ((X L + 2 * n : ℕ) : ℚ) / 10 ^ 12 = (X L : ℚ) / 10 ^ 12 + 2 * n * ulp 12 := by unfold ulp; push_cast; ring
    have e2 : ((Y L + n : ℕ) : ℚ) / 10 ^ 12 = (Y L : ℚ) / 10 ^ 12 + n * ulp 12 := by unfold ulp; push_cast; ring
    constructor <;> linarith
  · obtain ⟨rfl, rfl⟩ := dealings_no_range hr g
    have hu : (0 : ℚ) ≤ ulp 12 := by unfold ulp; positivity
    constructor <;> positivity

/-- C148: in particular nobody gains anything who only opens a position and takes out what they put in, in as many parts
as they like, and does so again and again. -/
theorem C148_nothing {p q : Pool} (rp : Reachable p) {key : PositionKey} {x y : ℚ} (g : Dealings key p x y 0 q)
    (h : liqOf p.positions key ≤ liqOf q.positions key) : x ≤ 0 ∧ y ≤ 0 := by
  have := C148_dust rp g h
  simpa using this

/-! ### An example -/

/-- A third user offers some of both. -/
def bit : Offer := ⟨3, ⟨77777777777, 12, false⟩, ⟨77777777777, 12, false⟩, mid 10, mid 30⟩

def after : Nat → Pool
  | 0 => sold
  | n + 1 => (Hmm.Sample.get (take (after n) bit)).1

theorem after_ok {n : Nat} (h : (take (after n) bit).isOk = true) :
    (after n).deposit bit.user bit.x bit.y bit.rpa bit.rpb = .ok (after (n + 1), (Hmm.Sample.get (take (after n) bit)).2) :=
  take_ok h

def mine : PositionKey := ⟨3, 10, 30⟩

/-- All of it. -/
def back : Request := ⟨3, ⟨452213789949099, 12, false⟩, mid 10, mid 30⟩

/-- C148: the dust is there to be had: three small deposits of a newcomer, taken out together, bring them three units of
X more than they put in, and all of their Y. -/
theorem C148_gain : ∃ x y q, Reachable sold ∧ Dealings mine sold x y 2 q ∧ mapGet mine sold.positions = none ∧
    mapGet mine q.positions = none ∧ x = 3 * ulp 12 ∧ y = 0 := by
  have h0 : liqOf (after 0).positions mine = 0 := by decide +kernel
  have h1 : ¬ liqOf (after 1).positions mine = 0 := by decide +kernel
  have h2 : ¬ liqOf (after 2).positions mine = 0 := by decide +kernel
  have d0 := after_ok (n := 0) (by decide +kernel)
  have d1 := after_ok (n := 1) (by decide +kernel)
  have d2 := after_ok (n := 2) (by decide +kernel)
  have w := meet_ok (p := after 3) (o := back) (by decide +kernel)
  have f0 : bit.For (after 0) mine := ⟨rfl, by decide +kernel, by decide +kernel⟩
  have f1 : bit.For (after 1) mine := ⟨rfl, by decide +kernel, by decide +kernel⟩
  have f2 : bit.For (after 2) mine := ⟨rfl, by decide +kernel, by decide +kernel⟩
  have f3 : back.For (after 3) mine := ⟨rfl, by decide +kernel, by decide +kernel⟩
  have g := Dealings.put d0 f0 (.put d1 f1 (.put d2 f2 (.take w f3 .none)))
  rw [if_pos h0, if_neg h1, if_neg h2] at g
  exact ⟨_, _, _, sold_ok, g, by decide +kernel, by decide +kernel, by decide +kernel, by decide +kernel⟩

/-- Opening a position and taking it out in two parts gains nothing. -/
example : ∃ x y q, Reachable sold ∧ Dealings mine sold x y 0 q ∧ liqOf sold.positions mine ≤ liqOf q.positions mine ∧
    x < 0 := by
  have h0 : liqOf (after 0).positions mine = 0 := by decide +kernel
  have d0 := after_ok (n := 0) (by decide +kernel)
  let o1 : Request := ⟨3, ⟨100000000000000, 12, false⟩, mid 10, mid 30⟩
  let o2 : Request := ⟨3, ⟨50737929983033, 12, false⟩, mid 10, mid 30⟩
  have w1 := meet_ok (p := after 1) (o := o1) (by decide +kernel)
  have w2 := meet_ok (p := (Hmm.Sample.get (meet (after 1) o1)).1) (o := o2) (by decide +kernel)
  have g := Dealings.put d0 ⟨rfl, by decide +kernel, by decide +kernel⟩ (.take w1 (key := mine) ⟨rfl, by decide +kernel,
    by decide +kernel⟩ (.take w2 ⟨rfl, by decide +kernel, by decide +kernel⟩ .none))
  rw [if_pos h0] at g
  exact ⟨_, _, _, sold_ok, g, by decide +kernel, by decide +kernel⟩

end Hmm.Pool
