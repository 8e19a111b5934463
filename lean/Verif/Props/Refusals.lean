import Verif.Proofs.Refusals
import Verif.Props.OnChain
import Verif.Props.WorldOpen
import Verif.Spec.Refusals
import Verif.Tests.WorldSample

/-
Property C126: what a refused instruction reports.
-/

namespace Hmm.OnChain.World

open Decimal PoolMath World.Sample

/-- Full statement: a withdrawal of more than the position holds is refused with the program's error code for that. -/
def C126_full : Prop :=
  ∀ {w : World}, Reachable w → ∀ {lp : Nat} {p : PoolAcc}, mapGet lp w.pools = some p →
    ∀ {c : Accounts} {lower upper current n : Nat} {q : Position}, n < 2 ^ 64 → Named w lp p c lower upper current →
      mapGet (⟨c.user, lower, upper⟩ : PosKey) p.positions = some q → q.amount < n →
        w.withdraw lp c lower upper current n = .error (.code .insufficientPositionLiquidity)

/-! ### The accounts -/

theorem named_iff {w : World} (hw : Reachable w) {lp : Nat} {p : PoolAcc} (hp : mapGet lp w.pools = some p)
    {c : Accounts} {lower upper current : Nat} :
    (∃ a, loadAccounts w lp p c lower upper current = .ok a) ↔ Named w lp p c lower upper current := by
  obtain ⟨hg, supply0, s, hr, hs⟩ := hw.guarded hp
  have hgood := Good.reachable hr
  have hb := TickBooks.reachable hr
  constructor
  · rintro ⟨a, h⟩
    unfold loadAccounts at h
    simp only [bind_ok, load_ok, constraint_ok, pure_ok, decide_eq_true_eq, Bool.and_eq_true] at h
    obtain ⟨bm, h1, pos, h2, _, h3, lwr, h4, _, h5, upr, h6, _, h7, cur, h8, _, h9, _, h10, mt, h11, tx, h12, _, h13, ty, h14, _,
      h15, vx, h16, vy, h17, lv, h18, tl, h19, _, h20, _⟩ := h
    have hc : current = p.gs.tick := h9.symm.trans h10
    exact ⟨hc, by rw [h1]; rfl, by rw [← hc, h8]; rfl, by rw [h2]; rfl, ⟨tx, h12, h13.1, h13.2⟩, ⟨ty, h14, h15.1, h15.2⟩,
      tl, h19, h20⟩
  · intro h
    obtain ⟨bm, h1⟩ := Option.isSome_iff_exists.1 h.bitmap
    obtain ⟨pos, h2⟩ := Option.isSome_iff_exists.1 h.position
    obtain ⟨cur, h8⟩ := Option.isSome_iff_exists.1 h.here
    obtain ⟨tx, h12, h13⟩ := h.tokenX
    obtain ⟨ty, h14, h15⟩ := h.tokenY
    obtain ⟨tl, h19, h20⟩ := h.lpTokens
    obtain ⟨vx, h16, _⟩ := hg.vaultX
    obtain ⟨vy, h17, _⟩ := hg.vaultY
    obtain ⟨lv, h18, _⟩ := hg.lpVault
    obtain ⟨mt, h11, _⟩ := hg.mint
    rw [← hs.positions] at h2
    rw [← hs.ticks] at h8
    obtain ⟨k1, k2⟩ := hb.none _ _ h2
    obtain ⟨lwr, h4⟩ := Option.isSome_iff_exists.1 k1
    obtain ⟨upr, h6⟩ := Option.isSome_iff_exists.1 k2
    simp only at h4 h6
    have gp := hgood.pos _ _ h2
    have gl := hgood.tick _ _ h4
    have gu := hgood.tick _ _ h6
    have gc := hgood.tick _ _ h8
    rw [hs.positions] at h2
    rw [hs.ticks] at h4 h6 h8
    rw [← h.atTick] at h8 gc
    refine ⟨⟨bm, pos, lwr, upr, cur⟩, ?_⟩
    unfold loadAccounts
    simp only [bind_ok, load_ok, constraint_ok, pure_ok, decide_eq_true_eq, Bool.and_eq_true]
    exact ⟨bm, h1, pos, h2, (), gp.order, lwr, h4, (), by rw [gl.tick, gp.lower], upr, h6, (), by rw [gu.tick, gp.upper],
      cur, h8, (), gc.tick, (), gc.tick.trans h.atTick, mt, h11, tx, h12, (), h13, ty, h14, (), h15, vx, h16, vy, h17,
      lv, h18, tl, h19, (), h20, rfl⟩

/-- What the loaded accounts are. -/
theorem loaded {w : World} {lp : Nat} {p : PoolAcc} {c : Accounts} {lower upper current : Nat} {a : Loaded}
    (h : loadAccounts w lp p c lower upper current = .ok a) : mapGet (⟨c.user, lower, upper⟩ : PosKey) p.positions = some a.pos ∧
      mapGet lower p.ticks = some a.lwr ∧ mapGet upper p.ticks = some a.upr ∧ current = p.gs.tick ∧ lower < upper := by
  unfold loadAccounts at h
  simp only [bind_ok, load_ok, constraint_ok, pure_ok, decide_eq_true_eq, Bool.and_eq_true] at h
  obtain ⟨bm, h1, pos, h2, _, h3, lwr, h4, _, h5, upr, h6, _, h7, cur, h8, _, h9, _, h10, mt, h11, tx, h12, _, h13, ty, h14, _,
    h15, vx, h16, vy, h17, lv, h18, tl, h19, _, h20, rfl⟩ := h
  exact ⟨h2, h4, h6, h9.symm.trans h10, h3⟩

/-- With an account missing or wrong a deposit is refused by Anchor. -/
theorem C126_deposit_accounts {w : World} (hw : Reachable w) {lp : Nat} {p : PoolAcc} (hp : mapGet lp w.pools = some p)
    {c : Accounts} {lower upper current x y : Nat} (h : ¬ Named w lp p c lower upper current) :
    w.deposit lp c lower upper current x y = .error (.code .anchorConstraint) := by
  rw [← named_iff hw hp] at h
  unfold World.deposit
  rw [hp]
  simp only [load, bind_eq]
  cases hl : loadAccounts w lp p c lower upper current with
  | ok a => exact absurd ⟨a, hl⟩ h
  | error e =>
    have := loadAccounts_among (S := (· = .code .anchorConstraint)) rfl _ _ _ _ _ _ _ e hl
    rw [this]; rfl

/-- With an account missing or wrong a withdrawal is refused by Anchor. -/
theorem C126_withdraw_accounts {w : World} (hw : Reachable w) {lp : Nat} {p : PoolAcc} (hp : mapGet lp w.pools = some p)
    {c : Accounts} {lower upper current n : Nat} (h : ¬ Named w lp p c lower upper current) :
    w.withdraw lp c lower upper current n = .error (.code .anchorConstraint) := by
  rw [← named_iff hw hp] at h
  unfold World.withdraw
  rw [hp]
  simp only [load, bind_eq]
  cases hl : loadAccounts w lp p c lower upper current with
  | ok a => exact absurd ⟨a, hl⟩ h
  | error e =>
    have := loadAccounts_among (S := (· = .code .anchorConstraint)) rfl _ _ _ _ _ _ _ e hl
    rw [this]; rfl

/-! ### Withdrawals -/

theorem add_neg_gt {v n : Nat} (h : v < n) :
    (Decimal.mk v 12 false).add (Decimal.mk n 12 false).neg = .ok ⟨n - v, 12, true⟩ := by
  rw [neg_amount, show decide (n ≠ 0) = true from decide_eq_true (by omega)]
  unfold Decimal.add
  simp only [BEq.rfl, Bool.not_true, Bool.false_eq_true, if_false]
  rw [if_neg (by simp), if_neg (by omega), if_pos h]
  unfold checkedSub
  rw [if_pos h.le]
  rfl

theorem updatePosition_over {k : PosKey} {q : Position} {l u : Tick} {n a b : Nat} {f : Fee} (hq : GoodPosition k q)
    (hf : q.liq < u128Size) (h : q.liq < n) :
    updatePosition q l u (Decimal.mk n 12 false).neg a b f = .error (.code .insufficientPositionLiquidity) := by
  unfold updatePosition
  rw [hq.scale, toScale_id _ hf, bind_eq, add_neg_gt h, unwrap_eq, bind_eq]
  rfl

/-- The liquidity of a position that contains the pool's tick is part of the active liquidity. -/
theorem active_ge {supply0 : Nat} {s : Chain} (hr : OnChain.Reachable supply0 s) {k : PosKey} {q : Position}
    (h : mapGet k s.positions = some q) (h1 : k.lower ≤ s.gs.tick) (h2 : s.gs.tick < k.upper) : q.liq ≤ s.gs.liq := by
  have hs := Good.reachable hr
  have hD : (0 : ℚ) < 10 ^ 12 := by norm_num
  have hin := sumPos_ge (s := s) (w := fun k => if k.lower ≤ s.gs.tick ∧ s.gs.tick < k.upper then 1 else 0)
    (fun k => by split <;> norm_num) h
  simp only [if_pos (And.intro h1 h2), one_mul] at hin
  have : q.amount ≤ s.gs.amount := by rw [active_reachable hr]; exact hin
  unfold Global.amount Position.amount at this
  rw [hs.gs.scale, (hs.pos _ _ h).scale, div_le_div_iff_of_pos_right hD] at this
  exact_mod_cast this

theorem tick_small {supply0 : Nat} {s : Chain} (hr : OnChain.Reachable supply0 s) : s.gs.tick < 2 ^ 128 := by
  obtain ⟨⟨t, _, rp, _, h, e, _⟩, _⟩ := C53_constant hr
  rw [e]
  exact (tickToRp_lt h).trans (by norm_num)

theorem updateGlobal_take {supply0 : Nat} {s : Chain} (hr : OnChain.Reachable supply0 s) {user lower upper n : Nat} {q : Position}
    (h : mapGet (⟨user, lower, upper⟩ : PosKey) s.positions = some q) (hn : n ≤ q.liq) :
    ∃ g, updateGlobal s.gs lower upper s.gs.tick (Decimal.mk n 12 false).neg = .ok g := by
  have hs := Good.reachable hr
  unfold updateGlobal
  by_cases hc : s.gs.tick ≥ lower ∧ s.gs.tick < upper
  · rw [if_pos hc, hs.gs.scale]
    unfold Decimal.new
    rw [add_neg_le (hn.trans (active_ge hr h hc.1 hc.2)) (Fits.reachable hr).gs, unwrap_eq, bind_eq, if_neg (by simp)]
    exact ⟨_, rfl⟩
  · rw [if_neg hc]
    exact ⟨_, rfl⟩

/-- A withdrawal never fails with an error code of the program. -/
theorem C126_withdraw_codes {w : World} (hw : Reachable w) (lp : Nat) (c : Accounts) {lower upper current n : Nat}
    (hl : lower < 2 ^ 64) (hu : upper < 2 ^ 64) {e : Err} (h : w.withdraw lp c lower upper current n = .error e) :
    Plain e := by
  have S0 : Plain .panic := .inl rfl
  have S1 : Plain (.code .anchorConstraint) := .inr (.inl rfl)
  have S2 : Plain (.code .tokenError) := .inr (.inr rfl)
  have big : ∀ {t : Nat}, t < 2 ^ 64 → t < 2 ^ 128 := fun ht => ht.trans (by norm_num)
  revert h e
  show Among Plain _
  unfold World.withdraw
  refine .bind (load_among S1 _) fun p hp => .bind (loadAccounts_among S1 _ _ _ _ _ _ _) fun a ha => ?_
  rw [load_ok] at hp
  obtain ⟨hg, supply0, s, hr, hs⟩ := hw.guarded hp
  have hgood := Good.reachable hr
  obtain ⟨q1, q2, q3, q4, q5⟩ := loaded ha
  have hcur : current < 2 ^ 128 := q4 ▸ hs.gs ▸ tick_small hr
  refine .bind (toScale_among S0 _ _) fun d hd => .bind (tickToRp_among S0 (big hl)) fun _ _ =>
    .bind (tickToRp_among S0 (big hu)) fun _ _ => .bind (tickToRp_among S0 hcur) fun _ _ =>
    .bind (computeLatestFee_among S0 _ _ _ _ _ _ _) fun f _ => .bind (.unwrap S0 (updatePosition_ends _ _ _ _ _ _ _)) fun r hupd =>
    .bind (Bitmap.unsetTick_among S0 _ _) fun _ _ => .bind (Bitmap.unsetTick_among S0 _ _) fun _ _ => .bind ?_ fun _ _ =>
    .bind (xFromLRpRng_among S0 _ _ _ _) fun _ _ => .bind (yFromLRpRng_among S0 _ _ _ _) fun _ _ =>
    .bind (feeTerm_among S0 _ _ _ _) fun _ _ => .bind (.unwrap S0 (add_ends _ _)) fun _ _ =>
    .bind (feeTerm_among S0 _ _ _ _) fun _ _ => .bind (.unwrap S0 (add_ends _ _)) fun _ _ =>
    .bind (burn_among S1 S2 _ _ _ _ _) fun _ _ => .bind (abs_among S0 _) fun _ _ =>
    .bind (transfer_among S1 S2 _ _ _ _ _) fun _ _ => .bind (abs_among S0 _) fun _ _ =>
    .bind (transfer_among S1 S2 _ _ _ _ _) fun _ _ => .pure
  rw [fromInt_compute hd] at hupd ⊢
  rw [← hs.positions] at q1
  rcases Nat.lt_or_ge a.pos.liq (n * 10 ^ 12) with hn | hn
  · rw [updatePosition_over (hgood.pos _ _ q1) ((Fits.reachable hr).pos _ _ q1).1 hn] at hupd
    cases hupd
  · obtain ⟨g, hgl⟩ := updateGlobal_take hr q1 hn
    rw [q4, ← hs.gs, hgl]
    exact .ok

/-- A call whose first part can only panic, and whose rest panics, panics. -/
theorem panics_bind {α β : Type} {r : R α} {f : α → R β} (h : Among (· = .panic) r)
    (k : ∀ a, r = .ok a → f a = .error .panic) : r >>= f = .error .panic := by
  cases r with
  | ok a => exact k a rfl
  | error e => rw [show e = .panic from h e rfl]; rfl

/-- A withdrawal of more than the position holds panics. -/
theorem C126_overdraw_partial {w : World} (hw : Reachable w) {lp : Nat} {p : PoolAcc} (hp : mapGet lp w.pools = some p)
    {c : Accounts} {lower upper current n : Nat} {q : Position} (hl : lower < 2 ^ 64) (hu : upper < 2 ^ 64)
    (h : Named w lp p c lower upper current)
    (hq : mapGet (⟨c.user, lower, upper⟩ : PosKey) p.positions = some q) (hn : q.amount < n) :
    w.withdraw lp c lower upper current n = .error .panic := by
  obtain ⟨hg, supply0, s, hr, hs⟩ := hw.guarded hp
  have hgood := Good.reachable hr
  obtain ⟨a, ha⟩ := (named_iff hw hp).2 h
  obtain ⟨q1, q2, q3, q4, q5⟩ := loaded ha
  rw [hq] at q1
  have eq : a.pos = q := (Option.some.inj q1).symm
  rw [← hs.positions] at hq
  have gp := hgood.pos _ _ hq
  have hN : q.liq < n * 10 ^ 12 := by
    unfold Position.amount at hn
    rw [gp.scale, div_lt_iff₀ (by norm_num)] at hn
    exact_mod_cast hn
  have big : ∀ {t : Nat}, t < 2 ^ 64 → t < 2 ^ 128 := fun ht => ht.trans (by norm_num)
  have hcur : current < 2 ^ 128 := q4 ▸ hs.gs ▸ tick_small hr
  have over : ∀ {d : Decimal} (f : Fee), (Decimal.fromInt n).toComputeScale = .ok d →
      unwrap (updatePosition a.pos a.lwr a.upr d.neg lower upper f) = .error .panic := fun f hd => by
    rw [fromInt_compute hd, eq, updatePosition_over gp ((Fits.reachable hr).pos _ _ hq).1 hN]
    rfl
  let S : Err → Prop := (· = .panic)
  have S0 : S .panic := rfl
  unfold World.withdraw
  rw [hp]
  simp only [load, bind_eq]
  rw [ha, bind_eq]
  refine panics_bind (toScale_among S0 _ _) fun d hd => panics_bind (tickToRp_among S0 (big hl)) fun _ _ =>
    panics_bind (tickToRp_among S0 (big hu)) fun _ _ => panics_bind (tickToRp_among S0 hcur) fun _ _ =>
    panics_bind (computeLatestFee_among S0 _ _ _ _ _ _ _) fun f _ => ?_
  rw [over f hd]
  rfl

/-! ### Deposits -/

/-- An error that the first call cannot end with is one of the rest. -/
theorem _root_.Hmm.Among.pass {α β : Type} {S : Err → Prop} {r : R α} {f : α → R β} {e : Err} (h : Among S r) (he : ¬ S e)
    (hb : r >>= f = .error e) : ∃ a, r = .ok a ∧ f a = .error e := by
  rw [bind_error] at hb
  rcases hb with hb | hb
  · exact absurd (h e hb) he
  · exact hb

/-- The liquidity of an offer is not negative. -/
theorem offer_nonneg {x y lower upper current : Nat} {X Y a b p d : Decimal} (h : lower < upper)
    (hx : (Decimal.fromInt x).toComputeScale = .ok X) (hy : (Decimal.fromInt y).toComputeScale = .ok Y)
    (ha : tickToRp lower = .ok a) (hb : tickToRp upper = .ok b) (hp : tickToRp current = .ok p)
    (hd : liqFromXYRpRng X Y p a b = .ok d) : ∃ l, d = ⟨l, 12, false⟩ := by
  obtain ⟨va, rfl, _⟩ := tickToRp_mk ha
  obtain ⟨vb, rfl, _⟩ := tickToRp_mk hb
  obtain ⟨vp, rfl, _⟩ := tickToRp_mk hp
  rw [fromInt_compute hx, fromInt_compute hy] at hd
  exact ⟨_, ((liqFrom_iff (tickToRp_ge ha) (tickToRp_order h ha hb)).1 hd).2.2⟩

theorem updateGlobal_give_among {S : Err → Prop} (h : S .panic) {g : Global} (hg : g.liqScale = 12) (lower upper current l : Nat) :
    Among S (updateGlobal g lower upper current ⟨l, 12, false⟩) := by
  unfold updateGlobal
  refine .ite (fun _ => .bind (.unwrap h (add_ends _ _)) fun r hr => ?_) fun _ => .pure
  rw [unwrap_ok] at hr
  have : r.negative = false := by
    unfold Decimal.new Decimal.add at hr
    rw [hg] at hr
    simp only [BEq.rfl, Bool.not_true, Bool.false_eq_true, if_false, if_true, bind_ok, pure_ok] at hr
    obtain ⟨_, _, rfl⟩ := hr
    rfl
  rw [this, if_neg (by simp)]
  exact .pure

/-- The only error code of the program that a deposit can fail with is that the offer is exceeded. -/
theorem C126_deposit_codes {w : World} (hw : Reachable w) (lp : Nat) (c : Accounts) {lower upper current x y : Nat}
    (hl : lower < 2 ^ 64) (hu : upper < 2 ^ 64) {e : Err} (h : w.deposit lp c lower upper current x y = .error e) :
    Plain e ∨ e = .code .depositAmountExceeded := by
  have S0 : Plain .panic ∨ Err.panic = .code .depositAmountExceeded := .inl (.inl rfl)
  have S1 : Plain (.code .anchorConstraint) ∨ Err.code .anchorConstraint = .code .depositAmountExceeded := .inl (.inr (.inl rfl))
  have S2 : Plain (.code .tokenError) ∨ Err.code .tokenError = .code .depositAmountExceeded := .inl (.inr (.inr rfl))
  have S3 : Plain (.code .depositAmountExceeded) ∨ Err.code .depositAmountExceeded = .code .depositAmountExceeded := .inr rfl
  have big : ∀ {t : Nat}, t < 2 ^ 64 → t < 2 ^ 128 := fun ht => ht.trans (by norm_num)
  revert h e
  show Among (fun e => Plain e ∨ e = .code .depositAmountExceeded) _
  unfold World.deposit
  refine .bind (load_among S1 _) fun p hp => .bind (loadAccounts_among S1 _ _ _ _ _ _ _) fun a ha => ?_
  rw [load_ok] at hp
  obtain ⟨hg, supply0, s, hr, hs⟩ := hw.guarded hp
  have hgood := Good.reachable hr
  obtain ⟨q1, q2, q3, q4, q5⟩ := loaded ha
  have hcur : current < 2 ^ 128 := q4 ▸ hs.gs ▸ tick_small hr
  refine .bind (toScale_among S0 _ _) fun X hX => .bind (toScale_among S0 _ _) fun Y hY =>
    .bind (tickToRp_among S0 (big hl)) fun rpa ea => .bind (tickToRp_among S0 (big hu)) fun rpb eb =>
    .bind (tickToRp_among S0 hcur) fun rp er => .bind (liqFromXYRpRng_among S0 _ _ _ _ _) fun d hd => ?_
  obtain ⟨l, rfl⟩ := offer_nonneg q5 hX hY ea eb er hd
  exact .ite (fun h => by simp at h) fun _ =>
    .bind (.ite (fun _ => Bitmap.activateTick_among S0 _ _) fun _ => .ok) fun _ _ =>
    .bind (.ite (fun _ => Bitmap.activateTick_among S0 _ _) fun _ => .ok) fun _ _ =>
    .bind (xFromLRpRng_among S0 _ _ _ _) fun _ _ => .bind (yFromLRpRng_among S0 _ _ _ _) fun _ _ =>
    .bind (computeLatestFee_among S0 _ _ _ _ _ _ _) fun f _ => .bind (.unwrap S0 (updatePosition_ends _ _ _ _ _ _ _)) fun _ _ =>
    .bind (updateGlobal_give_among S0 (hs.gs ▸ hgood.gs.scale) _ _ _ _) fun _ _ =>
    .bind (feeTerm_among S0 _ _ _ _) fun _ _ => .bind (.unwrap S0 (sub_ends _ _)) fun _ _ =>
    .bind (feeTerm_among S0 _ _ _ _) fun _ _ => .bind (.unwrap S0 (sub_ends _ _)) fun _ _ =>
    .bind (.unwrap S0 (gt_ends _ _)) fun _ _ => .ite (fun _ => .code S3) fun _ =>
    .bind (.unwrap S0 (gt_ends _ _)) fun _ _ => .ite (fun _ => .code S3) fun _ =>
    .bind (abs_among S0 _) fun _ _ => .bind (mintTo_among S1 S2 _ _ _ _ _) fun _ _ =>
    .bind (abs_among S0 _) fun _ _ => .bind (transfer_among S1 S2 _ _ _ _ _) fun _ _ => .bind (abs_among S0 _) fun _ _ =>
    .bind (transfer_among S1 S2 _ _ _ _ _) fun _ _ => .pure

/-- A deposit is refused because it would exceed the offer exactly if the accounts are the right ones, have room for the
liquidity that the offer buys, and the X computed for that liquidity is more than was offered. -/
theorem C126_exceeded {w : World} (hw : Reachable w) {lp : Nat} {p : PoolAcc} (hp : mapGet lp w.pools = some p)
    {c : Accounts} {lower upper current x y : Nat} (hl : lower < 2 ^ 64) (hu : upper < 2 ^ 64) (hx : x < 2 ^ 64) (hy : y < 2 ^ 64) :
    w.deposit lp c lower upper current x y = .error (.code .depositAmountExceeded) ↔
      Named w lp p c lower upper current ∧ ∃ l X Y, Quote p.gs.tick lower upper x y l X Y ∧ x * 10 ^ 12 < X ∧
        Roomy p c.user lower upper l := by
  obtain ⟨hg, supply0, s, hr, hs⟩ := hw.guarded hp
  have hgood := Good.reachable hr
  have gsc : p.gs.liqScale = 12 := hs.gs ▸ hgood.gs.scale
  have big : ∀ {t : Nat}, t < 2 ^ 64 → t < 2 ^ 128 := fun ht => ht.trans (by norm_num)
  have subz : ∀ z : Nat, (Decimal.mk z 12 false).sub ⟨0, 12, false⟩ = .ok ⟨z, 12, false⟩ :=
    fun z => sub_nn_le 12 (Nat.zero_le z)
  have hft : feeTerm Fee.zero.fx Fee.zero.hx Fee.zero.scale 12 = .ok ⟨0, 12, false⟩ := by decide
  have hft' : feeTerm Fee.zero.fy Fee.zero.hy Fee.zero.scale 12 = .ok ⟨0, 12, false⟩ := by decide
  rw [← named_iff hw hp]
  constructor
  · intro h
    let S : Err → Prop := (· ≠ .code .depositAmountExceeded)
    have S0 : S .panic := nofun
    have S1 : S (.code .anchorConstraint) := nofun
    have S2 : S (.code .tokenError) := nofun
    have hS : ¬ S (.code .depositAmountExceeded) := fun h => h rfl
    unfold World.deposit at h
    rw [hp] at h
    simp only [load, bind_eq] at h
    obtain ⟨a, ha, h⟩ := (loadAccounts_among S1 _ _ _ _ _ _ _).pass hS h
    obtain ⟨q1, q2, q3, q4, q5⟩ := loaded ha
    have hcur : current < 2 ^ 128 := q4 ▸ hs.gs ▸ tick_small hr
    obtain ⟨X, hX, h⟩ := (toScale_among S0 _ _).pass hS h
    obtain ⟨Y, hY, h⟩ := (toScale_among S0 _ _).pass hS h
    obtain ⟨rpa, ea, h⟩ := (tickToRp_among S0 (big hl)).pass hS h
    obtain ⟨rpb, eb, h⟩ := (tickToRp_among S0 (big hu)).pass hS h
    obtain ⟨rp, er, h⟩ := (tickToRp_among S0 hcur).pass hS h
    obtain ⟨d, hd, h⟩ := (liqFromXYRpRng_among S0 _ _ _ _ _).pass hS h
    obtain ⟨l, rfl⟩ := offer_nonneg q5 hX hY ea eb er hd
    rw [if_neg (by simp)] at h
    obtain ⟨_, _, h⟩ := (Among.ite (fun _ => Bitmap.activateTick_among S0 _ _) fun _ => .ok).pass hS h
    obtain ⟨_, _, h⟩ := (Among.ite (fun _ => Bitmap.activateTick_among S0 _ _) fun _ => .ok).pass hS h
    obtain ⟨xIn, hxi, h⟩ := (xFromLRpRng_among S0 _ _ _ _).pass hS h
    obtain ⟨yIn, hyi, h⟩ := (yFromLRpRng_among S0 _ _ _ _).pass hS h
    rw [← hs.positions] at q1
    rw [← hs.ticks] at q2 q3
    have gp := hgood.pos _ _ q1
    have gl := hgood.tick _ _ q2
    have gu := hgood.tick _ _ q3
    rw [← hs.gs, hgood.gs.fee, gl.fee, gu.fee, gp.fee, show Fee.zero.scale = 12 from rfl] at h
    obtain ⟨f, hf, h⟩ := (computeLatestFee_among S0 _ _ _ _ _ _ _).pass hS h
    have ef : f = Fee.zero := ok_inj.1 (hf.symm.trans (computeLatestFee_zero _ _ _))
    subst ef
    obtain ⟨r, hupd, h⟩ := (Among.unwrap S0 (updatePosition_ends _ _ _ _ _ _ _)).pass hS h
    obtain ⟨g, hgl, hz⟩ := (updateGlobal_give_among S0 hgood.gs.scale _ _ _ _).pass hS h
    rw [unwrap_ok] at hupd
    obtain ⟨va, rfl, _⟩ := tickToRp_mk ea
    obtain ⟨vb, rfl, _⟩ := tickToRp_mk eb
    obtain ⟨vp, rfl, _⟩ := tickToRp_mk er
    rw [fromInt_compute hX, fromInt_compute hY] at hd
    have hab := tickToRp_order q5 ea eb
    have hva := tickToRp_ge ea
    have hp0 : 0 < vp := lt_of_lt_of_le (by norm_num) (tickToRp_ge er)
    obtain ⟨w1, w2, w3⟩ := (liqFrom_iff hva hab).1 hd
    obtain ⟨f1, f2⟩ := amounts_fit hab hxi hyi
    have f3 := xFrom_product hab hxi
    have kx := (xFrom_any hab hva hp0 f3 f1).symm.trans hxi
    have ky := (yFrom_any (b := vb) f2).symm.trans hyi
    rw [← ok_inj.1 kx, ← ok_inj.1 ky] at hz
    simp only at hz
    rw [hft, bind_eq, subz, unwrap_eq, bind_eq, hft', bind_eq, subz, unwrap_eq, bind_eq, fromInt_compute hX, fromInt_compute hY,
      gt_nn, unwrap_eq, bind_eq, gt_nn, unwrap_eq, bind_eq] at hz
    have hq : Quote p.gs.tick lower upper x y l _ _ := ⟨vp, va, vb, _, q4 ▸ er, ea, eb, rfl, two128 ▸ f3, two128 ▸ w1, two128 ▸ w2,
      congrArg Decimal.value w3, rfl, rfl⟩
    refine ⟨⟨a, ha⟩, l, _, _, hq, ?_, ?_⟩
    · by_contra hc
      rw [if_neg (by simpa using hc), if_neg (by simpa using hq.y_le q5)] at hz
      obtain ⟨_, _, hz⟩ := (abs_among S0 _).pass hS hz
      obtain ⟨_, _, hz⟩ := (mintTo_among S1 S2 _ _ _ _ _).pass hS hz
      obtain ⟨_, _, hz⟩ := (abs_among S0 _).pass hS hz
      obtain ⟨_, _, hz⟩ := (transfer_among S1 S2 _ _ _ _ _).pass hS hz
      obtain ⟨_, _, hz⟩ := (abs_among S0 _).pass hS hz
      obtain ⟨_, _, hz⟩ := (transfer_among S1 S2 _ _ _ _ _).pass hS hz
      cases hz
    · have hpu := hupd
      unfold updatePosition at hupd
      rw [bind_ok] at hupd; obtain ⟨_, _, hupd⟩ := hupd
      rw [bind_ok] at hupd; obtain ⟨_, _, hupd⟩ := hupd
      rw [ite_ok] at hupd; rcases hupd with ⟨_, hupd⟩ | ⟨_, hupd⟩; · simp [rerr] at hupd
      rw [bind_ok] at hupd; obtain ⟨lw, hlw, hupd⟩ := hupd
      rw [bind_ok] at hupd; obtain ⟨up, hup, hupd⟩ := hupd
      rw [unwrap_ok] at hlw hup
      rw [hs.positions] at q1
      rw [hs.ticks] at q2 q3
      refine ⟨fun q hq => ?_, fun t ht => ?_, fun t ht => ?_, fun h1 h2 => ?_⟩
      · rw [q1] at hq; cases hq; rw [two128]; exact updatePosition_room gp hpu
      · rw [q2] at ht; cases ht; rw [two128]; exact updateTick_room gl hlw
      · rw [q3] at ht; cases ht; rw [two128]; exact updateTick_room gu hup
      · rw [← q4] at h1 h2
        rw [two128, ← hs.gs]; exact updateGlobal_room hgood.gs.scale hgl h1 h2
  · rintro ⟨⟨a, ha⟩, l, X, Y, hq, hX, hroom⟩
    obtain ⟨q1, q2, q3, q4, q5⟩ := loaded ha
    have hY := hq.y_le q5
    obtain ⟨vp, va, vb, q, w1, w2, w3, rfl, w4, w5, w6, w7, eX, eY⟩ := hq
    rw [two128] at w4 w5 w6
    have hab := tickToRp_order q5 w2 w3
    have hva := tickToRp_ge w2
    have hrp : 0 < vp := lt_of_lt_of_le (by norm_num) (tickToRp_ge w1)
    obtain ⟨o1, o2, o3, o4⟩ := offer_le hab w7
    have fx : l * (vb - clampAt vp va vb) < u128Size := by
      by_cases e : vp < vb
      · exact lt_of_le_of_lt (o1 e) (w5 e)
      · rw [o2 (by omega), Nat.mul_zero]; norm_num [u128Size]
    have fy : l * (clampAt vp va vb - va) < u128Size := by
      by_cases e : va < vp
      · exact lt_of_le_of_lt (o3 e) (w6 e)
      · rw [o4 (by omega), Nat.mul_zero]; norm_num [u128Size]
    have hliq := (liqFrom_iff (c := ⟨l, 12, false⟩) hva hab).2 ⟨w5, w6, by rw [← w7]⟩
    have ex := xFrom_any hab hva hrp w4 fx
    have ey := yFrom_any (b := vb) fy
    rw [← eX] at ex
    rw [← eY] at ey
    have bigx : ∀ z : Nat, z < 2 ^ 64 → z * 10 ^ 12 < u128Size := by
      intro z hz
      exact (Nat.mul_lt_mul_of_pos_right hz (by norm_num)).trans (by norm_num [u128Size])
    have r1 := hroom.position _ q1
    have r2 := hroom.starts _ q2
    have r3 := hroom.ends _ q3
    have r4 := hroom.active
    rw [two128] at r1 r2 r3 r4
    rw [← q4] at w1
    rw [← hs.positions] at q1
    rw [← hs.ticks] at q2 q3
    have gp := hgood.pos _ _ q1
    have gl := hgood.tick _ _ q2
    have gu := hgood.tick _ _ q3
    obtain ⟨lwr', e1⟩ := updateTick_give (up := false) gl (net_le_gross hr q2) r2
    obtain ⟨upr', e2⟩ := updateTick_give (up := true) gu (net_le_gross hr q3) r3
    have eupd : updatePosition a.pos a.lwr a.upr ⟨l, 12, false⟩ lower upper Fee.zero =
        .ok ({ a.pos with liq := a.pos.liq + l, liqScale := 12, fee := Fee.zero }, lwr', upr') := by
      unfold updatePosition
      rw [gp.scale, toScale_id _ (by omega), bind_eq, Pool.add_nn_eq r1, unwrap_eq, bind_eq, if_neg (by simp), e1, unwrap_eq, bind_eq,
        e2, unwrap_eq, bind_eq]
      rfl
    have eg : ∃ g, updateGlobal p.gs lower upper current ⟨l, 12, false⟩ = .ok g := by
      unfold updateGlobal
      split
      · next hc =>
        rw [q4] at hc
        rw [gsc]
        unfold Decimal.new
        rw [Pool.add_nn_eq (r4 hc.1 hc.2), unwrap_eq, bind_eq, if_neg (by simp)]
        exact ⟨_, rfl⟩
      · exact ⟨_, rfl⟩
    obtain ⟨g, eg⟩ := eg
    have eb : ∀ (b : Bitmap) (n : Nat) (t : Int), Bitmap.Valid t → ∃ b', (if n = 0 then b.activateTick t else .ok b) = .ok b' := by
      intro b n t ht
      split
      · exact ⟨_, Bitmap.activate_valid b ht⟩
      · exact ⟨_, rfl⟩
    obtain ⟨b1, eb1⟩ := eb a.bitmap a.lwr.gross 0 ⟨by norm_num, by norm_num⟩
    obtain ⟨b2, eb2⟩ := eb b1 a.upr.gross 40000 ⟨by norm_num, by norm_num⟩
    have hfee : computeLatestFee lower upper current p.gs.fee a.lwr.fee a.upr.fee a.pos.fee.scale = .ok Fee.zero := by
      rw [← hs.gs, hgood.gs.fee, gl.fee, gu.fee, gp.fee]
      exact computeLatestFee_zero _ _ _
    unfold World.deposit
    rw [hp]
    simp only [load, bind_eq]
    rw [ha, bind_eq, fromInt_fits (bigx x hx), bind_eq, fromInt_fits (bigx y hy), bind_eq, w2, bind_eq, w3, bind_eq, w1, bind_eq,
      hliq, bind_eq, if_neg (by simp), eb1, bind_eq, eb2, bind_eq, ex, bind_eq, ey, bind_eq, hfee, bind_eq, eupd, unwrap_eq,
      bind_eq]
    simp only
    rw [eg, bind_eq, hft, bind_eq, subz, unwrap_eq, bind_eq, hft', bind_eq, subz, unwrap_eq, bind_eq, gt_nn, unwrap_eq, bind_eq,
      if_pos (by simpa using hX)]
    rfl

/-! ### All instructions -/

/-- A pool that cannot be opened is refused without an error code of the program. -/
theorem C126_open_codes (w : World) (authority lp x y : Nat) {tick : Nat} (ht : tick < 2 ^ 64) {e : Err}
    (h : w.initializePool authority lp x y tick = .error e) : Plain e := by
  have S0 : Plain .panic := .inl rfl
  have S1 : Plain (.code .anchorConstraint) := .inr (.inl rfl)
  have vault : ∀ (w : World) a m, Among Plain (w.initVault a m lp) := fun w a m => by
    unfold initVault; exact .bind (constraint_among S1 _) fun _ _ => .pure
  suffices hs : Among Plain (w.initializePool authority lp x y tick) from hs e h
  unfold initializePool
  refine .bind (constraint_among S1 _) fun _ _ => .bind (load_among S1 _) fun _ _ => .bind (load_among S1 _) fun _ _ =>
    .bind (load_among S1 _) fun m _ => ?_
  split
  · exact .panic S0
  · exact .bind (constraint_among S1 _) fun _ _ => .bind (vault _ _ _) fun _ _ => .bind (vault _ _ _) fun _ _ =>
      .bind (vault _ _ _) fun _ _ => .bind (tickToRp_among S0 (ht.trans (by norm_num))) fun _ _ =>
      .bind (toScale_among S0 _ _) fun _ _ => .pure

/-- No instruction runs forever, and the only error code of the program that any instruction ever reports is that of a deposit
exceeding the offer. -/
theorem C126_codes {w : World} (hw : Reachable w) (i : Instr) (ht : ∀ t ∈ i.namedTicks, t < 2 ^ 64) {e : Err}
    (h : w.exec i = .error e) : Plain e ∨ e = .code .depositAmountExceeded ∧ i.IsDeposit := by
  have S1 : Plain (.code .anchorConstraint) := .inr (.inl rfl)
  cases i with
  | initializePool a lp x y t => exact .inl (C126_open_codes w a lp x y (ht t (by simp [Instr.namedTicks])) h)
  | initializeBitmap lp =>
    refine .inl ((?_ : Among Plain (w.initializeBitmap lp)) e h)
    unfold initializeBitmap
    exact .bind (load_among S1 _) fun _ _ => .bind (constraint_among S1 _) fun _ _ => .pure
  | initializeTick lp t =>
    refine .inl ((?_ : Among Plain (w.initializeTick lp t)) e h)
    unfold initializeTick
    exact .bind (load_among S1 _) fun _ _ => .bind (constraint_among S1 _) fun _ _ => .pure
  | createPosition lp u l r =>
    refine .inl ((?_ : Among Plain (w.createPosition lp u l r)) e h)
    unfold createPosition
    exact .bind (load_among S1 _) fun _ _ => .bind (constraint_among S1 _) fun _ _ => .bind (constraint_among S1 _) fun _ _ =>
      .bind (load_among S1 _) fun _ _ => .bind (load_among S1 _) fun _ _ => .pure
  | deposit lp c l u t x y =>
    have h' : w.deposit lp c l u t x y = .error e := by
      simp only [exec] at h
      rw [bind_error] at h
      rcases h with h | ⟨_, _, h⟩
      · exact h
      · cases h
    rcases C126_deposit_codes hw lp c (ht l (by simp [Instr.namedTicks])) (ht u (by simp [Instr.namedTicks])) h' with h | h
    · exact .inl h
    · exact .inr ⟨h, lp, c, l, u, t, x, y, rfl⟩
  | withdraw lp c l u t n =>
    have h' : w.withdraw lp c l u t n = .error e := by
      simp only [exec] at h
      rw [bind_error] at h
      rcases h with h | ⟨_, _, h⟩
      · exact h
      · cases h
    exact .inl (C126_withdraw_codes hw lp c (ht l (by simp [Instr.namedTicks])) (ht u (by simp [Instr.namedTicks])) h')

/-! ### Examples -/

/-- A test of the accounts of user 1 for their position in pool 100, which is still empty. -/
def named1 (w : World) : Bool :=
  (mapGet 100 w.pools).any fun (p : PoolAcc) =>
    decide (p.gs.tick = 20 ∧ p.bitmap.isSome ∧ (mapGet 20 p.ticks).isSome ∧ p.xMint = 1 ∧ p.yMint = 2) &&
    ((mapGet (⟨1, 10, 30⟩ : PosKey) p.positions).any fun (q : Position) => decide (q.liq = 0)) &&
    ((mapGet (.key 11) w.tokens).any fun (t : Token) => decide (t.mint = 1 ∧ t.owner = .user 1)) &&
    ((mapGet (.key 12) w.tokens).any fun (t : Token) => decide (t.mint = 2 ∧ t.owner = .user 1)) &&
    ((mapGet (.key 13) w.tokens).any fun (t : Token) => decide (t.mint = 100))

/-- A position that holds nothing, all accounts of which are there. -/
theorem overdraw : ∃ w p q, Reachable w ∧ mapGet 100 w.pools = some p ∧ Named w 100 p (user 1 1 2 3) 10 30 20 ∧
    mapGet (⟨1, 10, 30⟩ : PosKey) p.positions = some q ∧ q.amount < ((1 : Nat) : ℚ) := by
  obtain ⟨w, h, e⟩ := holds_reachable (as := start) (p := named1) (by decide +kernel)
  unfold named1 at e
  obtain ⟨p, hp, e⟩ := any_some e
  simp only [Bool.and_eq_true] at e
  obtain ⟨⟨⟨⟨e1, e2⟩, e3⟩, e4⟩, e5⟩ := e
  obtain ⟨a1, a2, a3, a4, a5⟩ := of_decide_eq_true e1
  obtain ⟨q, g2, f2⟩ := any_some e2
  obtain ⟨t3, g3, f3⟩ := any_some e3
  obtain ⟨t4, g4, f4⟩ := any_some e4
  obtain ⟨t5, g5, f5⟩ := any_some e5
  have f2 := of_decide_eq_true f2
  have f3 := of_decide_eq_true f3
  have f4 := of_decide_eq_true f4
  have f5 := of_decide_eq_true f5
  refine ⟨w, p, q, h, hp, ⟨a1.symm, a2, by rw [a1]; exact a3, ?_, ⟨t3, g3, a4 ▸ f3.1, f3.2⟩, ⟨t4, g4, a5 ▸ f4.1, f4.2⟩,
    ⟨t5, g5, f5⟩⟩, g2, ?_⟩
  · show (mapGet (⟨1, 10, 30⟩ : PosKey) p.positions).isSome
    rw [g2]; rfl
  · unfold Position.amount
    rw [f2]
    simp

/-- The full statement fails: the program panics. -/
theorem C126_false : ¬ C126_full := fun h => by
  obtain ⟨w, p, q, hw, hp, hn, hq, hlt⟩ := overdraw
  have h1 := h hw hp (by norm_num) hn hq hlt
  rw [C126_overdraw_partial hw hp (by norm_num) (by norm_num) hn hq hlt] at h1
  cases h1

/-- A deposit exceeding its offer: user 2 offers 20 of X between the ticks 25 and 30. -/
example : ∃ w p, Reachable w ∧ mapGet 100 w.pools = some p ∧
    w.deposit 100 (user 2 1 2 3) 25 30 20 20 0 = .error (.code .depositAmountExceeded) := by
  obtain ⟨w, h, e⟩ := holds_reachable (as := start) (p := fun w => (mapGet 100 w.pools).isSome &&
    match w.deposit 100 (user 2 1 2 3) 25 30 20 20 0 with
    | .error (.code .depositAmountExceeded) => true
    | _ => false) (by decide +kernel)
  rw [Bool.and_eq_true] at e
  obtain ⟨p, hp⟩ := Option.isSome_iff_exists.1 e.1
  refine ⟨w, p, h, hp, ?_⟩
  have e := e.2
  split at e
  · next h => exact h
  · cases e

/-- A withdrawal of the position of somebody else. -/
example : ∃ w p, Reachable w ∧ mapGet 100 w.pools = some p ∧ ¬ Named w 100 p (user 2 1 2 3) 10 30 20 := by
  obtain ⟨w, h, e⟩ := holds_reachable (as := start) (p := fun w => (mapGet 100 w.pools).any fun (p : PoolAcc) =>
    (mapGet (⟨2, 10, 30⟩ : PosKey) p.positions).isNone) (by decide +kernel)
  obtain ⟨p, hp, e⟩ := any_some e
  refine ⟨w, p, h, hp, fun hn => ?_⟩
  have h1 : (mapGet (⟨2, 10, 30⟩ : PosKey) p.positions).isSome := hn.position
  rw [Option.isNone_iff_eq_none.1 e] at h1
  cases h1

end Hmm.OnChain.World
