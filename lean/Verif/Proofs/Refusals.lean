import Verif.Proofs.WorldBuy

/-
The errors that a call can end with.
-/

namespace Hmm

/-- A call that fails, fails with one of the errors `S`. -/
def Among {α : Type} (S : Err → Prop) (r : R α) : Prop := ∀ e, r = .error e → S e

namespace Among

variable {α β : Type} {S T : Err → Prop}

theorem ok {a : α} : Among S (.ok a) := fun _ h => by cases h

theorem pure {a : α} : Among S (Pure.pure a : R α) := fun _ h => by cases h

theorem error {e : Err} (h : S e) : Among S (.error e : R α) := fun _ h' => by cases h'; exact h

theorem panic (h : S .panic) : Among S (rpanic : R α) := error h

theorem code {c : Code} (h : S (.code c)) : Among S (rerr c : R α) := error h

theorem bind {r : R α} {f : α → R β} (h : Among S r) (k : ∀ a, r = .ok a → Among S (f a)) : Among S (r >>= f) := by
  intro e he
  rw [bind_error] at he
  rcases he with he | ⟨a, ha, he⟩
  · exact h e he
  · exact k a ha e he

theorem ite {c : Prop} [Decidable c] {r s : R α} (h : c → Among S r) (k : ¬c → Among S s) : Among S (if c then r else s) := by
  split
  · next hc => exact h hc
  · next hc => exact k hc

theorem unwrap {r : R α} (h : S .panic) (k : Among (· ≠ .diverge) r) : Among S (Hmm.unwrap r) := by
  intro e he
  cases r with
  | ok a => cases he
  | error e' =>
    cases e' with
    | diverge => exact absurd rfl (k _ rfl)
    | panic => cases he; exact h
    | code c => cases he; exact h

theorem weaken {r : R α} (h : Among S r) (k : ∀ e, S e → T e) : Among T r := fun e he => k e (h e he)

end Among

/-- Everything but running forever. -/
abbrev ends : Err → Prop := (· ≠ .diverge)

section
variable {S : Err → Prop}

theorem u128_among (h : S .panic) (n : Nat) : Among S (u128 n) := by
  unfold u128; exact .ite (fun _ => .ok) fun _ => .error h

theorem u64_among (h : S .panic) (n : Nat) : Among S (u64 n) := by
  unfold u64; exact .ite (fun _ => .ok) fun _ => .error h

theorem checkedSub_among (h : S .panic) (a b : Nat) : Among S (checkedSub a b) := by
  unfold checkedSub; exact .ite (fun _ => .ok) fun _ => .error h

theorem checkedDiv_among (h : S .panic) (a b : Nat) : Among S (checkedDiv a b) := by
  unfold checkedDiv; exact .ite (fun _ => .error h) fun _ => .ok

namespace Decimal

theorem toScale_among (h : S .panic) (d : Decimal) (s : Nat) : Among S (d.toScale s) := by
  unfold toScale
  exact .ite (fun _ => .bind (u128_among h _) fun _ _ => .bind (checkedDiv_among h _ _) fun _ _ => .pure)
    fun _ => .bind (u128_among h _) fun _ _ => .bind (u128_among h _) fun _ _ => .pure

theorem abs_among (h : S .panic) (d : Decimal) : Among S d.abs :=
  .bind (toScale_among h _ _) fun _ _ => u64_among h _

theorem mul_among (h : S .panic) (a b : Decimal) : Among S (a.mul b) :=
  .bind (u128_among h _) fun _ _ => .bind (u128_among h _) fun _ _ => .bind (checkedDiv_among h _ _) fun _ _ => .pure

theorem div_among (h : S .panic) (a b : Decimal) : Among S (a.div b) :=
  .bind (u128_among h _) fun _ _ => .bind (u128_among h _) fun _ _ => .bind (checkedDiv_among h _ _) fun _ _ => .pure

theorem add_ends (a b : Decimal) : Among ends (a.add b) := by
  unfold add
  exact .ite (fun _ => .code nofun) fun _ => .ite (fun _ => .bind (u128_among nofun _) fun _ _ => .pure) fun _ =>
    .ite (fun _ => .bind (checkedSub_among nofun _ _) fun _ _ => .pure) fun _ =>
    .ite (fun _ => .bind (checkedSub_among nofun _ _) fun _ _ => .pure) fun _ => .pure

theorem sub_ends (a b : Decimal) : Among ends (a.sub b) := add_ends _ _

theorem lt_ends (a b : Decimal) : Among ends (a.lt b) := by
  unfold lt
  exact .ite (fun _ => .code nofun) fun _ => .ite (fun _ => .ok) fun _ => .ite (fun _ => .ok) fun _ =>
    .ite (fun _ => .ok) fun _ => .ok

theorem gt_ends (a b : Decimal) : Among ends (a.gt b) := by
  unfold gt
  exact .ite (fun _ => .code nofun) fun _ => .ite (fun _ => .ok) fun _ => .ite (fun _ => .ok) fun _ =>
    .ite (fun _ => .ok) fun _ => .ok

theorem lte_ends (a b : Decimal) : Among ends (a.lte b) := by
  unfold lte
  exact .ite (fun _ => .code nofun) fun _ => .ite (fun _ => .ok) fun _ => .ite (fun _ => .ok) fun _ =>
    .ite (fun _ => .ok) fun _ => .ok

theorem gte_ends (a b : Decimal) : Among ends (a.gte b) := by
  unfold gte
  exact .ite (fun _ => .code nofun) fun _ => .ite (fun _ => .ok) fun _ => .ite (fun _ => .ok) fun _ =>
    .ite (fun _ => .ok) fun _ => .ok

theorem min_among (h : S .panic) (a b : Decimal) : Among S (a.min b) :=
  .bind (.unwrap h (lte_ends _ _)) fun _ _ => .ite (fun _ => .pure) fun _ => .pure

theorem max_among (h : S .panic) (a b : Decimal) : Among S (a.max b) :=
  .bind (.unwrap h (gte_ends _ _)) fun _ _ => .ite (fun _ => .pure) fun _ => .pure

theorem powLoop_among (h : S .panic) : ∀ (k exp : Nat) (b r : Decimal), exp < 2 ^ k → Among S (powLoop k exp b r) := by
  intro k
  induction k with
  | zero =>
    intro exp b r he
    have : exp = 0 := by simpa using he
    subst this
    rw [powLoop_zero]; exact .ok
  | succ k ih =>
    intro exp b r he
    by_cases h0 : exp = 0
    · subst h0; rw [powLoop_zero]; exact .ok
    rw [powLoop, if_neg h0]
    exact .bind (.ite (fun _ => mul_among h _ _) fun _ => .ok) fun _ _ => .bind (mul_among h _ _) fun _ _ =>
      ih _ _ _ (by rw [pow_succ] at he; omega)

end Decimal

namespace PoolMath

open Decimal

theorem tickToRp_among (h : S .panic) {t : Nat} (ht : t < 2 ^ 128) : Among S (tickToRp t) := by
  rw [tickToRp_eq, powInt_eq _ (by decide)]
  exact powLoop_among h _ _ _ _ ht

theorem liqXOnly_among (h : S .panic) (x a b : Decimal) : Among S (liqXOnly x a b) :=
  .bind (.unwrap h (sub_ends _ _)) fun _ _ => .ite (fun _ => .panic h) fun _ => .bind (mul_among h _ _) fun _ _ =>
    .bind (mul_among h _ _) fun _ _ => div_among h _ _

theorem liqYOnly_among (h : S .panic) (y a b : Decimal) : Among S (liqYOnly y a b) :=
  .bind (.unwrap h (sub_ends _ _)) fun _ _ => .ite (fun _ => .panic h) fun _ => div_among h _ _

theorem liqFromXYRpRng_among (h : S .panic) (x y rp a b : Decimal) : Among S (liqFromXYRpRng x y rp a b) :=
  .bind (.unwrap h (lte_ends _ _)) fun _ _ => .ite (fun _ => liqXOnly_among h _ _ _) fun _ =>
    .bind (.unwrap h (lt_ends _ _)) fun _ _ => .ite (fun _ => .bind (liqXOnly_among h _ _ _) fun _ _ =>
      .bind (liqYOnly_among h _ _ _) fun _ _ => min_among h _ _) fun _ => liqYOnly_among h _ _ _

theorem xFromLRpRng_among (h : S .panic) (l rp a b : Decimal) : Among S (xFromLRpRng l rp a b) := by
  unfold xFromLRpRng
  exact .ite (fun _ => .panic h) fun _ => .bind (min_among h _ _) fun _ _ => .bind (max_among h _ _) fun _ _ =>
    .bind (.unwrap h (sub_ends _ _)) fun _ _ => .bind (mul_among h _ _) fun _ _ => .bind (mul_among h _ _) fun _ _ =>
      div_among h _ _

theorem yFromLRpRng_among (h : S .panic) (l rp a b : Decimal) : Among S (yFromLRpRng l rp a b) :=
  .bind (min_among h _ _) fun _ _ => .bind (max_among h _ _) fun _ _ =>
    .bind (.unwrap h (sub_ends _ _)) fun _ _ => .ite (fun _ => .panic h) fun _ => mul_among h _ _

end PoolMath

namespace Bitmap

theorem index_among (h : S .panic) (k : Int) : Among S (index k) := by
  unfold index; exact .ite (fun _ => .ok) fun _ => .panic h

theorem bit_among (h : S .panic) (k : Int) : Among S (bit k) := by
  unfold bit; exact .ite (fun _ => .ok) fun _ => .panic h

theorem activateTick_among (h : S .panic) (b : Bitmap) (t : Int) : Among S (b.activateTick t) :=
  .bind (index_among h _) fun _ _ => .bind (bit_among h _) fun _ _ => .pure

theorem unsetTick_among (h : S .panic) (b : Bitmap) (t : Int) : Among S (b.unsetTick t) :=
  .bind (index_among h _) fun _ _ => .bind (bit_among h _) fun _ _ => .pure

end Bitmap

namespace OnChain

open Decimal PoolMath

theorem feeBelowAbove_among (h : S .panic) (t g : Nat) (a b : Decimal) : Among S (feeBelowAbove t g a b) :=
  .bind (.unwrap h (sub_ends _ _)) fun _ _ => .ite (fun _ => .pure) fun _ => .pure

theorem feeWithinRange_among (h : S .panic) (l u g : Nat) (a b c : Decimal) : Among S (feeWithinRange l u g a b c) := by
  unfold feeWithinRange
  refine .bind (feeBelowAbove_among h _ _ _ _) fun _ _ => .bind (feeBelowAbove_among h _ _ _ _) fun _ _ =>
    .bind (.unwrap h (add_ends _ _)) fun _ _ => .bind (.unwrap h (add_ends _ _)) fun _ _ => .bind ?_ fun _ _ =>
    .bind (.unwrap h (sub_ends _ _)) fun _ _ => .unwrap h (sub_ends _ _)
  unfold rassert
  exact .ite (fun _ => .ok) fun _ => .error h

theorem latestFeeOf_among (h : S .panic) (sel : Fee → Nat) (l u g : Nat) (a b c : Fee) (s : Nat) :
    Among S (latestFeeOf sel l u g a b c s) :=
  .bind (feeWithinRange_among h _ _ _ _ _ _) fun _ _ => .bind (toScale_among h _ _) fun _ _ => .pure

theorem computeLatestFee_among (h : S .panic) (l u g : Nat) (a b c : Fee) (s : Nat) :
    Among S (computeLatestFee l u g a b c s) :=
  .bind (latestFeeOf_among h _ _ _ _ _ _ _ _) fun _ _ => .bind (latestFeeOf_among h _ _ _ _ _ _ _ _) fun _ _ =>
    .bind (latestFeeOf_among h _ _ _ _ _ _ _ _) fun _ _ => .bind (latestFeeOf_among h _ _ _ _ _ _ _ _) fun _ _ => .pure

theorem feeTerm_among (h : S .panic) (a b s t : Nat) : Among S (feeTerm a b s t) :=
  .bind (u128_among h _) fun _ _ => toScale_among h _ _

theorem updateTick_ends (ts : Tick) (t : Nat) (d : Decimal) (up : Bool) : Among ends (updateTick ts t d up) := by
  unfold updateTick
  exact .ite (fun _ => .code nofun) fun _ => .bind (toScale_among nofun _ _) fun _ _ =>
    .bind (.unwrap nofun (add_ends _ _)) fun _ _ => .bind (toScale_among nofun _ _) fun _ _ =>
    .bind (.unwrap nofun (add_ends _ _)) fun _ _ => .ite (fun _ => .code nofun) fun _ => .pure

theorem updatePosition_ends (ps : Position) (l u : Tick) (d : Decimal) (a b : Nat) (f : Fee) :
    Among ends (updatePosition ps l u d a b f) := by
  unfold updatePosition
  exact .bind (toScale_among nofun _ _) fun _ _ =>
    .bind (.unwrap nofun (add_ends _ _)) fun _ _ => .ite (fun _ => .code nofun) fun _ =>
    .bind (.unwrap nofun (updateTick_ends _ _ _ _)) fun _ _ => .bind (.unwrap nofun (updateTick_ends _ _ _ _)) fun _ _ => .pure

theorem load_among (h : S (.code .anchorConstraint)) {α : Type} (o : Option α) : Among S (load o) := by
  cases o with
  | none => exact .code h
  | some a => exact .ok

theorem constraint_among (h : S (.code .anchorConstraint)) (b : Bool) : Among S (constraint b) := by
  unfold constraint; exact .ite (fun _ => .ok) fun _ => .code h

namespace World

theorem loadAccounts_among (h : S (.code .anchorConstraint)) (w : World) (lp : Nat) (p : PoolAcc) (c : Accounts)
    (lower upper current : Nat) : Among S (loadAccounts w lp p c lower upper current) := by
  unfold loadAccounts
  exact .bind (load_among h _) fun _ _ => .bind (load_among h _) fun _ _ => .bind (constraint_among h _) fun _ _ =>
    .bind (load_among h _) fun _ _ => .bind (constraint_among h _) fun _ _ =>
    .bind (load_among h _) fun _ _ => .bind (constraint_among h _) fun _ _ =>
    .bind (load_among h _) fun _ _ => .bind (constraint_among h _) fun _ _ => .bind (constraint_among h _) fun _ _ =>
    .bind (load_among h _) fun _ _ => .bind (load_among h _) fun _ _ => .bind (constraint_among h _) fun _ _ =>
    .bind (load_among h _) fun _ _ => .bind (constraint_among h _) fun _ _ =>
    .bind (load_among h _) fun _ _ => .bind (load_among h _) fun _ _ => .bind (load_among h _) fun _ _ =>
    .bind (load_among h _) fun _ _ => .bind (constraint_among h _) fun _ _ => .pure

theorem spend_among (h : S (.code .tokenError)) (a : Token) (who : Party) (n : Nat) : Among S (spend a who n) := by
  unfold spend
  split
  · exact .ite (fun _ => .ite (fun _ => .code h) fun _ => .pure) fun _ => .ite (fun _ => .pure) fun _ => .code h
  · exact .ite (fun _ => .pure) fun _ => .code h

theorem transfer_among (h1 : S (.code .anchorConstraint)) (h2 : S (.code .tokenError)) (w : World) (a b : Addr) (who : Party)
    (n : Nat) : Among S (w.transfer a b who n) := by
  unfold transfer
  exact .bind (load_among h1 _) fun _ _ => .bind (load_among h1 _) fun _ _ => .ite (fun _ => .code h2) fun _ =>
    .ite (fun _ => .code h2) fun _ => .ite (fun _ => .code h2) fun _ => .bind (spend_among h2 _ _ _) fun _ _ =>
    .ite (fun _ => .pure) fun _ => .ite (fun _ => .pure) fun _ => .code h2

theorem mintTo_among (h1 : S (.code .anchorConstraint)) (h2 : S (.code .tokenError)) (w : World) (m : Nat) (b : Addr)
    (who : Party) (n : Nat) : Among S (w.mintTo m b who n) := by
  unfold mintTo
  exact .bind (load_among h1 _) fun _ _ => .bind (load_among h1 _) fun _ _ => .ite (fun _ => .code h2) fun _ =>
    .ite (fun _ => .code h2) fun _ => .ite (fun _ => .code h2) fun _ => .ite (fun _ => .pure) fun _ => .code h2

theorem burn_among (h1 : S (.code .anchorConstraint)) (h2 : S (.code .tokenError)) (w : World) (m : Nat) (b : Addr)
    (who : Party) (n : Nat) : Among S (w.burn m b who n) := by
  unfold burn
  exact .bind (load_among h1 _) fun _ _ => .bind (load_among h1 _) fun _ _ => .ite (fun _ => .code h2) fun _ =>
    .ite (fun _ => .code h2) fun _ => .ite (fun _ => .code h2) fun _ => .bind (spend_among h2 _ _ _) fun _ _ =>
    .ite (fun _ => .pure) fun _ => .code h2

end World

end OnChain

end

end Hmm
