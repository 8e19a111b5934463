/-
Primitive notions used by every model file: failure, and the fixed-width integer operations of
Rust that the repository uses.
-/

namespace Hmm

/-- The error codes that modelled functions return as `Err(..)`.
`decimal.rs` 13-29 (first seven), `errors/mod.rs` of the Anchor program (the next seven), and two
catch-alls for the framework. -/
inductive Code where
  | parseError
  | parseErrorEmpty
  | parseErrorBase10
  | differentScale
  | exceedsRange
  | exceedsPrecisionRange
  | signedDecimalsNotSupported
  -- on-chain program, `errors/mod.rs` 17-36
  | negativePositionLiquidity
  | negativeDepositLiquidity
  | negativeGlobalLiquidity
  | insufficientPositionLiquidity
  | negativeTickGrossLiquidity
  | tickMismatch
  | depositAmountExceeded
  -- failures raised by Anchor's account checks and by the token program
  | anchorConstraint
  | tokenError
  deriving DecidableEq, Repr

/-- How a call can fail: a Rust panic, or a returned error code.  `diverge` is not a Rust outcome: it
marks that a loop of the model used up its bound; theorems show that it never comes out. -/
inductive Err where
  | panic
  | code (c : Code)
  | diverge
  deriving DecidableEq, Repr

/-- Result of a modelled Rust call. -/
abbrev R (α : Type) := Except Err α

/-- Equality of results is decidable (used for concrete cases only). -/
instance instDecEqExcept {ε α : Type} [DecidableEq ε] [DecidableEq α] : DecidableEq (Except ε α)
  | .ok a, .ok b => if h : a = b then isTrue (by rw [h]) else isFalse (by intro h'; cases h'; exact h rfl)
  | .error a, .error b =>
    if h : a = b then isTrue (by rw [h]) else isFalse (by intro h'; cases h'; exact h rfl)
  | .ok _, .error _ => isFalse (by intro h; cases h)
  | .error _, .ok _ => isFalse (by intro h; cases h)

/-- A Rust panic. -/
def rpanic {α : Type} : R α := .error .panic

/-- `return Err(ErrorCode::c)`. -/
def rerr {α : Type} (c : Code) : R α := .error (.code c)

/-- `Result::unwrap` / `expect`: an error code becomes a panic. -/
def unwrap {α : Type} : R α → R α
  | .ok a => .ok a
  | .error .diverge => .error .diverge
  | .error _ => .error .panic

/-- `assert!(b)` / `if !b { panic!() }`. -/
def rassert (b : Bool) : R Unit := if b then .ok () else .error .panic

/-- Number of values of `u128`. -/
def u128Size : Nat := 2 ^ 128

/-- Number of values of `u64`. -/
def u64Size : Nat := 2 ^ 64

/-- A mathematical result stored in a `u128` by a checked operation: panics when it does not fit. -/
def u128 (n : Nat) : R Nat := if n < u128Size then .ok n else .error .panic

/-- A mathematical result stored in a `u64` by a checked operation. -/
def u64 (n : Nat) : R Nat := if n < u64Size then .ok n else .error .panic

/-- `u128::checked_add(..).expect(..)`; also plain `+` with overflow checks on. -/
def checkedAdd (a b : Nat) : R Nat := u128 (a + b)

/-- `u128::checked_mul(..).expect(..)`. -/
def checkedMul (a b : Nat) : R Nat := u128 (a * b)

/-- `u128::checked_sub(..).expect(..)`; also plain `-` with overflow checks on. -/
def checkedSub (a b : Nat) : R Nat := if b ≤ a then .ok (a - b) else .error .panic

/-- `u128::checked_div(..).expect(..)`: panics on a zero divisor. -/
def checkedDiv (a b : Nat) : R Nat := if b = 0 then .error .panic else .ok (a / b)

/-- `10u128.pow(k)` with overflow checks on (a release build would wrap instead of panicking;
see DESIGN.md). -/
def pow10 (k : Nat) : R Nat := u128 (10 ^ k)

end Hmm
