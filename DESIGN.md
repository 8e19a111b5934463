# Formal model of hmmcl-sandbox in Lean 4

The source is `/repo` (Rust), read as text; nothing of it is built or run. The model lives in
`lean/Verif/Model`, one Lean definition per Rust function, each with a comment that cites the file
and lines it models and the simplifications made. Layout of `lean/Verif`:

| directory | contents |
|-----------|----------|
| `Model/`  | the model, computable total functions |
| `Spec/`   | small specifications independent of the model's helpers: rational values, exact formulas, sets of ticks, histories |
| `Proofs/` | lemmas |
| `Props/`  | the property theorems `Cnn_...`, each next to a concrete case that meets its hypotheses |
| `Tests/`  | sample pools for those cases; `Conformance.lean` replays the repository's own tests on the model |

Statements of the properties are in `properties.jsonl`; `MANIFEST.json` says for each which theorems
prove it and whether they prove all of it. A property that is false of the code is `partial`: its
negation is proved with a concrete witness (`Cnn_false`), and the part that does hold is proved as
`Cnn_..._partial`.

## How Rust is modelled

* `u128`, `u64`, `u8`, `i32` values are natural numbers or integers. Every operation that can
  overflow carries an explicit bound check, so wrap-around is never silently assumed away.
* A function that can fail returns `Except Err α`. `Err.panic` stands for a Rust panic (`expect`,
  `unwrap`, `panic!`, `assert!`, checked overflow, index out of bounds, division by zero);
  `Err.code c` for a returned `Err(ErrorCode::c)`; `unwrap` turns a code into a panic.
  `Err.diverge` marks exhausted fuel of a loop and is shown unreachable (C10, C14, C24, C37).
* `&mut self` methods return the new state. After a panic there is no state: for the on-chain
  program that is transaction atomicity; for the in-memory pool the process (or test) ends.
* Plain `+`, `-`, `pow` on integers are modelled as in a build with overflow checks (the profile of
  the repository's tests): overflow is a panic. The release build that is deployed wraps instead
  (`Cargo.toml` sets no `overflow-checks`). `Release.lean` models the on-chain program in that build; C114 proves that the
  two do the same on every reachable ledger. `ReleasePool.lean` and `ReleaseFloat.lean` do so for `cl_pool` and `cl_pool_float`; C140 and C141 prove that the
  two do the same except for a sale of X in a pool that uses tick 0: a statement that such a sale panics is about the
  checked build.
* Doubles (`cl_pool_float`) are IEEE 754 binary64, defined in `F64.lean` on exact integers: `+ - * /`,
  `sqrt`, `floor`, `ceil`, comparisons and conversions as the standard fixes them, with NaN,
  infinities and signed zeros. `powf` and `ln`, which the standard leaves to the platform, are a
  parameter `LibM` of every theorem, some of which assume it is accurate (`LibM.Accurate`, inhabited by
  `someLib_accurate`); witnesses of false properties use a concrete one
  (`Tests/FloatSample.lean`, accurate to more than 53 digits before the final rounding).
* In the decimal code floating point occurs in one place that matters, `Decimal::bit_length` (`f64::log2`), reached by
  `ln`, `PoolMath::rp_to_tick` and the HMM formulas for C = 1. It is a parameter `FloatEnv` of those
  functions, an arbitrary function: theorems hold whatever it returns. `LnFloat.lean` models the step itself on
  doubles (`Decimal.floatLog`), for the theorems that assume an accurate math library (C79, C98, C100).
* `HashMap`/`BTreeMap` are association lists with one entry per key (sorted for the tree map; that
  this is kept is proved, C38). Iteration over a `HashMap` does not occur in the modelled code.
* Loops are recursive functions with fuel; `Verif/Spec/Swap.lean` gives a second, relational and
  fuel-free, reading of the swap loops that the functions are proved equal to (C37).
* `println!`, `msg!`, `emit!` are dropped; arithmetic in their arguments is kept where it can fail.

## What is modelled

| source file | model | not modelled |
|-------------|-------|--------------|
| `src/decimal.rs` 1-1104 | `Decimal.lean`, `DecimalText.lean`, `Ln.lean`, `LnFloat.lean`: all arithmetic, comparisons, conversions, `pow`, `sqrt`, `ln`, parsing, printing | serde derives |
| `src/cl_pool/cl_math.rs` | `PoolMath.lean`: all functions | - |
| `src/cl_pool/cl_components.rs`, `src/cl_pool/mod.rs` | `Pool.lean`: creation, deposit, withdrawal, both swaps, tick and position books, fees, HMM adjustment | `show` and other printing |
| `src/state/tick_bitmap.rs` | `Bitmap.lean`: all functions | - |
| `src/lib.rs`, `src/instructions/*.rs`, `src/state/*.rs` | `OnChain.lean`: all six instructions as a transition system with any number of users, ticks and positions; `World.lean`: the same with any number of pools on one ledger and the token program | `archive.rs` (commented out), events |
| the on-chain program built without overflow checks | `Release.lean`: the functions that contain a plain operator, and the instructions that call them | |
| `cl_pool` built without overflow checks | `ReleasePool.lean`: the functions that contain a plain operator or call one that does | |
| `cl_pool_float` built without overflow checks | `ReleaseFloat.lean`: the functions that reach the one plain integer operator | |
| `src/cl_pool_float/` (an `f64` twin of `cl_pool`) | `F64.lean` (doubles), `FloatPool.lean`: all functions | printing, token names |
| `src/cl_python/v3_pool.py` (the Python prototype) | `Proto.lean`: the pool with creation, deposit, withdrawal and both swaps, exceptions without rollback; `ProtoEnds.lean`: the helpers the pool does not call | printing, token names |
| TypeScript, notebooks | - | all (the TypeScript test's numbers are replayed in `Conformance.lean`, the notebooks' in `ProtoConformance.lean`) |

Assumptions about Solana and Anchor, all in the comments of `OnChain.lean`: program-derived addresses
are injective in their seeds, so accounts are maps keyed by seeds; a failing instruction changes
nothing; each account of an instruction is loaded into its own copy and the mutable copies are
written back in the order of declaration (this is what makes an account passed twice lose an update,
C55, C56); the token program moves exact balances and refuses overdrafts; X, Y and LP are different
mints; other programs may move users' tokens between users (`External`) but not touch the vaults or
the accounts owned by the program. Not modelled: rent, compute limits.

`World.lean` drops the assumptions about mints and `External`: mints are shared as the program permits, the token
program is modelled with owners, delegates, mint and freeze authorities, freezing and closing, and anybody may send it
any of these instructions at any time. C104 proves that every pool on such a ledger is in a state of `OnChain.lean`.
What the SPL token program does is taken from its documentation; its code is not in the repository.

## Testing the model and the theorems

* `Tests/Conformance.lean` replays the repository's unit tests (`decimal.rs`, `tests/decimal_*.rs`,
  the bitmap tests and the numbers of the TypeScript test) on the model with `#guard`.
* `Tests/FloatConformance.lean` replays the tests of the `f64` pool (`tests/float_*.rs`), bit for bit.
  The operations of `F64.lean` were also compared with the hardware's on random pairs of doubles
  (in a scratch file, no mismatch).
* `seeded/LOG.jsonl` records wrong programs: each line is a realistic bug seeded into a scratch copy
  of the model, the claim it breaks, and the theorems that no longer hold. Bugs that no theorem
  noticed led to new or tighter theorems, which the line names.

## Where the code disagrees with what one would expect

Each line is proved, with the witness evaluated by the kernel. None of this is changed in `/repo`.

Decimals:
* C07: `to_scale_up` drops the sign: rounding up a negative decimal makes it positive.
* C08: negative zero exists (any product with a zero and a negative factor) and is less than zero and unequal to it.
* C11: `sqrt` of a negative decimal returns the negated root of its magnitude.
* C13: integer powers of negative bases have the opposite sign of what they should have.
* C14: a superfluous last squaring makes `pow` panic although the result is representable.
* C16: scientific notation with more fraction digits than the exponent cuts digits off.
* C77: `.+5` is read as 0.05, `--5e1` as -50, `1e-256` as 1.
* C78: with one decimal place 0.25 is cut to 0.2, so 16.0 ^ 0.2 is 2.0.

Pool formulas:
* C28: the X needed for a deposit can exceed the X offered, since a divisor is rounded down; `deposit` then panics.
* C33: for the same reason the pool may pay out more X than the exact amount for a price move.
* C79: with exponent 1 the oracle-adjusted change of Y has the wrong sign.

In-memory pool:
* C39: a swap that ends exactly on the lower bound of a position records the tick below it but keeps the
  liquidity active; the next swap counts the liquidity twice (`C39_double`). Consequences: reserves
  short by most of a position (C69), which then cannot be withdrawn (`C69_stuck`), and traders gain
  from a round trip (C72).
* C135: a sale of X in two parts, the first ending exactly on the lower end of a position, is paid more than in one go.
* C42, C43: a new position's fee record starts at zero instead of the growth inside its range, so a
  deposit followed at once by its withdrawal collects fees of others.
* C44: growth below an uninitialised tick is taken as all growth, so a deposit from an unused tick to a
  used one can panic.
* C45: with spacing above one, a swap can leave the tick off the grid, after which every sale of Y panics.
* C69, C71: deposits are rounded one by one, so the reserves can be short by units of the twelfth
  place; a sale that would need the last unit panics instead of being filled.
* C80: exponents below one, at one, and others not in {1.25, 1.5, 2} are accepted when a pool is
  created, but a sale against the oracle then panics.
* C64: a sale of X that ends exactly on the lower bound of a position stores the tick below the bound without
  flipping its fee record: the growth inside the range falls to zero and the provider's next withdrawal pays
  no fees, although the fee pot holds them (`C64_false`, `C64_forfeit`).

On-chain program:
* C55, C56: for ranges bounded by the pool's own tick the tick account is passed twice, one update is
  lost, and the deposit can never be withdrawn.
* C59: debits are rounded down, so one user can take a token another paid in. With small offers this can be
  repeated at no cost: five offers of one X pay nothing and get LP tokens worth 4 X (`C145_unpaid`).
* C61: the handlers set and clear bits 0 and 40000 whatever the range is.

Pool on doubles:
* C81: after withdrawals of fractional liquidity `update_tick` leaves rounding residues, so ticks stay
  initialised without positions.
* C82: for the same reason the last user may be unable to withdraw (`rounded_stuck`); and `fee_rng`
  asserts an equality of doubles that can fail, after which a position is locked (`fees_stuck`).
* C83: as C42, a new position starts with a zero fee record.
* C84: a deposit of (0, 0) into a range of width zero above the price makes the reserves NaN; all later
  swaps panic or exchange nothing.
* C87: the parts of a swap can add up to one unit of the last place more than the offer; with fee rates
  above one half a sale can panic because of rounding alone (`rounding_panics`).
* C93: a sale of X that crosses a lower bound with less left than moves the price recomputes the tick from the
  price and records the bound itself: the range it has just left counts as in range again although its liquidity
  has been taken out. The provider's withdrawal and all later sales across the bound panic (`edged_pool`).
* C96: `rp_to_tick(tick_to_rp(t))` can be `t - 1`, even with a perfectly rounding library (t = 2, 3, 8, 9, 17, 18,
  20, ...): a provider who asks for a range starting at the price of tick 20 gets one from tick 10 (`back_false`).
* C97: `dy_from_l_drp_hmm` has the wrong sign for `c = 1` (`ln(rp_old / rp_new)` where `ln(rp_new / rp_old)` is needed;
  the formula for X is right). In a pool with `c = 1` a sale of X that starts above the oracle's price panics, or, if it
  ends below, pays the trader the lower part minus the upper part: 1643 Y instead of 4990 in `one_false`.
* C98: `Decimal::ln` divides by a power of two that it computes with six places. For arguments between 2^-48 and 2^-19 that
  power is 0 and the division panics; for 0.0000038 it has one digit, and the result is off by more than 0.4. Just below a
  power of two the double rounds up to the power: 8191.999999999999 gives 9.1072 for 9.0109.
* C99: `Into<f64> for Decimal` drops the sign. `Into<i32>` ignores the scale (1.5 becomes 15), cuts to 32 bits
  (4294967301 becomes 5) and panics for -2147483648.
* C100: `PoolMath::rp_to_tick` does not round up from left to right (the rounding-up division divides numbers that are
  cut to a whole number afterwards), and drops the sign of the logarithm: root price 0.6 gives a tick above 7000.
* C101: after a sale of X that ends exactly on the lower bound of the only position, the pool counts its liquidity twice
  (see C39), and the position earns half of the fee of the next sale of Y; the other half stays in the pot for ever.
* C102: owner 3 deposits into a range whose lower bound is in use and withdraws at once, collecting fees earned before
  (see C42); owner 1 withdraws. Then every withdrawal and deposit of owner 2 panics, whatever the amounts: the pot is
  short of the fees due to the position, so the tokens are locked until enough new fees come in.
* C103: two owners deposit and one X is sold. Whoever of the two withdraws everything first, the withdrawal of the
  other panics: rounding has left the reserve of X some billionths short. The last owner has to leave some dust behind.
* C109: `initialize_pool` does not check that the LP mint differs from the X and Y mints. In a pool whose X is its own LP
  token a user without X deposits X: the LP tokens are minted first and pay for the deposit.
* C110: `initialize_pool` does not look at the freeze authority of the LP mint, so its holder can stop any withdrawal by
  freezing the LP tokens (`C110_false`). A withdrawal of somebody else can leave the vault one token short, as in C59, and
  then a withdrawal of everything fails that succeeded before (`C110_drained`).
* C113: deposits are rounded down one by one, so two deposits into one position can make it worth one token more than was
  paid (`C113_false`; the cause of C59 and `C110_drained`). First deposits and withdrawals never do.
* C115: `10u128.pow(scale)` wraps in a build without overflow checks. A scale of more than 38 then gives wrong numbers
  instead of a panic: a product of 3.4e-48 comes out as 45, and 1 rescaled to 128 places as 0. The program itself only
  uses scales 0 and 12 (C114).
* C118: `rpb_from_l_rp_x` asserts that its result is not negative, but `is_negative` is false for minus zero. With more X
  than the liquidity can hold and a quotient below one unit of the last place (for example liquidity 0, price 4, X 5) it
  returns minus zero as the upper bound of the range.
* C119: selling the smallest amount of X (1e-12) with a fee rate of 0.003 is all fee, but `rp_new_from_l_dx` still rounds the
  root price down by one unit of the last place and pays liquidity times that: in a pool with liquidity 59953 the trader
  gets 59953e-12 Y for 1e-12 X at a price of 1.002. The check of the average price in `swap_within_x` is skipped because
  `done_dx` is zero.
* C120: `dx_from_l_drp` rounds numerator and denominator separately, so a larger sale of Y can be paid less X. In a pool
  with liquidity 0.7 and no fee, selling 200049178e-12 Y pays 199592516e-12 X and selling 200049179e-12 Y pays
  199592515e-12 X.
* C122: `x_from_l_rp_rng` divides by a product of root prices that was rounded down, so the X computed for the liquidity
  that an offer of X buys exceeds the offer, and `deposit` refuses it (`DepositAmountExceeded`). It happens as soon as the
  offer times the remainder of the product reaches a few units, so for nearly every offer of X above the pool's price, and
  inside the range when X is the scarcer token: 20 X between ticks 25 and 30 of a pool at tick 20 are refused, because
  20.000000000003 X are computed; 10 are accepted.
* C123: the same in the pools in memory, where it is a panic: every offer of 5 or more whole X between ticks 40 and 50 of
  a pool at tick 19 fails.
* C124: `initialize_pool` does not use its argument `bootstrap_rp`; the price of a new pool is that of its tick.
* C126: `deposit` and `withdraw` call `update_position(..).unwrap()`, so a withdrawal of more than the position holds panics
  instead of reporting `InsufficientPositionLiquidity`; of the program's error codes only `DepositAmountExceeded` is ever reported.
* C127: the prototype computes the root price of a tick as `1.0001 ** (tick / 2)`, the Rust pool as a power of the rounded square
  root of 1.0001, which differ by about 1e-11 at the ticks of the notebooks.  Past tick zero the prototype goes on with negative
  ticks; the Rust pool panics.
* Some outputs recorded in the notebooks come from an earlier version: they use 1e-8 where `v3_pool.py` has 1e-12 for
  `ADJ_WHOLE_FILL`.  `ProtoConformance.lean` replays the amounts sent through the formulas with the recorded factor.
* C128: the prototype prices deposits and withdrawals at the price of the pool's tick, not at the pool's price; the withdrawal in
  cells 16 and 17 of `pool_hmm.ipynb` leaves a reserve of -0.000139 X.
* C129: `_set_position` of the prototype records the position before it asserts that fees are not negative.  After sales above a
  range, a deposit from a new lower tick up to the end of that range raises and leaves a position for which nothing was paid; once
  enough fees have come in, it can be withdrawn in full.  With an oracle price a rounding error below the end of a range, a sale
  raises (`adj < 0`) after its first range has been traded.
* C130, C131: since the prototype takes the tick's price for the pool's, a deposit after a sale within a tick is not the Rust
  pool's: in the pool of the notebooks, after selling 0.0001 ETH, an offer of 2000000 X and 4000000000 Y is taken for
  1999999.9978 X and 3999270105 Y by the one and for 1999474.99 X and 3999999992.6 Y by the other.
* C140: `cross_tick` computes `provided_tick - 1` on a `u128`. With overflow checks a sale of X that crosses tick 0 panics; without
  them the pool's tick becomes 2^128 - 1 and the sale goes on from the top of the ranges (`C140_past_bottom`: an offer one unit
  larger than the pool can take empties the pool of Y, leaves the price higher than before, and neither owner can withdraw).
* C141: the same in the floating-point pool, on a `u32` (`C141_past_bottom`). Its withdrawals are not checked against the
  reserves: the owner is then paid Y that the pool does not have, and the reserve of Y becomes negative.
* C148: each deposit is rounded down by itself, so that many small deposits into one position, taken out together, bring
  more than was put in: three units of the last decimal of X for three deposits.
## Properties

How each is proved; names are in `MANIFEST.json`.

| id | property | status | file | remarks |
|----|----------|--------|------|---------|
| C01 | Addition and subtraction are exact | proved | DecimalArith.lean |  |
| C02 | Multiplication truncates toward zero and never wraps | proved | DecimalArith.lean |  |
| C03 | Division truncates toward zero and never wraps | proved | DecimalArith.lean |  |
| C04 | Round-up variants bracket the exact result | proved | DecimalArith.lean |  |
| C05 | Multiply/divide round trips never create value | proved | DecimalArith.lean |  |
| C06 | Rescaling is lossless upward and truncating downward | proved | DecimalArith.lean | A single downward step of more than 38 digits panics where two steps would return; stated in C06_down and C06_down_down. |
| C07 | Rounding-up rescale keeps the sign | partial | DecimalArith.lean | The property is false of the code: to_scale_up loses the sign of negative decimals. Proved: the refutation, the magnitude for all decimals, the full claim for non-negative ones. |
| C08 | Comparisons agree with the represented numbers | partial | CompareZero.lean, DecimalCompare.lean | False for negative zero, which ordinary multiplication produces. Proved: the refutation, and exactly which pairs are compared wrongly: every comparison is right except between the two zeros, and what those report is stated. |
| C09 | Comparisons are mutually consistent | proved | DecimalCompare.lean |  |
| C10 | Square root terminates and is within one unit in the last place | proved | Sqrt.lean |  |
| C11 | Square root of a negative number is refused | partial | Sqrt.lean | False of the code: the root of -4 is returned as -2. Proved: the refutation and what is returned for every negative decimal. |
| C12 | Integer powers have a proven error bound | proved | Pow.lean |  |
| C13 | Integer powers of negative bases have the right sign | partial | Pow.lean | False of the code: the sign of every power of a negative base is inverted. Proved: the refutation, the exact sign rule of the code, and the magnitude. |
| C14 | Integer powers return whenever the result is representable | partial | Pow.lean, PowWhen.lean | False of the code: one superfluous squaring panics. Proved: the refutation, a sufficient condition for returning, and exactly when a power is returned, for bases of every magnitude and scale. |
| C15 | Printing then parsing gives back the same decimal | proved | Text.lean |  |
| C16 | Scientific notation is parsed without losing digits | partial | Text.lean | False of the code: with a fraction longer than a positive exponent digits are cut. Proved: refutation, exactness in all other cases, and what is returned when digits are cut. |
| C17 | Integrality test is exact | proved | DecimalArith.lean |  |
| C18 | Division to a target scale is exact truncation | proved | DecimalArith.lean |  |
| C19 | Negation | proved | DecimalArith.lean |  |
| C20 | Integer-part conversions | proved | DecimalArith.lean |  |
| C21 | Tick prices exist exactly for ticks below 2^19 | proved | Ticks.lean |  |
| C22 | Tick prices are accurate | proved | Ticks.lean |  |
| C23 | Tick prices are strictly increasing | proved | Ticks.lean |  |
| C24 | Price-to-tick search terminates and brackets the price | proved | Ticks.lean |  |
| C25 | Tick -> price -> tick round trip | proved | Ticks.lean |  |
| C26 | Ticks are snapped to the spacing grid | proved | Ticks.lean |  |
| C27 | A deposit never needs more Y than offered | proved | PoolMath.lean |  |
| C28 | A deposit never needs more X than offered | partial | PoolMath.lean | False of the code: the divisor is rounded down, so the X needed can exceed the offer (10 X offered, 10.000000000001 needed). Proved: refutation and the exact rounding factor that bounds the excess. |
| C29 | Position amounts are monotone and superadditive in liquidity | proved | PoolMath.lean |  |
| C30 | Single-sided outside the range | proved | PoolMath.lean |  |
| C31 | Price step directions | proved | PoolMath.lean |  |
| C32 | Amounts of a price move are antisymmetric and correctly signed | proved | PoolMath.lean |  |
| C33 | Pool charges the trader rounding | partial | PoolMath.lean | Proved for Y. False of the code for X (divisor rounded down): refutation and the rounding factor that bounds the excess. |
| C34 | Swap conservation | proved | Swap.lean |  |
| C35 | A swap never takes more than offered | proved | Swap.lean |  |
| C36 | Reserves and pots never go negative | proved | History.lean |  |
| C37 | Swaps terminate | proved | Swap.lean | Stated over a relational, fuel-free reading of the loops (Verif/Spec/Swap.lean) and tied to the modelled functions. |
| C38 | Tick bookkeeping equals the positions | proved | History.lean |  |
| C39 | Active liquidity equals the in-range positions | partial | Active.lean | The property is false: Pool.C39_false gives a history where a swap ends exactly on the lower bound of a position, the recorded tick falls below it and the liquidity stays active; Pool.C39_double shows the next swap then counts it twice. Proved for all histories in which no completely filled swap ends within two millionths of a grid tick price. |
| C40 | Position isolation | proved | History.lean, Swap.lean |  |
| C41 | Withdrawal is limited to own liquidity | proved | History.lean |  |
| C42 | No profit from deposit then withdraw | partial | Fees.lean | False of the code: with the lower bound already in use a first deposit followed at once by its withdrawal collects fees of others (Pool.C42_false). Proved: the reserves never lose, and with an unused lower bound the whole payout is at most the deposit. |
| C43 | A new position earns no past fees | partial | Fees.lean | False of the code: the fee record of a new position starts at zero, not at the growth inside its range (Pool.C43_false). Proved for unused lower bounds, at once and through later histories that avoid the tick grid. |
| C44 | A valid deposit is accepted whatever ticks are in use | partial | Availability.lean | False of the code: fee_below_above counts all growth below an uninitialised tick, so a range from an unused tick to a used one can get a negative inside growth and panic (Pool.C44_false). Proved: the exact criterion for acceptance of a new position, and acceptance whenever the upper bound is unused. |
| C45 | Swaps work with any tick spacing | partial | Availability.lean | False of the code: with the tick off the grid every sale of Y panics (Pool.C45_blocked, Pool.C45_false). Proved: the goal search for sales of X always succeeds and is right; for sales of Y it is when the tick is on the grid. |
| C46 | Price direction in a swap step | proved | Swap.lean |  |
| C47 | Fee of a fully filled step | proved | Swap.lean |  |
| C48 | Fee growth flip on crossing is an involution | proved | History.lean |  |
| C49 | Tick bitmap is a set | proved | Bitmap.lean |  |
| C50 | Next-tick search to the right is exact | proved | Bitmap.lean |  |
| C51 | Next-tick search to the left is exact | proved | Bitmap.lean |  |
| C52 | On-chain fee split never trips its assertions and adds up | proved | OnChain.lean | Both sides of the assertion are shown to be the global growth. The growth inside is computed whenever the values are below 2^126; near 2^128 a subtraction can overflow, which is a panic. |
| C53 | On-chain fees and price are constant | proved | OnChain.lean |  |
| C54 | On-chain active liquidity equals the in-range positions | proved | OnChain.lean |  |
| C55 | On-chain tick bookkeeping equals the positions | partial | OnChain.lean | False for the account of the pool's own tick, which is written back unchanged (counterexample proved); proved for all other ticks. |
| C56 | On-chain deposited liquidity can be withdrawn | partial | OnChain.lean | False for ranges bounded by the pool's tick, where no withdrawal can ever succeed (proved); proved for all other ranges. |
| C57 | LP supply is backed by position liquidity | proved | OnChain.lean |  |
| C58 | On-chain deposit never debits more than offered | proved | OnChain.lean |  |
| C59 | On-chain deposits pay for what they get | partial | OnChain.lean | False: rounding down of debits lets a user take a token that another paid in (counterexample proved). Proved up to one token per deposit. |
| C60 | On-chain withdrawal authority | proved | OnChain.lean |  |
| C61 | On-chain bitmap reflects liquidity | partial | OnChain.lean | False: the handlers set and clear the bits 0 and 40000 whatever the range (counterexample proved). Proved: no other bit is ever set and a withdrawal clears all. |
| C62 | On-chain ranges are ordered and consistently labelled | proved | OnChain.lean |  |
| C63 | Fee records stay within the total growth | proved | Fees.lean |  |
| C64 | Fee growth inside an open range never falls | partial | Fees.lean, FeesEdge.lean | False of the code: a sale ending exactly on the lower bound of a position records the tick below without flipping the record, so the growth inside falls to zero (Pool.C64_false) and the provider loses the fees (Pool.C64_forfeit). Proved for all histories in which no completely filled swap ends within two millionths of a grid tick price. |
| C65 | A swap is filled unless liquidity ran out | proved | SwapOutcome.lean | That no liquidity is active after an unfilled sale is proved for the histories of C39 (elsewhere the recorded active liquidity is wrong). Oversized sales may also panic (see DESIGN.md). |
| C66 | The HMM adjustment only withholds output | proved | SwapOutcome.lean |  |
| C67 | No fee rate, no fee | proved | SwapOutcome.lean |  |
| C68 | The fee of a whole swap | proved | SwapOutcome.lean |  |
| C69 | The reserves cover the positions | partial | Solvency.lean | False of the code: by dust since each deposit is rounded down by itself (C69_false_dust), and by much after a swap that ended exactly on a tick (C69_false; the position can then not be withdrawn, C69_stuck). Proved for the histories of C39: the shortage is at most one unit of the twelfth place of Y, and cap + 2 units of X (cap bounding the total liquidity), for each deposit and swap step. |
| C70 | Swaps conserve what the positions hold | partial | Solvency.lean | False where the active liquidity is wrong (C70_false); proved for the histories of C39 with explicit dust bounds. |
| C71 | Oversized sales are filled as far as the liquidity goes | partial | Solvency.lean | False of the code: the reserve can be short of the last unit of the twelfth place and the sale panics (C71_false). Proved: if the Y reserve covers the positions, no step of a sale can lack Y. |
| C72 | Trading is never free | partial | Trades.lean | False of the code: after a swap that ended exactly on a tick the liquidity is counted twice and a trader gains (C72_false). Proved for the histories of C39, up to rounding dust for each swap and initialised tick. |
| C73 | A withdrawal pays the whole share | proved | Shares.lean |  |
| C74 | A deposit uses up an offer | proved | Shares.lean |  |
| C75 | Where a swap takes the price | proved | Price.lean |  |
| C76 | Deposits and withdrawals leave the market alone | proved | Market.lean |  |
| C77 | Only numerals are parsed, and to the number they denote | partial | Grammar.lean, GrammarAll.lean | False of the code: ".+5", "--5e1" and exponents that overflow the scale are misread (C77_false). C77_exact says for every text whether it is read and as which decimal. Only numerals, and those spoilt by a plus right after the point or by a second minus, are read; numerals are read as the number they denote up to 255 places, if the fraction is not longer than a positive exponent. |
| C78 | Powers with a decimal exponent | partial | PowDec.lean | False of the code for bases with one decimal place (C78_false). Proved for non-negative bases with at least two places; negative bases are C11, C13. |
| C79 | Amounts of an oracle-adjusted price move | partial | HmmLog.lean, HmmMath.lean | False of the code: for c = 1 the change of Y has the wrong sign (C79_false, C79_log_sign). Proved for c > 1 with explicit error bounds; for c = 1 and an accurate math library C79_log_near bounds the error of X, and of Y against the negative of the right amount, for root prices from 1/64 to 2^48 clear of the powers of two. |
| C80 | Every pool can be traded at every oracle price | partial | HmmSwap.lean | False of the code: pools with exponent 0.5, 1 and 1.1 can be created and funded, but refuse sales of X above the oracle price (C80_false). Proved: a step against the oracle moves the price only for the exponents 0, 1, 1.25, 1.5 and 2. |
| C81 | f64 pool: tick records are those of the positions | partial | FloatBooks.lean | False of the code: roundings of fractional withdrawals leave ticks that no position uses (books_false). Proved for every history, with swaps, in which withdrawals are of whole liquidity. |
| C82 | f64 pool: what a position holds can be withdrawn, and no more | partial | FloatActive.lean, FloatWithdraw.lean | Refusal is proved for every pool. Acceptance is false of the code: after fractional withdrawals by others, or when the fee growths of a range do not add up in doubles, a user cannot withdraw. Acceptance is proved for histories of deposits and whole withdrawals; with swaps that do not stop on an initialised tick, it is proved that all whole parts can be withdrawn if any (e.g. nothing) can. |
| C83 | f64 pool: fees are collected once | partial | FloatFees.lean | False of the code for a deposit that opens a position (collected_once_false). Proved for positions that existed before, and before any swap. |
| C84 | f64 pool: a deposit takes at most the offer and keeps the reserves numbers | partial | FloatNan.lean | False of the code: a deposit of nothing into a range of width zero above the price makes both reserves NaN and no swap exchanges anything afterwards (empty_deposit_stops_trading). Proved where the computed amounts are numbers. |
| C85 | f64 pool: ticks are moved to the grid exactly | proved | FloatTicks.lean |  |
| C86 | f64 pool: swaps end | proved | FloatEnds.lean |  |
| C87 | f64 pool: a swap takes the offer | partial | FloatTakes.lean | False of the code: a sale of 3.22 X takes one unit of the last place more (takes_offer_false). Proved up to a relative error of 3/2^53, for offers up to 2^1022, for every state. |
| C88 | f64 pool: what operations leave alone | proved | FloatFrame.lean |  |
| C89 | f64 pool: HMM only withholds part of what a swap pays | proved | FloatTwin.lean |  |
| C90 | f64 pool: deposits take what they buy | proved | FloatAmounts.lean |  |
| C91 | f64 pool: withdrawals pay what the liquidity is worth | proved | FloatAmounts.lean |  |
| C92 | f64 pool: a swap is a walk on constant-product curves | proved | FloatStage.lean |  |
| C93 | f64 pool: active liquidity equals the in-range positions | partial | FloatActive.lean | False of the code: when what is left of a sale after crossing a bound is too small to move the price, the tick is computed from the price again and falls back into the range just left; then a provider cannot withdraw and sales panic (edged_pool). Proved for every history, with swaps crossing any number of ticks, in which no swap stops on an initialised tick and deposits put ticks where price and current tick agree. |
| C94 | f64 pool: nothing is lost or created | proved | FloatLedger.lean | Rounds of a swap are counted by the fuel; by C86 a swap takes at most 2n+3 of them, n being the number of ticks. |
| C95 | f64 pool: what swaps report and refuse, how a pool starts | proved | FloatReport.lean |  |
| C96 | f64 pool: ticks and prices | proved | FloatPrices.lean | A stronger claim is false (back_false): with a library that rounds these values as well as possible, the price of tick 20 is read as tick 19, so a range asked to start there starts at tick 10 if the grid spacing is 10. |
| C97 | f64 pool: what the oracle's price costs the trader | partial | FloatOracle.lean, FloatOracleCase.lean | Missing: sales of X with c = 1, where the claim is false. one_false has a pool that panics where the same pool with c = 1/2 sells 5000 X for 4990 Y, and pays less than 1650 Y for the 5000 X if the oracle is nearer. sell_x_one says what such a sale pays: the oracle part counts against the trader, and a move that stays above the oracle price is impossible. Also missing: c > 2 or c < 0, and root prices outside 2^-50 .. 2^50. |
| C98 | The natural logarithm is accurate | partial | Ln.lean | False of the code: ln panics between 2^-48 and 2^-19 (C98_small_panics), is off by more than 0.4 for 0.0000038 (C98_small_wrong) and by 0.09 just below some powers of two (C98_below_power). Proved from 1/64 to 2^48 clear of the powers of two by one part in 2^40; with at most six places and below 2^20 that excludes nothing but the powers themselves. |
| C99 | Decimals as machine numbers keep their value | partial | Convert.lean | False of the code: the conversion to f64 drops the sign; the conversion to i32 ignores the scale, keeps the low 32 bits, and panics for -2147483648. Proved for non-negative decimals (f64) and whole numbers below 2^31 (i32); C99_i32 says exactly what the i32 is. |
| C100 | Ticks by logarithm | partial | RpToTick.lean | False of the code: the result is the same in both directions (C100_false) and root prices below one get the tick of their inverse (C100_below_one). C100_partial says what is returned: the distance in ticks from one, for root prices from 1/64 to 2^48 clear of the powers of two. |
| C101 | The fees of a swap go to the positions in range | partial | Earned.lean | False of the code: after a sale that ends exactly at the lower bound of a position its liquidity counts twice, and half of the next fee belongs to nobody (C101_false). Proved for histories without a swap ending within two millionths of a tick of the grid. |
| C102 | Fees due can be paid | partial | Earned.lean | False of the code: a first deposit at a lower bound in use can claim fees from before it (C102_false), and then an honest owner can neither withdraw nor deposit (C102_stuck). Proved, with bounds on the rounding, for histories in which first deposits begin at ticks not in use and no swap ends within two millionths of a tick of the grid. |
| C103 | Everyone can leave | partial | Leave.lean | False of the code: after two deposits and the sale of one X, whichever of the two owners leaves first, the withdrawal of the other panics (C103_false). Proved, for histories in which first deposits begin at ticks not in use and no swap ends within two millionths of a tick of the grid: any part the reserves can pay can be withdrawn, so can all but an explicit amount of dust, and everyone can leave when the reserves hold what the positions hold. |
| C104 | Every pool behaves like a pool alone on the ledger | proved | World.lean | The ledger with many pools refines the single pool of OnChain.lean. The bound on what a group takes out is that of C59_whole_partial; without the one token per deposit it is false (C59). |
| C105 | Pools do not touch each other | proved | World.lean, WorldApproved.lean |  |
| C106 | Exactly who pays and who receives | proved | World.lean |  |
| C107 | No token appears or disappears | proved | World.lean |  |
| C108 | A pool's identity is fixed | proved | World.lean |  |
| C109 | A deposit is paid with what the depositor has | partial | World.lean | False of the code: initialize_pool accepts the LP mint as X mint, and deposit mints the LP tokens before it takes X, so the minted tokens pay for the deposit (C109_false). Proved for pools whose X and Y mints are not their LP mint. |
| C110 | Others cannot block a withdrawal | partial | WorldOthers.lean | False of the code: whoever may freeze the LP mint can freeze the LP tokens (C110_false), and since deposits are rounded down, a withdrawal of somebody else can leave the vault one token short (C110_drained). Proved for withdrawals of a positive amount, mints without freeze authority, and any number of steps of others other than withdrawals from the pool. |
| C111 | Exactly when a withdrawal succeeds and what it pays | proved | WorldWhen.lean |  |
| C112 | f64 pool: a position is paid the growth inside its range | proved | FloatInside.lean |  |
| C113 | Ledger: the vaults cover the positions, and everybody can leave | partial | WorldCover.lean | False of the code: two deposits into one position are each rounded down, and the position is worth more than was paid (C113_false). Proved as long as nobody deposits into a position that has liquidity already; each such deposit costs at most two X and one Y of cover. |
| C114 | Ledger: the deployed program does what the checked one does | proved | Release.lean | Model/Release.lean repeats the functions that contain a plain operator with wrap-around. |
| C115 | Decimals without overflow checks | partial | Release.lean | False of the code: 10u128.pow wraps, so with more than 38 places numbers silently change. Proved for scales up to 38: every operation is the same in both builds and right. Also exactly when a product differs, and that 128 places make zero of everything. |
| C116 | Token amounts and decimals | proved | ScaledAmounts.lean |  |
| C117 | The amounts of a position follow the price | proved | RangeAmounts.lean | The X needed for an offer is bounded for offers of at most 1 X here and in general by C28. |
| C118 | The bounds of a range are recovered from its amounts | partial | RangeAmounts.lean | False of the code in its last sentence: when the quotient is cut off to zero (for example without liquidity) rpb_from_l_rp_x returns minus zero. C118_upper_none: that is the only value it can return then. The bound from both amounts and the upper bound (rpa_from_x_y_rp_rpb) is within the error of two products and two quotients, in both directions. |
| C119 | What a swap reports about prices | partial | Reports.lean | The reported prices are exact, and a seller of Y never gets a better deal, without restriction. False of the code for a seller of X: an offer that is all fee still moves the root price down by one unit of the last place and is paid for it. C119_sell_x_partial: a sale of X that stays in one range and takes anything besides the fee gets at most the old price. |
| C120 | A larger sale moves the pool further | partial | Larger.lean | Sales of X: as stated, in states in which the active liquidity is right (C39) and for fee rates of at most one. Sales of Y: the price and the Y as stated; false of the code for the X paid out, which may be less for the larger sale (liquidity 0.7: selling one unit of the last place more Y pays one less X). The bound is the rounding of a single step, 2(total liquidity + 2) units of the last place. |
| C121 | Exactly when a deposit on chain succeeds | proved | WorldBuy.lean | An equivalence: the conditions are necessary and sufficient. Compute budget and rent are not modelled. |
| C122 | An offer on chain is accepted if the user can pay all of it | partial | WorldBuy.lean | False of the code: 20 X between ticks 25 and 30 of a pool at tick 20 are refused. Proved: such a deposit is accepted exactly if the X computed for it does not exceed the offer; a condition on the offer and the root prices under which it always does, and one under which it never does. |
| C123 | An offer to a pool is accepted if nothing overflows | partial | Refused.lean | False of the code: every offer of at least 5 whole X between ticks 40 and 50 of the sample pool panics. Proved: such a deposit is accepted exactly if the X computed for it does not exceed the offer, and a condition on the offer and the root prices under which it always does. |
| C124 | Exactly when a pool on chain can be opened, and what is opened | proved | WorldOpen.lean | The signer and the bootstrap price given to initialize_pool do not matter. Rent is not modelled. |
| C125 | Everybody can provide liquidity to any pool | proved | WorldOpen.lean | For offers of which the X computed does not exceed the offer (see C122), and with room in the counters. |
| C126 | What a refused instruction reports | partial | Refusals.lean | The first sentence is false: the handler unwraps the result of update_position, so such a withdrawal panics, which C126_overdraw_partial states. The rest holds. |
| C127 | The Python prototype and the floating-point pool sell alike | proved | Proto.lean | The two codes compute the prices of ticks differently, so that with one and the same math library they differ (C127_prices_false). C127_library gives for every library of the prototype one for the floating-point pool under which the premise holds, if C is 0 or 1 or none of C, 1-C, C-1 is a whole number. C127_panics is a sale past tick zero that only the prototype carries out. |
| C128 | What is deposited in the Python prototype can be withdrawn | partial | ProtoCalls.lean | Only the first part holds. A withdrawal is priced at the price of the tick, not at that of the pool, and the one in the notebook leaves a negative reserve (C128_false); a new position starts with a fee record of zero and is paid fees of before (C128_fees_false). |
| C129 | A call of the Python prototype that raises has no effect | partial | ProtoCalls.lean | False: the prototype writes before it checks. What holds: a deposit or withdrawal that raises changes only records of ticks, the liquidity in use and positions of that user; a sale that raises changes no position and no parameter. C129_false: a deposit that raises leaves a position behind for which nothing was paid, and which is paid out later. C129_sale_false: a sale that raises in its second range has been carried out in the first. |
| C130 | The Python prototype and the floating-point pool take the same deposits | partial | ProtoDeposit.lean | Proved for pools whose price is that of their tick, ranges in order, deposits that take something, and as long as liquidities held as Python integers are doubles (below 2^53 they are). Without the first condition it is false: after a sale within a tick the prototype takes more X and less Y than the Rust pool (C130_false). |
| C131 | The Python prototype's deposits and withdrawals follow the tick | proved | ProtoDeposit.lean |  |
| C132 | The Python prototype and the floating-point pool pay withdrawals alike | partial | ProtoWithdraw.lean | Proved for pools whose price is that of their tick, whose tick records cover the withdrawal, for liquidity that is not zero and that is a double where it is a Python integer. Without the first condition it is false (C132_false). |
| C133 | The Python prototype and the floating-point pool have the same histories | partial | ProtoRun.lean | Proved for histories in which deposits come while the price is that of the tick of the pool (as before the first sale), with ranges in order that neither begin nor end at tick zero, that take something, and as long as liquidities held as Python integers are doubles. Without the first condition it is false (C133_false). |
| C134 | f64 pool and Python prototype: the ends of a range from its amounts | proved | FloatRangeEnds.lean, ProtoEnds.lean | C134_same_ticks: the same for the helpers that take ticks for prices. |
| C135 | A sale pays the same in one go or in parts | partial | Split.lean | False of the code where a part ends exactly on a tick: the liquidity below is then wrong (C39) and the parts are paid more than the whole (C135_false). Proved, with explicit dust, if every part starts in a state of the histories of C39. |
| C136 | Deposits for different positions can be made in any order | proved | Order.lean | Same records: equal as rationals for amounts, equal for keys, growth and price. C136_same_position shows that different positions are needed. |
| C137 | Withdrawals from different positions can be made in any order | proved | OrderLeave.lean | Same records as for C136. Ticks no longer used are removed in any order. C137_same_position shows that different positions are needed. |
| C138 | Withdrawals of different users from a pool on the ledger can be made in any order | proved | WorldOrder.lean | The withdrawals are of positive amounts. C138_same_user shows that different users are needed. |
| C139 | Deposits of different users into a pool on the ledger can be made in any order | proved | WorldGather.lean | C139_bitmap shows that the bitmap has to be left out, C139_same_user that different users are needed. |
| C140 | The in-memory pool does the same in a build without overflow checks, except past tick 0 | proved | ReleasePool.lean | C140_past_bottom is a sale past tick 0: the build without checks pays out all Y and leaves the price higher. |
| C141 | The f64 pool does the same in a build without overflow checks, except past tick 0 | proved | ReleaseFloat.lean | Creation, deposits and withdrawals contain no integer operator and are shared by both builds. C141_past_bottom is a sale past tick 0: the build without checks leaves the price higher, and the withdrawal of the position then makes the reserve of Y negative. |
| C142 | A deposit and a withdrawal for different positions can be made in either order | proved | OrderMixed.lean | C142_removed is a pool where the withdrawal removes the tick at which the deposit begins: the growth recorded there then depends on the order. |
| C143 | Deposits and withdrawals on the ledger do not stand in each other's way | proved | WorldMixed.lean | C143_own_tokens is a pool that trades its own LP tokens, where the deposit spends the approval that the withdrawal needs. |
| C144 | A withdrawal on the ledger can be made in parts | proved | WorldParts.lean | C144_less is a withdrawal that is paid one token of each kind in one go and nothing in two parts. |
| C145 | An offer on the ledger made in parts gets no more and pays no more | proved | WorldOffers.lean | C145_unpaid: offers of one X each are free, because debits are rounded down, and what they get can be redeemed for what others paid in. |
| C146 | A withdrawal can be made in parts | proved | InParts.lean | C146_less: the bounds are not idle, two parts of a position get a unit less of both than the whole. |
| C147 | An offer made in parts gets no more and pays no more | proved | OffersInParts.lean | C147_less: two parts may pay less of both. C147_refused: the one offer must be supposed accepted, an offer refused because of rounding (C28) may be accepted in parts. |
| C148 | Putting in and taking out gains nothing but dust | proved | Dealings.lean | C148_gain: the dust can be had, three small deposits taken out together bring three units of X more than was put in. |
| C149 | Pools with the same records go on alike | proved | Deals.lean | C149_deposits and C149_withdrawals put it together with C136 and C137. |
| C150 | While nothing is sold, the market follows from the positions | proved | AsBefore.lean | The fee pots are left out: a new position may be paid fees it did not earn, see C42. |
| C151 | Who somebody is does not matter | proved | Named.lean | User names are numbers in the model; a renaming is an injective function of them. |
| C152 | f64 pool: who somebody is does not matter | proved | FloatNamed.lean | User names are numbers in the model; a renaming is an injective function of them. |
| C153 | Prototype: who somebody is does not matter | proved | ProtoNamed.lean | User names are numbers in the model; a renaming is an injective function of them. |
| C154 | What an oracle's price withholds within a tick range | proved | OracleSplit.lean | The adjusted amount is that of C79. The closed forms of C154_amountX and C154_amountY are for exponents above one; with exponent one a sale of X above the price of the oracle panics, as in C80_false, and for sales of Y C79_log_near gives the amount. |

## Trusted base

* Lean's kernel (4.33.0). `lake build` uses no `sorry`, `native_decide`, `bv_decide`, `unsafe` or
  `implemented_by`; concrete evaluations use `decide +kernel`, i.e. the kernel.
* Mathlib, imported one module at a time, as checked by the same kernel.
* Axioms: the theorems named in `MANIFEST.json` depend on nothing beyond `propext`,
  `Classical.choice` and `Quot.sound` (`#print axioms` on each: 462 use Classical.choice, Quot.sound, propext; 42 use Quot.sound, propext; 19 use propext; 4 use none; 2 use Quot.sound). The project declares no
  axioms of its own.
* The faithfulness of the hand-written model to the cited Rust lines, supported by the replayed tests.
* The English statements in `properties.jsonl` and their rendering as Lean statements in
  `Verif/Spec` and `Verif/Props`.
