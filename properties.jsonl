{"id": "C01", "title": "Addition and subtraction are exact", "statement": "Adding or subtracting two decimals of the same scale returns the decimal of that scale whose represented number is exactly the sum (difference); operands of different scale are refused with the DifferentScale error; the only other failure is a panic, and it happens exactly when the magnitudes have to be added and do not fit in 128 bits.", "quantifier": "for every pair of decimals (any u128 value, any u8 scale, either sign)", "why_tests_cant": "2^272 input pairs with sign and carry corner cases; tests sample a handful of them", "anchors": ["programs/hmmcl-sandbox/src/decimal.rs: impl Add/Sub for Decimal"]}
{"id": "C02", "title": "Multiplication truncates toward zero and never wraps", "statement": "The product has the left operand's scale; its magnitude is the exact product rounded down to that scale, hence less than one unit in the last place below it; the sign is the product of the signs; it panics exactly when the intermediate product or the power of ten does not fit in 128 bits.", "quantifier": "for every pair of decimals", "why_tests_cant": "the rounding and overflow boundary is a surface in a 272-bit space", "anchors": ["programs/hmmcl-sandbox/src/decimal.rs: impl Mul<Decimal>"]}
{"id": "C03", "title": "Division truncates toward zero and never wraps", "statement": "The quotient has the left operand's scale and its magnitude is the exact quotient rounded down; dividing by zero, or a scaled dividend that does not fit in 128 bits, panics instead of returning a number.", "quantifier": "for every pair of decimals", "why_tests_cant": "rounding and overflow boundary over all operands; division by zero at every scale", "anchors": ["programs/hmmcl-sandbox/src/decimal.rs: impl Div<Decimal>"]}
{"id": "C04", "title": "Round-up variants bracket the exact result", "statement": "Whenever the rounding-up multiplication (division) returns, its magnitude is the exact result rounded up; together with the rounding-down variant it brackets the exact result and the two differ by at most one unit in the last place.", "quantifier": "for every pair of decimals on which both variants return", "why_tests_cant": "needs the relation between two roundings for every operand pair", "anchors": ["programs/hmmcl-sandbox/src/decimal.rs: MulUp, DivUp"]}
{"id": "C05", "title": "Multiply/divide round trips never create value", "statement": "For non-negative a and positive b, (a*b)/b and (a/b)*b never exceed a, whenever they return.", "quantifier": "for every non-negative a, positive b, all scales", "why_tests_cant": "a violation, if any, sits in rare remainders; only a universal argument excludes it", "anchors": ["programs/hmmcl-sandbox/src/decimal.rs: Mul, Div"]}
{"id": "C06", "title": "Rescaling is lossless upward and truncating downward", "statement": "Changing the scale upward keeps the represented number exactly (or panics on overflow); changing it downward truncates toward zero; going up and back down is the identity; going down in two steps equals going down in one.", "quantifier": "for every decimal and every pair of target scales", "why_tests_cant": "three independent scales and a u128 value", "anchors": ["programs/hmmcl-sandbox/src/decimal.rs: Decimal::to_scale"]}
{"id": "C07", "title": "Rounding-up rescale keeps the sign", "statement": "Rescaling with rounding up returns the represented number rounded away from zero to the target scale, with the sign preserved.", "quantifier": "for every decimal and every target scale", "why_tests_cant": "the unit tests only rescale non-negative numbers", "anchors": ["programs/hmmcl-sandbox/src/decimal.rs: Decimal::to_scale_up"]}
{"id": "C08", "title": "Comparisons agree with the represented numbers", "statement": "eq, lt, gt, lte, gte on two decimals of the same scale return the truth value of the corresponding relation between the numbers they represent.", "quantifier": "for every pair of decimals of equal scale, including zero results of earlier operations", "why_tests_cant": "sign/zero corner cases over all operand pairs", "anchors": ["programs/hmmcl-sandbox/src/decimal.rs: Compare"]}
{"id": "C09", "title": "Comparisons are mutually consistent", "statement": "For equal scales exactly one of lt, eq, gt holds; gte is the negation of lt, lte the negation of gt; lt is transitive; min and max return one of the two operands and are ordered accordingly; unequal scales always give the DifferentScale error.", "quantifier": "for every pair (triple) of decimals", "why_tests_cant": "all combinations of signs, zeros and magnitudes", "anchors": ["programs/hmmcl-sandbox/src/decimal.rs: Compare, min, max"]}
{"id": "C10", "title": "Square root terminates and is within one unit in the last place", "statement": "For every non-negative decimal with scale up to 38, square root terminates without panic and returns either the root rounded down, or that plus one unit in the last place, or the ExceedsPrecisionRange error exactly when value*10^scale needs more than 128 bits.", "quantifier": "for every non-negative decimal of scale <= 38", "why_tests_cant": "termination and error bound of Newton iteration over all 2^128 inputs", "anchors": ["programs/hmmcl-sandbox/src/decimal.rs: impl Sqrt for Decimal"]}
{"id": "C11", "title": "Square root of a negative number is refused", "statement": "Taking the square root of a negative decimal does not return a number.", "quantifier": "for every negative decimal", "why_tests_cant": "the tests never take the root of a negative number", "anchors": ["programs/hmmcl-sandbox/src/decimal.rs: impl Sqrt for Decimal"]}
{"id": "C12", "title": "Integer powers have a proven error bound", "statement": "For a base of at least one, the integer power never exceeds the exact power x^n and is at least x^n(1-n*ulp); for a base of at most one it is at least x^n - n*ulp; scale is kept.", "quantifier": "for every non-negative base and every u128 exponent for which the operation returns", "why_tests_cant": "rounding error accumulates along the binary expansion of the exponent; unbounded exponents", "anchors": ["programs/hmmcl-sandbox/src/decimal.rs: impl Pow<u128>"]}
{"id": "C13", "title": "Integer powers of negative bases have the right sign", "statement": "For a negative base, even powers are non-negative and odd powers are non-positive.", "quantifier": "for every negative base and every exponent", "why_tests_cant": "the tests only use non-negative bases", "anchors": ["programs/hmmcl-sandbox/src/decimal.rs: impl Pow<u128>"]}
{"id": "C14", "title": "Integer powers return whenever the result is representable", "statement": "b^1 = b and b^0 = 1 for every non-negative b; more generally a power whose exact value fits is returned.", "quantifier": "for every base and exponent whose power fits in 128 bits", "why_tests_cant": "the failing region is a band near the overflow limit", "anchors": ["programs/hmmcl-sandbox/src/decimal.rs: impl Pow<u128>"]}
{"id": "C15", "title": "Printing then parsing gives back the same decimal", "statement": "For every decimal, parsing its displayed text returns exactly the same decimal: same value, scale and sign (also for zero and negative zero).", "quantifier": "for every decimal (any value, scale, sign)", "why_tests_cant": "u128 x u8 x sign; digit-padding and decimal-point placement corner cases", "anchors": ["programs/hmmcl-sandbox/src/decimal.rs: impl Display, impl FromStr, from_str_radix"]}
{"id": "C16", "title": "Scientific notation is parsed without losing digits", "statement": "A text of the form digits[.digits]e[-]exp is parsed to the number it denotes.", "quantifier": "for every mantissa and exponent in range", "why_tests_cant": "the tests use only exponents at least as large as the number of fractional digits", "anchors": ["programs/hmmcl-sandbox/src/decimal.rs: from_str_radix"]}
{"id": "C17", "title": "Integrality test is exact", "statement": "is_integer is true exactly when the represented number is an integer.", "quantifier": "for every decimal of scale <= 38", "why_tests_cant": "all values and scales", "anchors": ["programs/hmmcl-sandbox/src/decimal.rs: Decimal::is_integer"]}
{"id": "C18", "title": "Division to a target scale is exact truncation", "statement": "div_to_scale returns the quotient of the represented numbers truncated toward zero at the requested scale.", "quantifier": "for every pair of decimals and every target scale for which it returns", "why_tests_cant": "three scales, two of which may be on either side of the third", "anchors": ["programs/hmmcl-sandbox/src/decimal.rs: DivScale"]}
{"id": "C19", "title": "Negation", "statement": "neg flips the represented number, keeps scale, and is an involution; a plus neg(a) is zero.", "quantifier": "for every decimal", "why_tests_cant": "sign/zero corner cases", "anchors": ["programs/hmmcl-sandbox/src/decimal.rs: Negate, Add"]}
{"id": "C20", "title": "Integer-part conversions", "statement": "abs returns the integer part of the magnitude and abs_up the magnitude rounded up to an integer, or panics exactly when that integer does not fit in 64 bits (respectively an intermediate overflows).", "quantifier": "for every decimal of scale <= 38", "why_tests_cant": "boundary at 2^64 for every scale", "anchors": ["programs/hmmcl-sandbox/src/decimal.rs: Decimal::abs, abs_up, to_u64"]}
{"id": "C21", "title": "Tick prices exist exactly for ticks below 2^19", "statement": "Converting a tick to a root price returns a number exactly when the tick is less than 524288 and panics otherwise; the number is positive, at scale 12.", "quantifier": "for every tick", "why_tests_cant": "the tests convert a few ticks; the limit is a consequence of overflow inside repeated squaring", "anchors": ["programs/hmmcl-sandbox/src/cl_pool/cl_math.rs: PoolMath::tick_to_rp"]}
{"id": "C22", "title": "Tick prices are accurate", "statement": "The root price of tick t is at most r^t and at least r^t(1 - t*10^-12), where r is the 12-digit root of 1.0001 used by the code.", "quantifier": "for every tick below 2^19", "why_tests_cant": "accumulated rounding for 524288 ticks and a proof of the bound, not a float comparison", "anchors": ["programs/hmmcl-sandbox/src/cl_pool/cl_math.rs: PoolMath::tick_to_rp, tick_base_root"]}
{"id": "C23", "title": "Tick prices are strictly increasing", "statement": "A larger tick always has a strictly larger root price.", "quantifier": "for every pair of ticks below 2^19", "why_tests_cant": "2^37 pairs; needs the error bound", "anchors": ["programs/hmmcl-sandbox/src/cl_pool/cl_math.rs: PoolMath::tick_to_rp"]}
{"id": "C24", "title": "Price-to-tick search terminates and brackets the price", "statement": "Searching the tick of a price from a start tick terminates; the result is not below the start; the price is at most one tick above the result up to rounding, and if the search moved, the price is above the result's price up to a relative r*10^-12 where r is the result.", "quantifier": "for every price and every start tick", "why_tests_cant": "unbounded loop; accumulated rounding", "anchors": ["programs/hmmcl-sandbox/src/cl_pool/cl_math.rs: PoolMath::rp_to_tick_loop"]}
{"id": "C25", "title": "Tick -> price -> tick round trip", "statement": "Searching the tick of the price of tick t from any start tick below t returns t-1 or t.", "quantifier": "for every tick below 2^19 - 1 and every smaller start tick", "why_tests_cant": "2^38 pairs and iterated rounding", "anchors": ["programs/hmmcl-sandbox/src/cl_pool/cl_math.rs: PoolMath::rp_to_tick_loop, tick_to_rp"]}
{"id": "C26", "title": "Ticks are snapped to the spacing grid", "statement": "Snapping a tick down (up) returns the largest multiple of the spacing not above it (smallest not below it); multiples are unchanged; spacing zero panics.", "quantifier": "for every tick and spacing", "why_tests_cant": "all (tick, spacing) pairs up to u128", "anchors": ["programs/hmmcl-sandbox/src/cl_pool/cl_math.rs: PoolMath::tk_to_possible_tk"]}
{"id": "C27", "title": "A deposit never needs more Y than offered", "statement": "The Y amount needed for the liquidity computed from offered amounts (x, y) never exceeds y.", "quantifier": "for every price, range and offered amounts", "why_tests_cant": "rounding in four chained operations", "anchors": ["programs/hmmcl-sandbox/src/cl_pool/cl_math.rs: liq_from_x_y_rp_rng, y_from_l_rp_rng"]}
{"id": "C28", "title": "A deposit never needs more X than offered", "statement": "The X amount needed for the liquidity computed from offered amounts (x, y) never exceeds x.", "quantifier": "for every price, range and offered amounts", "why_tests_cant": "rounding in five chained operations, one of which rounds the wrong way", "anchors": ["programs/hmmcl-sandbox/src/cl_pool/cl_math.rs: liq_from_x_y_rp_rng, x_from_l_rp_rng"]}
{"id": "C29", "title": "Position amounts are monotone and superadditive in liquidity", "statement": "The X (Y) amount of a liquidity never decreases when the liquidity grows, and the amounts of two parts never sum to more than the amount of the whole, at equal price and range.", "quantifier": "for all liquidities, prices and ranges", "why_tests_cant": "universal inequality over five variables with rounding", "anchors": ["programs/hmmcl-sandbox/src/cl_pool/cl_math.rs: x_from_l_rp_rng, y_from_l_rp_rng"]}
{"id": "C30", "title": "Single-sided outside the range", "statement": "At a price at or above the range the X amount of a position is zero; at or below it the Y amount is zero.", "quantifier": "for every liquidity, price, range", "why_tests_cant": "all prices", "anchors": ["programs/hmmcl-sandbox/src/cl_pool/cl_math.rs: x_from_l_rp_rng, y_from_l_rp_rng"]}
{"id": "C31", "title": "Price step directions", "statement": "Adding X never raises the computed next price, adding Y never lowers it.", "quantifier": "for every liquidity, price and amount", "why_tests_cant": "rounding over all inputs", "anchors": ["programs/hmmcl-sandbox/src/cl_pool/cl_math.rs: rp_new_from_l_dx, rp_new_from_l_dy"]}
{"id": "C32", "title": "Amounts of a price move are antisymmetric and correctly signed", "statement": "The Y amount of a price move from a to b is the negation of that from b to a; X is received when the price falls, Y when it rises.", "quantifier": "for every liquidity and pair of prices", "why_tests_cant": "all triples", "anchors": ["programs/hmmcl-sandbox/src/cl_pool/cl_math.rs: dx_from_l_drp, dy_from_l_drp"]}
{"id": "C33", "title": "Pool charges the trader rounding", "statement": "Over one constant-liquidity step the Y (X) paid out computed by the pool never exceeds the exact amount for the price move.", "quantifier": "for every liquidity and price move", "why_tests_cant": "rounding direction of chained operations", "anchors": ["programs/hmmcl-sandbox/src/cl_pool/cl_math.rs: dx_from_l_drp, dy_from_l_drp"]}
{"id": "C34", "title": "Swap conservation", "statement": "Every completed swap changes token balances exactly by the reported amounts: (reserve + fee pot) of the received token grows by the amount received, (reserve + adjustment pot) of the sent token shrinks by the amount sent; fee pot grows by exactly the reported fee, adjustment pot by the reported adjustment; the other pots do not change.", "quantifier": "for every pool state, every swap amount, every sequence of tick crossings", "why_tests_cant": "unbounded number of loop iterations and states", "anchors": ["programs/hmmcl-sandbox/src/cl_pool/mod.rs: execute_swap_from_x, execute_swap_from_y"]}
{"id": "C35", "title": "A swap never takes more than offered", "statement": "The amount received by the pool in a swap is never more than the trader offered, never negative, and the amount sent is never positive.", "quantifier": "for every pool state and amount", "why_tests_cant": "unbounded loop with fee rounding in each iteration", "anchors": ["programs/hmmcl-sandbox/src/cl_pool/mod.rs: execute_swap_from_x, execute_swap_from_y"]}
{"id": "C36", "title": "Reserves and pots never go negative", "statement": "In every state reachable by deposits, withdrawals and swaps, all reserves, fee pots and adjustment pots are non-negative.", "quantifier": "for every history of operations", "why_tests_cant": "unbounded histories", "anchors": ["programs/hmmcl-sandbox/src/cl_pool/mod.rs: deposit, withdraw, execute_swap_from_x, execute_swap_from_y"]}
{"id": "C37", "title": "Swaps terminate", "statement": "Every swap finishes (with a result or a panic) after at most one step per initialised tick, plus one.", "quantifier": "for every pool state and amount", "why_tests_cant": "termination over all states", "anchors": ["programs/hmmcl-sandbox/src/cl_pool/mod.rs: execute_swap_from_x, execute_swap_from_y, try_get_in_range"]}
{"id": "C38", "title": "Tick bookkeeping equals the positions", "statement": "In every reachable state, at every tick the gross liquidity is the sum of the liquidity of positions bounded by it, the net liquidity is the sum of those starting there minus those ending there, and a tick is initialised exactly when its gross liquidity is positive.", "quantifier": "for every history of deposits, withdrawals and swaps", "why_tests_cant": "sums over unboundedly many positions and histories", "anchors": ["programs/hmmcl-sandbox/src/cl_pool/mod.rs: update_tick, _set_position, cross_tick"]}
{"id": "C39", "title": "Active liquidity equals the in-range positions", "statement": "In every reachable state the liquidity used for pricing is the sum of the liquidity of the positions whose range contains the current tick.", "quantifier": "for every history of deposits, withdrawals and swaps", "why_tests_cant": "depends on rounding of tick search near tick boundaries, over all histories", "anchors": ["programs/hmmcl-sandbox/src/cl_pool/mod.rs: _set_position, cross_tick, execute_swap_from_x, execute_swap_from_y"]}
{"id": "C40", "title": "Position isolation", "statement": "A deposit or withdrawal by one owner never changes another owner's position, nor another range of the same owner; swaps change no position.", "quantifier": "for every state and operation", "why_tests_cant": "all pairs of keys and all states", "anchors": ["programs/hmmcl-sandbox/src/cl_pool/mod.rs: _set_position"]}
{"id": "C41", "title": "Withdrawal is limited to own liquidity", "statement": "A withdrawal of more liquidity than the position holds never succeeds; a successful one reduces the position by exactly that liquidity.", "quantifier": "for every state, position, amount", "why_tests_cant": "all states", "anchors": ["programs/hmmcl-sandbox/src/cl_pool/mod.rs: withdraw, _set_position"]}
{"id": "C42", "title": "No profit from deposit then withdraw", "statement": "With no operation in between, withdrawing the liquidity just deposited into a new position never pays out more of either token than was deposited.", "quantifier": "for every pool state, range and amounts", "why_tests_cant": "rounding and fee accounting over all states", "anchors": ["programs/hmmcl-sandbox/src/cl_pool/mod.rs: deposit, withdraw"]}
{"id": "C43", "title": "A new position earns no past fees", "statement": "A position opened now can never claim fees that accrued before it was opened.", "quantifier": "for every history", "why_tests_cant": "needs history with fees, second depositor in the same range", "anchors": ["programs/hmmcl-sandbox/src/cl_pool/mod.rs: _set_position, fee_rng"]}
{"id": "C44", "title": "A valid deposit is accepted whatever ticks are in use", "statement": "A deposit of positive amounts in a valid range is accepted independently of which other positions exist and of past fees.", "quantifier": "for every reachable state and range", "why_tests_cant": "needs specific tick/fee layouts", "anchors": ["programs/hmmcl-sandbox/src/cl_pool/mod.rs: deposit, fee_rng, fee_below_above"]}
{"id": "C45", "title": "Swaps work with any tick spacing", "statement": "After any completed swap a swap in the opposite direction for a positive amount in a pool with liquidity does not panic because of the tick grid.", "quantifier": "for every reachable state and spacing", "why_tests_cant": "tests with spacing > 1 never reverse direction from an off-grid tick", "anchors": ["programs/hmmcl-sandbox/src/cl_pool/mod.rs: get_right_limit_of_swap_within, rp_to_tick_loop"]}
{"id": "C46", "title": "Price direction in a swap step", "statement": "Within a swap step selling X the price never rises and stays at or above the goal tick's price; selling Y it never falls and stays at or below it.", "quantifier": "for every step that returns", "why_tests_cant": "all states", "anchors": ["programs/hmmcl-sandbox/src/cl_pool/mod.rs: swap_within_tick_from_x, swap_within_tick_from_y"]}
{"id": "C47", "title": "Fee of a fully filled step", "statement": "In a swap step that does not reach the next tick the fee is the whole offered amount minus the offered amount times (1 - fee rate) rounded down, so the fee is never below fee rate times amount.", "quantifier": "for every step that returns", "why_tests_cant": "all amounts and rates", "anchors": ["programs/hmmcl-sandbox/src/cl_pool/mod.rs: swap_within_tick_from_x, swap_within_tick_from_y"]}
{"id": "C48", "title": "Fee growth flip on crossing is an involution", "statement": "Crossing a tick rightwards and then leftwards restores its fee record and the active liquidity; crossing changes no other tick.", "quantifier": "for every pool state and initialised tick", "why_tests_cant": "all states", "anchors": ["programs/hmmcl-sandbox/src/cl_pool/mod.rs: cross_tick"]}
{"id": "C49", "title": "Tick bitmap is a set", "statement": "After any sequence of activations and deactivations of valid ticks, a tick is reported active exactly when its last operation was an activation; ticks outside 0..79999 always panic and change nothing.", "quantifier": "for every sequence of operations and every tick", "why_tests_cant": "80000 bits, unbounded histories", "anchors": ["programs/hmmcl-sandbox/src/state/tick_bitmap.rs: activate_tick, unset_tick, tick_is_active"]}
{"id": "C50", "title": "Next-tick search to the right is exact", "statement": "Searching rightwards returns the least active tick strictly greater than the given one, or nothing exactly when there is none.", "quantifier": "for every bitmap content and tick", "why_tests_cant": "2^80000 bitmaps", "anchors": ["programs/hmmcl-sandbox/src/state/tick_bitmap.rs: get_next_tick, byte_get_next_tick"]}
{"id": "C51", "title": "Next-tick search to the left is exact", "statement": "Searching leftwards returns the greatest active tick strictly smaller than the given one, or nothing exactly when there is none.", "quantifier": "for every bitmap content and tick", "why_tests_cant": "2^80000 bitmaps", "anchors": ["programs/hmmcl-sandbox/src/state/tick_bitmap.rs: get_next_tick, byte_get_next_tick"]}
{"id": "C52", "title": "On-chain fee split never trips its assertions and adds up", "statement": "Fee growth below, inside and above a range add up to the global fee growth, and the internal equality assertions never fail.", "quantifier": "for all ticks and non-negative fee values of scale 12", "why_tests_cant": "all fee values and tick orders", "anchors": ["programs/hmmcl-sandbox/src/instructions/manage_fee.rs: fee_earned_below_above, fee_earned_within_range"]}
{"id": "C53", "title": "On-chain fees and price are constant", "statement": "In every reachable on-chain state all fee accumulators are zero and the pool's tick and root price are those set at initialisation.", "quantifier": "for every sequence of instructions by any users", "why_tests_cant": "unbounded histories", "anchors": ["programs/hmmcl-sandbox/src/instructions/deposit.rs: handle", "programs/hmmcl-sandbox/src/instructions/withdraw.rs: handle", "programs/hmmcl-sandbox/src/instructions/initialize_pool.rs: handle"]}
{"id": "C54", "title": "On-chain active liquidity equals the in-range positions", "statement": "In every reachable on-chain state the pool's liquidity is the sum of the liquidity of positions whose range contains the pool's tick.", "quantifier": "for every sequence of instructions by any users", "why_tests_cant": "unbounded histories and positions", "anchors": ["programs/hmmcl-sandbox/src/instructions/deposit.rs: handle", "programs/hmmcl-sandbox/src/instructions/withdraw.rs: handle", "programs/hmmcl-sandbox/src/instructions/manage_position.rs: update_position"]}
{"id": "C55", "title": "On-chain tick bookkeeping equals the positions", "statement": "In every reachable on-chain state the gross and net liquidity stored in each tick account equal the sums over positions bounded by that tick.", "quantifier": "for every sequence of instructions by any users", "why_tests_cant": "needs a range bounded by the current tick (aliased accounts)", "anchors": ["programs/hmmcl-sandbox/src/instructions/manage_tick.rs: update_tick", "programs/hmmcl-sandbox/src/instructions/deposit.rs: Deposit accounts"]}
{"id": "C56", "title": "On-chain deposited liquidity can be withdrawn", "statement": "After a successful deposit, a withdrawal of the minted LP amount by the same user is accepted.", "quantifier": "for every reachable state and deposit", "why_tests_cant": "needs a range bounded by the current tick (aliased accounts)", "anchors": ["programs/hmmcl-sandbox/src/instructions/withdraw.rs: handle", "programs/hmmcl-sandbox/src/instructions/manage_tick.rs: update_tick"]}
{"id": "C57", "title": "LP supply is backed by position liquidity", "statement": "In every reachable state the LP tokens minted by the pool do not exceed the sum of all position liquidity.", "quantifier": "for every sequence of instructions", "why_tests_cant": "unbounded histories, rounding at each deposit", "anchors": ["programs/hmmcl-sandbox/src/instructions/deposit.rs: handle", "programs/hmmcl-sandbox/src/instructions/withdraw.rs: handle"]}
{"id": "C58", "title": "On-chain deposit never debits more than offered", "statement": "A successful deposit takes at most the offered amounts of X and Y from the depositor, exactly what it adds to the vaults, and touches nobody else's tokens.", "quantifier": "for every reachable state and deposit", "why_tests_cant": "rounding and fee offset over all states", "anchors": ["programs/hmmcl-sandbox/src/instructions/deposit.rs: handle"]}
{"id": "C59", "title": "On-chain deposits pay for what they get", "statement": "A user can never withdraw more tokens than they deposited (there are no swaps and no fees on chain); hence the vaults always cover all positions.", "quantifier": "for every sequence of instructions", "why_tests_cant": "needs many small deposits whose rounding accumulates", "anchors": ["programs/hmmcl-sandbox/src/instructions/deposit.rs: handle", "programs/hmmcl-sandbox/src/instructions/withdraw.rs: handle"]}
{"id": "C60", "title": "On-chain withdrawal authority", "statement": "A withdrawal or deposit signed by one user never changes a position or an X or Y balance of another user, a withdrawal never changes another user's LP balance, and a deposit never lowers it (the minted tokens may be sent to any LP account).", "quantifier": "for every reachable state and instruction", "why_tests_cant": "all pairs of users and all states", "anchors": ["programs/hmmcl-sandbox/src/instructions/withdraw.rs: Withdraw accounts", "programs/hmmcl-sandbox/src/instructions/deposit.rs: Deposit accounts"]}
{"id": "C61", "title": "On-chain bitmap reflects liquidity", "statement": "In every reachable state a tick's bit is set exactly when the tick has liquidity.", "quantifier": "for every sequence of instructions", "why_tests_cant": "the tests check one deposit and one withdrawal", "anchors": ["programs/hmmcl-sandbox/src/instructions/deposit.rs: handle", "programs/hmmcl-sandbox/src/instructions/withdraw.rs: handle"]}
{"id": "C62", "title": "On-chain ranges are ordered and consistently labelled", "statement": "Every position account in every reachable state has lower tick < upper tick, equal to the ticks it was created for, and every tick account carries its own tick number, so tick-mismatch errors are unreachable.", "quantifier": "for every sequence of instructions", "why_tests_cant": "unbounded histories", "anchors": ["programs/hmmcl-sandbox/src/instructions/manage_position.rs: create_position", "programs/hmmcl-sandbox/src/instructions/manage_tick.rs: initialize_tick, update_tick"]}
{"id": "C63", "title": "Fee records stay within the total growth", "statement": "In every reachable state no fee growth is negative, and what each tick has recorded, and what is attributed to the region below it, lies between zero and the total growth.", "quantifier": "for every history of deposits, withdrawals and swaps, every tick and each of the four fee kinds", "why_tests_cant": "unbounded histories of crossings", "anchors": ["programs/hmmcl-sandbox/src/cl_pool/mod.rs: cross_tick, fee_below_above, initialize_tick"]}
{"id": "C64", "title": "Fee growth inside an open range never falls", "statement": "While a position stays open the fee growth attributed to its range never decreases and increases by no more than the total growth.", "quantifier": "for every history in which the position stays open", "why_tests_cant": "unbounded histories of crossings", "anchors": ["programs/hmmcl-sandbox/src/cl_pool/mod.rs: fee_rng, fee_below_above, cross_tick"]}
{"id": "C65", "title": "A swap is filled unless liquidity ran out", "statement": "A swap that returns has taken the whole offered amount, or has gone past the last tick in use in its direction, where, if the active liquidity is recorded rightly (see the property on active liquidity), none is active.", "quantifier": "for every reachable state, amount and oracle price", "why_tests_cant": "needs amounts larger than the pool over arbitrary tick layouts", "anchors": ["programs/hmmcl-sandbox/src/cl_pool/mod.rs: execute_swap_from_x, execute_swap_from_y, try_get_tick_with_liquidity_in_range"]}
{"id": "C66", "title": "The HMM adjustment only withholds output", "statement": "Two pools created and operated alike except for HMM parameter and oracle prices always have the same price, ticks, positions, reserves and swap fees; a swap differs only in what is withheld from its output, and that is never negative, so the output never exceeds that of the plain pool.", "quantifier": "for every history, HMM parameter and oracle price", "why_tests_cant": "relates two executions over all histories", "anchors": ["programs/hmmcl-sandbox/src/cl_pool/mod.rs: swap_within_tick_from_x, swap_within_tick_from_y, hmm_adj_y, hmm_adj_x"]}
{"id": "C67", "title": "No fee rate, no fee", "statement": "In a pool with fee rate zero no swap is charged a fee.", "quantifier": "for every pool with fee rate zero, every amount", "why_tests_cant": "all amounts and tick layouts", "anchors": ["programs/hmmcl-sandbox/src/cl_pool/mod.rs: swap_within_tick_from_x, swap_within_tick_from_y"]}
{"id": "C68", "title": "The fee of a whole swap", "statement": "The fee of a swap that returns is the fee rate times the amount taken, up to two units of the twelfth decimal place for each step, of which there are at most one more than initialised ticks.", "quantifier": "for every reachable state, amount and oracle price", "why_tests_cant": "rounding accumulates over the crossed ticks", "anchors": ["programs/hmmcl-sandbox/src/cl_pool/mod.rs: execute_swap_from_x, execute_swap_from_y"]}
{"id": "C69", "title": "The reserves cover the positions", "statement": "In every reachable state the X and Y reserves are at least what all positions together hold at the current price by the exact formulas, L(1/sqrtP - 1/b) and L(sqrtP - a) with the price moved into each range.", "quantifier": "for every history of deposits, withdrawals and swaps", "why_tests_cant": "needs histories in which rounding accumulates or a swap ends exactly on a tick", "anchors": ["programs/hmmcl-sandbox/src/cl_pool/mod.rs: deposit, withdraw, swap_within_tick_from_x, swap_within_tick_from_y, cross_tick"]}
{"id": "C70", "title": "Swaps conserve what the positions hold", "statement": "In a swap the reserves of X and Y change by exactly what the holdings of all positions, by the exact formulas, change, up to rounding dust.", "quantifier": "for every reachable state, amount and oracle price", "why_tests_cant": "unbounded histories, any tick layout", "anchors": ["programs/hmmcl-sandbox/src/cl_pool/mod.rs: execute_swap_from_x, execute_swap_from_y"]}
{"id": "C71", "title": "Oversized sales are filled as far as the liquidity goes", "statement": "A sale of more X than the pool can take is filled as far as the liquidity goes; it does not abort.", "quantifier": "for every reachable state", "why_tests_cant": "needs overlapping positions whose deposits are rounded separately", "anchors": ["programs/hmmcl-sandbox/src/cl_pool/mod.rs: execute_swap_from_x, swap_within_tick_from_x, deposit"]}
{"id": "C72", "title": "Trading is never free", "statement": "Valued at the price before the first of them, what traders pay in over any sequence of swaps, by any number of traders, is at least what they take out.", "quantifier": "for every reachable state and every sequence of swaps with any oracle prices", "why_tests_cant": "unbounded sequences of swaps in both directions across any tick layout", "anchors": ["programs/hmmcl-sandbox/src/cl_pool/mod.rs: execute_swap_from_x, execute_swap_from_y, swap_within_tick_from_x, swap_within_tick_from_y"]}
{"id": "C73", "title": "A withdrawal pays the whole share", "statement": "A withdrawal pays from each reserve the exact share of the liquidity withdrawn, L(1/sqrtP - 1/b) and L(sqrtP - a) with the price moved into the range, less at most one part in 10^12 and three units of the twelfth place, and never more; the uncollected fees come on top.", "quantifier": "for every reachable state and withdrawal", "why_tests_cant": "rounding over all states, not only the round numbers of the tests", "anchors": ["programs/hmmcl-sandbox/src/cl_pool/mod.rs: withdraw", "programs/hmmcl-sandbox/src/cl_pool/cl_math.rs: x_from_l_rp_rng, y_from_l_rp_rng"]}
{"id": "C74", "title": "A deposit uses up an offer", "statement": "A deposit never takes more than offered of either token, and it takes the whole offer of at least one of them, up to five units of the twelfth place of X or, of Y, one unit plus one for each unit of width of the range below the price.", "quantifier": "for every reachable state and deposit", "why_tests_cant": "rounding over all states and ranges", "anchors": ["programs/hmmcl-sandbox/src/cl_pool/mod.rs: deposit", "programs/hmmcl-sandbox/src/cl_pool/cl_math.rs: liq_from_x_y_rp_rng"]}
{"id": "C75", "title": "Where a swap takes the price", "statement": "The root price is at least one in every reachable state. A sale of X never raises the price and does not take it below the lowest initialised tick, a sale of Y never lowers it and does not take it above the highest.", "quantifier": "the floor for every history of operations; the direction for every swap from a state reached without a completely filled swap ending within two millionths of a grid tick price", "why_tests_cant": "any number of steps over any tick layout", "anchors": ["programs/hmmcl-sandbox/src/cl_pool/mod.rs: execute_swap_from_x, execute_swap_from_y, try_get_in_range"]}
{"id": "C76", "title": "Deposits and withdrawals leave the market alone", "statement": "A deposit or withdrawal changes neither price nor tick nor any fee growth nor a parameter of the pool; it changes no tick record other than those of its two bounds and of these only the liquidity; the fee pots pay exactly the fees reported.", "quantifier": "for every state and operation", "why_tests_cant": "all ticks of all states", "anchors": ["programs/hmmcl-sandbox/src/cl_pool/mod.rs: deposit, withdraw, _set_position, update_tick"]}
{"id": "C77", "title": "Only numerals are parsed, and to the number they denote", "statement": "A text is read as a decimal only if it is a numeral (an optional sign, digits, an optional fraction, an optional exponent), and then the result is the number it denotes.", "quantifier": "for every text", "why_tests_cant": "unbounded texts", "anchors": ["programs/hmmcl-sandbox/src/decimal.rs: from_str, from_str_radix"]}
{"id": "C78", "title": "Powers with a decimal exponent", "statement": "A power with a decimal exponent is either the true power up to a stated rounding error, or refused; nothing else is ever returned.", "quantifier": "for every base and exponent", "why_tests_cant": "all bases and exponents, tests use a few", "anchors": ["programs/hmmcl-sandbox/src/decimal.rs: pow, Pow<Decimal>"]}
{"id": "C79", "title": "Amounts of an oracle-adjusted price move", "statement": "With an oracle adjustment of exponent c the changes of X and Y for a price move are those of the closed formulas up to rounding; X falls and Y rises when the price rises and conversely; exponents below one are refused.", "quantifier": "for all liquidity, prices, exponents and oracle prices", "why_tests_cant": "all combinations, in particular c = 1", "anchors": ["programs/hmmcl-sandbox/src/cl_pool/cl_math.rs: dx_from_l_drp_hmm, dy_from_l_drp_hmm"]}
{"id": "C80", "title": "Every pool can be traded at every oracle price", "statement": "A pool that could be created and funded also trades in both directions whatever the oracle price is.", "quantifier": "for every exponent from 0 to 2 and every oracle price", "why_tests_cant": "tests use the exponents that work", "anchors": ["programs/hmmcl-sandbox/src/cl_pool/mod.rs: new, swap_within_tick_from_x, swap_within_tick_from_y", "programs/hmmcl-sandbox/src/cl_pool/cl_math.rs: dx_from_l_drp_hmm, dy_from_l_drp_hmm"]}
{"id": "C81", "title": "f64 pool: tick records are those of the positions", "statement": "Along every history in which the positions together hold at most 2^52 liquidity, each tick's gross and net liquidity are exactly the sums over the positions bounded by it, and ticks without positions do not exist.", "quantifier": "for every history, every tick and every math library", "why_tests_cant": "needs sums of doubles that round", "anchors": ["programs/hmmcl-sandbox/src/cl_pool_float/mod.rs: deposit, withdraw, _set_position, update_tick"]}
{"id": "C82", "title": "f64 pool: what a position holds can be withdrawn, and no more", "statement": "A withdrawal of more than the position holds is refused; what the position holds can be withdrawn.", "quantifier": "for every reachable pool, position and math library", "why_tests_cant": "needs histories whose roundings leave a residue", "anchors": ["programs/hmmcl-sandbox/src/cl_pool_float/mod.rs: withdraw, _set_position, update_tick, fee_rng"]}
{"id": "C83", "title": "f64 pool: fees are collected once", "statement": "Right after a deposit or withdrawal by a user, a withdrawal by the same user from the same range pays no fees.", "quantifier": "for every reachable pool, user, range and math library", "why_tests_cant": "unbounded histories", "anchors": ["programs/hmmcl-sandbox/src/cl_pool_float/mod.rs: _set_position, deposit, withdraw, fee_rng"]}
{"id": "C84", "title": "f64 pool: a deposit takes at most the offer and keeps the reserves numbers", "statement": "A deposit of finite amounts takes at most the offered amounts and leaves both reserves finite, so trading can go on.", "quantifier": "for every reachable pool, amounts and range", "why_tests_cant": "needs ranges of width zero", "anchors": ["programs/hmmcl-sandbox/src/cl_pool_float/mod.rs: deposit, execute_swap_from_x, execute_swap_from_y", "programs/hmmcl-sandbox/src/cl_pool_float/cl_math.rs: liq_from_x_y_rp_rng, x_from_l_rp_rng, y_from_l_rp_rng"]}
{"id": "C85", "title": "f64 pool: ticks are moved to the grid exactly", "statement": "Rounding a tick down (up) to the grid given by the tick spacing gives the greatest multiple not above (the least multiple not below) it, although computed with doubles.", "quantifier": "for all u32 ticks and spacings, as long as the multiple is a u32", "why_tests_cant": "2^64 pairs; the quotient is rounded", "anchors": ["programs/hmmcl-sandbox/src/cl_pool_float/cl_math.rs: tk_to_possible_tk"]}
{"id": "C86", "title": "f64 pool: swaps end", "statement": "The loop of a swap ends after at most 2n+3 rounds, n being the number of initialised ticks.", "quantifier": "for every state of the pool, every offer including infinity and NaN, every oracle price and every math library", "why_tests_cant": "rounding can leave a rest of the offer after a round that should have taken it all", "anchors": ["programs/hmmcl-sandbox/src/cl_pool_float/mod.rs: execute_swap_from_x, execute_swap_from_y, swap_within_tick_from_x, swap_within_tick_from_y, cross_tick, try_get_in_range"]}
{"id": "C87", "title": "f64 pool: a swap takes the offer", "statement": "A swap takes at most the offer, and less only if no initialised tick is left in its direction.", "quantifier": "for every reachable pool, offer and oracle price", "why_tests_cant": "needs offers for which the partial amounts add up to more than the offer", "anchors": ["programs/hmmcl-sandbox/src/cl_pool_float/mod.rs: execute_swap_from_x, execute_swap_from_y"]}
{"id": "C88", "title": "f64 pool: what operations leave alone", "statement": "A deposit or withdrawal changes neither price, tick, fee growth nor parameters, no other position, no tick but its bounds and no fee record of these; the pots pay exactly the fees reported. A swap changes no position, no parameter, and no liquidity recorded at a tick.", "quantifier": "for every state and operation", "why_tests_cant": "all ticks and positions of all states", "anchors": ["programs/hmmcl-sandbox/src/cl_pool_float/mod.rs: deposit, withdraw, _set_position, update_tick, cross_tick, execute_swap_from_x, execute_swap_from_y"]}
{"id": "C89", "title": "f64 pool: HMM only withholds part of what a swap pays", "statement": "A pool with any HMM constant c and another created and operated alike have the same price, tick, active liquidity, tick liquidities, positions, swap fee growth and swap fee pots; swaps take the same amount and fee in both and end at the same price; deposits and withdrawals move the same amounts; and no seller is paid more than by the pool with c = 0.", "quantifier": "for all parallel histories of any length, every pair of oracle prices and every math library", "why_tests_cant": "two histories compared at every step", "anchors": ["programs/hmmcl-sandbox/src/cl_pool_float/mod.rs: swap_within_tick_from_x, swap_within_tick_from_y, execute_swap_from_x, execute_swap_from_y, deposit, withdraw"]}
{"id": "C90", "title": "f64 pool: deposits take what they buy", "statement": "For prices between 2^-100 and 2^100 and offers that are zero or between 2^-200 and 2^200 a deposit buys a whole number of units of liquidity, takes of each token what that liquidity is worth at the current root price (relative error at most 4/2^52 for X and 2/2^52 for Y) and never more than offered; one unit more would have cost more than the offer, up to 4/2^53.", "quantifier": "for all states, users, offers, ranges and every math library", "why_tests_cant": "needs the exact value of every rounding, over all doubles", "anchors": ["programs/hmmcl-sandbox/src/cl_pool_float/mod.rs: deposit", "programs/hmmcl-sandbox/src/cl_pool_float/cl_math.rs: liq_from_x_y_rp_rng, x_from_l_rp_rng, y_from_l_rp_rng"]}
{"id": "C91", "title": "f64 pool: withdrawals pay what the liquidity is worth", "statement": "A withdrawal pays what the withdrawn liquidity is worth at the current root price less one part in 10^12 (relative error at most 6/2^52 for X and 4/2^52 for Y), and a deposit into a new position followed by any number of withdrawals of at most its liquidity never pays more of either token than the deposit took.", "quantifier": "for all states, amounts, ranges, numbers of withdrawals and every math library", "why_tests_cant": "needs the exact value of every rounding, over all doubles and lists of withdrawals", "anchors": ["programs/hmmcl-sandbox/src/cl_pool_float/mod.rs: withdraw, deposit", "programs/hmmcl-sandbox/src/cl_pool_float/cl_math.rs: x_from_l_rp_rng, y_from_l_rp_rng"]}
{"id": "C92", "title": "f64 pool: a swap is a walk on constant-product curves", "statement": "A swap that returns is a sequence of price moves, each at a constant positive liquidity L and starting where the last one stopped or at the root price of an initialised tick. What the trader is told, the reserves, the fee and oracle pots and the fee growth per unit of liquidity are the sums (in doubles) over these moves. For moves of moderate size from root price a to b: X sold is L(1/b - 1/a) up to L(1/a + 1/b)/2^49, Y leaving the reserve is L(a - b)(1 - 10^-12) up to one part in 2^49 (and the same with X and Y exchanged), the price moves in the direction of the sale, and the fee is the fee rate's share of what the trader pays up to one part in 2^49.", "quantifier": "for all states, amounts, oracle prices, fee rates below 1, numbers of rounds and every math library", "why_tests_cant": "needs the exact value of every rounding along a loop of unbounded length", "anchors": ["programs/hmmcl-sandbox/src/cl_pool_float/mod.rs: execute_swap_from_x, swap_within_tick_from_x, execute_swap_from_y, swap_within_tick_from_y", "programs/hmmcl-sandbox/src/cl_pool_float/cl_math.rs: dx_from_l_drp, dy_from_l_drp, rp_new_from_l_dx, rp_new_from_l_dy"]}
{"id": "C93", "title": "f64 pool: active liquidity equals the in-range positions", "statement": "In every state reached with whole amounts of liquidity, together at most 2^52, the liquidity used for pricing is exactly the sum of the liquidity of the positions whose range contains the current tick.", "quantifier": "for every history of deposits, withdrawals and swaps and every math library", "why_tests_cant": "depends on the rounding of prices and of the tick search at range bounds, over all histories", "anchors": ["programs/hmmcl-sandbox/src/cl_pool_float/mod.rs: _set_position, update_tick, cross_tick, execute_swap_from_x, execute_swap_from_y, try_get_in_range", "programs/hmmcl-sandbox/src/cl_pool_float/cl_math.rs: rp_to_tick, tick_to_rp"]}
{"id": "C94", "title": "f64 pool: nothing is lost or created", "statement": "Along every history in which reserves, pots and reported amounts stay below B, what the pool holds of each token in its reserve, fee pot and oracle pot is what users were told they paid less what they were told they got, up to B/2^48 for each deposit, withdrawal and round of a swap.", "quantifier": "for every history, every bound B and every math library", "why_tests_cant": "roundings accumulate over unbounded histories and loops", "anchors": ["programs/hmmcl-sandbox/src/cl_pool_float/mod.rs: deposit, withdraw, execute_swap_from_x, execute_swap_from_y"]}
{"id": "C95", "title": "f64 pool: what swaps report and refuse, how a pool starts", "statement": "A swap that offers nothing or less is refused. One that runs reports an average price equal to Y over X, up to one part in 2^52, with what is paid not negative and what is got not positive, and an end price that is the square of the root price the pool is left at. A new pool has no liquidity, no reserves and no positions, and its root price is that of the last tick of its grid not above the tick of the price asked for.", "quantifier": "for every pool, offer, oracle price and math library", "why_tests_cant": "needs every number of rounds and every rounding", "anchors": ["programs/hmmcl-sandbox/src/cl_pool_float/mod.rs: new, execute_swap_from_x, execute_swap_from_y"]}
{"id": "C96", "title": "f64 pool: ticks and prices", "statement": "With a math library whose powers and logarithms are off by at most two parts in 2^52, the root price of tick t up to 2^21 is 1.0001^(t/2) up to t+4 parts in 2^52; higher ticks have higher prices; a root price from 1 to 2^50 lies between the prices of the tick found for it and of the next, and the range bound a provider gets is the last grid tick not above the price asked for, both up to one part in 2^40; a tick's price leads back to the tick or to its neighbour.", "quantifier": "for all ticks, prices and accurate libraries", "why_tests_cant": "all doubles, all libraries", "anchors": ["programs/hmmcl-sandbox/src/cl_pool_float/cl_math.rs: tick_to_rp, rp_to_tick, rp_to_possible_tk"]}
{"id": "C97", "title": "f64 pool: what the oracle's price costs the trader", "statement": "With a math library accurate to two parts in 2^52 and 0 <= c <= 2: at every root price s of a sale of X above the oracle's root price o the trader gets (o/s)^c times what the constant-product curve pays, below it the full amount, in total less one part in 10^12, and the rest of the constant-product amount is added to the pot of held-back Y; a sale of Y is the mirror image with (s/o)^c. The errors are relative to the size of the stage, divided by |1-c|. The trader's price lies between the oracle's and the pool's. Where the oracle's price is no worse for the trader, nothing is held back.", "quantifier": "for all pools, sales, oracle prices and accurate libraries", "why_tests_cant": "all doubles, real integrals", "anchors": ["programs/hmmcl-sandbox/src/cl_pool_float/mod.rs: swap_within_tick_from_x, swap_within_tick_from_y; programs/hmmcl-sandbox/src/cl_pool_float/cl_math.rs: dx_from_l_drp_hmm, dy_from_l_drp_hmm"]}
{"id": "C98", "title": "The natural logarithm is accurate", "statement": "For every positive decimal of at most 36 places that fits the type, Decimal::ln returns a decimal of the same scale whose error is at most 3*10^-10 plus one unit of the last place, with any math library accurate to two parts in 2^52.", "quantifier": "for all positive decimals and all accurate math libraries", "why_tests_cant": "all decimals; tests sample a few", "anchors": ["programs/hmmcl-sandbox/src/decimal.rs: ln, bit_length, log_table lookup"]}
{"id": "C99", "title": "Decimals as machine numbers keep their value", "statement": "Converting a decimal to f64 gives a double within three roundings of its value (the nearest one for at most 53 bits and 15 places) and keeps the order; converting it to i32 gives its value when that is an i32.", "quantifier": "for all decimals", "why_tests_cant": "all decimals of all scales", "anchors": ["programs/hmmcl-sandbox/src/decimal.rs: impl Into<f64>, impl Into<i32>"]}
{"id": "C100", "title": "Ticks by logarithm", "statement": "PoolMath::rp_to_tick gives the tick whose root price is next to the given one: the last tick at or below it, or from left to right the first tick at or above it, with an error of at most one tick and one part in a million, for any accurate math library.", "quantifier": "for all root prices and accurate math libraries", "why_tests_cant": "all root prices; the logarithm is a table walk over floats", "anchors": ["programs/hmmcl-sandbox/src/cl_pool/cl_math.rs: PoolMath::rp_to_tick; programs/hmmcl-sandbox/src/decimal.rs: ln"]}
{"id": "C101", "title": "The fees of a swap go to the positions in range", "statement": "The fees and adjustments a swap adds to the pots are credited, for each stretch of the swap, to the positions whose range holds the price there, in proportion to their liquidity and rounded down in the twelfth place. Positions whose range the price does not enter get nothing.", "quantifier": "for all reachable states, all swaps in both directions, all sets of positions", "why_tests_cant": "any number of overlapping positions and crossings; a few examples fix the numbers only where ranges are simple", "anchors": ["programs/hmmcl-sandbox/src/cl_pool/mod.rs: execute_swap_from_X, execute_swap_from_Y, fees_inside"]}
{"id": "C102", "title": "Fees due can be paid", "statement": "In every reachable state each fee pot holds at least what all positions together can claim (liquidity times growth inside the range since the last settlement), and no more than that up to rounding; so collecting fees never blocks a deposit or a withdrawal.", "quantifier": "for all reachable states and all positions", "why_tests_cant": "an invariant over unbounded histories; a shortage shows only when the last owners leave", "anchors": ["programs/hmmcl-sandbox/src/cl_pool/mod.rs: set_position, deposit, withdraw, execute_swap_from_X, execute_swap_from_Y"]}
{"id": "C103", "title": "Everyone can leave", "statement": "In every reachable state, as long as no number outgrows 128 bits, the owners of all open positions can withdraw all of their liquidity, one after the other, in whatever order; prices naming the range of an open position exist, and what is left holds what the remaining positions hold.", "quantifier": "for all reachable states, all sets of open positions, all orders of leaving", "why_tests_cant": "any history and any number of owners; a shortage shows only when the last owner leaves", "anchors": ["programs/hmmcl-sandbox/src/cl_pool/mod.rs: withdraw, set_position"]}
{"id": "C104", "title": "Every pool behaves like a pool alone on the ledger", "statement": "With any number of pools on one ledger, sharing mints in any way the program accepts, with delegates, freezing and arbitrary token instructions by anybody, each pool's accounts, LP supply and vaults are those of a history of a single pool; so its liquidity is that of its positions in range, its LP supply is backed, and no group of users that has made fewer than 10^12 deposits takes out more than it paid in and one X and one Y per deposit.", "quantifier": "for all ledgers, all sequences of program and token instructions, all pools", "why_tests_cant": "the tests make one pool with fresh mints; nested pools and hostile token instructions need the general argument", "anchors": ["programs/hmmcl-sandbox/src/instructions/: all instructions; src/lib.rs"]}
{"id": "C105", "title": "Pools do not touch each other", "statement": "An instruction for one pool changes nothing of another pool: not its accounts, not its LP mint, and its vaults lose nothing. It lowers the balance of a token account only if the account is the signer's (or the signer's as delegate) or a vault of the pool withdrawn from. Token instructions change no pool, take nothing from vaults and issue no LP tokens.", "quantifier": "for all reachable ledgers, all instructions and accounts passed", "why_tests_cant": "account confusion between pools needs every combination of accounts", "anchors": ["programs/hmmcl-sandbox/src/instructions/: accounts structs of all instructions"]}
{"id": "C106", "title": "Exactly who pays and who receives", "statement": "A deposit or withdrawal changes the balances of all token accounts on the ledger exactly by the amounts it reports, at the accounts passed and the pool's vaults, also when an account is passed twice; a deposit takes at most what is offered; no owner, mint or frozen flag changes and no other mint is touched.", "quantifier": "for all reachable ledgers and all accounts passed", "why_tests_cant": "the same account in two roles, vaults of other pools as arguments", "anchors": ["programs/hmmcl-sandbox/src/instructions/deposit.rs, programs/hmmcl-sandbox/src/instructions/withdraw.rs"]}
{"id": "C107", "title": "No token appears or disappears", "statement": "On every reachable ledger the balances of all accounts of a mint add up to its supply, and every balance is a 64-bit number; a deposit adds its LP tokens and nothing else.", "quantifier": "for all sequences of program and token instructions, all mints", "why_tests_cant": "an invariant over unbounded histories of the whole ledger", "anchors": ["programs/hmmcl-sandbox/src/instructions/deposit.rs, programs/hmmcl-sandbox/src/instructions/withdraw.rs: token program calls"]}
{"id": "C108", "title": "A pool's identity is fixed", "statement": "Once made, a pool keeps its authority, mints, vaults and tick through all later steps, stays the only issuer of its LP mint, and cannot be made again; its LP supply changes only by its own deposits and withdrawals and by holders burning.", "quantifier": "for all sequences of later steps by anybody", "why_tests_cant": "unbounded histories with hostile token instructions", "anchors": ["programs/hmmcl-sandbox/src/instructions/initialize_pool.rs"]}
{"id": "C109", "title": "A deposit is paid with what the depositor has", "statement": "A deposit takes no more X and Y than the depositor's accounts held before it.", "quantifier": "for all reachable ledgers and deposits", "why_tests_cant": "needs a pool whose LP mint is one of its own tokens", "anchors": ["programs/hmmcl-sandbox/src/instructions/initialize_pool.rs, programs/hmmcl-sandbox/src/instructions/deposit.rs: order of mint_to and transfers"]}
{"id": "C110", "title": "Others cannot block a withdrawal", "statement": "If a user can withdraw an amount, with LP tokens in an account of their own that has no delegate, then they can still withdraw it, for the same X and Y, whatever other users do in between: deposits and withdrawals, new pools, ticks and positions, and any token instruction.", "quantifier": "for all reachable ledgers, withdrawals and steps of others", "why_tests_cant": "needs all interleavings of hostile instructions before a withdrawal", "anchors": ["programs/hmmcl-sandbox/src/instructions/withdraw.rs, programs/hmmcl-sandbox/src/instructions/initialize_pool.rs: constraints on the mints"]}
{"id": "C111", "title": "Exactly when a withdrawal succeeds and what it pays", "statement": "Withdrawing n > 0 LP tokens succeeds and pays x and y if and only if: the named current tick is the pool's, the range does not begin or end there, the signer's position has liquidity n, x and y are the worth of n at the pool's price rounded down as stated (with products within 128 bits), the vaults hold x and y, the signer owns the X and Y accounts, the LP account holds n that the signer may spend, and none of these accounts is frozen. So no other state (ticks, bitmap, books, other users) can stop it, and what can be withdrawn can be withdrawn in part.", "quantifier": "for all reachable ledgers, pools, accounts passed, ranges and amounts", "why_tests_cant": "a complete success criterion over all reachable states; tests only see withdrawals that succeed", "anchors": ["programs/hmmcl-sandbox/src/instructions/withdraw.rs, programs/hmmcl-sandbox/src/state/tick_state.rs, programs/hmmcl-sandbox/src/state/position_state.rs"]}
{"id": "C112", "title": "f64 pool: a position is paid the growth inside its range", "statement": "In every history in which the fees and HMM adjustments per unit of liquidity stay below 2^900, a deposit to or a withdrawal from an existing position of liquidity at most 2^64 with initialised bounds pays, for each of the four kinds, its liquidity L times the growth of fees per unit of liquidity inside its range (the current tick belongs to the range if it is the lower bound, not if it is the upper) since the last record, within L * growth / 2^49 + 2^-1000, and never a negative amount. If all withdrawals were of whole liquidity, the bounds of every position with liquidity are initialised. Records of ticks lie between zero and the growth, records of positions between zero and twice the growth.", "quantifier": "for all math libraries, histories, users, ranges and amounts", "why_tests_cant": "needs the bookkeeping of all ticks and positions over unbounded histories of doubles; tests compare a few amounts loosely", "anchors": ["programs/hmmcl-sandbox/src/cl_pool_float/mod.rs: fee_below_above, fee_rng, _set_position, cross_tick, deposit, withdraw"]}
{"id": "C113", "title": "Ledger: the vaults cover the positions, and everybody can leave", "statement": "As long as nobody deposits into a position of a pool that has liquidity already, the pool's vaults hold at least what its positions are worth in whole tokens, whatever else happens on the ledger; each such deposit puts them short by at most two X and one Y. While the vaults cover the positions, a withdrawal that is possible stays possible and pays the same after any steps of others, their withdrawals from the same pool included, if no mint can be frozen; and withdrawals from different positions that are possible on their own are possible one after the other in any order, paying the same. Without the exception the vaults need not cover the positions.", "quantifier": "for all reachable ledgers, pools, histories and lists of withdrawals", "why_tests_cant": "a property of the sum over all positions under unbounded histories and all orders of withdrawals; the source has no test that runs the program", "anchors": ["programs/hmmcl-sandbox/src/instructions/deposit.rs, programs/hmmcl-sandbox/src/instructions/withdraw.rs"]}
{"id": "C114", "title": "Ledger: the deployed program does what the checked one does", "statement": "The program is built for the chain without overflow checks, so that plain additions, powers and shifts wrap. On every ledger that it can produce, every instruction has exactly the effect, the amounts and the errors that it would have with overflow checks on, and the ledgers it can produce are the same; setting, clearing and testing a tick of the bitmap agree for every 32-bit tick.", "quantifier": "for all reachable ledgers, all instructions and all arguments", "why_tests_cant": "two builds of the same program are compared over all histories; the tests run one build on a few inputs", "anchors": ["programs/hmmcl-sandbox/src/instructions/deposit.rs, programs/hmmcl-sandbox/src/instructions/withdraw.rs, programs/hmmcl-sandbox/src/decimal.rs, programs/hmmcl-sandbox/src/state/tick_bitmap.rs"]}
{"id": "C115", "title": "Decimals without overflow checks", "statement": "In a build without overflow checks a product is right to the last place, and rescaling upward is exact, or there is a panic.", "quantifier": "for all decimals and scales", "why_tests_cant": "the wrap-around needs more than 38 decimal places and a release build, which no test uses", "anchors": ["programs/hmmcl-sandbox/src/decimal.rs"]}
{"id": "C116", "title": "Token amounts and decimals", "statement": "An integer token amount becomes a decimal that stands for exactly that number of units, and converting back returns it. Converting a decimal to an integer amount at any scale rounds down, or up in the other function, so that the two results are equal exactly when the decimal is a multiple of the unit and differ by one otherwise. A call returns exactly when the intermediate number fits; the amount that does not fit into 64 bits is refused. Multiplying a decimal by an integer is exact or refused.", "quantifier": "for all decimals, amounts and scales", "why_tests_cant": "the rounding direction over all values and the exact set of refusals are not visible from sample conversions", "anchors": ["programs/hmmcl-sandbox/src/decimal.rs"]}
{"id": "C117", "title": "The amounts of a position follow the price", "statement": "When the price or tick rises and nothing else changes, a position holds no more X and no less Y. At or above its upper tick it holds no X, at or below its lower tick no Y. The liquidity computed at tick level for an offer of X and Y never needs more Y than offered.", "quantifier": "for all liquidities, ticks, ranges and offers", "why_tests_cant": "monotonicity compares two calls over all prices and rounding cases; the tests compute single amounts", "anchors": ["programs/hmmcl-sandbox/src/cl_pool/cl_math.rs"]}
{"id": "C118", "title": "The bounds of a range are recovered from its amounts", "statement": "From the liquidity (or the other bound) and the amounts in a range, the missing bound is computed to a stated rounding error and in a stated direction: the lower bound is never reported too low, the upper one never too high. When no range can hold the amounts, no bound is reported.", "quantifier": "for all amounts, prices and liquidities", "why_tests_cant": "the direction of the rounding holds for every input, and the failing inputs have amounts no test uses", "anchors": ["programs/hmmcl-sandbox/src/cl_pool/cl_math.rs"]}
{"id": "C119", "title": "What a swap reports about prices", "statement": "A swap reports as end price the square of the pool's new root price and as average price the quotient of the amounts exchanged, each rounded down to the twelfth place. Against the price before the swap the trader never gets the better deal: selling Y they pay at least the old price for each X, selling X they get at most the old price for each X.", "quantifier": "for all reachable pools, offers and oracle prices", "why_tests_cant": "the comparison must hold in every reachable state and for every rounding of the fills; the bad case needs an offer that is eaten up by the fee", "anchors": ["programs/hmmcl-sandbox/src/cl_pool/mod.rs"]}
{"id": "C120", "title": "A larger sale moves the pool further", "statement": "Of two sales of the same token to the same pool at the same oracle price, the larger one moves the price at least as far, leaves at least as much of the token sold in the reserve and at most as much of the other; without an oracle adjustment it is paid at least as much.", "quantifier": "for all reachable pools, pairs of offers and oracle prices", "why_tests_cant": "it compares two runs of the swap loop over any number of crossed ticks; the tests run one sale per state", "anchors": ["programs/hmmcl-sandbox/src/cl_pool/mod.rs"]}
{"id": "C121", "title": "Exactly when a deposit on chain succeeds", "statement": "A deposit of the on-chain program takes given amounts of X and Y and mints a given amount of LP tokens if and only if these are what the offer buys at the ticks of the pool and the range, the X does not exceed the offer, all accounts named are the right ones and may be used, the amounts fit their counters, the user has the tokens, and none of the token accounts is frozen. The amounts are determined by the offer and the three ticks.", "quantifier": "for all reachable states of the ledger, pools, accounts and 64-bit offers", "why_tests_cant": "a test sees that one deposit succeeds or fails, not that no further condition is imposed and none is missing", "anchors": ["programs/hmmcl-sandbox/src/instructions/deposit.rs"]}
{"id": "C122", "title": "An offer on chain is accepted if the user can pay all of it", "statement": "If everything is ready for a deposit of the on-chain program, and the user could pay the whole offer, then the deposit is accepted.", "quantifier": "for all reachable states of the ledger, pools, ranges and 64-bit offers", "why_tests_cant": "whether the computed X exceeds the offer depends on the remainder of a product of root prices, which differs from range to range", "anchors": ["programs/hmmcl-sandbox/src/instructions/deposit.rs"]}
{"id": "C123", "title": "An offer to a pool is accepted if nothing overflows", "statement": "A pool accepts every deposit of non-negative amounts into a new position with a proper range, ending at a tick that is not in use, as long as no sum overflows.", "quantifier": "for all reachable pools, users, ranges and offers", "why_tests_cant": "whether the computed X exceeds the offer depends on the remainder of a product of root prices, which differs from range to range", "anchors": ["programs/hmmcl-sandbox/src/cl_pool/mod.rs"]}
{"id": "C124", "title": "Exactly when a pool on chain can be opened, and what is opened", "statement": "A pool can be opened on chain if and only if there is none yet for the LP mint, the mints of X and Y exist and differ, the LP mint has been handed over to the pool, and the tick has a price. The new pool stands at that tick and its price, without liquidity, bitmap, ticks or positions, its three vaults are empty, not frozen and its own, and every other pool, mint and token account is as before.", "quantifier": "for all reachable states of the ledger, mints, ticks and signers", "why_tests_cant": "a test opens pools in an empty ledger; whether something left behind by earlier instructions can block an opening needs an invariant of all histories", "anchors": ["programs/hmmcl-sandbox/src/instructions/initialize_pool.rs"]}
{"id": "C125", "title": "Everybody can provide liquidity to any pool", "statement": "Whoever holds the tokens for what an offer buys between two ticks can deposit it in a pool, whichever accounts the pool has so far: at most five instructions that only create a bitmap, ticks or the position of that user, and leave all tokens, mints and other pools alone, make the deposit succeed.", "quantifier": "for all reachable states of the ledger, pools, users, ranges and 64-bit offers", "why_tests_cant": "there are many combinations of existing and missing accounts; a test creates all of them or none", "anchors": ["programs/hmmcl-sandbox/src/instructions/deposit.rs"]}
{"id": "C126", "title": "What a refused instruction reports", "statement": "A withdrawal of more liquidity than the position holds is refused with the program's error code InsufficientPositionLiquidity. A deposit or withdrawal naming accounts that do not exist or do not belong together is refused as such, before anything else; a deposit is refused with DepositAmountExceeded exactly if the accounts are the right ones with room for the liquidity that the offer buys, and the X computed for that liquidity is more than was offered; no instruction reports any other error code of the program, and none runs forever.", "quantifier": "for all reachable states of the ledger, instructions, accounts and 64-bit arguments", "why_tests_cant": "which errors can never come out is a statement about all inputs and states", "anchors": ["programs/hmmcl-sandbox/src/instructions/withdraw.rs"]}
{"id": "C127", "title": "The Python prototype and the floating-point pool sell alike", "statement": "Take a prototype pool and a floating-point pool in the same state, with no price below one, ticks that fit 32 bits and a positive tick spacing, and the same logarithms, powers and prices of ticks. If the prototype carries out a sale of X or of Y at some oracle price, the floating-point pool carries it out too, with bit for bit the same amounts paid, received, adjusted and kept as fee, and is left in the same state as the prototype; or it panics. It panics only on a pool with an adjustment, with a fee rate that is not from zero to below one, or with a range that begins or ends at tick zero.", "quantifier": "for all pools, sales, oracle prices, numbers of ranges crossed and all math libraries meeting the stated conditions", "why_tests_cant": "the notebooks show a few sales of the prototype and the crate's tests a few others; equality in every state and after every crossing cannot be sampled", "anchors": ["programs/hmmcl-sandbox/src/cl_python/v3_pool.py: execute_swap_from_X, execute_swap_from_Y", "programs/hmmcl-sandbox/src/cl_pool_float/mod.rs"]}
{"id": "C128", "title": "What is deposited in the Python prototype can be withdrawn", "statement": "A new position that is withdrawn right after the deposit pays out exactly the amounts that were deposited, to the last bit; it pays no fees of before the deposit; and no withdrawal leaves a negative reserve.", "quantifier": "for all pools, math libraries, users, amounts and ranges", "why_tests_cant": "exact equality of rounded amounts, and the sign of a reserve after any history, are statements about all doubles and states", "anchors": ["programs/hmmcl-sandbox/src/cl_python/v3_pool.py: deposit, withdraw"]}
{"id": "C129", "title": "A call of the Python prototype that raises has no effect", "statement": "If deposit, withdraw or one of the two swaps raises an exception, the pool is as it was before the call.", "quantifier": "for all pools, math libraries and arguments of the four calls", "why_tests_cant": "which of the writes before an exception stay visible depends on the state; a test sees one of them", "anchors": ["programs/hmmcl-sandbox/src/cl_python/v3_pool.py: _set_position, execute_swap_from_X, execute_swap_from_Y"]}
{"id": "C130", "title": "The Python prototype and the floating-point pool take the same deposits", "statement": "Take a prototype pool and a floating-point pool in the same state, with math libraries that give the same prices of ticks. If the prototype takes a deposit, the Rust pool takes it for exactly the same amounts and pays the same fees, and both end in the same state.", "quantifier": "for all such pools, users, amounts, ranges and math libraries", "why_tests_cant": "agreement of two implementations, one of them with unbounded integers, in every bit and from every state is not sampled by examples", "anchors": ["programs/hmmcl-sandbox/src/cl_python/v3_pool.py: deposit, _set_position, update_tick", "programs/hmmcl-sandbox/src/cl_pool_float/mod.rs: deposit, _set_position, update_tick"]}
{"id": "C131", "title": "The Python prototype's deposits and withdrawals follow the tick", "statement": "The amounts, apart from fees, for which the prototype takes a deposit or pays a withdrawal depend on the pool only through its tick and tick spacing: two pools that agree in these, and otherwise hold anything, take and pay the same.", "quantifier": "for all pools, math libraries, users, amounts, liquidity and ranges", "why_tests_cant": "independence of the price, the reserves and the other positions is a statement about pairs of states", "anchors": ["programs/hmmcl-sandbox/src/cl_python/v3_pool.py: deposit, withdraw"]}
{"id": "C132", "title": "The Python prototype and the floating-point pool pay withdrawals alike", "statement": "Take a prototype pool and a floating-point pool in the same state, with math libraries that give the same prices of ticks. If the prototype pays a withdrawal, the Rust pool pays it too: the prototype's amounts times its factor for withdrawals, and the same fees; apart from the reserves both end in the same state.", "quantifier": "for all such pools, users, liquidity, ranges and math libraries", "why_tests_cant": "agreement of two implementations in every bit and from every state is not sampled by examples", "anchors": ["programs/hmmcl-sandbox/src/cl_python/v3_pool.py: withdraw, _set_position, update_tick", "programs/hmmcl-sandbox/src/cl_pool_float/mod.rs: withdraw, _set_position, update_tick"]}
{"id": "C133", "title": "The Python prototype and the floating-point pool have the same histories", "statement": "Open a pool in the prototype and in the floating-point Rust code with the same parameters, and math libraries that give the same prices of ticks. Then whatever sequence of deposits and sales the prototype carries out, the Rust code carries out with the same answers and ends in the same state; or it panics, which it does not without adjustment and with a fee rate from zero to below one.", "quantifier": "for all parameters, math libraries and sequences of deposits and sales of any length", "why_tests_cant": "agreement of two implementations in every bit along every history is not sampled by examples", "anchors": ["programs/hmmcl-sandbox/src/cl_python/v3_pool.py: __init__, deposit, execute_swap_from_X, execute_swap_from_Y", "programs/hmmcl-sandbox/src/cl_pool_float/mod.rs: new, deposit, execute_swap_from_x, execute_swap_from_y"]}
{"id": "C134", "title": "f64 pool and Python prototype: the ends of a range from its amounts", "statement": "From liquidity, price and amount, or from price, both amounts and one end of the range, both floating-point implementations recover the other end. The lower end is found up to one part in 2^52 of the price, or six of the price plus the ratio of amounts at that price; the upper end up to five parts in 2^52 of itself times the ratio of upper end and price. The prototype does not raise and returns the number the Rust code returns.", "quantifier": "for all liquidities, amounts, prices and ends of moderate size (2^-100 to 2^100) that belong together, the upper end at most 2^40 times the price", "why_tests_cant": "rounding errors with cancellation depend on every bit of the inputs", "anchors": ["programs/hmmcl-sandbox/src/cl_pool_float/cl_math.rs: rpa_from_l_rp_y, rpb_from_l_rp_x, rpa_from_x_y_rp_rpb, rpb_from_x_y_rp_rpa", "programs/hmmcl-sandbox/src/cl_python/v3_pool.py: rPa_from_L_rP_y, rPb_from_L_rP_x, rPa_from_x_y_rP_rPb, rPb_from_x_y_rP_rPa"]}
{"id": "C135", "title": "A sale pays the same in one go or in parts", "statement": "Whether a trader sells an amount in one go or in parts, one after the other, the pool pays the same for it, with what it withholds as HMM adjustment, up to rounding dust for each part and initialised tick; without HMM the trader gets the same.", "quantifier": "for all pools, amounts, ways to divide them, and numbers of ticks crossed", "why_tests_cant": "all ways to divide all amounts in all states of a pool", "anchors": ["programs/hmmcl-sandbox/src/cl_pool/mod.rs: execute_swap_from_x, execute_swap_from_y"]}
{"id": "C136", "title": "Deposits for different positions can be made in any order", "statement": "If deposits for different positions go through one after the other, they go through in any other order; each gets the same receipt (amounts taken and fees paid out), and the pool ends with the same balances, pots, price, liquidity, positions and ticks. For one and the same position the order does matter, as the first deposit collects the fees.", "quantifier": "for all reachable pools, lists of deposits for pairwise different positions, and permutations of them", "why_tests_cant": "all orders of all lists of deposits in all states of a pool", "anchors": ["programs/hmmcl-sandbox/src/cl_pool/mod.rs: deposit, _set_position, fee_rng"]}
{"id": "C137", "title": "Withdrawals from different positions can be made in any order", "statement": "If withdrawals from different positions that hold liquidity go through one after the other, they go through in any other order; each gets the same receipt (amounts and fees paid out), and the pool ends with the same balances, pots, price, liquidity, positions and ticks. From one and the same position the order does matter, as the first withdrawal collects the fees.", "quantifier": "for all reachable pools, lists of withdrawals from pairwise different positions with liquidity, and permutations of them", "why_tests_cant": "all orders of all lists of withdrawals in all states of a pool", "anchors": ["programs/hmmcl-sandbox/src/cl_pool/mod.rs: withdraw, _set_position, fee_rng"]}
{"id": "C138", "title": "Withdrawals of different users from a pool on the ledger can be made in any order", "statement": "If different users withdraw from a pool one after the other, they can do so in any other order and each is paid the same; in the end all token accounts (with owners and approvals), mints, pools, positions and the bitmap are the same and the ticks say the same. So nobody has to be the first to leave. One user's own withdrawals cannot always be exchanged.", "quantifier": "for all reachable ledgers, pools that do not trade their own LP tokens, lists of withdrawals of pairwise different users, and permutations of them", "why_tests_cant": "all orders of all lists of withdrawals on all ledgers, including shared LP accounts and approvals", "anchors": ["programs/hmmcl-sandbox/src/instructions/withdraw.rs: handle", "programs/hmmcl-sandbox/src/instructions/manage_tick.rs: update", "programs/hmmcl-sandbox/src/instructions/manage_position.rs: update"]}
{"id": "C139", "title": "Deposits of different users into a pool on the ledger can be made in any order", "statement": "If different users deposit into a pool one after the other, they can do so in any other order and each pays and gets the same; in the end all token accounts, mints, pools and positions are the same and the ticks hold the same. Only the bitmap may depend on the order. One user's own deposits cannot always be exchanged.", "quantifier": "for all reachable ledgers, pools that do not trade their own LP tokens, lists of deposits of pairwise different users, and permutations of them", "why_tests_cant": "all orders of all lists of deposits on all ledgers, including shared ticks close to overflow", "anchors": ["programs/hmmcl-sandbox/src/instructions/deposit.rs: handle", "programs/hmmcl-sandbox/src/instructions/manage_tick.rs: update", "programs/hmmcl-sandbox/src/instructions/manage_position.rs: update"]}
{"id": "C140", "title": "The in-memory pool does the same in a build without overflow checks, except past tick 0", "statement": "In a build without overflow checks, where plain powers of ten and tick minus one wrap, creating a pool, deposits, withdrawals and sales of Y give the same result (new state, amounts or panic) as in a build with checks, for every argument in every state of a history. A sale of X does too, unless tick 0 is in use: then the build with checks may panic where the other one goes on at the last multiple of the spacing below 2^128. A history without checks in which X is sold only while tick 0 is not in use is a history with checks, so the other properties hold in it, and every history with checks is one without.", "quantifier": "for all reachable pools with a spacing that is a u128, all amounts, prices, users and scales, all floating-point units and all bounds on the rounds from one per tick plus two; for creation, all constants with at most fifty decimal places", "why_tests_cant": "equality of two builds for all states and arguments", "anchors": ["programs/hmmcl-sandbox/src/cl_pool/mod.rs: cross_tick", "programs/hmmcl-sandbox/src/cl_pool/mod.rs: swap_within_tick_from_x", "programs/hmmcl-sandbox/src/cl_pool/mod.rs: swap_within_tick_from_y", "programs/hmmcl-sandbox/src/cl_pool/mod.rs: execute_swap_from_x", "programs/hmmcl-sandbox/src/cl_pool/mod.rs: execute_swap_from_y", "programs/hmmcl-sandbox/src/decimal.rs"]}
{"id": "C141", "title": "The f64 pool does the same in a build without overflow checks, except past tick 0", "statement": "In a build without overflow checks, where the tick minus one wraps, sales of Y by the floating-point pool give the same result (new state, amounts or panic) as in a build with checks, for every argument in every state. A sale of X does too, unless tick 0 is in use and the build with checks panics, where the other one goes on at the last multiple of the spacing below 2^32. A history without checks in which X is sold only while tick 0 is not in use is a history with checks, and every history with checks is one without.", "quantifier": "for all math libraries, all pools whatever their state, all amounts and oracle prices including NaN and infinities, and all bounds on the rounds", "why_tests_cant": "equality of two builds for all states and arguments", "anchors": ["programs/hmmcl-sandbox/src/cl_pool_float/mod.rs: cross_tick", "programs/hmmcl-sandbox/src/cl_pool_float/mod.rs: try_get_in_range", "programs/hmmcl-sandbox/src/cl_pool_float/mod.rs: execute_swap_from_x", "programs/hmmcl-sandbox/src/cl_pool_float/mod.rs: execute_swap_from_y"]}
{"id": "C142", "title": "A deposit and a withdrawal for different positions can be made in either order", "statement": "If a deposit and a withdrawal for different positions are each possible, then the deposit is possible after the withdrawal exactly if the withdrawal is possible after the deposit (and both are if the fees the two collect are in the pots). In both orders each gets the receipt it gets when it comes first, and the pool ends with the same balances, pots, price, liquidity, positions and ticks, provided the withdrawal does not remove a tick at which the deposit's range begins or ends; if it does remove one, the records may differ.", "quantifier": "for all reachable pools, deposits and withdrawals for different positions", "why_tests_cant": "all pairs of operations in all states of a pool", "anchors": ["programs/hmmcl-sandbox/src/cl_pool/mod.rs: deposit, withdraw, _set_position, update_tick, fee_rng"]}
{"id": "C143", "title": "Deposits and withdrawals on the ledger do not stand in each other's way", "statement": "If a deposit and a withdrawal of a positive number of LP tokens are both possible in a pool that does not trade its own LP tokens, then each is possible after the other, with the same payments, and the two ledgers in the end are alike: the same token accounts with the same approvals, the same mints, positions and pool state, and ticks that hold the same. User, position and accounts may coincide. The same holds for a sequence of deposits and a sequence of withdrawals. In a pool that trades its own LP tokens it can fail.", "quantifier": "for all reachable ledgers, pools that do not trade their own LP tokens, deposits and withdrawals", "why_tests_cant": "all pairs of instruction sequences in all states of a ledger", "anchors": ["programs/hmmcl-sandbox/src/instructions/deposit.rs: handle", "programs/hmmcl-sandbox/src/instructions/withdraw.rs: handle", "programs/hmmcl-sandbox/src/instructions/manage_tick.rs: update", "programs/hmmcl-sandbox/src/instructions/manage_position.rs: update"]}
{"id": "C144", "title": "A withdrawal on the ledger can be made in parts", "statement": "If a number of LP tokens can be redeemed, they can be redeemed in any positive parts one after the other. Together the parts are paid no more than the whole, and fall short of it by less than one X and one Y for each part. In the end the ledger is the same (token accounts with approvals, mints, pools, positions, bitmap, and what the ticks say), except that the vaults hold what the user did not get. Small parts may be paid nothing.", "quantifier": "for all reachable ledgers, withdrawals that succeed, and ways to divide them into positive parts", "why_tests_cant": "all divisions of all withdrawals on all ledgers", "anchors": ["programs/hmmcl-sandbox/src/instructions/withdraw.rs: handle", "programs/hmmcl-sandbox/src/instructions/manage_tick.rs: update", "programs/hmmcl-sandbox/src/instructions/manage_position.rs: update"]}
{"id": "C145", "title": "An offer on the ledger made in parts gets no more and pays no more", "statement": "Take a deposit that is accepted, and deposits into the same range of ticks that are accepted one after the other, by whomever, and together offer no more X and no more Y. Together they get no more LP tokens and pay no more X and Y than the one deposit. They may pay less: five offers of one X can be free and still get LP tokens that are worth 4 X.", "quantifier": "for all reachable ledgers, accepted deposits, and accepted sequences of deposits into the same range that together offer no more", "why_tests_cant": "all divisions of all offers on all ledgers", "anchors": ["programs/hmmcl-sandbox/src/instructions/deposit.rs: handle", "programs/hmmcl-sandbox/src/cl_pool/cl_math.rs: liq_from_x_y_rp_rng, x_from_l_rp_rng, y_from_l_rp_rng"]}
{"id": "C146", "title": "A withdrawal can be made in parts", "statement": "A withdrawal from the in-memory pool that goes through can be made in any number of parts instead. None of the parts is refused. Together they get the same fees and HMM adjustments, all of them with the first part, and no more X and Y than the one withdrawal: for every part after the first, less by at most three units of the last decimal of X and two of Y, which stay in the reserves. Everything else the pool records is the same afterwards.", "quantifier": "for all reachable pools, accepted withdrawals, and ways to divide the liquidity into positive amounts with twelve decimals", "why_tests_cant": "all divisions of all withdrawals in all states", "anchors": ["programs/hmmcl-sandbox/src/cl_pool/mod.rs: withdraw, _set_position", "programs/hmmcl-sandbox/src/cl_pool/cl_math.rs: x_from_l_rp_rng, y_from_l_rp_rng"]}
{"id": "C147", "title": "An offer made in parts gets no more and pays no more", "statement": "Offers to the in-memory pool for one range that are accepted one after the other, and together offer no more X and no more Y than one offer for that range that would be accepted in their place, get together no more liquidity than it and pay no more X and no more Y into the reserves.", "quantifier": "for all reachable pools, accepted offers, and lists of accepted offers for the same range, by whomever, of amounts with twelve decimals", "why_tests_cant": "all divisions of all offers in all states", "anchors": ["programs/hmmcl-sandbox/src/cl_pool/mod.rs: deposit", "programs/hmmcl-sandbox/src/cl_pool/cl_math.rs: liq_from_x_y_rp_rng, x_from_l_rp_rng, y_from_l_rp_rng"]}
{"id": "C148", "title": "Putting in and taking out gains nothing but dust", "statement": "While nothing is sold, whatever anybody deposits and withdraws: if a position has at least as much liquidity after as before, then what has been paid out for it, fees and adjustments apart, exceeds what has been paid in by at most two units of the last decimal of X and one of Y for each deposit that was added to liquidity the position had already. Nobody gains anything who opens a position, takes it out in parts, and does so again and again.", "quantifier": "for all reachable pools, positions, and sequences of deposits and withdrawals by anybody", "why_tests_cant": "all sequences of deposits and withdrawals in all states", "anchors": ["programs/hmmcl-sandbox/src/cl_pool/mod.rs: deposit, withdraw", "programs/hmmcl-sandbox/src/cl_pool/cl_math.rs: x_from_l_rp_rng, y_from_l_rp_rng"]}
{"id": "C149", "title": "Pools with the same records go on alike", "statement": "Two pools that have the same price, tick, liquidity in use, fee growth, reserves and pots, the same record at every tick, and the same record of every position, cannot be told apart: whatever is done with one, any sequence of deposits, withdrawals and sales, can be done with the other, everybody is told the same amounts, and the records are the same after. In which order the positions were entered, or whether a net liquidity of zero came about from below or above, matters to nobody. So the order of deposits for different positions, or of withdrawals from them, has no effect on anything that happens later.", "quantifier": "for all pairs of reachable pools with the same records and all sequences of operations", "why_tests_cant": "all pairs of histories that lead to the same records, and all continuations", "anchors": ["programs/hmmcl-sandbox/src/cl_pool/mod.rs: deposit, withdraw, execute_swap_from_x, execute_swap_from_y, cross_tick, try_get_in_range"]}
{"id": "C150", "title": "While nothing is sold, the market follows from the positions", "statement": "After any sequence of deposits and withdrawals that leaves every position with the liquidity it held before, the price, the tick, the liquidity in use and the fee growth are exactly what they were, and at every tick the same liquidity begins and ends. A position that is opened and closed again leaves no trace in any record but those of the reserves and the fee pots, and the reserves are not smaller: the fees recorded at ticks and the records of other positions are unchanged too.", "quantifier": "for all reachable pools and all sequences of deposits and withdrawals", "why_tests_cant": "all ways in and out of a pool, over ranges that share ticks with others, and any rounding that would add up", "anchors": ["programs/hmmcl-sandbox/src/cl_pool/mod.rs: deposit, withdraw, _set_position, update_tick, add_glbl_liq"]}
{"id": "C151", "title": "Who somebody is does not matter", "statement": "If all users of a pool were called by other names, everything would happen in the same way: the same operations succeed and the same are refused, with the same amounts for everybody. In particular of two users who hold nothing yet either can take the place of the other. And what traders get does not depend on who holds the positions or on how many positions the liquidity is divided into: pools with the same price, fee growth, reserves, pots and liquidity at every tick make the same sales, however the positions are divided among owners.", "quantifier": "for all reachable pools, all renamings, and all sequences of operations", "why_tests_cant": "all histories with any users: a branch that treats one name, or the number of positions, in another way", "anchors": ["programs/hmmcl-sandbox/src/cl_pool/mod.rs: deposit, withdraw, _set_position, execute_swap_from_x, execute_swap_from_y"]}
{"id": "C152", "title": "f64 pool: who somebody is does not matter", "statement": "If all users of the floating-point pool were called by other names, every deposit and every withdrawal would come out in the same way, success or refusal, with the same amounts, and so would every history. What comes of a sale does not depend on the positions at all: neither on who holds them nor on how many there are, whatever amounts are offered, not-a-number included.", "quantifier": "for all pools, reachable or not, all renamings, all arguments", "why_tests_cant": "all histories with any users, and all floating-point arguments", "anchors": ["programs/hmmcl-sandbox/src/cl_pool_float/mod.rs: deposit, withdraw, _set_position, execute_swap_from_x, execute_swap_from_y"]}
{"id": "C153", "title": "Prototype: who somebody is does not matter", "statement": "If all users of the Python prototype were called by other names, they would see the same: every deposit, withdrawal and sale would return the same numbers or raise, and leave the same pool but for the names, also where an exception leaves a call half done, and also if calls go on after exceptions. What comes of a sale does not depend on the positions at all.", "quantifier": "for all pools, all sessions of any length, all renamings, all arguments", "why_tests_cant": "all sessions with any users, with exceptions anywhere in them", "anchors": ["programs/hmmcl-sandbox/src/cl_python/v3_pool.py: deposit, withdraw, _set_position, execute_swap_from_X, execute_swap_from_Y"]}
{"id": "C154", "title": "What an oracle's price withholds within a tick range", "statement": "Within a tick range a sale is adjusted only as long as the price is better for the seller than that of the oracle. A sale of X below the oracle's price is paid in full. If the price falls past that of the oracle, the adjusted amount is paid for the move down to it and the full amount for the rest, so what is withheld is what is withheld for the move down to it. If it stays above, the adjusted amount is paid for the whole move. Sales of Y are alike with the prices the other way round.", "quantifier": "for all pools, amounts, prices and oracle prices for which the sale within the range returns", "why_tests_cant": "three regimes for all positions of the oracle's price relative to both ends of the move", "anchors": ["programs/hmmcl-sandbox/src/cl_pool/mod.rs: swap_within_tick_from_x, swap_within_tick_from_y"]}
