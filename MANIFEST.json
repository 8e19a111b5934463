{
 "claims": [
  {
   "property": "C01",
   "status": "proved",
   "theorems": [
    "Hmm.C01_add_exact",
    "Hmm.C01_add_fails",
    "Hmm.C01_sub_exact",
    "Hmm.C01_sub_fails"
   ],
   "note": ""
  },
  {
   "property": "C02",
   "status": "proved",
   "theorems": [
    "Hmm.C02_mul",
    "Hmm.C02_mul_fails"
   ],
   "note": ""
  },
  {
   "property": "C03",
   "status": "proved",
   "theorems": [
    "Hmm.C03_div",
    "Hmm.C03_div_fails"
   ],
   "note": ""
  },
  {
   "property": "C04",
   "status": "proved",
   "theorems": [
    "Hmm.C04_mul_bracket",
    "Hmm.C04_div_bracket",
    "Hmm.C04_up_returns"
   ],
   "note": ""
  },
  {
   "property": "C05",
   "status": "proved",
   "theorems": [
    "Hmm.C05_mul_div",
    "Hmm.C05_div_mul"
   ],
   "note": ""
  },
  {
   "property": "C06",
   "status": "proved",
   "theorems": [
    "Hmm.C06_up",
    "Hmm.C06_down",
    "Hmm.C06_up_down",
    "Hmm.C06_down_down"
   ],
   "note": "A single downward step of more than 38 digits panics where two steps would return; stated in C06_down and C06_down_down."
  },
  {
   "property": "C07",
   "status": "partial",
   "theorems": [
    "Hmm.C07_false",
    "Hmm.C07_toScaleUp_partial",
    "Hmm.C07_sign_lost"
   ],
   "note": "The property is false of the code: to_scale_up loses the sign of negative decimals. Proved: the refutation, the magnitude for all decimals, the full claim for non-negative ones."
  },
  {
   "property": "C08",
   "status": "partial",
   "theorems": [
    "Hmm.C08_false",
    "Hmm.C08_false_reachable",
    "Hmm.C08_compare_partial",
    "Hmm.C08_right",
    "Hmm.C08_zeros"
   ],
   "note": "False for negative zero, which ordinary multiplication produces. Proved: the refutation, and exactly which pairs are compared wrongly: every comparison is right except between the two zeros, and what those report is stated."
  },
  {
   "property": "C09",
   "status": "proved",
   "theorems": [
    "Hmm.C09_scales",
    "Hmm.C09_trichotomy",
    "Hmm.C09_eq_iff",
    "Hmm.C09_negations",
    "Hmm.C09_lt_trans",
    "Hmm.C09_min_max",
    "Hmm.C09_min_max_scales"
   ],
   "note": ""
  },
  {
   "property": "C10",
   "status": "proved",
   "theorems": [
    "Hmm.C10_sqrt",
    "Hmm.C10_sqrt_range",
    "Hmm.C10_sqrt_terminates"
   ],
   "note": ""
  },
  {
   "property": "C11",
   "status": "partial",
   "theorems": [
    "Hmm.C11_false",
    "Hmm.C11_sqrt_negative_partial"
   ],
   "note": "False of the code: the root of -4 is returned as -2. Proved: the refutation and what is returned for every negative decimal."
  },
  {
   "property": "C12",
   "status": "proved",
   "theorems": [
    "Hmm.C12_pow_bounds"
   ],
   "note": ""
  },
  {
   "property": "C13",
   "status": "partial",
   "theorems": [
    "Hmm.C13_false",
    "Hmm.C13_sign_inverted",
    "Hmm.C13_magnitude_partial"
   ],
   "note": "False of the code: the sign of every power of a negative base is inverted. Proved: the refutation, the exact sign rule of the code, and the magnitude."
  },
  {
   "property": "C14",
   "status": "partial",
   "theorems": [
    "Hmm.C14_false",
    "Hmm.C14_returns_partial",
    "Hmm.C14_pow_terminates",
    "Hmm.C14_when_large",
    "Hmm.C14_when_small",
    "Hmm.C14_when_scale"
   ],
   "note": "False of the code: one superfluous squaring panics. Proved: the refutation, a sufficient condition for returning, and exactly when a power is returned, for bases of every magnitude and scale."
  },
  {
   "property": "C15",
   "status": "proved",
   "theorems": [
    "Hmm.C15_roundtrip",
    "Hmm.C15_display_injective"
   ],
   "note": ""
  },
  {
   "property": "C16",
   "status": "partial",
   "theorems": [
    "Hmm.C16_false",
    "Hmm.C16_negative_exponent_partial",
    "Hmm.C16_positive_exponent_partial",
    "Hmm.C16_truncates"
   ],
   "note": "False of the code: with a fraction longer than a positive exponent digits are cut. Proved: refutation, exactness in all other cases, and what is returned when digits are cut."
  },
  {
   "property": "C17",
   "status": "proved",
   "theorems": [
    "Hmm.C17_isInteger"
   ],
   "note": ""
  },
  {
   "property": "C18",
   "status": "proved",
   "theorems": [
    "Hmm.C18_divToScale"
   ],
   "note": ""
  },
  {
   "property": "C19",
   "status": "proved",
   "theorems": [
    "Hmm.C19_neg"
   ],
   "note": ""
  },
  {
   "property": "C20",
   "status": "proved",
   "theorems": [
    "Hmm.C20_abs",
    "Hmm.C20_absUp"
   ],
   "note": ""
  },
  {
   "property": "C21",
   "status": "proved",
   "theorems": [
    "Hmm.C21_returns",
    "Hmm.C21_panics"
   ],
   "note": ""
  },
  {
   "property": "C22",
   "status": "proved",
   "theorems": [
    "Hmm.C22_accurate"
   ],
   "note": ""
  },
  {
   "property": "C23",
   "status": "proved",
   "theorems": [
    "Hmm.C23_increasing"
   ],
   "note": ""
  },
  {
   "property": "C24",
   "status": "proved",
   "theorems": [
    "Hmm.C24_brackets",
    "Hmm.C24_stops",
    "Hmm.C24_returns",
    "Hmm.C24_panics"
   ],
   "note": ""
  },
  {
   "property": "C25",
   "status": "proved",
   "theorems": [
    "Hmm.C25_round_trip",
    "Hmm.C25_returns"
   ],
   "note": ""
  },
  {
   "property": "C26",
   "status": "proved",
   "theorems": [
    "Hmm.C26_down",
    "Hmm.C26_up",
    "Hmm.C26_multiples",
    "Hmm.C26_returns",
    "Hmm.C26_zero"
   ],
   "note": ""
  },
  {
   "property": "C27",
   "status": "proved",
   "theorems": [
    "Hmm.C27_y_needed",
    "Hmm.C27_returns"
   ],
   "note": ""
  },
  {
   "property": "C28",
   "status": "partial",
   "theorems": [
    "Hmm.C28_false",
    "Hmm.C28_x_needed_partial"
   ],
   "note": "False of the code: the divisor is rounded down, so the X needed can exceed the offer (10 X offered, 10.000000000001 needed). Proved: refutation and the exact rounding factor that bounds the excess."
  },
  {
   "property": "C29",
   "status": "proved",
   "theorems": [
    "Hmm.C29_x_mono",
    "Hmm.C29_y_mono",
    "Hmm.C29_x_super",
    "Hmm.C29_y_super"
   ],
   "note": ""
  },
  {
   "property": "C30",
   "status": "proved",
   "theorems": [
    "Hmm.C30_above",
    "Hmm.C30_below",
    "Hmm.C30_y_inside"
   ],
   "note": ""
  },
  {
   "property": "C31",
   "status": "proved",
   "theorems": [
    "Hmm.C31_dx",
    "Hmm.C31_dy",
    "Hmm.C31_dx_mono",
    "Hmm.C31_dy_mono"
   ],
   "note": ""
  },
  {
   "property": "C32",
   "status": "proved",
   "theorems": [
    "Hmm.C32_dx",
    "Hmm.C32_dy",
    "Hmm.C32_dx_returns",
    "Hmm.C32_dy_returns"
   ],
   "note": ""
  },
  {
   "property": "C33",
   "status": "partial",
   "theorems": [
    "Hmm.C33_dy",
    "Hmm.C33_dx_false",
    "Hmm.C33_dx_partial"
   ],
   "note": "Proved for Y. False of the code for X (divisor rounded down): refutation and the rounding factor that bounds the excess."
  },
  {
   "property": "C34",
   "status": "proved",
   "theorems": [
    "Hmm.Pool.C34_from_x",
    "Hmm.Pool.C34_from_y"
   ],
   "note": ""
  },
  {
   "property": "C35",
   "status": "proved",
   "theorems": [
    "Hmm.Pool.C35_from_x",
    "Hmm.Pool.C35_from_y"
   ],
   "note": ""
  },
  {
   "property": "C36",
   "status": "proved",
   "theorems": [
    "Hmm.Pool.C36_funds"
   ],
   "note": ""
  },
  {
   "property": "C37",
   "status": "proved",
   "theorems": [
    "Hmm.Pool.C37_from_x",
    "Hmm.Pool.C37_from_y",
    "Hmm.Pool.C37_unique_x",
    "Hmm.Pool.C37_unique_y"
   ],
   "note": "Stated over a relational, fuel-free reading of the loops (Verif/Spec/Swap.lean) and tied to the modelled functions."
  },
  {
   "property": "C38",
   "status": "proved",
   "theorems": [
    "Hmm.Pool.C38_ticks",
    "Hmm.Pool.C38_maps"
   ],
   "note": ""
  },
  {
   "property": "C39",
   "status": "partial",
   "theorems": [
    "Hmm.Pool.C39_partial",
    "Hmm.Pool.C39_false",
    "Hmm.Pool.C39_double"
   ],
   "note": "The property is false: Pool.C39_false gives a history where a swap ends exactly on the lower bound of a position, the recorded tick falls below it and the liquidity stays active; Pool.C39_double shows the next swap then counts it twice. Proved for all histories in which no completely filled swap ends within two millionths of a grid tick price."
  },
  {
   "property": "C40",
   "status": "proved",
   "theorems": [
    "Hmm.Pool.C40_swap",
    "Hmm.Pool.C40_deposit",
    "Hmm.Pool.C40_withdraw"
   ],
   "note": ""
  },
  {
   "property": "C41",
   "status": "proved",
   "theorems": [
    "Hmm.Pool.C41_withdraw",
    "Hmm.Pool.C41_deposit"
   ],
   "note": ""
  },
  {
   "property": "C42",
   "status": "partial",
   "theorems": [
    "Hmm.Pool.C42_false",
    "Hmm.Pool.C42_principal",
    "Hmm.Pool.C42_partial"
   ],
   "note": "False of the code: with the lower bound already in use a first deposit followed at once by its withdrawal collects fees of others (Pool.C42_false). Proved: the reserves never lose, and with an unused lower bound the whole payout is at most the deposit."
  },
  {
   "property": "C43",
   "status": "partial",
   "theorems": [
    "Hmm.Pool.C43_false",
    "Hmm.Pool.C43_at_once_partial",
    "Hmm.Pool.C43_later_partial"
   ],
   "note": "False of the code: the fee record of a new position starts at zero, not at the growth inside its range (Pool.C43_false). Proved for unused lower bounds, at once and through later histories that avoid the tick grid."
  },
  {
   "property": "C44",
   "status": "partial",
   "theorems": [
    "Hmm.Pool.C44_false",
    "Hmm.Pool.C44_criterion_partial",
    "Hmm.Pool.C44_unused_partial"
   ],
   "note": "False of the code: fee_below_above counts all growth below an uninitialised tick, so a range from an unused tick to a used one can get a negative inside growth and panic (Pool.C44_false). Proved: the exact criterion for acceptance of a new position, and acceptance whenever the upper bound is unused."
  },
  {
   "property": "C45",
   "status": "partial",
   "theorems": [
    "Hmm.Pool.C45_false",
    "Hmm.Pool.C45_blocked",
    "Hmm.Pool.C45_left",
    "Hmm.Pool.C45_right_partial"
   ],
   "note": "False of the code: with the tick off the grid every sale of Y panics (Pool.C45_blocked, Pool.C45_false). Proved: the goal search for sales of X always succeeds and is right; for sales of Y it is when the tick is on the grid."
  },
  {
   "property": "C46",
   "status": "proved",
   "theorems": [
    "Hmm.Pool.C46_from_x",
    "Hmm.Pool.C46_from_y"
   ],
   "note": ""
  },
  {
   "property": "C47",
   "status": "proved",
   "theorems": [
    "Hmm.Pool.C47_from_x",
    "Hmm.Pool.C47_from_y"
   ],
   "note": ""
  },
  {
   "property": "C48",
   "status": "proved",
   "theorems": [
    "Hmm.Pool.C48_involution",
    "Hmm.Pool.C48_others"
   ],
   "note": ""
  },
  {
   "property": "C49",
   "status": "proved",
   "theorems": [
    "Hmm.C49_set",
    "Hmm.C49_range"
   ],
   "note": ""
  },
  {
   "property": "C50",
   "status": "proved",
   "theorems": [
    "Hmm.C50_right"
   ],
   "note": ""
  },
  {
   "property": "C51",
   "status": "proved",
   "theorems": [
    "Hmm.C51_left"
   ],
   "note": ""
  },
  {
   "property": "C52",
   "status": "proved",
   "theorems": [
    "Hmm.OnChain.C52_split",
    "Hmm.OnChain.C52_within"
   ],
   "note": "Both sides of the assertion are shown to be the global growth. The growth inside is computed whenever the values are below 2^126; near 2^128 a subtraction can overflow, which is a panic."
  },
  {
   "property": "C53",
   "status": "proved",
   "theorems": [
    "Hmm.OnChain.C53_constant"
   ],
   "note": ""
  },
  {
   "property": "C54",
   "status": "proved",
   "theorems": [
    "Hmm.OnChain.C54_active"
   ],
   "note": ""
  },
  {
   "property": "C55",
   "status": "partial",
   "theorems": [
    "Hmm.OnChain.C55_false",
    "Hmm.OnChain.C55_partial"
   ],
   "note": "False for the account of the pool's own tick, which is written back unchanged (counterexample proved); proved for all other ticks."
  },
  {
   "property": "C56",
   "status": "partial",
   "theorems": [
    "Hmm.OnChain.C56_false",
    "Hmm.OnChain.C56_stuck",
    "Hmm.OnChain.C56_partial"
   ],
   "note": "False for ranges bounded by the pool's tick, where no withdrawal can ever succeed (proved); proved for all other ranges."
  },
  {
   "property": "C57",
   "status": "proved",
   "theorems": [
    "Hmm.OnChain.C57_backed"
   ],
   "note": ""
  },
  {
   "property": "C58",
   "status": "proved",
   "theorems": [
    "Hmm.OnChain.C58_debit"
   ],
   "note": ""
  },
  {
   "property": "C59",
   "status": "partial",
   "theorems": [
    "Hmm.OnChain.C59_false",
    "Hmm.OnChain.C59_partial",
    "Hmm.OnChain.C59_whole_partial"
   ],
   "note": "False: rounding down of debits lets a user take a token that another paid in (counterexample proved). Proved up to one token per deposit."
  },
  {
   "property": "C60",
   "status": "proved",
   "theorems": [
    "Hmm.OnChain.C60_deposit",
    "Hmm.OnChain.C60_withdraw"
   ],
   "note": ""
  },
  {
   "property": "C61",
   "status": "partial",
   "theorems": [
    "Hmm.OnChain.C61_false",
    "Hmm.OnChain.C61_partial"
   ],
   "note": "False: the handlers set and clear the bits 0 and 40000 whatever the range (counterexample proved). Proved: no other bit is ever set and a withdrawal clears all."
  },
  {
   "property": "C62",
   "status": "proved",
   "theorems": [
    "Hmm.OnChain.C62_labels",
    "Hmm.OnChain.C62_no_mismatch"
   ],
   "note": ""
  },
  {
   "property": "C63",
   "status": "proved",
   "theorems": [
    "Hmm.Pool.C63_records"
   ],
   "note": ""
  },
  {
   "property": "C64",
   "status": "partial",
   "theorems": [
    "Hmm.Pool.C64_false",
    "Hmm.Pool.C64_forfeit",
    "Hmm.Pool.C64_inside_partial"
   ],
   "note": "False of the code: a sale ending exactly on the lower bound of a position records the tick below without flipping the record, so the growth inside falls to zero (Pool.C64_false) and the provider loses the fees (Pool.C64_forfeit). Proved for all histories in which no completely filled swap ends within two millionths of a grid tick price."
  },
  {
   "property": "C65",
   "status": "proved",
   "theorems": [
    "Hmm.Pool.C65_from_x",
    "Hmm.Pool.C65_from_y",
    "Hmm.Pool.C65_dry_x",
    "Hmm.Pool.C65_dry_y"
   ],
   "note": "That no liquidity is active after an unfilled sale is proved for the histories of C39 (elsewhere the recorded active liquidity is wrong). Oversized sales may also panic (see DESIGN.md)."
  },
  {
   "property": "C66",
   "status": "proved",
   "theorems": [
    "Hmm.Pool.C66_market",
    "Hmm.Pool.C66_from_x",
    "Hmm.Pool.C66_from_y",
    "Hmm.Pool.C66_cost_x",
    "Hmm.Pool.C66_cost_y",
    "Hmm.Pool.C66_deposit",
    "Hmm.Pool.C66_withdraw"
   ],
   "note": ""
  },
  {
   "property": "C67",
   "status": "proved",
   "theorems": [
    "Hmm.Pool.C67_from_x",
    "Hmm.Pool.C67_from_y"
   ],
   "note": ""
  },
  {
   "property": "C68",
   "status": "proved",
   "theorems": [
    "Hmm.Pool.C68_from_x",
    "Hmm.Pool.C68_from_y",
    "Hmm.Pool.C68_reachable"
   ],
   "note": ""
  },
  {
   "property": "C69",
   "status": "partial",
   "theorems": [
    "Hmm.Pool.C69_false",
    "Hmm.Pool.C69_false_dust",
    "Hmm.Pool.C69_stuck",
    "Hmm.Pool.C69_y_partial",
    "Hmm.Pool.C69_x_partial"
   ],
   "note": "False of the code: by dust since each deposit is rounded down by itself (C69_false_dust), and by much after a swap that ended exactly on a tick (C69_false; the position can then not be withdrawn, C69_stuck). Proved for the histories of C39: the shortage is at most one unit of the twelfth place of Y, and cap + 2 units of X (cap bounding the total liquidity), for each deposit and swap step."
  },
  {
   "property": "C70",
   "status": "partial",
   "theorems": [
    "Hmm.Pool.C70_false",
    "Hmm.Pool.C70_from_x_partial",
    "Hmm.Pool.C70_from_y_partial"
   ],
   "note": "False where the active liquidity is wrong (C70_false); proved for the histories of C39 with explicit dust bounds."
  },
  {
   "property": "C71",
   "status": "partial",
   "theorems": [
    "Hmm.Pool.C71_false",
    "Hmm.Pool.C71_enough_partial"
   ],
   "note": "False of the code: the reserve can be short of the last unit of the twelfth place and the sale panics (C71_false). Proved: if the Y reserve covers the positions, no step of a sale can lack Y."
  },
  {
   "property": "C72",
   "status": "partial",
   "theorems": [
    "Hmm.Pool.C72_false",
    "Hmm.Pool.C72_value_partial",
    "Hmm.Pool.C72_round_trip_partial"
   ],
   "note": "False of the code: after a swap that ended exactly on a tick the liquidity is counted twice and a trader gains (C72_false). Proved for the histories of C39, up to rounding dust for each swap and initialised tick."
  },
  {
   "property": "C73",
   "status": "proved",
   "theorems": [
    "Hmm.Pool.C73_pays"
   ],
   "note": ""
  },
  {
   "property": "C74",
   "status": "proved",
   "theorems": [
    "Hmm.Pool.C74_uses"
   ],
   "note": ""
  },
  {
   "property": "C75",
   "status": "proved",
   "theorems": [
    "Hmm.Pool.C75_floor",
    "Hmm.Pool.C75_sell_x",
    "Hmm.Pool.C75_sell_y"
   ],
   "note": ""
  },
  {
   "property": "C76",
   "status": "proved",
   "theorems": [
    "Hmm.Pool.C76_deposit",
    "Hmm.Pool.C76_withdraw"
   ],
   "note": ""
  },
  {
   "property": "C77",
   "status": "partial",
   "theorems": [
    "Hmm.C77_false",
    "Hmm.C77_exact",
    "Hmm.C77_numerals_partial",
    "Hmm.C77_value_partial",
    "Hmm.C77_plain_partial",
    "Hmm.C77_exponent_partial"
   ],
   "note": "False of the code: \".+5\", \"--5e1\" and exponents that overflow the scale are misread (C77_false). C77_exact says for every text whether it is read and as which decimal. Only numerals, and those spoilt by a plus right after the point or by a second minus, are read; numerals are read as the number they denote up to 255 places, if the fraction is not longer than a positive exponent."
  },
  {
   "property": "C78",
   "status": "partial",
   "theorems": [
    "Hmm.C78_false",
    "Hmm.C78_power_partial",
    "Hmm.C78_refused"
   ],
   "note": "False of the code for bases with one decimal place (C78_false). Proved for non-negative bases with at least two places; negative bases are C11, C13."
  },
  {
   "property": "C79",
   "status": "partial",
   "theorems": [
    "Hmm.C79_false",
    "Hmm.C79_dx_partial",
    "Hmm.C79_dy_partial",
    "Hmm.C79_log_sign",
    "Hmm.PoolMath.C79_log_near",
    "Hmm.PoolMath.C79_log_defined",
    "Hmm.PoolMath.C79_log_case",
    "Hmm.C79_refused"
   ],
   "note": "False of the code: for c = 1 the change of Y has the wrong sign (C79_false, C79_log_sign). Proved for c > 1 with explicit error bounds; for c = 1 and an accurate math library C79_log_near bounds the error of X, and of Y against the negative of the right amount, for root prices from 1/64 to 2^48 clear of the powers of two."
  },
  {
   "property": "C80",
   "status": "partial",
   "theorems": [
    "Hmm.C80_false",
    "Hmm.Pool.C80_sell_x_partial",
    "Hmm.Pool.C80_sell_y_partial"
   ],
   "note": "False of the code: pools with exponent 0.5, 1 and 1.1 can be created and funded, but refuse sales of X above the oracle price (C80_false). Proved: a step against the oracle moves the price only for the exponents 0, 1, 1.25, 1.5 and 2."
  },
  {
   "property": "C81",
   "status": "partial",
   "theorems": [
    "Hmm.Flt.Pool.books_false",
    "Hmm.Flt.Pool.books_partial",
    "Hmm.Flt.Pool.no_positions_no_ticks_partial"
   ],
   "note": "False of the code: roundings of fractional withdrawals leave ticks that no position uses (books_false). Proved for every history, with swaps, in which withdrawals are of whole liquidity."
  },
  {
   "property": "C82",
   "status": "partial",
   "theorems": [
    "Hmm.Flt.Pool.withdraw_accepted_false",
    "Hmm.Flt.Pool.withdraw_accepted_whole_false",
    "Hmm.Flt.Pool.withdraw_more_refused",
    "Hmm.Flt.Pool.withdraw_accepted_partial",
    "Hmm.Flt.Pool.withdraw_any_part_partial"
   ],
   "note": "Refusal is proved for every pool. Acceptance is false of the code: after fractional withdrawals by others, or when the fee growths of a range do not add up in doubles, a user cannot withdraw. Acceptance is proved for histories of deposits and whole withdrawals; with swaps that do not stop on an initialised tick, it is proved that all whole parts can be withdrawn if any (e.g. nothing) can."
  },
  {
   "property": "C83",
   "status": "partial",
   "theorems": [
    "Hmm.Flt.Pool.collected_once_false",
    "Hmm.Flt.Pool.collected_once_partial",
    "Hmm.Flt.Pool.quiet_pays_nothing_partial"
   ],
   "note": "False of the code for a deposit that opens a position (collected_once_false). Proved for positions that existed before, and before any swap."
  },
  {
   "property": "C84",
   "status": "partial",
   "theorems": [
    "Hmm.Flt.Pool.deposit_takes_offer_false",
    "Hmm.Flt.Pool.empty_deposit_stops_trading",
    "Hmm.Flt.Pool.deposit_takes_offer_partial"
   ],
   "note": "False of the code: a deposit of nothing into a range of width zero above the price makes both reserves NaN and no swap exchanges anything afterwards (empty_deposit_stops_trading). Proved where the computed amounts are numbers."
  },
  {
   "property": "C85",
   "status": "proved",
   "theorems": [
    "Hmm.Flt.snap_down",
    "Hmm.Flt.snap_up",
    "Hmm.Flt.snap_multiple"
   ],
   "note": ""
  },
  {
   "property": "C86",
   "status": "proved",
   "theorems": [
    "Hmm.Flt.Pool.swapX_ends",
    "Hmm.Flt.Pool.swapY_ends"
   ],
   "note": ""
  },
  {
   "property": "C87",
   "status": "partial",
   "theorems": [
    "Hmm.Flt.Pool.takes_offer_false",
    "Hmm.Flt.Pool.swapX_takes_partial",
    "Hmm.Flt.Pool.swapY_takes_partial",
    "Hmm.Flt.Pool.rounding_panics"
   ],
   "note": "False of the code: a sale of 3.22 X takes one unit of the last place more (takes_offer_false). Proved up to a relative error of 3/2^53, for offers up to 2^1022, for every state."
  },
  {
   "property": "C88",
   "status": "proved",
   "theorems": [
    "Hmm.Flt.Pool.deposit_frame",
    "Hmm.Flt.Pool.withdraw_frame",
    "Hmm.Flt.Pool.swap_frame"
   ],
   "note": ""
  },
  {
   "property": "C89",
   "status": "proved",
   "theorems": [
    "Hmm.Flt.Pool.twins_market",
    "Hmm.Flt.Pool.twins_swapX",
    "Hmm.Flt.Pool.twins_swapY",
    "Hmm.Flt.Pool.twins_costX",
    "Hmm.Flt.Pool.twins_costY",
    "Hmm.Flt.Pool.twins_deposit",
    "Hmm.Flt.Pool.twins_withdraw",
    "Hmm.Flt.Pool.twins_case"
   ],
   "note": ""
  },
  {
   "property": "C90",
   "status": "proved",
   "theorems": [
    "Hmm.Flt.Pool.deposit_amounts",
    "Hmm.Flt.Pool.deposit_amounts_case"
   ],
   "note": ""
  },
  {
   "property": "C91",
   "status": "proved",
   "theorems": [
    "Hmm.Flt.Pool.withdraw_amounts",
    "Hmm.Flt.Pool.deposit_withdraw_no_profit"
   ],
   "note": ""
  },
  {
   "property": "C92",
   "status": "proved",
   "theorems": [
    "Hmm.Flt.Pool.sell_x_stages",
    "Hmm.Flt.Pool.sell_y_stages",
    "Hmm.Flt.Pool.sell_x_stages_case"
   ],
   "note": ""
  },
  {
   "property": "C93",
   "status": "partial",
   "theorems": [
    "Hmm.Flt.Pool.active_false",
    "Hmm.Flt.Pool.edged_pool",
    "Hmm.Flt.Pool.active_partial",
    "Hmm.Flt.Pool.placed_partial",
    "Hmm.Flt.Pool.active_case"
   ],
   "note": "False of the code: when what is left of a sale after crossing a bound is too small to move the price, the tick is computed from the price again and falls back into the range just left; then a provider cannot withdraw and sales panic (edged_pool). Proved for every history, with swaps crossing any number of ticks, in which no swap stops on an initialised tick and deposits put ticks where price and current tick agree."
  },
  {
   "property": "C94",
   "status": "proved",
   "theorems": [
    "Hmm.Flt.Pool.conserved",
    "Hmm.Flt.Pool.no_minting",
    "Hmm.Flt.Pool.conserved_case"
   ],
   "note": "Rounds of a swap are counted by the fuel; by C86 a swap takes at most 2n+3 of them, n being the number of ticks."
  },
  {
   "property": "C95",
   "status": "proved",
   "theorems": [
    "Hmm.Flt.Pool.no_offer_refused",
    "Hmm.Flt.Pool.sell_x_report",
    "Hmm.Flt.Pool.sell_y_report",
    "Hmm.Flt.Pool.new_on_grid",
    "Hmm.Flt.Pool.report_case"
   ],
   "note": ""
  },
  {
   "property": "C96",
   "status": "proved",
   "theorems": [
    "Hmm.Flt.tick_price",
    "Hmm.Flt.price_increases",
    "Hmm.Flt.tick_of_price",
    "Hmm.Flt.tick_of_price_up",
    "Hmm.Flt.tick_between",
    "Hmm.Flt.lower_bound",
    "Hmm.Flt.there_and_back",
    "Hmm.Flt.back_false",
    "Hmm.Flt.prices_case"
   ],
   "note": "A stronger claim is false (back_false): with a library that rounds these values as well as possible, the price of tick 20 is read as tick 19, so a range asked to start there starts at tick 10 if the grid spacing is 10."
  },
  {
   "property": "C97",
   "status": "partial",
   "theorems": [
    "Hmm.Flt.sell_x_oracle",
    "Hmm.Flt.sell_y_oracle",
    "Hmm.Flt.sell_x_one",
    "Hmm.Flt.sell_x_untouched",
    "Hmm.Flt.sell_y_untouched",
    "Hmm.Flt.x_price_between",
    "Hmm.Flt.y_price_between",
    "Hmm.Flt.one_false",
    "Hmm.Flt.oracle_case"
   ],
   "note": "Missing: sales of X with c = 1, where the claim is false. one_false has a pool that panics where the same pool with c = 1/2 sells 5000 X for 4990 Y, and pays less than 1650 Y for the 5000 X if the oracle is nearer. sell_x_one says what such a sale pays: the oracle part counts against the trader, and a move that stays above the oracle price is impossible. Also missing: c > 2 or c < 0, and root prices outside 2^-50 .. 2^50."
  },
  {
   "property": "C98",
   "status": "partial",
   "theorems": [
    "Hmm.Decimal.C98_ln_partial",
    "Hmm.Decimal.C98_given_bits",
    "Hmm.Decimal.C98_bit_length",
    "Hmm.Decimal.C98_short",
    "Hmm.Decimal.C98_one",
    "Hmm.Decimal.C98_small_panics",
    "Hmm.Decimal.C98_false",
    "Hmm.Decimal.C98_small_wrong",
    "Hmm.Decimal.C98_below_power",
    "Hmm.Decimal.C98_case",
    "Hmm.Decimal.C98_short_case",
    "Hmm.Decimal.C98_powers_case"
   ],
   "note": "False of the code: ln panics between 2^-48 and 2^-19 (C98_small_panics), is off by more than 0.4 for 0.0000038 (C98_small_wrong) and by 0.09 just below some powers of two (C98_below_power). Proved from 1/64 to 2^48 clear of the powers of two by one part in 2^40; with at most six places and below 2^20 that excludes nothing but the powers themselves."
  },
  {
   "property": "C99",
   "status": "partial",
   "theorems": [
    "Hmm.Decimal.C99_f64_partial",
    "Hmm.Decimal.C99_f64_nearest",
    "Hmm.Decimal.C99_f64_mono",
    "Hmm.Decimal.C99_sign_lost",
    "Hmm.Decimal.C99_false",
    "Hmm.Decimal.C99_i32",
    "Hmm.Decimal.C99_i32_whole",
    "Hmm.Decimal.C99_i32_false",
    "Hmm.Decimal.C99_case"
   ],
   "note": "False of the code: the conversion to f64 drops the sign; the conversion to i32 ignores the scale, keeps the low 32 bits, and panics for -2147483648. Proved for non-negative decimals (f64) and whole numbers below 2^31 (i32); C99_i32 says exactly what the i32 is."
  },
  {
   "property": "C100",
   "status": "partial",
   "theorems": [
    "Hmm.PoolMath.C100_partial",
    "Hmm.PoolMath.C100_false",
    "Hmm.PoolMath.C100_below_one",
    "Hmm.PoolMath.C100_case"
   ],
   "note": "False of the code: the result is the same in both directions (C100_false) and root prices below one get the tick of their inverse (C100_below_one). C100_partial says what is returned: the distance in ticks from one, for root prices from 1/64 to 2^48 clear of the powers of two."
  },
  {
   "property": "C101",
   "status": "partial",
   "theorems": [
    "Hmm.Pool.C101_sharedX_partial",
    "Hmm.Pool.C101_sharedY_partial",
    "Hmm.Pool.C101_outsideX_partial",
    "Hmm.Pool.C101_outsideY_partial",
    "Hmm.Pool.C101_total_partial",
    "Hmm.Pool.C101_false"
   ],
   "note": "False of the code: after a sale that ends exactly at the lower bound of a position its liquidity counts twice, and half of the next fee belongs to nobody (C101_false). Proved for histories without a swap ending within two millionths of a tick of the grid."
  },
  {
   "property": "C102",
   "status": "partial",
   "theorems": [
    "Hmm.Pool.C102_covered_partial",
    "Hmm.Pool.C102_tight_partial",
    "Hmm.Pool.C102_payable_partial",
    "Hmm.Pool.traded_fresh",
    "Hmm.Pool.C102_false",
    "Hmm.Pool.C102_stuck"
   ],
   "note": "False of the code: a first deposit at a lower bound in use can claim fees from before it (C102_false), and then an honest owner can neither withdraw nor deposit (C102_stuck). Proved, with bounds on the rounding, for histories in which first deposits begin at ticks not in use and no swap ends within two millionths of a tick of the grid."
  },
  {
   "property": "C103",
   "status": "partial",
   "theorems": [
    "Hmm.Pool.C103_part_partial",
    "Hmm.Pool.C103_most_partial",
    "Hmm.Pool.C103_all_partial",
    "Hmm.Pool.C103_false"
   ],
   "note": "False of the code: after two deposits and the sale of one X, whichever of the two owners leaves first, the withdrawal of the other panics (C103_false). Proved, for histories in which first deposits begin at ticks not in use and no swap ends within two millionths of a tick of the grid: any part the reserves can pay can be withdrawn, so can all but an explicit amount of dust, and everyone can leave when the reserves hold what the positions hold."
  },
  {
   "property": "C104",
   "status": "proved",
   "theorems": [
    "Hmm.OnChain.World.C104_history",
    "Hmm.OnChain.World.C104_state",
    "Hmm.OnChain.World.C104_active",
    "Hmm.OnChain.World.C104_backed",
    "Hmm.OnChain.World.C104_takes"
   ],
   "note": "The ledger with many pools refines the single pool of OnChain.lean. The bound on what a group takes out is that of C59_whole_partial; without the one token per deposit it is false (C59)."
  },
  {
   "property": "C105",
   "status": "proved",
   "theorems": [
    "Hmm.OnChain.World.C105_pools",
    "Hmm.OnChain.World.C105_loss",
    "Hmm.OnChain.World.C105_token",
    "Hmm.OnChain.World.C105_approved"
   ],
   "note": ""
  },
  {
   "property": "C106",
   "status": "proved",
   "theorems": [
    "Hmm.OnChain.World.C106_deposit",
    "Hmm.OnChain.World.C106_withdraw"
   ],
   "note": ""
  },
  {
   "property": "C107",
   "status": "proved",
   "theorems": [
    "Hmm.OnChain.World.C107_conserved",
    "Hmm.OnChain.World.C107_mint"
   ],
   "note": ""
  },
  {
   "property": "C108",
   "status": "proved",
   "theorems": [
    "Hmm.OnChain.World.C108_forever",
    "Hmm.OnChain.World.C108_supply"
   ],
   "note": ""
  },
  {
   "property": "C109",
   "status": "partial",
   "theorems": [
    "Hmm.OnChain.World.C109_false",
    "Hmm.OnChain.World.C109_partial"
   ],
   "note": "False of the code: initialize_pool accepts the LP mint as X mint, and deposit mints the LP tokens before it takes X, so the minted tokens pay for the deposit (C109_false). Proved for pools whose X and Y mints are not their LP mint."
  },
  {
   "property": "C110",
   "status": "partial",
   "theorems": [
    "Hmm.OnChain.World.C110_false",
    "Hmm.OnChain.World.C110_drained",
    "Hmm.OnChain.World.C110_partial"
   ],
   "note": "False of the code: whoever may freeze the LP mint can freeze the LP tokens (C110_false), and since deposits are rounded down, a withdrawal of somebody else can leave the vault one token short (C110_drained). Proved for withdrawals of a positive amount, mints without freeze authority, and any number of steps of others other than withdrawals from the pool."
  },
  {
   "property": "C111",
   "status": "proved",
   "theorems": [
    "Hmm.OnChain.World.C111_when",
    "Hmm.OnChain.World.C111_only",
    "Hmm.OnChain.World.C111_part"
   ],
   "note": ""
  },
  {
   "property": "C112",
   "status": "proved",
   "theorems": [
    "Hmm.Flt.Pool.C112_paid",
    "Hmm.Flt.Pool.C112_whole",
    "Hmm.Flt.Pool.C112_records"
   ],
   "note": ""
  },
  {
   "property": "C113",
   "status": "partial",
   "theorems": [
    "Hmm.OnChain.World.C113_false",
    "Hmm.OnChain.World.C113_covered_partial",
    "Hmm.OnChain.World.C113_start",
    "Hmm.OnChain.World.C113_still",
    "Hmm.OnChain.World.C113_all"
   ],
   "note": "False of the code: two deposits into one position are each rounded down, and the position is worth more than was paid (C113_false). Proved as long as nobody deposits into a position that has liquidity already; each such deposit costs at most two X and one Y of cover."
  },
  {
   "property": "C114",
   "status": "proved",
   "theorems": [
    "Hmm.OnChain.World.C114_exec",
    "Hmm.OnChain.World.C114_moved",
    "Hmm.OnChain.World.C114_reachable",
    "Hmm.C114_bitmap"
   ],
   "note": "Model/Release.lean repeats the functions that contain a plain operator with wrap-around."
  },
  {
   "property": "C115",
   "status": "partial",
   "theorems": [
    "Hmm.C115_false",
    "Hmm.C115_false_mul",
    "Hmm.C115_same_partial",
    "Hmm.C115_right_partial",
    "Hmm.C115_mul_when",
    "Hmm.C115_zero"
   ],
   "note": "False of the code: 10u128.pow wraps, so with more than 38 places numbers silently change. Proved for scales up to 38: every operation is the same in both builds and right. Also exactly when a product differs, and that 128 places make zero of everything."
  },
  {
   "property": "C116",
   "status": "proved",
   "theorems": [
    "Hmm.C116_from",
    "Hmm.C116_to",
    "Hmm.C116_to_up",
    "Hmm.C116_to_up_returns",
    "Hmm.C116_round_trip",
    "Hmm.C116_bracket",
    "Hmm.C116_times"
   ],
   "note": ""
  },
  {
   "property": "C117",
   "status": "proved",
   "theorems": [
    "Hmm.C117_x_price",
    "Hmm.C117_y_price",
    "Hmm.C117_ticks",
    "Hmm.C117_outside",
    "Hmm.C117_offer"
   ],
   "note": "The X needed for an offer is bounded for offers of at most 1 X here and in general by C28."
  },
  {
   "property": "C118",
   "status": "partial",
   "theorems": [
    "Hmm.C118_false",
    "Hmm.C118_lower",
    "Hmm.C118_lower_returns",
    "Hmm.C118_upper",
    "Hmm.C118_upper_none",
    "Hmm.C118_lower_amounts",
    "Hmm.C118_upper_amounts",
    "Hmm.C118_price_below"
   ],
   "note": "False of the code in its last sentence: when the quotient is cut off to zero (for example without liquidity) rpb_from_l_rp_x returns minus zero. C118_upper_none: that is the only value it can return then. The bound from both amounts and the upper bound (rpa_from_x_y_rp_rpb) is within the error of two products and two quotients, in both directions."
  },
  {
   "property": "C119",
   "status": "partial",
   "theorems": [
    "Hmm.Pool.C119_report_x",
    "Hmm.Pool.C119_report_y",
    "Hmm.Pool.C119_sell_y",
    "Hmm.Pool.C119_sell_x_false",
    "Hmm.Pool.C119_sell_x_partial"
   ],
   "note": "The reported prices are exact, and a seller of Y never gets a better deal, without restriction. False of the code for a seller of X: an offer that is all fee still moves the root price down by one unit of the last place and is paid for it. C119_sell_x_partial: a sale of X that stays in one range and takes anything besides the fee gets at most the old price."
  },
  {
   "property": "C120",
   "status": "partial",
   "theorems": [
    "Hmm.Pool.C120_sell_x",
    "Hmm.Pool.C120_paid_x",
    "Hmm.Pool.C120_sell_y_partial",
    "Hmm.Pool.C120_paid_y_partial",
    "Hmm.Pool.C120_paid_y_false"
   ],
   "note": "Sales of X: as stated, in states in which the active liquidity is right (C39) and for fee rates of at most one. Sales of Y: the price and the Y as stated; false of the code for the X paid out, which may be less for the larger sale (liquidity 0.7: selling one unit of the last place more Y pays one less X). The bound is the rounding of a single step, 2(total liquidity + 2) units of the last place."
  },
  {
   "property": "C121",
   "status": "proved",
   "theorems": [
    "Hmm.OnChain.World.C121_when",
    "Hmm.OnChain.World.C121_unique"
   ],
   "note": "An equivalence: the conditions are necessary and sufficient. Compute budget and rent are not modelled."
  },
  {
   "property": "C122",
   "status": "partial",
   "theorems": [
    "Hmm.OnChain.World.C122_accepted_partial",
    "Hmm.OnChain.World.C122_refused",
    "Hmm.OnChain.World.C122_small",
    "Hmm.OnChain.World.C122_false"
   ],
   "note": "False of the code: 20 X between ticks 25 and 30 of a pool at tick 20 are refused. Proved: such a deposit is accepted exactly if the X computed for it does not exceed the offer; a condition on the offer and the root prices under which it always does, and one under which it never does."
  },
  {
   "property": "C123",
   "status": "partial",
   "theorems": [
    "Hmm.Pool.C123_accepted_partial",
    "Hmm.Pool.C123_refused",
    "Hmm.Pool.C123_false"
   ],
   "note": "False of the code: every offer of at least 5 whole X between ticks 40 and 50 of the sample pool panics. Proved: such a deposit is accepted exactly if the X computed for it does not exceed the offer, and a condition on the offer and the root prices under which it always does."
  },
  {
   "property": "C124",
   "status": "proved",
   "theorems": [
    "Hmm.OnChain.World.C124_open",
    "Hmm.OnChain.World.C124_opened"
   ],
   "note": "The signer and the bootstrap price given to initialize_pool do not matter. Rent is not modelled."
  },
  {
   "property": "C125",
   "status": "proved",
   "theorems": [
    "Hmm.OnChain.World.C125_ready"
   ],
   "note": "For offers of which the X computed does not exceed the offer (see C122), and with room in the counters."
  },
  {
   "property": "C126",
   "status": "partial",
   "theorems": [
    "Hmm.OnChain.World.C126_overdraw_partial",
    "Hmm.OnChain.World.C126_false",
    "Hmm.OnChain.World.C126_deposit_accounts",
    "Hmm.OnChain.World.C126_withdraw_accounts",
    "Hmm.OnChain.World.C126_withdraw_codes",
    "Hmm.OnChain.World.C126_deposit_codes",
    "Hmm.OnChain.World.C126_exceeded",
    "Hmm.OnChain.World.C126_open_codes",
    "Hmm.OnChain.World.C126_codes"
   ],
   "note": "The first sentence is false: the handler unwraps the result of update_position, so such a withdrawal panics, which C126_overdraw_partial states. The rest holds."
  },
  {
   "property": "C127",
   "status": "proved",
   "theorems": [
    "Hmm.Proto.C127_x",
    "Hmm.Proto.C127_y",
    "Hmm.Proto.C127_library",
    "Hmm.Proto.C127_prices_false",
    "Hmm.Proto.C127_panics"
   ],
   "note": "The two codes compute the prices of ticks differently, so that with one and the same math library they differ (C127_prices_false). C127_library gives for every library of the prototype one for the floating-point pool under which the premise holds, if C is 0 or 1 or none of C, 1-C, C-1 is a whole number. C127_panics is a sale past tick zero that only the prototype carries out."
  },
  {
   "property": "C128",
   "status": "partial",
   "theorems": [
    "Hmm.Proto.C128_round_trip_partial",
    "Hmm.Proto.C128_false",
    "Hmm.Proto.C128_fees_false"
   ],
   "note": "Only the first part holds. A withdrawal is priced at the price of the tick, not at that of the pool, and the one in the notebook leaves a negative reserve (C128_false); a new position starts with a fee record of zero and is paid fees of before (C128_fees_false)."
  },
  {
   "property": "C129",
   "status": "partial",
   "theorems": [
    "Hmm.Proto.C129_deposit_partial",
    "Hmm.Proto.C129_withdraw_partial",
    "Hmm.Proto.C129_sale_partial",
    "Hmm.Proto.C129_false",
    "Hmm.Proto.C129_sale_false"
   ],
   "note": "False: the prototype writes before it checks. What holds: a deposit or withdrawal that raises changes only records of ticks, the liquidity in use and positions of that user; a sale that raises changes no position and no parameter. C129_false: a deposit that raises leaves a position behind for which nothing was paid, and which is paid out later. C129_sale_false: a sale that raises in its second range has been carried out in the first."
  },
  {
   "property": "C130",
   "status": "partial",
   "theorems": [
    "Hmm.Proto.C130_deposit_partial",
    "Hmm.Proto.Sample.C130_false"
   ],
   "note": "Proved for pools whose price is that of their tick, ranges in order, deposits that take something, and as long as liquidities held as Python integers are doubles (below 2^53 they are). Without the first condition it is false: after a sale within a tick the prototype takes more X and less Y than the Rust pool (C130_false)."
  },
  {
   "property": "C131",
   "status": "proved",
   "theorems": [
    "Hmm.Proto.C131_deposit",
    "Hmm.Proto.C131_withdraw"
   ],
   "note": ""
  },
  {
   "property": "C132",
   "status": "partial",
   "theorems": [
    "Hmm.Proto.C132_withdraw_partial",
    "Hmm.Proto.Sample.C132_false"
   ],
   "note": "Proved for pools whose price is that of their tick, whose tick records cover the withdrawal, for liquidity that is not zero and that is a double where it is a Python integer. Without the first condition it is false (C132_false)."
  },
  {
   "property": "C133",
   "status": "partial",
   "theorems": [
    "Hmm.Proto.C133_open",
    "Hmm.Proto.C133_history_partial",
    "Hmm.Proto.Sample.C133_false"
   ],
   "note": "Proved for histories in which deposits come while the price is that of the tick of the pool (as before the first sale), with ranges in order that neither begin nor end at tick zero, that take something, and as long as liquidities held as Python integers are doubles. Without the first condition it is false (C133_false)."
  },
  {
   "property": "C134",
   "status": "proved",
   "theorems": [
    "Hmm.Flt.C134_lower_liq",
    "Hmm.Flt.C134_upper_liq",
    "Hmm.Flt.C134_lower",
    "Hmm.Flt.C134_upper",
    "Hmm.Proto.C134_same_ends",
    "Hmm.Proto.C134_proto",
    "Hmm.Proto.C134_same_ticks"
   ],
   "note": "C134_same_ticks: the same for the helpers that take ticks for prices."
  },
  {
   "property": "C135",
   "status": "partial",
   "theorems": [
    "Hmm.Pool.C135_sell_x_partial",
    "Hmm.Pool.C135_sell_y_partial",
    "Hmm.Pool.C135_two_partial",
    "Hmm.Pool.C135_false"
   ],
   "note": "False of the code where a part ends exactly on a tick: the liquidity below is then wrong (C39) and the parts are paid more than the whole (C135_false). Proved, with explicit dust, if every part starts in a state of the histories of C39."
  },
  {
   "property": "C136",
   "status": "proved",
   "theorems": [
    "Hmm.Pool.C136_any_order",
    "Hmm.Pool.C136_refused",
    "Hmm.Pool.C136_same_position"
   ],
   "note": "Same records: equal as rationals for amounts, equal for keys, growth and price. C136_same_position shows that different positions are needed."
  },
  {
   "property": "C137",
   "status": "proved",
   "theorems": [
    "Hmm.Pool.C137_any_order",
    "Hmm.Pool.C137_refused",
    "Hmm.Pool.C137_same_position"
   ],
   "note": "Same records as for C136. Ticks no longer used are removed in any order. C137_same_position shows that different positions are needed."
  },
  {
   "property": "C138",
   "status": "proved",
   "theorems": [
    "Hmm.OnChain.World.C138_any_order",
    "Hmm.OnChain.World.C138_first",
    "Hmm.OnChain.World.C138_same_user"
   ],
   "note": "The withdrawals are of positive amounts. C138_same_user shows that different users are needed."
  },
  {
   "property": "C139",
   "status": "proved",
   "theorems": [
    "Hmm.OnChain.World.C139_any_order",
    "Hmm.OnChain.World.C139_first",
    "Hmm.OnChain.World.C139_bitmap",
    "Hmm.OnChain.World.C139_same_user"
   ],
   "note": "C139_bitmap shows that the bitmap has to be left out, C139_same_user that different users are needed."
  },
  {
   "property": "C140",
   "status": "proved",
   "theorems": [
    "Hmm.Release.InMemory.C140_new",
    "Hmm.Release.InMemory.C140_deposit",
    "Hmm.Release.InMemory.C140_withdraw",
    "Hmm.Release.InMemory.C140_sellY",
    "Hmm.Release.InMemory.C140_sellX",
    "Hmm.Release.InMemory.C140_sellX_above",
    "Hmm.Release.InMemory.C140_history",
    "Hmm.Release.InMemory.C140_history_back",
    "Hmm.Release.InMemory.C140_wraps",
    "Hmm.Release.InMemory.C140_past_bottom"
   ],
   "note": "C140_past_bottom is a sale past tick 0: the build without checks pays out all Y and leaves the price higher."
  },
  {
   "property": "C141",
   "status": "proved",
   "theorems": [
    "Hmm.Flt.Unchecked.C141_sellX",
    "Hmm.Flt.Unchecked.C141_sellX_above",
    "Hmm.Flt.Unchecked.C141_sellY",
    "Hmm.Flt.Unchecked.C141_history",
    "Hmm.Flt.Unchecked.C141_history_back",
    "Hmm.Flt.Unchecked.C141_wraps",
    "Hmm.Flt.Unchecked.C141_past_bottom"
   ],
   "note": "Creation, deposits and withdrawals contain no integer operator and are shared by both builds. C141_past_bottom is a sale past tick 0: the build without checks leaves the price higher, and the withdrawal of the position then makes the reserve of Y negative."
  },
  {
   "property": "C142",
   "status": "proved",
   "theorems": [
    "Hmm.Pool.C142_either_order",
    "Hmm.Pool.C142_refused",
    "Hmm.Pool.C142_enough",
    "Hmm.Pool.C142_removed"
   ],
   "note": "C142_removed is a pool where the withdrawal removes the tick at which the deposit begins: the growth recorded there then depends on the order."
  },
  {
   "property": "C143",
   "status": "proved",
   "theorems": [
    "Hmm.OnChain.World.C143_either_order",
    "Hmm.OnChain.World.C143_all",
    "Hmm.OnChain.World.C143_own_tokens"
   ],
   "note": "C143_own_tokens is a pool that trades its own LP tokens, where the deposit spends the approval that the withdrawal needs."
  },
  {
   "property": "C144",
   "status": "proved",
   "theorems": [
    "Hmm.OnChain.World.C144_in_parts",
    "Hmm.OnChain.World.C144_less"
   ],
   "note": "C144_less is a withdrawal that is paid one token of each kind in one go and nothing in two parts."
  },
  {
   "property": "C145",
   "status": "proved",
   "theorems": [
    "Hmm.OnChain.World.C145_not_more",
    "Hmm.OnChain.World.C145_unpaid"
   ],
   "note": "C145_unpaid: offers of one X each are free, because debits are rounded down, and what they get can be redeemed for what others paid in."
  },
  {
   "property": "C146",
   "status": "proved",
   "theorems": [
    "Hmm.Pool.C146_two",
    "Hmm.Pool.C146_in_parts",
    "Hmm.Pool.C146_less"
   ],
   "note": "C146_less: the bounds are not idle, two parts of a position get a unit less of both than the whole."
  },
  {
   "property": "C147",
   "status": "proved",
   "theorems": [
    "Hmm.Pool.C147_not_more",
    "Hmm.Pool.C147_less",
    "Hmm.Pool.C147_refused"
   ],
   "note": "C147_less: two parts may pay less of both. C147_refused: the one offer must be supposed accepted, an offer refused because of rounding (C28) may be accepted in parts."
  },
  {
   "property": "C148",
   "status": "proved",
   "theorems": [
    "Hmm.Pool.C148_dust",
    "Hmm.Pool.C148_nothing",
    "Hmm.Pool.C148_gain"
   ],
   "note": "C148_gain: the dust can be had, three small deposits taken out together bring three units of X more than was put in."
  },
  {
   "property": "C149",
   "status": "proved",
   "theorems": [
    "Hmm.Pool.C149_alike",
    "Hmm.Pool.C149_refused",
    "Hmm.Pool.C149_deposits",
    "Hmm.Pool.C149_withdrawals"
   ],
   "note": "C149_deposits and C149_withdrawals put it together with C136 and C137."
  },
  {
   "property": "C150",
   "status": "proved",
   "theorems": [
    "Hmm.Pool.C150_as_before",
    "Hmm.Pool.C150_no_trace"
   ],
   "note": "The fee pots are left out: a new position may be paid fees it did not earn, see C42."
  },
  {
   "property": "C151",
   "status": "proved",
   "theorems": [
    "Hmm.Pool.C151_names",
    "Hmm.Pool.C151_refused",
    "Hmm.Pool.C151_newcomers",
    "Hmm.Pool.C151_owners"
   ],
   "note": "User names are numbers in the model; a renaming is an injective function of them."
  },
  {
   "property": "C152",
   "status": "proved",
   "theorems": [
    "Hmm.Flt.Pool.C152_deposit",
    "Hmm.Flt.Pool.C152_withdraw",
    "Hmm.Flt.Pool.C152_sellX",
    "Hmm.Flt.Pool.C152_sellY",
    "Hmm.Flt.Pool.C152_history"
   ],
   "note": "User names are numbers in the model; a renaming is an injective function of them."
  },
  {
   "property": "C153",
   "status": "proved",
   "theorems": [
    "Hmm.Proto.C153_deposit",
    "Hmm.Proto.C153_withdraw",
    "Hmm.Proto.C153_sellX",
    "Hmm.Proto.C153_sellY",
    "Hmm.Proto.C153_session"
   ],
   "note": "User names are numbers in the model; a renaming is an injective function of them."
  },
  {
   "property": "C154",
   "status": "proved",
   "theorems": [
    "Hmm.Pool.C154_sellX",
    "Hmm.Pool.C154_sellY",
    "Hmm.Pool.C154_amountX",
    "Hmm.Pool.C154_amountY"
   ],
   "note": "The adjusted amount is that of C79. The closed forms of C154_amountX and C154_amountY are for exponents above one; with exponent one a sale of X above the price of the oracle panics, as in C80_false, and for sales of Y C79_log_near gives the amount."
  }
 ]
}