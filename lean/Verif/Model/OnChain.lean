import Verif.Model.PoolMath
import Verif.Model.Maps
import Verif.Model.Bitmap

/-
Model of the Anchor program: `lib.rs`, `instructions/*.rs`, `state/*.rs` under
`programs/hmmcl-sandbox/src`.

* One pool is modelled.  Account addresses are derived from the pool, the tick, and the user with the
  two ticks (`seeds = [..]`), so accounts are maps keyed by those.  Bumps are omitted.
* A failed instruction (panic, error code, failed constraint, token-program error) changes nothing.
* Anchor loads every account of an instruction into its own copy and, when the handler returns `Ok`,
  writes the `mut` copies back in the order of declaration; `writeBack` does exactly this.
* The token program is modelled by balances: a mint supply, token accounts with owner and amount, and
  the two vaults, which only the program can debit.  Delegates, freezing and closing of token accounts
  are not modelled, and X, Y and LP are three different mints.
* `emit!` and `msg!` are omitted; the arithmetic in their arguments is kept where it can fail on a
  path that would otherwise succeed.
-/

namespace Hmm

open PoolMath

namespace OnChain

/-- `FEE_SCALE`, `LIQUIDITY_SCALE`, `ROOT_PRICE_SCALE`, `lib.rs` 24-26. -/
def feeScale : Nat := 12
@[inherit_doc feeScale] def liquidityScale : Nat := 12
@[inherit_doc feeScale] def rootPriceScale : Nat := 12

/-- `Fee`, `state/fees.rs` 6-13. -/
structure Fee where
  scale : Nat
  fx : Nat
  fy : Nat
  hx : Nat
  hy : Nat
  deriving DecidableEq, Repr, Inhabited

/-- A zero fee with the scale set, as left by the initialisation handlers. -/
def Fee.zero : Fee := ⟨feeScale, 0, 0, 0, 0⟩

/-- `GlobalState`, `state/pool_state.rs` 30-38. -/
structure Global where
  liq : Nat
  liqScale : Nat
  rp : Nat
  rpScale : Nat
  tick : Nat
  fee : Fee
  deriving DecidableEq, Repr, Inhabited

/-- `TickState`, `state/tick_state.rs` 9-19, without the bump. -/
structure Tick where
  net : Nat
  netScale : Nat
  netNeg : Nat
  gross : Nat
  grossScale : Nat
  tick : Nat
  fee : Fee
  deriving DecidableEq, Repr, Inhabited

/-- `PositionState`, `state/position_state.rs` 9-17, without the bump. -/
structure Position where
  liq : Nat
  liqScale : Nat
  lower : Nat
  upper : Nat
  fee : Fee
  deriving DecidableEq, Repr, Inhabited

/-- Seeds of a position account: user, lower and upper tick (`manage_position.rs` 28-34). -/
structure PosKey where
  user : Nat
  lower : Nat
  upper : Nat
  deriving DecidableEq, Repr, Inhabited

/-- A token account of the token program. -/
structure TokAcc where
  owner : Nat
  amount : Nat
  deriving DecidableEq, Repr, Inhabited

/-- Everything on the ledger that belongs to one pool. -/
structure Chain where
  gs : Global
  bitmap : Option Bitmap
  ticks : List (Nat × Tick)
  positions : List (PosKey × Position)
  lpSupply : Nat
  lp : List (Nat × TokAcc)
  userX : List (Nat × TokAcc)
  userY : List (Nat × TokAcc)
  vaultX : Nat
  vaultY : Nat

/-- `require`-like check of an Anchor constraint. -/
def constraint (b : Bool) : R Unit := if b then .ok () else rerr .anchorConstraint

/-- Loading an account that must exist. -/
def load {α : Type} : Option α → R α
  | some a => .ok a
  | none => rerr .anchorConstraint

/-! ### Token program -/

/-- Debit of a token account, insufficient funds being an error. -/
def debit (m : List (Nat × TokAcc)) (acc owner amount : Nat) : R (List (Nat × TokAcc)) := do
  let a ← load (mapGet acc m)
  if a.owner ≠ owner then rerr .tokenError
  else if a.amount < amount then rerr .tokenError
  else return mapSet acc { a with amount := a.amount - amount } m

/-- Credit of a token account; amounts are `u64`. -/
def credit (m : List (Nat × TokAcc)) (acc amount : Nat) : R (List (Nat × TokAcc)) := do
  let a ← load (mapGet acc m)
  if a.amount + amount < u64Size then return mapSet acc { a with amount := a.amount + amount } m
  else rerr .tokenError

/-! ### Fees, `instructions/manage_fee.rs` -/

/-- `fee_earned_below_above`, 4-21. -/
def feeBelowAbove (tick glblTick : Nat) (fg f0 : Decimal) : R (Decimal × Decimal) := do
  let o ← unwrap (fg.sub f0)
  if glblTick ≥ tick then return (f0, o) else return (o, f0)

/-- `fee_earned_within_range`, 23-43. -/
def feeWithinRange (lower upper glblTick : Nat) (fg f0Lwr f0Upr : Decimal) : R Decimal := do
  let (blwLwr, abvLwr) ← feeBelowAbove lower glblTick fg f0Lwr
  let (blwUpr, abvUpr) ← feeBelowAbove upper glblTick fg f0Upr
  let sumLwr ← unwrap (blwLwr.add abvLwr)
  let sumUpr ← unwrap (blwUpr.add abvUpr)
  rassert (decide (sumLwr = sumUpr))
  unwrap ((← unwrap (fg.sub blwLwr)).sub abvUpr)

/-- One component of `compute_latest_fee`, 54-85 and 88-91. -/
def latestFeeOf (sel : Fee → Nat) (lower upper current : Nat) (glbl lwr upr : Fee) (scale : Nat) : R Nat := do
  let d ← feeWithinRange lower upper current ⟨sel glbl, glbl.scale, false⟩ ⟨sel lwr, lwr.scale, false⟩
    ⟨sel upr, upr.scale, false⟩
  return (← d.toScale scale).value

/-- `compute_latest_fee`, 45-93. -/
def computeLatestFee (lower upper current : Nat) (glbl lwr upr : Fee) (scale : Nat) : R Fee := do
  let fx ← latestFeeOf (·.fx) lower upper current glbl lwr upr scale
  let fy ← latestFeeOf (·.fy) lower upper current glbl lwr upr scale
  let hx ← latestFeeOf (·.hx) lower upper current glbl lwr upr scale
  let hy ← latestFeeOf (·.hy) lower upper current glbl lwr upr scale
  return ⟨scale, fx, fy, hx, hy⟩

/-! ### Ticks and positions -/

/-- `update_tick`, `instructions/manage_tick.rs` 50-100. -/
def updateTick (ts : Tick) (tick : Nat) (delta : Decimal) (upper : Bool) : R Tick := do
  if tick ≠ ts.tick then rerr .tickMismatch
  else
    let net ← (Decimal.new ts.net ts.netScale (ts.netNeg != 0)).toComputeScale
    let net ← unwrap (net.add (if upper then delta.neg else delta))
    let gross ← (Decimal.new ts.gross ts.grossScale false).toComputeScale
    let gross ← unwrap (gross.add delta)
    if gross.negative then rerr .negativeTickGrossLiquidity
    else return { ts with
      net := net.value, netScale := net.scale, netNeg := if net.negative then 1 else 0,
      gross := gross.value, grossScale := gross.scale }

/-- `update_position`, `instructions/manage_position.rs` 77-111. -/
def updatePosition (ps : Position) (lwr upr : Tick) (delta : Decimal) (lower upper : Nat) (newFee : Fee) :
    R (Position × Tick × Tick) := do
  let l ← (Decimal.new ps.liq ps.liqScale false).toComputeScale
  let l ← unwrap (l.add delta)
  if l.negative then rerr .insufficientPositionLiquidity
  else
    let lwr ← unwrap (updateTick lwr lower delta false)
    let upr ← unwrap (updateTick upr upper delta true)
    return ({ ps with liq := l.value, liqScale := l.scale, fee := newFee }, lwr, upr)

/-- The update of the global liquidity, `deposit.rs` 246-263 and `withdraw.rs` 224-241. -/
def updateGlobal (g : Global) (lower upper current : Nat) (delta : Decimal) : R Global := do
  if current ≥ lower ∧ current < upper then
    let l ← unwrap ((Decimal.new g.liq g.liqScale false).add delta)
    if l.negative then rerr .negativeGlobalLiquidity
    else return { g with liq := l.value, liqScale := l.scale }
  else return g

/-! ### Initialisation -/

/-- `initialize_pool::handle`, `instructions/initialize_pool.rs` 76-108.  `supply` is the supply of the
LP mint at that time (the mint is created beforehand). -/
def initializePool (tick supply : Nat) : R Chain := do
  let rp ← (← tickToRp tick).toScale rootPriceScale
  return {
    gs := ⟨0, liquidityScale, rp.value, rootPriceScale, tick, Fee.zero⟩
    bitmap := none, ticks := [], positions := [], lpSupply := supply, lp := [], userX := [], userY := []
    vaultX := 0, vaultY := 0 }

/-- `initialize_bitmap`, `instructions/manage_bitmap.rs` 29-35; `init` fails when the account exists. -/
def initializeBitmap (s : Chain) : R Chain := do
  constraint s.bitmap.isNone
  return { s with bitmap := some Bitmap.empty }

/-- `initialize_tick`, `instructions/manage_tick.rs` 37-48, accounts 14-35.  The seeds use
`to_ne_bytes`, the other instructions `to_le_bytes`: the same on Solana's little-endian machine. -/
def initializeTick (s : Chain) (tick : Nat) : R Chain := do
  constraint (mapGet tick s.ticks).isNone
  return { s with ticks := mapSet tick ⟨0, liquidityScale, 0, 0, liquidityScale, tick, Fee.zero⟩ s.ticks }

/-- `create_position`, `instructions/manage_position.rs` 60-75, accounts 14-58. -/
def createPosition (s : Chain) (user lower upper : Nat) : R Chain := do
  constraint (mapGet (⟨user, lower, upper⟩ : PosKey) s.positions).isNone
  constraint (decide (lower < upper))
  let _ ← load (mapGet lower s.ticks)
  let _ ← load (mapGet upper s.ticks)
  let pos : Position := ⟨0, liquidityScale, lower, upper, Fee.zero⟩
  return { s with positions := mapSet ⟨user, lower, upper⟩ pos s.positions }

/-! ### Deposit and withdrawal -/

/-- The signer and the accounts chosen by the caller of `deposit` or `withdraw`: `user`,
`user_token_x`, `user_token_y`, and `lp_token_to` / `lp_token_user_account`. -/
structure Caller where
  user : Nat
  tokenX : Nat
  tokenY : Nat
  lp : Nat
  deriving DecidableEq, Repr

/-- The account copies that Anchor hands to the handler. -/
structure Loaded where
  bitmap : Bitmap
  pos : Position
  lwr : Tick
  upr : Tick
  cur : Tick

/-- Account constraints of `Deposit` (`deposit.rs` 21-132) and `Withdraw` (`withdraw.rs` 23-134); they
are the same.  `tokenOwners` are the two `owner == user.key()` constraints. -/
def loadAccounts (s : Chain) (c : Caller) (lower upper current : Nat) : R Loaded := do
  let b ← load s.bitmap
  let pos ← load (mapGet (⟨c.user, lower, upper⟩ : PosKey) s.positions)
  constraint (decide (lower < upper))
  let lwr ← load (mapGet lower s.ticks)
  constraint (decide (lwr.tick = pos.lower))
  let upr ← load (mapGet upper s.ticks)
  constraint (decide (upr.tick = pos.upper))
  let cur ← load (mapGet current s.ticks)
  constraint (decide (cur.tick = current))
  constraint (decide (cur.tick = s.gs.tick))
  let ux ← load (mapGet c.tokenX s.userX)
  constraint (decide (ux.owner = c.user))
  let uy ← load (mapGet c.tokenY s.userY)
  constraint (decide (uy.owner = c.user))
  let _ ← load (mapGet c.lp s.lp)
  return ⟨b, pos, lwr, upr, cur⟩

/-- Anchor's exit: every `mut` program account is serialised back in the order of declaration
(pool, position, lower, upper, current).  `current_tick_state` comes last and holds the copy loaded at
the start, because no handler changes it. -/
def writeBack (s : Chain) (g : Global) (user lower upper current : Nat) (l : Loaded) : Chain :=
  { s with
    gs := g
    bitmap := some l.bitmap
    positions := mapSet ⟨user, lower, upper⟩ l.pos s.positions
    ticks := mapSet current l.cur (mapSet upper l.upr (mapSet lower l.lwr s.ticks)) }

/-- The fee terms `new_fee.f_x + new_fee.h_x` scaled to the amount, `deposit.rs` 267, 270. -/
def feeTerm (a b scale toScale : Nat) : R Decimal := do
  (Decimal.new (← checkedAdd a b) scale false).toScale toScale

/-- What `deposit` and `withdraw` report in their events: tokens moved and LP tokens. -/
structure Moved where
  x : Nat
  y : Nat
  lp : Nat
  deriving DecidableEq, Repr

/-- `deposit::handle`, `instructions/deposit.rs` 178-324, including account loading and exit. -/
def deposit (s : Chain) (c : Caller) (lower upper current xAmount yAmount : Nat) : R (Chain × Moved) := do
  let a ← loadAccounts s c lower upper current
  let x ← (Decimal.fromInt xAmount).toComputeScale
  let y ← (Decimal.fromInt yAmount).toComputeScale
  let rpa ← tickToRp lower
  let rpb ← tickToRp upper
  let rp ← tickToRp current
  let delta ← liqFromXYRpRng x y rp rpa rpb
  if delta.negative then rerr .negativeDepositLiquidity
  else
    let b ← (if a.lwr.gross = 0 then a.bitmap.activateTick 0 else .ok a.bitmap)
    let b ← (if a.upr.gross = 0 then b.activateTick 40000 else .ok b)
    let xIn ← xFromLRpRng delta rp rpa rpb
    let yIn ← yFromLRpRng delta rp rpa rpb
    let newFee ← computeLatestFee lower upper current s.gs.fee a.lwr.fee a.upr.fee a.pos.fee.scale
    let (pos, lwr, upr) ← unwrap (updatePosition a.pos a.lwr a.upr delta lower upper newFee)
    let g ← updateGlobal s.gs lower upper current delta
    let xDeb ← unwrap (xIn.sub (← feeTerm newFee.fx newFee.hx newFee.scale xIn.scale))
    let yDeb ← unwrap (yIn.sub (← feeTerm newFee.fy newFee.hy newFee.scale yIn.scale))
    if (← unwrap (xDeb.gt x)) then rerr .depositAmountExceeded
    else if (← unwrap (yDeb.gt y)) then rerr .depositAmountExceeded
    else
      -- mint LP tokens, 297-303
      let minted ← delta.abs
      let supply ← (if s.lpSupply + minted < u64Size then .ok (s.lpSupply + minted) else rerr .tokenError)
      let lp ← credit s.lp c.lp minted
      -- transfers, 305-315
      let dx ← xDeb.abs
      let userX ← debit s.userX c.tokenX c.user dx
      let vaultX ← (if s.vaultX + dx < u64Size then .ok (s.vaultX + dx) else rerr .tokenError)
      let dy ← yDeb.abs
      let userY ← debit s.userY c.tokenY c.user dy
      let vaultY ← (if s.vaultY + dy < u64Size then .ok (s.vaultY + dy) else rerr .tokenError)
      let s := writeBack s g c.user lower upper current ⟨b, pos, lwr, upr, a.cur⟩
      return ({ s with lpSupply := supply, lp, userX, vaultX, userY, vaultY }, ⟨dx, dy, minted⟩)

/-- `withdraw::handle`, `instructions/withdraw.rs` 168-296, including account loading and exit.  The
conditions `true || ..` of 213 and 218 always hold. -/
def withdraw (s : Chain) (c : Caller) (lower upper current amount : Nat) : R (Chain × Moved) := do
  let a ← loadAccounts s c lower upper current
  let delta := (← (Decimal.fromInt amount).toComputeScale).neg
  let rpa ← tickToRp lower
  let rpb ← tickToRp upper
  let rp ← tickToRp current
  let newFee ← computeLatestFee lower upper current s.gs.fee a.lwr.fee a.upr.fee a.pos.fee.scale
  let (pos, lwr, upr) ← unwrap (updatePosition a.pos a.lwr a.upr delta lower upper newFee)
  let b ← a.bitmap.unsetTick 0
  let b ← b.unsetTick 40000
  let g ← updateGlobal s.gs lower upper current delta
  let xOut ← xFromLRpRng delta.neg rp rpa rpb
  let yOut ← yFromLRpRng delta.neg rp rpa rpb
  let xCred ← unwrap (xOut.add (← feeTerm newFee.fx newFee.hx newFee.scale xOut.scale))
  let yCred ← unwrap (yOut.add (← feeTerm newFee.fy newFee.hy newFee.scale yOut.scale))
  -- burn LP tokens, 270-271
  let lp ← debit s.lp c.lp c.user amount
  let supply ← (if amount ≤ s.lpSupply then .ok (s.lpSupply - amount) else rerr .tokenError)
  -- transfers, 273-287
  let dx ← xCred.abs
  let vaultX ← (if dx ≤ s.vaultX then .ok (s.vaultX - dx) else rerr .tokenError)
  let userX ← credit s.userX c.tokenX dx
  let dy ← yCred.abs
  let vaultY ← (if dy ≤ s.vaultY then .ok (s.vaultY - dy) else rerr .tokenError)
  let userY ← credit s.userY c.tokenY dy
  let s := writeBack s g c.user lower upper current ⟨b, pos, lwr, upr, a.cur⟩
  return ({ s with lpSupply := supply, lp, userX, vaultX, userY, vaultY }, ⟨dx, dy, amount⟩)

/-! ### Executions -/

/-- The program's instructions (`lib.rs` 33-89). -/
inductive Instr where
  | initializeBitmap
  | initializeTick (tick : Nat)
  | createPosition (user lower upper : Nat)
  | deposit (c : Caller) (lower upper current x y : Nat)
  | withdraw (c : Caller) (lower upper current amount : Nat)
  deriving DecidableEq, Repr

/-- Effect of one instruction on the ledger, when it succeeds. -/
def exec (s : Chain) : Instr → R Chain
  | .initializeBitmap => initializeBitmap s
  | .initializeTick t => initializeTick s t
  | .createPosition u l h => createPosition s u l h
  | .deposit c l h cur x y => do return (← deposit s c l h cur x y).1
  | .withdraw c l h cur n => do return (← withdraw s c l h cur n).1

/-- What other programs can do to the modelled accounts between instructions: X and Y token accounts
change in any way (the tokens exist outside the pool), the vaults can only be paid into, and LP tokens
can be moved between accounts or burned by their owners, never minted (the pool is the mint authority). -/
structure External (s t : Chain) : Prop where
  gs : t.gs = s.gs
  bitmap : t.bitmap = s.bitmap
  ticks : t.ticks = s.ticks
  positions : t.positions = s.positions
  supply : t.lpSupply ≤ s.lpSupply
  vaultX : s.vaultX ≤ t.vaultX
  vaultY : s.vaultY ≤ t.vaultY

/-- One step of the ledger: a successful instruction, or something outside the program.  (A failed
instruction changes nothing.)  Instruction arguments are `u64`. -/
inductive Step : Chain → Chain → Prop where
  | instr {s t : Chain} (i : Instr) : exec s i = .ok t → Step s t
  | external {s t : Chain} : External s t → Step s t

/-- The states the program can be in. -/
inductive Reachable (supply0 : Nat) : Chain → Prop where
  | init {s : Chain} (tick : Nat) : initializePool tick supply0 = .ok s → Reachable supply0 s
  | step {s t : Chain} : Reachable supply0 s → Step s t → Reachable supply0 t

end OnChain

end Hmm
