import Verif.Model.OnChain

/-
Model of the Anchor program with any number of pools on one ledger: the same instructions as in
`OnChain.lean`, with the accounts of the token program shared by all pools.

* A pool is found by its LP mint (`seeds = [POOL_STATE_SEED, lp_token_mint]`); the accounts whose seeds contain the
  pool's address (bitmap, ticks, positions) are kept in its record.  Program-derived addresses are
  injective in their seeds and cannot sign; bumps are omitted.
* Mints may be shared by pools in any way the program accepts: the LP mint of one pool can be the X mint of another, or
  of the pool itself.
* The token program (SPL token) is modelled with owners, delegates, freezing, mint and freeze authorities.  Its code is
  not part of the repository; what is modelled is its documented behaviour.
* Token accounts are changed in place by each call of the token program, so an account passed twice is seen changed by
  the later call.  Anchor does not write token accounts back at exit, since another program owns them.
-/

namespace Hmm.OnChain

open PoolMath

/-- A key that owns token accounts or holds an authority: any key outside the program, or the pool state account of an
LP mint, for which only this program can sign. -/
inductive Party where
  | user (key : Nat)
  | pool (lp : Nat)
  deriving DecidableEq, Repr, Inhabited

/-- Address of a token account: outside the program, or derived from `TOKEN_VAULT_SEED`, mint and LP mint, or from
`LP_TOKEN_VAULT_SEED`, pool and LP mint (`initialize_pool.rs` 41-67). -/
inductive Addr where
  | key (key : Nat)
  | vault (mint lp : Nat)
  | lpVault (lp : Nat)
  deriving DecidableEq, Repr, Inhabited

/-- A token account of the token program. -/
structure Token where
  mint : Nat
  owner : Party
  amount : Nat
  delegate : Option (Party × Nat)
  frozen : Bool
  deriving DecidableEq, Repr, Inhabited

/-- A mint of the token program. -/
structure Mint where
  supply : Nat
  authority : Option Party
  freezer : Option Party
  deriving DecidableEq, Repr, Inhabited

/-- `PoolState`, `state/pool_state.rs` 12-25, with the accounts derived from the pool.  The vault keys are those derived
from the mints, the LP mint is the key of the record. -/
structure PoolAcc where
  authority : Nat
  xMint : Nat
  yMint : Nat
  gs : Global
  bitmap : Option Bitmap
  ticks : List (Nat × Tick)
  positions : List (PosKey × Position)
  deriving Inhabited

/-- The ledger. -/
structure World where
  pools : List (Nat × PoolAcc)
  mints : List (Nat × Mint)
  tokens : List (Addr × Token)
  deriving Inhabited

namespace World

/-! ### Token program -/

/-- The check of the authority of a transfer or burn: a delegate may spend up to what was approved. -/
def spend (a : Token) (who : Party) (amount : Nat) : R Token :=
  match a.delegate with
  | some (d, n) =>
    if d = who then
      if n < amount then rerr .tokenError
      else .ok { a with delegate := if n = amount then none else some (d, n - amount) }
    else if a.owner = who then .ok a
    else rerr .tokenError
  | none => if a.owner = who then .ok a else rerr .tokenError

/-- `Transfer`. -/
def transfer (w : World) (src dst : Addr) (who : Party) (amount : Nat) : R World := do
  let a ← load (mapGet src w.tokens)
  let b ← load (mapGet dst w.tokens)
  if a.frozen || b.frozen then rerr .tokenError
  else if a.amount < amount then rerr .tokenError
  else if a.mint ≠ b.mint then rerr .tokenError
  else
    let a' ← spend a who amount
    if src = dst then return w
    else if b.amount + amount < u64Size then
      let t := mapSet src { a' with amount := a.amount - amount } w.tokens
      return { w with tokens := mapSet dst { b with amount := b.amount + amount } t }
    else rerr .tokenError

/-- `MintTo`. -/
def mintTo (w : World) (mint : Nat) (dst : Addr) (who : Party) (amount : Nat) : R World := do
  let m ← load (mapGet mint w.mints)
  let b ← load (mapGet dst w.tokens)
  if b.frozen then rerr .tokenError
  else if b.mint ≠ mint then rerr .tokenError
  else if m.authority ≠ some who then rerr .tokenError
  else if b.amount + amount < u64Size ∧ m.supply + amount < u64Size then
    return { w with mints := mapSet mint { m with supply := m.supply + amount } w.mints,
                    tokens := mapSet dst { b with amount := b.amount + amount } w.tokens }
  else rerr .tokenError

/-- `Burn`. -/
def burn (w : World) (mint : Nat) (src : Addr) (who : Party) (amount : Nat) : R World := do
  let m ← load (mapGet mint w.mints)
  let a ← load (mapGet src w.tokens)
  if a.frozen then rerr .tokenError
  else if a.amount < amount then rerr .tokenError
  else if a.mint ≠ mint then rerr .tokenError
  else
    let a' ← spend a who amount
    if amount ≤ m.supply then
      return { w with mints := mapSet mint { m with supply := m.supply - amount } w.mints,
                      tokens := mapSet src { a' with amount := a.amount - amount } w.tokens }
    else rerr .tokenError

/-- What anybody can do with the token program.  `who` signs; the pools' keys cannot. -/
inductive TokenInstr where
  | createMint (mint : Nat) (authority freezer : Option Party)
  | createToken (acc mint : Nat) (owner : Party)
  | transfer (src dst : Addr) (amount : Nat)
  | mintTo (mint : Nat) (dst : Addr) (amount : Nat)
  | burn (mint : Nat) (src : Addr) (amount : Nat)
  | approve (acc : Addr) (delegate : Party) (amount : Nat)
  | revoke (acc : Addr)
  | setOwner (acc : Addr) (owner : Party)
  | setAuthority (mint : Nat) (authority : Option Party)
  | setFreezer (mint : Nat) (freezer : Option Party)
  | freeze (acc : Addr) (frozen : Bool)
  | close (acc : Addr)
  deriving DecidableEq, Repr

/-- The token program: `InitializeMint`, `InitializeAccount`, `Transfer`, `MintTo`, `Burn`, `Approve`, `Revoke`,
`SetAuthority` (three kinds), `FreezeAccount` and `ThawAccount`, `CloseAccount`, signed by a user. -/
def tokenExec (w : World) (who : Nat) : TokenInstr → R World
  | .createMint mint authority freezer => do
    constraint (mapGet mint w.mints).isNone
    return { w with mints := mapSet mint ⟨0, authority, freezer⟩ w.mints }
  | .createToken acc mint owner => do
    constraint (mapGet (Addr.key acc) w.tokens).isNone
    let _ ← load (mapGet mint w.mints)
    return { w with tokens := mapSet (.key acc) ⟨mint, owner, 0, none, false⟩ w.tokens }
  | .transfer src dst amount => w.transfer src dst (.user who) amount
  | .mintTo mint dst amount => w.mintTo mint dst (.user who) amount
  | .burn mint src amount => w.burn mint src (.user who) amount
  | .approve acc delegate amount => do
    let a ← load (mapGet acc w.tokens)
    constraint (decide (a.owner = .user who) && !a.frozen)
    return { w with tokens := mapSet acc { a with delegate := some (delegate, amount) } w.tokens }
  | .revoke acc => do
    let a ← load (mapGet acc w.tokens)
    constraint (decide (a.owner = .user who) && !a.frozen)
    return { w with tokens := mapSet acc { a with delegate := none } w.tokens }
  | .setOwner acc owner => do
    let a ← load (mapGet acc w.tokens)
    constraint (decide (a.owner = .user who) && !a.frozen)
    return { w with tokens := mapSet acc { a with owner := owner, delegate := none } w.tokens }
  | .setAuthority mint authority => do
    let m ← load (mapGet mint w.mints)
    constraint (decide (m.authority = some (.user who)))
    return { w with mints := mapSet mint { m with authority := authority } w.mints }
  | .setFreezer mint freezer => do
    let m ← load (mapGet mint w.mints)
    constraint (decide (m.freezer = some (.user who)))
    return { w with mints := mapSet mint { m with freezer := freezer } w.mints }
  | .freeze acc frozen => do
    let a ← load (mapGet acc w.tokens)
    let m ← load (mapGet a.mint w.mints)
    constraint (decide (m.freezer = some (.user who)) && decide (a.frozen ≠ frozen))
    return { w with tokens := mapSet acc { a with frozen := frozen } w.tokens }
  | .close acc => do
    let a ← load (mapGet acc w.tokens)
    constraint (decide (a.owner = .user who) && decide (a.amount = 0))
    return { w with tokens := mapErase acc w.tokens }

/-! ### Initialisation -/

/-- `init` of a token account owned by the pool. -/
def initVault (w : World) (a : Addr) (mint lp : Nat) : R World := do
  constraint (mapGet a w.tokens).isNone
  return { w with tokens := mapSet a ⟨mint, .pool lp, 0, none, false⟩ w.tokens }

/-- `initialize_pool`, `instructions/initialize_pool.rs` 13-108.  `mint_authority.unwrap()` of a mint without authority
panics. -/
def initializePool (w : World) (authority lp x y tick : Nat) : R World := do
  constraint (mapGet lp w.pools).isNone
  let _ ← load (mapGet x w.mints)
  let _ ← load (mapGet y w.mints)
  let m ← load (mapGet lp w.mints)
  match m.authority with
  | none => rpanic
  | some a =>
    constraint (decide (a = .pool lp))
    let w ← w.initVault (.vault x lp) x lp
    let w ← w.initVault (.vault y lp) y lp
    let w ← w.initVault (.lpVault lp) lp lp
    let rp ← (← tickToRp tick).toScale rootPriceScale
    let g : Global := ⟨0, liquidityScale, rp.value, rootPriceScale, tick, Fee.zero⟩
    return { w with pools := mapSet lp ⟨authority, x, y, g, none, [], []⟩ w.pools }

/-- `initialize_bitmap`, `instructions/manage_bitmap.rs` 8-35. -/
def initializeBitmap (w : World) (lp : Nat) : R World := do
  let p ← load (mapGet lp w.pools)
  constraint p.bitmap.isNone
  return { w with pools := mapSet lp { p with bitmap := some Bitmap.empty } w.pools }

/-- `initialize_tick`, `instructions/manage_tick.rs` 13-48. -/
def initializeTick (w : World) (lp tick : Nat) : R World := do
  let p ← load (mapGet lp w.pools)
  constraint (mapGet tick p.ticks).isNone
  let t : Tick := ⟨0, liquidityScale, 0, 0, liquidityScale, tick, Fee.zero⟩
  return { w with pools := mapSet lp { p with ticks := mapSet tick t p.ticks } w.pools }

/-- `create_position`, `instructions/manage_position.rs` 13-75. -/
def createPosition (w : World) (lp user lower upper : Nat) : R World := do
  let p ← load (mapGet lp w.pools)
  constraint (mapGet (⟨user, lower, upper⟩ : PosKey) p.positions).isNone
  constraint (decide (lower < upper))
  let _ ← load (mapGet lower p.ticks)
  let _ ← load (mapGet upper p.ticks)
  let pos : Position := ⟨0, liquidityScale, lower, upper, Fee.zero⟩
  return { w with pools := mapSet lp { p with positions := mapSet ⟨user, lower, upper⟩ pos p.positions } w.pools }

/-! ### Deposit and withdrawal -/

/-- The signer and the token accounts passed to `deposit` or `withdraw`. -/
structure Accounts where
  user : Nat
  tokenX : Addr
  tokenY : Addr
  lp : Addr
  deriving DecidableEq, Repr

/-- Account constraints of `Deposit` (`deposit.rs` 21-132) and `Withdraw` (`withdraw.rs` 23-134). -/
def loadAccounts (w : World) (lp : Nat) (p : PoolAcc) (c : Accounts) (lower upper current : Nat) : R Loaded := do
  let b ← load p.bitmap
  let pos ← load (mapGet (⟨c.user, lower, upper⟩ : PosKey) p.positions)
  constraint (decide (lower < upper))
  let lwr ← load (mapGet lower p.ticks)
  constraint (decide (lwr.tick = pos.lower))
  let upr ← load (mapGet upper p.ticks)
  constraint (decide (upr.tick = pos.upper))
  let cur ← load (mapGet current p.ticks)
  constraint (decide (cur.tick = current))
  constraint (decide (cur.tick = p.gs.tick))
  let _ ← load (mapGet lp w.mints)
  let ux ← load (mapGet c.tokenX w.tokens)
  constraint (decide (ux.mint = p.xMint) && decide (ux.owner = .user c.user))
  let uy ← load (mapGet c.tokenY w.tokens)
  constraint (decide (uy.mint = p.yMint) && decide (uy.owner = .user c.user))
  let _ ← load (mapGet (.vault p.xMint lp) w.tokens)
  let _ ← load (mapGet (.vault p.yMint lp) w.tokens)
  let _ ← load (mapGet (.lpVault lp) w.tokens)
  let ul ← load (mapGet c.lp w.tokens)
  constraint (decide (ul.mint = lp))
  return ⟨b, pos, lwr, upr, cur⟩

/-- Anchor's exit for the program's own accounts, see `OnChain.writeBack`. -/
def writeBack (p : PoolAcc) (g : Global) (user lower upper current : Nat) (l : Loaded) : PoolAcc :=
  { p with
    gs := g
    bitmap := some l.bitmap
    positions := mapSet ⟨user, lower, upper⟩ l.pos p.positions
    ticks := mapSet current l.cur (mapSet upper l.upr (mapSet lower l.lwr p.ticks)) }

/-- `deposit::handle`, `instructions/deposit.rs` 178-324, including account loading and exit. -/
def deposit (w : World) (lp : Nat) (c : Accounts) (lower upper current xAmount yAmount : Nat) : R (World × Moved) := do
  let p ← load (mapGet lp w.pools)
  let a ← loadAccounts w lp p c lower upper current
  let x ← (Decimal.fromInt xAmount).toComputeScale
  let y ← (Decimal.fromInt yAmount).toComputeScale
  let rpa ← tickToRp lower
  let rpb ← tickToRp upper
  let rp ← tickToRp current
  let delta ← liqFromXYRpRng x y rp rpa rpb
  if delta.negative then rerr .negativeDepositLiquidity
  else
    let b ← (if a.lwr.gross = 0 then a.bitmap.activateTick 0 else .ok a.bitmap)
    let b ← (if a.upr.gross = 0 then b.activateTick 40000 else .ok b)
    let xIn ← xFromLRpRng delta rp rpa rpb
    let yIn ← yFromLRpRng delta rp rpa rpb
    let newFee ← computeLatestFee lower upper current p.gs.fee a.lwr.fee a.upr.fee a.pos.fee.scale
    let (pos, lwr, upr) ← unwrap (updatePosition a.pos a.lwr a.upr delta lower upper newFee)
    let g ← updateGlobal p.gs lower upper current delta
    let xDeb ← unwrap (xIn.sub (← feeTerm newFee.fx newFee.hx newFee.scale xIn.scale))
    let yDeb ← unwrap (yIn.sub (← feeTerm newFee.fy newFee.hy newFee.scale yIn.scale))
    if (← unwrap (xDeb.gt x)) then rerr .depositAmountExceeded
    else if (← unwrap (yDeb.gt y)) then rerr .depositAmountExceeded
    else
      let minted ← delta.abs
      let w ← w.mintTo lp c.lp (.pool lp) minted
      let dx ← xDeb.abs
      let w ← w.transfer c.tokenX (.vault p.xMint lp) (.user c.user) dx
      let dy ← yDeb.abs
      let w ← w.transfer c.tokenY (.vault p.yMint lp) (.user c.user) dy
      return ({ w with pools := mapSet lp (writeBack p g c.user lower upper current ⟨b, pos, lwr, upr, a.cur⟩) w.pools },
        ⟨dx, dy, minted⟩)

/-- `withdraw::handle`, `instructions/withdraw.rs` 168-296, including account loading and exit. -/
def withdraw (w : World) (lp : Nat) (c : Accounts) (lower upper current amount : Nat) : R (World × Moved) := do
  let p ← load (mapGet lp w.pools)
  let a ← loadAccounts w lp p c lower upper current
  let delta := (← (Decimal.fromInt amount).toComputeScale).neg
  let rpa ← tickToRp lower
  let rpb ← tickToRp upper
  let rp ← tickToRp current
  let newFee ← computeLatestFee lower upper current p.gs.fee a.lwr.fee a.upr.fee a.pos.fee.scale
  let (pos, lwr, upr) ← unwrap (updatePosition a.pos a.lwr a.upr delta lower upper newFee)
  let b ← a.bitmap.unsetTick 0
  let b ← b.unsetTick 40000
  let g ← updateGlobal p.gs lower upper current delta
  let xOut ← xFromLRpRng delta.neg rp rpa rpb
  let yOut ← yFromLRpRng delta.neg rp rpa rpb
  let xCred ← unwrap (xOut.add (← feeTerm newFee.fx newFee.hx newFee.scale xOut.scale))
  let yCred ← unwrap (yOut.add (← feeTerm newFee.fy newFee.hy newFee.scale yOut.scale))
  let w ← w.burn lp c.lp (.user c.user) amount
  let dx ← xCred.abs
  let w ← w.transfer (.vault p.xMint lp) c.tokenX (.pool lp) dx
  let dy ← yCred.abs
  let w ← w.transfer (.vault p.yMint lp) c.tokenY (.pool lp) dy
  return ({ w with pools := mapSet lp (writeBack p g c.user lower upper current ⟨b, pos, lwr, upr, a.cur⟩) w.pools },
    ⟨dx, dy, amount⟩)

/-! ### Executions -/

/-- The program's instructions (`lib.rs` 33-89); all but the first name the pool by its LP mint. -/
inductive Instr where
  | initializePool (authority lp x y tick : Nat)
  | initializeBitmap (lp : Nat)
  | initializeTick (lp tick : Nat)
  | createPosition (lp user lower upper : Nat)
  | deposit (lp : Nat) (c : Accounts) (lower upper current x y : Nat)
  | withdraw (lp : Nat) (c : Accounts) (lower upper current amount : Nat)
  deriving DecidableEq, Repr

/-- Effect of one instruction on the ledger, when it succeeds. -/
def exec (w : World) : Instr → R World
  | .initializePool a lp x y t => w.initializePool a lp x y t
  | .initializeBitmap lp => w.initializeBitmap lp
  | .initializeTick lp t => w.initializeTick lp t
  | .createPosition lp u l h => w.createPosition lp u l h
  | .deposit lp c l h cur x y => do return (← w.deposit lp c l h cur x y).1
  | .withdraw lp c l h cur n => do return (← w.withdraw lp c l h cur n).1

/-- One step of the ledger: an instruction of the program, or of the token program signed by anybody. -/
inductive Step : World → World → Prop where
  | program {w v : World} (i : Instr) : w.exec i = .ok v → Step w v
  | token {w v : World} (who : Nat) (i : TokenInstr) : w.tokenExec who i = .ok v → Step w v

/-- The states of the ledger that can be reached from an empty one. -/
inductive Reachable : World → Prop where
  | empty : Reachable ⟨[], [], []⟩
  | step {w v : World} : Reachable w → Step w v → Reachable v

end World

end Hmm.OnChain
