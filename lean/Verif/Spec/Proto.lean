import Verif.Model.Proto
import Verif.Spec.F64

/-
When a pool of the Python prototype and a pool of the Rust twin in doubles are the same, and what the two need of their math
libraries to be comparable.
-/

namespace Hmm.Proto

open F64

/-- The same record of a tick. -/
def tickOf (t : Flt.TickState) : TickState := ⟨t.liqNet, t.liqGross, t.fees⟩

/-- The same key. -/
def keyOf (k : Flt.PositionKey) : Key := ⟨k.user, k.lower, k.upper⟩

/-- The same pool: every double of the one is the double of the other.  Liquidity of a position may be a Python integer. -/
structure Twin (p : Flt.Pool) (q : Pool) : Prop where
  spacing : q.spacing = p.spacing
  liq : q.liq = p.gs.liq
  rp : q.rp = p.gs.rp
  tick : q.tick = p.gs.tick
  fees : q.fees = p.gs.fees
  ticks : q.ticks = p.ticks.map fun e => ((e.1 : Int), tickOf e.2)
  positions : (q.positions.map fun e => (e.1, e.2.liq.toFlt, e.2.fees)) =
    p.positions.map fun e => (keyOf e.1, .ok e.2.liq, e.2.fees)
  x : q.x = p.x
  y : q.y = p.y
  xAdj : q.xAdj = p.xAdj
  yAdj : q.yAdj = p.yAdj
  xFee : q.xFee = p.xFee
  yFee : q.yFee = p.yFee
  c : q.c = p.c
  feeRate : q.feeRate = p.feeRate

/-- The numbers are of their Rust types, the spacing is not zero, and the price is not below that of tick zero. -/
structure Fits (p : Flt.Pool) : Prop where
  spacing : 0 < p.spacing ∧ p.spacing < 2 ^ 32
  tick : p.gs.tick < 2 ^ 32
  keys : ∀ e ∈ p.ticks, e.1 < 2 ^ 32
  rp : le one p.gs.rp = true

/-- The price of a tick as the prototype computes it. -/
def priceOf (m : LibM) (t : Nat) : F64 := m.powf Flt.tickBase (div (ofNat t) (ofNat 2))

/-- What any math library does: the square root of the tick base is its power one half, powers of the tick base are at least
one, the logarithm of NaN is NaN, and logarithms of numbers from one on, to the base of ticks, are not negative and fit `u32`. -/
structure Ordinary (m : LibM) : Prop where
  root : m.powf Flt.tickBase (div (ofNat 1) (ofNat 2)) = Flt.tickBase.sqrt
  above : ∀ t : Nat, t < 2 ^ 32 → le one (priceOf m t) = true
  nan : m.ln nan = nan
  ticks : ∀ (rp : F64) (q : ℚ), le one rp = true → (div (m.ln rp) (m.ln Flt.tickBase.sqrt)).Is q → 0 ≤ q ∧ q < 2 ^ 32

/-- A pool of that `C` takes powers: with 0 there is no adjustment, with 1 it is a logarithm. -/
def Powers (c : F64) : Prop := F64.eq c zero = false ∧ F64.eq c one = false

/-- The library `m` gives the Rust code the prices of ticks that `m'` gives the prototype, and otherwise computes what `m'`
does: logarithms, and the powers that a pool of that `C` takes. -/
structure Alike (c : F64) (m m' : LibM) : Prop where
  price : ∀ t : Nat, t < 2 ^ 32 → Flt.tickToRp m t = priceOf m' t
  ln : ∀ x, m.ln x = m'.ln x
  powC : Powers c → ∀ a, m.powf a c = m'.powf a c
  powOmc : Powers c → ∀ a, m.powf a (sub one c) = m'.powf a (sub one c)
  powCmo : Powers c → ∀ a, m.powf a (sub one c).neg = m'.powf a (sub one c).neg

/-- The prototype's library with its prices of ticks put where the Rust code looks for them. -/
def tabled (m : LibM) : LibM where
  powf a b := if a = Flt.tickBase.sqrt ∧ b = ofNat b.toU32 then priceOf m b.toU32 else m.powf a b
  ln := m.ln

/-- The double is no natural number of 32 bits. -/
def NotWhole (a : F64) : Prop := ∀ t : Nat, t < 2 ^ 32 → a ≠ ofNat t

/-- The same outcome of a swap.  Where the prototype reports no average price the Rust code reports zero.  The price at the end
is the square of the same root price, by `**` there and by multiplication here. -/
structure SameOut (m : LibM) (rp : F64) (r : Flt.SwapOutput) (s : Pool.Output) : Prop where
  recv : s.recv = r.recv
  send : s.send = r.send
  adj : s.adj = r.sendHmmAdj
  fee : s.fee = r.recvFee
  avg : r.avgPrice = s.avg.getD zero
  endPrice : s.endPrice = m.powf rp (ofNat 2) ∧ r.endPrice = mul rp rp

/-- Pools on which the Rust code has no reason to refuse what the prototype accepts: no adjustment, a fee rate from zero to below
one, and no provider's range that begins or ends at tick zero. -/
structure Calm (p : Flt.Pool) : Prop where
  c : F64.eq p.c zero = true
  fee : le zero p.feeRate = true ∧ lt p.feeRate one = true
  ticks : mapGet 0 p.ticks = none

/-- The two states agree in everything but the records of ticks, the liquidity in use and the user's own positions. -/
structure Untouched (u : Nat) (p q : Pool) : Prop where
  spacing : q.spacing = p.spacing
  rp : q.rp = p.rp
  tick : q.tick = p.tick
  fees : q.fees = p.fees
  x : q.x = p.x
  y : q.y = p.y
  xAdj : q.xAdj = p.xAdj
  yAdj : q.yAdj = p.yAdj
  xFee : q.xFee = p.xFee
  yFee : q.yFee = p.yFee
  c : q.c = p.c
  feeRate : q.feeRate = p.feeRate
  others : ∀ k : Key, k.user ≠ u → mapGet k q.positions = mapGet k p.positions

/-- The liquidity of positions that is a Python integer is a double. -/
def Exact (qs : List (Key × PositionState)) : Prop := ∀ e ∈ qs, ∀ n, e.2.liq = .int n → ∃ f, ofInt n = .ok f ∧ f.Is n

/-- No liquidity is negative, as the constructors of the Rust code see to. -/
structure Sane (p : Flt.Pool) : Prop where
  liq : lt p.gs.liq zero = false
  ticks : ∀ t ts, mapGet t p.ticks = some ts → lt ts.liqGross zero = false
  positions : ∀ k ps, mapGet k p.positions = some ps → lt ps.liq zero = false

/-- The books cover a withdrawal of so much liquidity from the range: both ends hold at least that much, and so does the pool if
its tick is in the range. -/
structure Covers (p : Flt.Pool) (lo up : Nat) (l : F64) : Prop where
  proper : lo ≠ up
  lower : ∃ ts, mapGet lo p.ticks = some ts ∧ lt (sub ts.liqGross l) zero = false
  upper : ∃ ts, mapGet up p.ticks = some ts ∧ lt (sub ts.liqGross l) zero = false
  inside : lo ≤ p.gs.tick → p.gs.tick < up → lt (sub p.gs.liq l) zero = false

end Hmm.Proto
