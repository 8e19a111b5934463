import Verif.Spec.WorldWhen

/-
What a deposit needs, what it takes and what it mints.
-/

namespace Hmm.OnChain.World

open PoolMath

/-- What an offer of `x` and `y` whole tokens buys between two ticks at a third: liquidity `l` for `X` and `Y`, all three in
units of the twelfth place.  With the root prices `p`, `a`, `b` in the same units and `q` for `p` moved between `a` and `b`,
X alone buys `x q b / (b - q)`, Y alone `y / (q - a)`, and inside the range the smaller of the two counts.  Every product has
to fit in 128 bits. -/
def Quote (tick lower upper x y l X Y : Nat) : Prop :=
  ∃ p a b q, tickToRp tick = .ok ⟨p, 12, false⟩ ∧ tickToRp lower = .ok ⟨a, 12, false⟩ ∧ tickToRp upper = .ok ⟨b, 12, false⟩ ∧
    q = clampAt p a b ∧ q * b < 2 ^ 128 ∧ (p < b → x * q * b < 2 ^ 128) ∧ (a < p → y * 10 ^ 24 < 2 ^ 128) ∧
    l = (if p ≤ a then x * q * b / 10 ^ 12 * 10 ^ 12 / (b - q)
      else if p < b then min (x * q * b / 10 ^ 12 * 10 ^ 12 / (b - q)) (y * 10 ^ 24 / (q - a))
      else y * 10 ^ 24 / (q - a)) ∧
    X = l * (b - q) / 10 ^ 12 * 10 ^ 12 / (q * b / 10 ^ 12) ∧ Y = l * (q - a) / 10 ^ 12

/-- Everything is ready for a deposit of liquidity `l`, paid with `dx` and `dy` whole tokens: the accounts exist and have room
for the liquidity, the tokens are there and the user's to spend, the LP mint has room, and nothing is frozen.  LP tokens are
minted first, so they count if the user pays from the account that receives them. -/
structure Prepared (w : World) (lp : Nat) (p : PoolAcc) (c : Accounts) (lower upper current l dx dy : Nat) : Prop where
  atTick : current = p.gs.tick
  order : lower < upper
  bitmap : p.bitmap.isSome
  here : (mapGet p.gs.tick p.ticks).isSome
  position : ∃ q, mapGet (⟨c.user, lower, upper⟩ : PosKey) p.positions = some q ∧ q.liq + l < 2 ^ 128
  starts : ∃ t, mapGet lower p.ticks = some t ∧ t.gross + l < 2 ^ 128
  ends : ∃ t, mapGet upper p.ticks = some t ∧ t.gross + l < 2 ^ 128
  active : lower ≤ p.gs.tick → p.gs.tick < upper → p.gs.liq + l < 2 ^ 128
  tokenX : ∃ t, mapGet c.tokenX w.tokens = some t ∧ t.mint = p.xMint ∧ t.owner = .user c.user ∧ t.frozen = false ∧
    dx ≤ t.amount + (if c.tokenX = c.lp then l / 10 ^ 12 else 0) ∧ MaySpend t c.user dx
  tokenY : ∃ t, mapGet c.tokenY w.tokens = some t ∧ t.mint = p.yMint ∧ t.owner = .user c.user ∧ t.frozen = false ∧
    dy ≤ t.amount + (if c.tokenY = c.lp then l / 10 ^ 12 else 0) ∧ MaySpend t c.user dy
  vaultX : ∃ t, mapGet (.vault p.xMint lp) w.tokens = some t ∧ t.frozen = false
  vaultY : ∃ t, mapGet (.vault p.yMint lp) w.tokens = some t ∧ t.frozen = false
  lpTokens : ∃ t, mapGet c.lp w.tokens = some t ∧ t.mint = lp ∧ t.frozen = false
  supply : ∃ m, mapGet lp w.mints = some m ∧ m.supply + l / 10 ^ 12 < 2 ^ 64

end Hmm.OnChain.World
