import Verif.Proofs.WorldWhen
import Verif.Spec.WorldBuy
import Verif.Props.PoolMath

/-
A deposit succeeds exactly when everything is ready for what the offer buys.
-/

namespace Hmm.OnChain

open Decimal PoolMath

/-! ### Liquidity of an offer -/

theorem T_lt : (10 : ℕ) ^ 12 < u128Size := by norm_num [u128Size]

theorem liqX_iff {x a b : Nat} {c : Decimal} (ha : 10 ^ 12 ≤ a) (hab : a < b) :
    liqXOnly ⟨x * 10 ^ 12, 12, false⟩ ⟨a, 12, false⟩ ⟨b, 12, false⟩ = .ok c ↔
      x * a * b < u128Size ∧ c = ⟨x * a * b / 10 ^ 12 * 10 ^ 12 / (b - a), 12, false⟩ := by
  have e : x * 10 ^ 12 * a / 10 ^ 12 = x * a := by
    rw [show x * 10 ^ 12 * a = x * a * 10 ^ 12 by ring]
    exact Nat.mul_div_cancel _ (by norm_num)
  unfold liqXOnly
  rw [sub_nn_le 12 hab.le, unwrap_eq, bind_eq, if_neg (by simp only [isNegative_nn, Bool.false_or, isZero_mk]; omega)]
  constructor
  · intro h
    rw [bind_ok] at h; obtain ⟨m, h1, h⟩ := h
    rw [bind_ok] at h; obtain ⟨m', h2, h⟩ := h
    have k1 := (mul_ok.1 h1).2.2
    simp only [e] at k1
    rw [k1] at h2
    have k2 := mul_ok.1 h2
    have k3 := k2.2.2
    simp only at k3
    rw [k3] at h
    exact ⟨k2.1, (div_ok.1 h).2.2.2⟩
  · rintro ⟨h, rfl⟩
    have h1 : x * 10 ^ 12 * a < u128Size := by
      refine lt_of_le_of_lt ?_ h
      calc x * 10 ^ 12 * a = x * a * 10 ^ 12 := by ring
        _ ≤ x * a * b := Nat.mul_le_mul_left _ (by omega)
    rw [mul_ok.2 ⟨h1, T_lt, rfl⟩, bind_eq]
    simp only [e]
    rw [mul_ok.2 ⟨h, T_lt, rfl⟩, bind_eq]
    refine div_ok.2 ⟨lt_of_le_of_lt (Nat.div_mul_le_self _ _) h, T_lt, ?_, rfl⟩
    simp only
    omega

theorem liqY_iff {y a b : Nat} {c : Decimal} (hab : a < b) :
    liqYOnly ⟨y * 10 ^ 12, 12, false⟩ ⟨a, 12, false⟩ ⟨b, 12, false⟩ = .ok c ↔
      y * 10 ^ 24 < u128Size ∧ c = ⟨y * 10 ^ 24 / (b - a), 12, false⟩ := by
  have e : y * 10 ^ 12 * 10 ^ 12 = y * 10 ^ 24 := by ring
  unfold liqYOnly
  rw [sub_nn_le 12 hab.le, unwrap_eq, bind_eq, if_neg (by simp only [isNegative_nn, Bool.false_or, isZero_mk]; omega)]
  rw [div_ok]
  simp only [e]
  constructor
  · rintro ⟨h1, _, _, h⟩
    exact ⟨h1, h⟩
  · rintro ⟨h1, h⟩
    exact ⟨h1, T_lt, by omega, h⟩

/-- The liquidity of an offer of whole tokens, and when it is computed. -/
theorem liqFrom_iff {x y p a b : Nat} {c : Decimal} (ha : 10 ^ 12 ≤ a) (hab : a < b) :
    liqFromXYRpRng ⟨x * 10 ^ 12, 12, false⟩ ⟨y * 10 ^ 12, 12, false⟩ ⟨p, 12, false⟩ ⟨a, 12, false⟩ ⟨b, 12, false⟩ = .ok c ↔
      (p < b → x * clampAt p a b * b < u128Size) ∧ (a < p → y * 10 ^ 24 < u128Size) ∧
      c = ⟨if p ≤ a then x * clampAt p a b * b / 10 ^ 12 * 10 ^ 12 / (b - clampAt p a b)
        else if p < b then Min.min (x * clampAt p a b * b / 10 ^ 12 * 10 ^ 12 / (b - clampAt p a b)) (y * 10 ^ 24 / (clampAt p a b - a))
        else y * 10 ^ 24 / (clampAt p a b - a), 12, false⟩ := by
  unfold liqFromXYRpRng
  rw [lte_nn, unwrap_eq, bind_eq]
  by_cases h1 : p ≤ a
  · have q : clampAt p a b = a := by unfold clampAt; omega
    rw [if_pos (by simpa using h1), liqX_iff ha hab, q, if_pos h1]
    constructor
    · rintro ⟨k1, k2⟩; exact ⟨fun _ => k1, fun h => by omega, k2⟩
    · rintro ⟨k1, _, k2⟩; exact ⟨k1 (by omega), k2⟩
  · rw [if_neg (by simpa using h1), lt_nn, unwrap_eq, bind_eq, if_neg h1]
    by_cases h2 : p < b
    · have q : clampAt p a b = p := by unfold clampAt; omega
      rw [if_pos (by simpa using h2), if_pos h2, q]
      have hp : 10 ^ 12 ≤ p := by omega
      constructor
      · intro h
        rw [bind_ok] at h; obtain ⟨lx, k1, h⟩ := h
        rw [bind_ok] at h; obtain ⟨ly, k2, h⟩ := h
        obtain ⟨m1, rfl⟩ := (liqX_iff hp h2).1 k1
        obtain ⟨m2, rfl⟩ := (liqY_iff (by omega)).1 k2
        rw [min_nn] at h
        exact ⟨fun _ => m1, fun _ => m2, (ok_inj.1 h).symm⟩
      · rintro ⟨k1, k2, rfl⟩
        rw [(liqX_iff hp h2).2 ⟨k1 h2, rfl⟩, bind_eq, (liqY_iff (by omega)).2 ⟨k2 (by omega), rfl⟩, bind_eq, min_nn]
    · have q : clampAt p a b = b := by unfold clampAt; omega
      rw [if_neg (by simpa using h2), if_neg h2, liqY_iff hab, q]
      constructor
      · rintro ⟨k1, k2⟩; exact ⟨fun h => absurd h h2, fun _ => k1, k2⟩
      · rintro ⟨_, k1, k2⟩; exact ⟨k1 (by omega), k2⟩

/-- X of any liquidity. -/
theorem xFrom_any {l p a b : Nat} (hab : a < b) (ha : 10 ^ 12 ≤ a) (hp : 0 < p) (hm : clampAt p a b * b < u128Size)
    (h : l * (b - clampAt p a b) < u128Size) :
    xFromLRpRng ⟨l, 12, false⟩ ⟨p, 12, false⟩ ⟨a, 12, false⟩ ⟨b, 12, false⟩ =
      .ok ⟨l * (b - clampAt p a b) / 10 ^ 12 * 10 ^ 12 / (clampAt p a b * b / 10 ^ 12), 12, false⟩ := by
  unfold clampAt at *
  have hq : max (min p b) a ≤ b := by omega
  have hqa : 10 ^ 12 ≤ max (min p b) a := ha.trans (le_max_right _ _)
  unfold xFromLRpRng
  rw [if_neg (by simp only [Bool.or_eq_true, isZero_mk]; omega)]
  rw [min_nn, bind_eq, max_nn, bind_eq, sub_nn_le 12 hq, unwrap_eq, bind_eq]
  generalize max (min p b) a = q at *
  rw [mul_ok.2 ⟨hm, T_lt, rfl⟩, bind_eq, mul_ok.2 ⟨h, T_lt, rfl⟩, bind_eq]
  have hpos : q * b / 10 ^ 12 ≠ 0 := by
    have : 10 ^ 12 * 10 ^ 12 ≤ q * b := Nat.mul_le_mul hqa (by omega)
    exact (Nat.div_pos (le_trans (by norm_num) this) (by norm_num)).ne'
  exact div_ok.2 ⟨lt_of_le_of_lt (Nat.div_mul_le_self _ _) h, T_lt, hpos, rfl⟩

theorem yFrom_any {l p a b : Nat} (h : l * (clampAt p a b - a) < u128Size) :
    yFromLRpRng ⟨l, 12, false⟩ ⟨p, 12, false⟩ ⟨a, 12, false⟩ ⟨b, 12, false⟩ =
      .ok ⟨l * (clampAt p a b - a) / 10 ^ 12, 12, false⟩ := by
  unfold clampAt at *
  unfold yFromLRpRng
  rw [min_nn, bind_eq, max_nn, bind_eq, sub_nn_le 12 (le_max_right _ _), unwrap_eq, bind_eq,
    if_neg (by simp [isNegative_nn])]
  exact mul_ok.2 ⟨h, T_lt, rfl⟩

theorem mul_div_le' (z d : Nat) : z / d * d ≤ z := Nat.div_mul_le_self _ _

/-- The liquidity of an offer costs no more than the offer, before X is rounded. -/
theorem offer_le {x y p a b l : Nat} (hab : a < b)
    (hl : l = if p ≤ a then x * clampAt p a b * b / 10 ^ 12 * 10 ^ 12 / (b - clampAt p a b)
        else if p < b then Min.min (x * clampAt p a b * b / 10 ^ 12 * 10 ^ 12 / (b - clampAt p a b)) (y * 10 ^ 24 / (clampAt p a b - a))
        else y * 10 ^ 24 / (clampAt p a b - a)) :
    (p < b → l * (b - clampAt p a b) ≤ x * clampAt p a b * b) ∧ (b ≤ p → b - clampAt p a b = 0) ∧
      (a < p → l * (clampAt p a b - a) ≤ y * 10 ^ 24) ∧ (p ≤ a → clampAt p a b - a = 0) := by
  have h1 : ∀ z d, z / 10 ^ 12 * 10 ^ 12 / d * d ≤ z := fun z d => (mul_div_le' _ _).trans (mul_div_le' _ _)
  refine ⟨fun h => ?_, fun h => by unfold clampAt; omega, fun h => ?_, fun h => by unfold clampAt; omega⟩
  · rw [if_pos h] at hl
    refine le_trans (Nat.mul_le_mul_right _ ?_) (h1 (x * clampAt p a b * b) (b - clampAt p a b))
    rw [hl]
    split
    · exact le_rfl
    · exact min_le_left _ _
  · rw [if_neg (by omega)] at hl
    refine le_trans (Nat.mul_le_mul_right _ ?_) (mul_div_le' (y * 10 ^ 24) (clampAt p a b - a))
    rw [hl]
    split
    · exact min_le_right _ _
    · exact le_rfl

/-! ### Room in the accounts -/

/-- A tick account counts more liquidity if it has room for it. -/
theorem updateTick_give {ts : Tick} {t l : Nat} {up : Bool} (hg : GoodTick t ts) (hn : ts.net ≤ ts.gross)
    (h : ts.gross + l < u128Size) : ∃ ts', updateTick ts t ⟨l, 12, false⟩ up = .ok ts' := by
  have hb' : ∃ n, (if up then (Decimal.mk l 12 false).neg else (Decimal.mk l 12 false)) = ⟨l, 12, n⟩ := by
    cases up
    · exact ⟨_, rfl⟩
    · unfold Decimal.neg; simp only [if_true]
      split
      · exact ⟨_, rfl⟩
      · split <;> exact ⟨_, rfl⟩
  obtain ⟨n, hb'⟩ := hb'
  unfold updateTick
  rw [if_neg (by simp only [ne_eq, not_not]; exact hg.tick.symm)]
  simp only [hb']
  rw [hg.net, hg.gross, toScale_id _ (by omega), bind_eq]
  obtain ⟨c, hc⟩ := add_exists (a := ⟨ts.net, 12, ts.netNeg != 0⟩) (b := ⟨l, 12, n⟩) rfl (fun _ => by simp only; omega)
  rw [hc, unwrap_eq, bind_eq, toScale_id _ (by omega), bind_eq, Pool.add_nn_eq h, unwrap_eq, bind_eq, if_neg (by simp)]
  exact ⟨_, rfl⟩

theorem updateTick_room {ts ts' : Tick} {t l : Nat} {up : Bool} (hg : GoodTick t ts)
    (h : updateTick ts t ⟨l, 12, false⟩ up = .ok ts') : ts.gross + l < u128Size := by
  unfold updateTick at h
  rw [ite_ok] at h; rcases h with ⟨_, h⟩ | ⟨h1, h⟩; · simp [rerr] at h
  rw [bind_ok] at h; obtain ⟨a, h2, h⟩ := h
  rw [bind_ok] at h; obtain ⟨a', h3, h⟩ := h
  rw [bind_ok] at h; obtain ⟨g, h4, h⟩ := h
  rw [bind_ok] at h; obtain ⟨g', h5, h⟩ := h
  obtain ⟨_, rfl⟩ := toScale_fits hg.gross h4
  rw [unwrap_ok] at h5
  exact (add_ok.1 h5).2.1 rfl

/-- No tick account's net liquidity exceeds its gross liquidity. -/
theorem net_le_gross {supply0 : Nat} {s : Chain} (hr : Reachable supply0 s) {t : Nat} {ts : Tick}
    (h : mapGet t s.ticks = some ts) : ts.net ≤ ts.gross := by
  have hb := TickBooks.reachable hr
  have gt := (Good.reachable hr).tick _ _ h
  by_cases e : t = s.gs.tick
  · subst e
    obtain ⟨h1, h2⟩ := hb.here _ h
    omega
  · obtain ⟨b1, b2⟩ := hb.other _ _ e h
    have nn : ∀ (c : PosKey → Prop) [DecidablePred c] k, (0 : ℚ) ≤ if c k then 1 else 0 := by
      intro c _ k; split <;> norm_num
    have p1 : 0 ≤ s.startingAt t := sumPos_nonneg (nn _)
    have p2 : 0 ≤ s.endingAt t := sumPos_nonneg (nn _)
    have hD : (0 : ℚ) < 10 ^ 12 := by norm_num
    unfold Tick.grossAmount at b1
    unfold Tick.netAmount at b2
    rw [gt.gross, div_eq_iff hD.ne'] at b1
    rw [gt.net] at b2
    have : (ts.net : ℚ) ≤ ts.gross := by
      rw [b1]
      split at b2
      · rw [one_mul, div_eq_iff hD.ne'] at b2
        nlinarith
      · rw [neg_one_mul, ← neg_div, div_eq_iff hD.ne'] at b2
        nlinarith
    exact_mod_cast this

theorem updatePosition_room {p : Position} {l u : Tick} {d : Nat} {lower upper : Nat} {k : PosKey} {f : Fee}
    {r : Position × Tick × Tick} (hp : GoodPosition k p)
    (h : updatePosition p l u ⟨d, 12, false⟩ lower upper f = .ok r) : p.liq + d < u128Size := by
  unfold updatePosition at h
  rw [bind_ok] at h; obtain ⟨n, h2, h⟩ := h
  rw [bind_ok] at h; obtain ⟨n', h3, h⟩ := h
  obtain ⟨_, rfl⟩ := toScale_fits hp.scale h2
  rw [unwrap_ok] at h3
  exact (add_ok.1 h3).2.1 rfl

theorem updateGlobal_room {g g' : Global} {lower upper current d : Nat} (hg : g.liqScale = 12)
    (h : updateGlobal g lower upper current ⟨d, 12, false⟩ = .ok g') (h1 : lower ≤ current) (h2 : current < upper) :
    g.liq + d < u128Size := by
  unfold updateGlobal at h
  rw [if_pos ⟨h1, h2⟩] at h
  rw [bind_ok] at h; obtain ⟨n, h3, h⟩ := h
  rw [unwrap_ok, hg] at h3
  exact (add_ok.1 h3).2.1 rfl

namespace World

/-! ### The token program's part -/

/-- Minting needs an account of the mint, not frozen, the mint's authority, and room in the mint. -/
theorem mintTo_intro {w : World} (hb : Booked w) {mint : Nat} {dst : Addr} {who : Party} {n : Nat} {m : Mint} {b : Token}
    (h1 : mapGet mint w.mints = some m) (h2 : mapGet dst w.tokens = some b) (f1 : b.frozen = false) (h3 : b.mint = mint)
    (h4 : m.authority = some who) (h5 : m.supply + n < u64Size) :
    w.mintTo mint dst who n = .ok { w with
      mints := mapSet mint { m with supply := m.supply + n } w.mints
      tokens := mapSet dst { b with amount := b.amount + n } w.tokens } := by
  have hle := hb.le h2
  subst h3
  rw [supply_some h1] at hle
  unfold mintTo
  rw [h1, h2]
  simp only [load, bind_eq, f1, Bool.false_eq_true, if_false, ne_eq, not_true, h4]
  rw [if_pos (by omega)]
  rfl

/-- A transfer changes no other account. -/
theorem transfer_other {w v : World} {src dst a : Addr} {who : Party} {n : Nat} (h : w.transfer src dst who n = .ok v)
    (h1 : a ≠ src) (h2 : a ≠ dst) : mapGet a v.tokens = mapGet a w.tokens := by
  obtain ⟨_, _, _, _, _, _, _, _, _, _, h | ⟨_, _, h⟩⟩ := transfer_ok h
  · rw [h.2]
  · rw [h]
    simp only
    rw [mapGet_set, if_neg h2, mapGet_set, if_neg h1]

/-- What the tokens of a deposit need. -/
structure Paid (w : World) (lp : Nat) (p : PoolAcc) (c : Accounts) (m : Moved) : Prop where
  tokenX : ∃ t, mapGet c.tokenX w.tokens = some t ∧ t.mint = p.xMint ∧ t.owner = .user c.user ∧ t.frozen = false ∧
    m.x ≤ t.amount + (if c.tokenX = c.lp then m.lp else 0) ∧ MaySpend t c.user m.x
  tokenY : ∃ t, mapGet c.tokenY w.tokens = some t ∧ t.mint = p.yMint ∧ t.owner = .user c.user ∧ t.frozen = false ∧
    m.y ≤ t.amount + (if c.tokenY = c.lp then m.lp else 0) ∧ MaySpend t c.user m.y
  vaultX : ∃ t, mapGet (.vault p.xMint lp) w.tokens = some t ∧ t.frozen = false
  vaultY : ∃ t, mapGet (.vault p.yMint lp) w.tokens = some t ∧ t.frozen = false
  lpTokens : ∃ t, mapGet c.lp w.tokens = some t ∧ t.mint = lp ∧ t.frozen = false
  supply : ∃ mt, mapGet lp w.mints = some mt ∧ mt.supply + m.lp < u64Size

/-- Accounts of users and vaults are different. -/
theorem apart {w : World} {a b : Addr} {s t : Token} {lp user : Nat} (h1 : mapGet a w.tokens = some s)
    (h2 : mapGet b w.tokens = some t) (o1 : s.owner = .pool lp) (o2 : t.owner = .user user) : a ≠ b := by
  rintro rfl
  rw [h1] at h2; cases h2
  rw [o1] at o2; cases o2

theorem pay_intro {w : World} {lp : Nat} {p : PoolAcc} {c : Accounts} {m : Moved} (hg : Guarded w lp p.xMint p.yMint)
    (hb : Booked w) (hc : Capital w) (h : Paid w lp p c m) :
    ∃ w1 w2 w3, w.mintTo lp c.lp (.pool lp) m.lp = .ok w1 ∧
      w1.transfer c.tokenX (.vault p.xMint lp) (.user c.user) m.x = .ok w2 ∧
      w2.transfer c.tokenY (.vault p.yMint lp) (.user c.user) m.y = .ok w3 := by
  obtain ⟨tx, x1, x2, x3, x4, x5, x6⟩ := h.tokenX
  obtain ⟨ty, y1, y2, y3, y4, y5, y6⟩ := h.tokenY
  obtain ⟨tx', x6⟩ := maySpend_iff.1 x6
  obtain ⟨ty', y6⟩ := maySpend_iff.1 y6
  obtain ⟨vx, vx1, vx2, vx3, vx4⟩ := hg.vaultX
  obtain ⟨vx', e, vx5⟩ := h.vaultX
  rw [vx1] at e; cases e
  obtain ⟨vy, vy1, vy2, vy3, vy4⟩ := hg.vaultY
  obtain ⟨vy', e, vy5⟩ := h.vaultY
  rw [vy1] at e; cases e
  obtain ⟨tl, l1, l2, l3⟩ := h.lpTokens
  obtain ⟨mt, m1, m2⟩ := h.supply
  obtain ⟨mt', e, m3⟩ := hg.mint
  rw [m1] at e; cases e
  have g1 := mintTo_intro hb m1 l1 l3 l2 m3 m2
  have hb1 := mintTo_booked hb g1
  have hc1 := mintTo_capital hc g1
  -- accounts after minting
  have after : ∀ (a : Addr) (t : Token), mapGet a w.tokens = some t →
      mapGet a (mapSet c.lp { tl with amount := tl.amount + m.lp } w.tokens) =
        some { t with amount := t.amount + (if a = c.lp then m.lp else 0) } := by
    intro a t ht
    rw [mapGet_set]
    split
    · next e => subst e; rw [l1] at ht; cases ht; rfl
    · rw [ht]; rfl
  have spend' : ∀ (t : Token) (u : Party) (k j : Nat) (t' : Token), spend t u k = .ok t' →
      ∃ t'', spend { t with amount := j } u k = .ok t'' := by
    intro t u k j t' hs
    unfold spend at hs ⊢
    split at hs
    · next d n hd =>
      simp only [hd]
      split at hs
      · next e1 =>
        rw [if_pos e1]
        split at hs
        · cases hs
        · next e2 => rw [if_neg e2]; exact ⟨_, rfl⟩
      · next e1 =>
        rw [if_neg e1]
        split at hs
        · next e2 => rw [if_pos e2]; exact ⟨_, rfl⟩
        · cases hs
    · next hd =>
      simp only [hd]
      split at hs
      · next e2 => rw [if_pos e2]; exact ⟨_, rfl⟩
      · cases hs
  obtain ⟨_, x6⟩ := spend' _ _ _ (tx.amount + (if c.tokenX = c.lp then m.lp else 0)) _ x6
  obtain ⟨_, y6⟩ := spend' _ _ _ (ty.amount + (if c.tokenY = c.lp then m.lp else 0)) _ y6
  obtain ⟨u2, g2⟩ := transfer_intro hb1 hc1 (src := c.tokenX) (dst := .vault p.xMint lp) (who := .user c.user) (n := m.x)
    (after _ _ x1) (after _ _ vx1) x4 vx5 x5 (x2.trans vx2.symm) x6
  have hb2 := transfer_booked hb1 g2
  have hc2 := transfer_capital hc1 g2
  have n1 : c.tokenY ≠ c.tokenX := by
    intro e
    rw [e, x1] at y1; cases y1
    exact hg.ne (x2.symm.trans y2)
  have n2 : c.tokenY ≠ .vault p.xMint lp := (apart vx1 y1 vx3 y3).symm
  have n3 : Addr.vault p.yMint lp ≠ c.tokenX := apart vy1 x1 vy3 x3
  have n4 : Addr.vault p.yMint lp ≠ .vault p.xMint lp := fun e => hg.ne (Addr.vault.inj e).1.symm
  obtain ⟨u3, g3⟩ := transfer_intro hb2 hc2 (src := c.tokenY) (dst := .vault p.yMint lp) (who := .user c.user) (n := m.y)
    ((transfer_other g2 n1 n2).trans (after _ _ y1)) ((transfer_other g2 n3 n4).trans (after _ _ vy1)) y4 vy5 y5
    (y2.trans vy2.symm) y6
  exact ⟨_, _, _, g1, g2, g3⟩

theorem pay_needs {w w1 w2 w3 : World} {lp : Nat} {p : PoolAcc} {c : Accounts} {m : Moved} (hg : Guarded w lp p.xMint p.yMint)
    (hps : Passed w lp p c) (h1 : w.mintTo lp c.lp (.pool lp) m.lp = .ok w1)
    (h2 : w1.transfer c.tokenX (.vault p.xMint lp) (.user c.user) m.x = .ok w2)
    (h3 : w2.transfer c.tokenY (.vault p.yMint lp) (.user c.user) m.y = .ok w3) : Paid w lp p c m := by
  obtain ⟨tx, x1, x2, x3⟩ := hps.tokenX
  obtain ⟨ty, y1, y2, y3⟩ := hps.tokenY
  obtain ⟨vx, vx1, vx2, vx3, vx4⟩ := hg.vaultX
  obtain ⟨vy, vy1, vy2, vy3, vy4⟩ := hg.vaultY
  obtain ⟨mt, tl, m1, l1, l3, l2, _, _, m2, e1⟩ := mintTo_ok h1
  obtain ⟨a, b, a', g1, g2, g3, g4, g5, g6, g7, _⟩ := transfer_ok h2
  obtain ⟨a2, b2, a2', f1, f2, f3, f4, f5, f6, f7, _⟩ := transfer_ok h3
  have after : ∀ (a : Addr) (t : Token), mapGet a w.tokens = some t →
      mapGet a w1.tokens = some { t with amount := t.amount + (if a = c.lp then m.lp else 0) } := by
    intro a t ht
    rw [e1]
    simp only
    rw [mapGet_set]
    split
    · next e => subst e; rw [l1] at ht; cases ht; rfl
    · rw [ht]; rfl
  have n1 : c.tokenY ≠ c.tokenX := by
    intro e
    rw [e, x1] at y1; cases y1
    exact hg.ne (x2.symm.trans y2)
  have n2 : c.tokenY ≠ .vault p.xMint lp := (apart vx1 y1 vx3 y3).symm
  have n3 : Addr.vault p.yMint lp ≠ c.tokenX := apart vy1 x1 vy3 x3
  have n4 : Addr.vault p.yMint lp ≠ .vault p.xMint lp := fun e => hg.ne (Addr.vault.inj e).1.symm
  rw [after _ _ x1] at g1
  rw [after _ _ vx1] at g2
  rw [transfer_other h2 n1 n2, after _ _ y1] at f1
  rw [transfer_other h2 n3 n4, after _ _ vy1] at f2
  cases g1; cases g2; cases f1; cases f2
  have may : ∀ (t : Token) (k n j : Nat) (t' : Token), spend { t with amount := j } (.user k) n = .ok t' → MaySpend t k n :=
    fun t k n j t' hs => (maySpend_iff (t := { t with amount := j })).2 ⟨t', hs⟩
  exact ⟨⟨tx, x1, x2, x3, g3, g5, may _ _ _ _ _ g7⟩, ⟨ty, y1, y2, y3, f3, f5, may _ _ _ _ _ f7⟩, ⟨vx, vx1, g4⟩, ⟨vy, vy1, f4⟩,
    ⟨tl, l1, l2, l3⟩, ⟨mt, m1, m2⟩⟩

/-- A deposit whose computations succeed and whose token accounts are in order succeeds. -/
theorem deposit_intro {w : World} {lp : Nat} {p : PoolAcc} {c : Accounts} {lower upper current xa ya : Nat} {m : Moved}
    {a : Loaded} {x y rpa rpb rp delta xIn yIn fx fy xDeb yDeb : Decimal} {fee : Fee} {pos : Position} {lwr upr : Tick}
    {b1 b : Bitmap} {g : Global}
    (hp : mapGet lp w.pools = some p) (hg : Guarded w lp p.xMint p.yMint) (hb : Booked w) (hc : Capital w)
    (hr : Paid w lp p c m) (hl : loadAccounts w lp p c lower upper current = .ok a)
    (h2 : (Decimal.fromInt xa).toComputeScale = .ok x) (h3 : (Decimal.fromInt ya).toComputeScale = .ok y)
    (h4 : tickToRp lower = .ok rpa) (h5 : tickToRp upper = .ok rpb) (h6 : tickToRp current = .ok rp)
    (h7 : liqFromXYRpRng x y rp rpa rpb = .ok delta) (h8 : delta.negative = false)
    (h9 : (if a.lwr.gross = 0 then a.bitmap.activateTick 0 else .ok a.bitmap) = .ok b1)
    (h10 : (if a.upr.gross = 0 then b1.activateTick 40000 else .ok b1) = .ok b)
    (h11 : xFromLRpRng delta rp rpa rpb = .ok xIn) (h12 : yFromLRpRng delta rp rpa rpb = .ok yIn)
    (h13 : computeLatestFee lower upper current p.gs.fee a.lwr.fee a.upr.fee a.pos.fee.scale = .ok fee)
    (h14 : unwrap (updatePosition a.pos a.lwr a.upr delta lower upper fee) = .ok (pos, lwr, upr))
    (h15 : updateGlobal p.gs lower upper current delta = .ok g)
    (h16 : feeTerm fee.fx fee.hx fee.scale xIn.scale = .ok fx) (h17 : unwrap (xIn.sub fx) = .ok xDeb)
    (h18 : feeTerm fee.fy fee.hy fee.scale yIn.scale = .ok fy) (h19 : unwrap (yIn.sub fy) = .ok yDeb)
    (h20 : unwrap (xDeb.gt x) = .ok false) (h21 : unwrap (yDeb.gt y) = .ok false)
    (h22 : delta.abs = .ok m.lp) (h24 : xDeb.abs = .ok m.x) (h26 : yDeb.abs = .ok m.y) :
    ∃ v, w.deposit lp c lower upper current xa ya = .ok (v, m) := by
  obtain ⟨u1, u2, u3, g1, g2, g3⟩ := pay_intro hg hb hc hr
  obtain ⟨dx, dy, l⟩ := m
  simp only at g1 g2 g3 h22 h24 h26
  refine ⟨World.mk (mapSet lp (writeBack p g c.user lower upper current ⟨b, pos, lwr, upr, a.cur⟩) u3.pools) u3.mints u3.tokens, ?_⟩
  unfold deposit
  rw [hp, load, bind_eq, hl, bind_eq, h2, bind_eq, h3, bind_eq, h4, bind_eq, h5, bind_eq, h6, bind_eq, h7, bind_eq,
    if_neg (by rw [h8]; simp), h9, bind_eq, h10, bind_eq, h11, bind_eq, h12, bind_eq, h13, bind_eq, h14, bind_eq]
  simp only
  rw [h15, bind_eq, h16, bind_eq, h17, bind_eq, h18, bind_eq, h19, bind_eq, h20, bind_eq, if_neg (by simp), h21, bind_eq,
    if_neg (by simp), h22, bind_eq, g1, bind_eq, h24, bind_eq, g2, bind_eq, h26, bind_eq, g3, bind_eq]
  rfl

theorem two64 : (2 : ℕ) ^ 64 = u64Size := by norm_num [u64Size]

/-- A deposit for which everything is ready succeeds. -/
theorem deposit_when {w : World} (hw : Reachable w) {lp : Nat} {p : PoolAcc} (hp : mapGet lp w.pools = some p)
    {c : Accounts} {lower upper current x y l dx dy X Y : Nat} (hx : x < 2 ^ 64) (hy : y < 2 ^ 64)
    (hq : Quote p.gs.tick lower upper x y l X Y) (w8 : X ≤ x * 10 ^ 12) (w9 : dx = X / 10 ^ 12) (w10 : dy = Y / 10 ^ 12)
    (h : Prepared w lp p c lower upper current l dx dy) :
    ∃ v, w.deposit lp c lower upper current x y = .ok (v, ⟨dx, dy, l / 10 ^ 12⟩) := by
  obtain ⟨hg, supply0, s, hr, hs⟩ := hw.guarded hp
  have hgood := Good.reachable hr
  obtain ⟨bm, hbit⟩ := Option.isSome_iff_exists.1 h.bitmap
  obtain ⟨cur, hcur⟩ := Option.isSome_iff_exists.1 h.here
  obtain ⟨pos, p1, p2⟩ := h.position
  obtain ⟨lwr, l1, l2⟩ := h.starts
  obtain ⟨upr, u1, u2⟩ := h.ends
  rw [← hs.positions] at p1
  rw [← hs.ticks] at l1 u1 hcur
  have gp := hgood.pos _ _ p1
  have gl := hgood.tick _ _ l1
  have gu := hgood.tick _ _ u1
  have gc := hgood.tick _ _ hcur
  have nl := net_le_gross hr l1
  have nu := net_le_gross hr u1
  have hact := h.active
  rw [two128] at p2 l2 u2 hact
  obtain ⟨rp, a, b, q, w1, w2, w3, rfl, w4, w5, w6, w7, eX, eY⟩ := hq
  rw [two128] at w4 w5 w6
  have hab := tickToRp_order h.order w2 w3
  have ha := tickToRp_ge w2
  have hrp : 0 < rp := lt_of_lt_of_le (by norm_num) (tickToRp_ge w1)
  obtain ⟨o1, o2, o3, o4⟩ := offer_le hab w7
  have fx : l * (b - clampAt rp a b) < u128Size := by
    by_cases e : rp < b
    · exact lt_of_le_of_lt (o1 e) (w5 e)
    · rw [o2 (by omega), Nat.mul_zero]; norm_num [u128Size]
  have y24 : l * (clampAt rp a b - a) ≤ y * 10 ^ 24 := by
    by_cases e : a < rp
    · exact o3 e
    · rw [o4 (by omega), Nat.mul_zero]; exact Nat.zero_le _
  have fy : l * (clampAt rp a b - a) < u128Size := by
    by_cases e : a < rp
    · exact lt_of_le_of_lt (o3 e) (w6 e)
    · rw [o4 (by omega), Nat.mul_zero]; norm_num [u128Size]
  have ey' : l * (clampAt rp a b - a) / 10 ^ 12 ≤ y * 10 ^ 12 := by
    refine (Nat.div_le_div_right y24).trans (le_of_eq ?_)
    rw [show y * 10 ^ 24 = y * 10 ^ 12 * 10 ^ 12 by ring]
    exact Nat.mul_div_cancel _ (by norm_num)
  have hliq := (liqFrom_iff (c := ⟨l, 12, false⟩) ha hab).2 ⟨w5, w6, by rw [← w7]⟩
  have ex := xFrom_any hab ha hrp w4 fx
  have ey := yFrom_any (b := b) fy
  have hpaid : Paid w lp p c ⟨dx, dy, l / 10 ^ 12⟩ := by
    obtain ⟨mt, m1, m2⟩ := h.supply
    rw [two64] at m2
    exact ⟨h.tokenX, h.tokenY, h.vaultX, h.vaultY, h.lpTokens, mt, m1, m2⟩
  obtain ⟨mt, m1, m2⟩ := hpaid.supply
  obtain ⟨tx, x1, x2, x3, x4, x5⟩ := h.tokenX
  obtain ⟨ty, y1, y2, y3, y4, y5⟩ := h.tokenY
  obtain ⟨vx, v1, _⟩ := h.vaultX
  obtain ⟨vy, v4, _⟩ := h.vaultY
  obtain ⟨lv, lv1, _⟩ := hg.lpVault
  obtain ⟨tl, t1, t2, t3⟩ := h.lpTokens
  have hload : loadAccounts w lp p c lower upper current = .ok ⟨bm, pos, lwr, upr, cur⟩ := by
    rw [hs.ticks] at l1 u1 hcur
    rw [← h.atTick] at hcur
    rw [hs.positions] at p1
    rw [← h.atTick] at gc
    unfold loadAccounts
    simp only [bind_ok, load_ok, constraint_ok, pure_ok, decide_eq_true_eq, Bool.and_eq_true]
    exact ⟨bm, hbit, pos, p1, (), gp.order, lwr, l1, (), by rw [gl.tick, gp.lower], upr, u1, (), by rw [gu.tick, gp.upper],
      cur, hcur, (), gc.tick, (), gc.tick.trans h.atTick, mt, m1, tx, x1, (), ⟨x2, x3⟩, ty, y1, (), ⟨y2, y3⟩, vx, v1, vy, v4,
      lv, lv1, tl, t1, (), t2, rfl⟩
  obtain ⟨lwr', e1⟩ := updateTick_give (up := false) gl nl l2
  obtain ⟨upr', e2⟩ := updateTick_give (up := true) gu nu u2
  have eupd : updatePosition pos lwr upr ⟨l, 12, false⟩ lower upper Fee.zero =
      .ok ({ pos with liq := pos.liq + l, liqScale := 12, fee := Fee.zero }, lwr', upr') := by
    unfold updatePosition
    rw [gp.scale, toScale_id _ (by omega), bind_eq, Pool.add_nn_eq p2, unwrap_eq, bind_eq, if_neg (by simp), e1, unwrap_eq, bind_eq,
      e2, unwrap_eq, bind_eq]
    rfl
  have eg : ∃ g, updateGlobal p.gs lower upper current ⟨l, 12, false⟩ = .ok g := by
    unfold updateGlobal
    split
    · next hc =>
      rw [h.atTick] at hc
      have gs := hgood.gs.scale
      rw [hs.gs] at gs
      rw [gs]
      unfold Decimal.new
      rw [Pool.add_nn_eq (hact hc.1 hc.2), unwrap_eq, bind_eq, if_neg (by simp)]
      exact ⟨_, rfl⟩
    · exact ⟨_, rfl⟩
  obtain ⟨g, eg⟩ := eg
  have v0 : Bitmap.Valid 0 := ⟨by norm_num, by norm_num⟩
  have v40 : Bitmap.Valid 40000 := ⟨by norm_num, by norm_num⟩
  have eb : ∀ (b : Bitmap) (n : Nat) (t : Int), Bitmap.Valid t → ∃ b', (if n = 0 then b.activateTick t else .ok b) = .ok b' := by
    intro b n t ht
    split
    · exact ⟨_, Bitmap.activate_valid b ht⟩
    · exact ⟨_, rfl⟩
  obtain ⟨b1, eb1⟩ := eb bm lwr.gross 0 v0
  obtain ⟨b2, eb2⟩ := eb b1 upr.gross 40000 v40
  have hfee : computeLatestFee lower upper current p.gs.fee lwr.fee upr.fee pos.fee.scale = .ok Fee.zero := by
    rw [← hs.gs, hgood.gs.fee, gl.fee, gu.fee, gp.fee]
    exact computeLatestFee_zero _ _ _
  have hft : feeTerm Fee.zero.fx Fee.zero.hx Fee.zero.scale 12 = .ok ⟨0, 12, false⟩ := by decide
  have subz : ∀ z : Nat, (Decimal.mk z 12 false).sub ⟨0, 12, false⟩ = .ok ⟨z, 12, false⟩ :=
    fun z => sub_nn_le 12 (Nat.zero_le z)
  have big : ∀ z : Nat, z < 2 ^ 64 → z * 10 ^ 12 < u128Size := by
    intro z hz
    unfold u128Size
    omega
  have sm : ∀ z v : Nat, v < 2 ^ 64 → z ≤ v * 10 ^ 12 → z / 10 ^ 12 < u64Size := by
    intro z v hv hz
    unfold u64Size
    omega
  rw [← eX] at ex
  rw [← eY] at ey ey'
  rw [← h.atTick] at w1
  have sx : unwrap ((Decimal.mk X 12 false).sub ⟨0, 12, false⟩) = .ok ⟨X, 12, false⟩ := by rw [subz]; exact unwrap_eq _
  have sy : unwrap ((Decimal.mk Y 12 false).sub ⟨0, 12, false⟩) = .ok ⟨Y, 12, false⟩ := by rw [subz]; exact unwrap_eq _
  have gx : unwrap ((Decimal.mk X 12 false).gt ⟨x * 10 ^ 12, 12, false⟩) = .ok false := by
    rw [gt_nn, decide_eq_false (by omega)]; exact unwrap_eq _
  have gy : unwrap ((Decimal.mk Y 12 false).gt ⟨y * 10 ^ 12, 12, false⟩) = .ok false := by
    rw [gt_nn, decide_eq_false (by omega)]; exact unwrap_eq _
  have al : (Decimal.mk l 12 false).abs = .ok (l / 10 ^ 12) :=
    (abs_ok rfl).2 ⟨Eq.refl _, lt_of_le_of_lt (Nat.le_add_left _ _) m2⟩
  have ax : (Decimal.mk X 12 false).abs = .ok dx := (abs_ok rfl).2 ⟨w9, w9 ▸ sm _ _ hx w8⟩
  have ay : (Decimal.mk Y 12 false).abs = .ok dy := (abs_ok rfl).2 ⟨w10, w10 ▸ sm _ _ hy ey'⟩
  exact deposit_intro (a := ⟨bm, pos, lwr, upr, cur⟩) (xIn := ⟨X, 12, false⟩) (yIn := ⟨Y, 12, false⟩)
    (fx := ⟨0, 12, false⟩) (fy := ⟨0, 12, false⟩) (m := ⟨dx, dy, l / 10 ^ 12⟩) hp hg hw.booked hw.capital hpaid hload
    (fromInt_fits (big x hx)) (fromInt_fits (big y hy)) w2 w3 w1 hliq rfl eb1 eb2 ex ey hfee
    (by rw [eupd]; exact unwrap_eq _) eg hft sx hft sy gx gy al ax ay

/-- A deposit that succeeded was ready. -/
theorem deposit_prepared {w v : World} (hw : Reachable w) {lp : Nat} {p : PoolAcc} (hp : mapGet lp w.pools = some p)
    {c : Accounts} {lower upper current x y : Nat} {m : Moved}
    (h : w.deposit lp c lower upper current x y = .ok (v, m)) :
    ∃ l X Y, Quote p.gs.tick lower upper x y l X Y ∧ X ≤ x * 10 ^ 12 ∧ m.x = X / 10 ^ 12 ∧ m.y = Y / 10 ^ 12 ∧
      m.lp = l / 10 ^ 12 ∧ Prepared w lp p c lower upper current l m.x m.y := by
  obtain ⟨hg, supply0, s, hr, hs⟩ := hw.guarded hp
  obtain ⟨p0, _, w1, w2, w3, h0, hps, k1, k2, k3, _⟩ := deposit_ok h
  rw [hp] at h0; cases h0
  have hpaid := pay_needs hg hps k1 k2 k3
  obtain ⟨p', s1, s2, s3, c', _, _, _, _, hext, hu, hd, _⟩ := hs.deposit hp hg hw.small h
  have hr1 : OnChain.Reachable supply0 s1 := hr.step (.external hext)
  have hgood := Good.reachable hr1
  obtain ⟨d, rp, a, b, l, view⟩ := hgood.deposit hd
  have r := view.raw
  obtain ⟨a1, a2, a3, a4, a5, a6, a7, a8, a9, a10, a11, a12, a13⟩ := OnChain.loadAccounts_ok.1 r.load
  have e : s1.gs = p.gs := hext.gs.trans hs.gs
  have et : s1.ticks = p.ticks := hext.ticks.trans hs.ticks
  have ep : s1.positions = p.positions := hext.positions.trans hs.positions
  have ebm : s1.bitmap = p.bitmap := hext.bitmap.trans hs.bitmap
  have gp := hgood.pos _ _ a2
  have gl := hgood.tick _ _ a4
  have gu := hgood.tick _ _ a6
  have hupd := r.upd
  rw [view.delta] at hupd
  have hgl := r.g
  rw [view.delta] at hgl
  have hlw := view.lwr
  rw [view.delta] at hlw
  have hup := view.upr
  rw [view.delta] at hup
  have hrp := r.rp
  rw [view.cur, view.rp, e] at hrp
  have hxi := r.xIn
  rw [view.delta, view.rp, view.rpa, view.rpb] at hxi
  have hyi := r.yIn
  rw [view.delta, view.rp, view.rpa, view.rpb] at hyi
  have ha := tickToRp_ge (view.rpa ▸ r.rpa)
  have hp0 : 0 < rp := lt_of_lt_of_le (by norm_num) (tickToRp_ge hrp)
  obtain ⟨q1, q2, q3⟩ := (liqFrom_iff ha view.prices).1 view.liq
  obtain ⟨f1, f2⟩ := amounts_fit view.prices hxi hyi
  have f3 := xFrom_product view.prices hxi
  have kx := (xFrom_any view.prices ha hp0 f3 f1).symm.trans hxi
  have ky := (yFrom_any (b := b) f2).symm.trans hyi
  have hmax := r.xMax
  rw [view.xDeb, ← ok_inj.1 kx] at hmax
  have hdx : d.x = ⟨x * 10 ^ 12, 12, false⟩ := fromInt_compute r.x
  rw [hdx, gt_nn] at hmax
  refine ⟨l, _, _, ⟨rp, a, b, _, hrp, view.rpa ▸ r.rpa, view.rpb ▸ r.rpb, rfl, two128 ▸ f3, two128 ▸ q1, two128 ▸ q2,
    congrArg Decimal.value q3, rfl, rfl⟩, by simpa using hmax, by rw [view.x, ← ok_inj.1 kx], by rw [view.y, ← ok_inj.1 ky],
    view.lp, ⟨?_, view.order, ?_, ?_, ?_, ?_, ?_, ?_, ?_, ?_, hpaid.vaultX, hpaid.vaultY, hpaid.lpTokens, ?_⟩⟩
  · rw [view.cur, e]
  · rw [← ebm]; exact a1 ▸ rfl
  · rw [← et, ← e, ← view.cur]; exact a8 ▸ rfl
  · rw [← ep, ← hu, two128]
    exact ⟨_, a2, updatePosition_room gp hupd⟩
  · rw [← et, two128]
    exact ⟨_, a4, updateTick_room gl hlw⟩
  · rw [← et, two128]
    exact ⟨_, a6, updateTick_room gu hup⟩
  · rw [← e, two128, ← view.cur]
    exact fun h1 h2 => updateGlobal_room hgood.gs.scale hgl h1 h2
  · rw [← view.lp]; exact hpaid.tokenX
  · rw [← view.lp]; exact hpaid.tokenY
  · rw [← view.lp, two64]; exact hpaid.supply

end World

end Hmm.OnChain
