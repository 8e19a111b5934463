import Verif.Proofs.WorldOpen
import Verif.Tests.WorldSample
import Verif.Props.WorldBuy

/-
Properties C124 and C125: pools can be opened, and everybody can provide liquidity to them.
-/

namespace Hmm.OnChain.World

open Decimal PoolMath World.Sample

/-! ### C124: when a pool can be opened -/

private theorem last_price : tickToRp 524287 = .ok ⟨242202237038663908051928, 12, false⟩ := by decide +kernel

private theorem tickToRp_small {t v : Nat} (h : tickToRp t = .ok ⟨v, 12, false⟩) : v < u128Size := by
  have ht := tickToRp_lt h
  have hb : (242202237038663908051928 : Nat) < u128Size := by decide
  by_cases e : t = 524287
  · rw [e, last_price] at h
    cases h
    exact hb
  · exact (tickToRp_order (by omega) h last_price).trans hb

/-- A pool can be opened exactly if there is none for the LP mint, the two mints exist and differ, the LP mint has been
handed over to the pool, and the tick has a price. -/
theorem C124_open {w : World} (hw : Reachable w) (authority lp x y tick : Nat) :
    (∃ v, w.initializePool authority lp x y tick = .ok v) ↔
      mapGet lp w.pools = none ∧ (mapGet x w.mints).isSome ∧ (mapGet y w.mints).isSome ∧ x ≠ y ∧
        (∃ m, mapGet lp w.mints = some m ∧ m.authority = some (.pool lp)) ∧ tick < 2 ^ 19 := by
  constructor
  · rintro ⟨v, h⟩
    obtain ⟨mt, s, h1, ⟨_, h2⟩, ⟨_, h3⟩, h4, h5, _, _, _, h6, h7, _⟩ := initializePool_ok h
    refine ⟨h1, by rw [h2]; rfl, by rw [h3]; rfl, h6, ⟨mt, h4, h5⟩, ?_⟩
    unfold OnChain.initializePool at h7
    rw [bind_ok] at h7; obtain ⟨rp, h7, _⟩ := h7
    exact tickToRp_lt h7
  · rintro ⟨h1, h2, h3, h4, ⟨m, h5, h6⟩, h7⟩
    obtain ⟨_, h2⟩ := Option.isSome_iff_exists.1 h2
    obtain ⟨_, h3⟩ := Option.isSome_iff_exists.1 h3
    obtain ⟨rp, h7⟩ := tickToRp_returns h7
    have hh := hw.homed
    have v1 := hh (.vault x lp) lp rfl h1
    have v2 := hh (.vault y lp) lp rfl h1
    have v3 := hh (.lpVault lp) lp rfl h1
    have ne : Addr.vault y lp ≠ .vault x lp := by
      intro e; cases e; exact h4 rfl
    obtain ⟨r, rfl, _⟩ := tickToRp_mk h7
    have hr := tickToRp_small h7
    unfold World.initializePool
    rw [h1, h2, h3, h5, show (none : Option PoolAcc).isNone = true from rfl]
    simp only [load, constraint, bind_eq, if_true]
    rw [h6]
    simp only [decide_true, if_true, bind_eq]
    unfold initVault
    rw [v1]
    simp only [constraint, Option.isNone_none, if_true, bind_eq, pure, Except.pure]
    rw [mapGet_set_other ne, v2]
    simp only [Option.isNone_none, if_true, bind_eq]
    rw [mapGet_set_other (by simp), mapGet_set_other (by simp), v3]
    simp only [Option.isNone_none, if_true, bind_eq]
    rw [h7, bind_eq, show rootPriceScale = 12 from rfl,
      toScale_ok.2 (.inr ⟨le_rfl, by simp [u128Size], by simpa using hr, rfl⟩), bind_eq]
    exact ⟨_, rfl⟩

/-- A new pool is empty: it stands at its tick and the price of that tick, without liquidity, bitmap, ticks or positions, and
its three vaults are empty, unfrozen and its own.  Every other pool, mint and token account is as before. -/
theorem C124_opened {w v : World} {authority lp x y tick : Nat} (h : w.initializePool authority lp x y tick = .ok v) :
    (∃ p, mapGet lp v.pools = some p ∧ p.xMint = x ∧ p.yMint = y ∧ p.gs.tick = tick ∧ p.gs.liq = 0 ∧
      tickToRp tick = .ok ⟨p.gs.rp, 12, false⟩ ∧ p.bitmap = none ∧ p.ticks = [] ∧ p.positions = []) ∧
    (∀ q, q ≠ lp → mapGet q v.pools = mapGet q w.pools) ∧ v.mints = w.mints ∧
    (∀ a, a ≠ .vault x lp → a ≠ .vault y lp → a ≠ .lpVault lp → mapGet a v.tokens = mapGet a w.tokens) ∧
    mapGet (.vault x lp) v.tokens = some ⟨x, .pool lp, 0, none, false⟩ ∧
    mapGet (.vault y lp) v.tokens = some ⟨y, .pool lp, 0, none, false⟩ ∧
    mapGet (.lpVault lp) v.tokens = some ⟨lp, .pool lp, 0, none, false⟩ := by
  obtain ⟨mt, s, _, _, _, _, _, _, _, _, h6, h7, rfl⟩ := initializePool_ok h
  unfold OnChain.initializePool at h7
  rw [bind_ok] at h7; obtain ⟨rp, h7, h8⟩ := h7
  rw [bind_ok] at h8; obtain ⟨r, h8, h9⟩ := h8
  rw [pure_ok] at h9; subst h9
  obtain ⟨n, rfl, _⟩ := tickToRp_mk h7
  have hr : r = ⟨n, 12, false⟩ := by
    rw [show rootPriceScale = 12 from rfl] at h8
    rcases toScale_ok.1 h8 with ⟨k, _⟩ | ⟨_, _, _, k⟩
    · exact absurd k (lt_irrefl _)
    · rw [k]; simp
  subst hr
  have ne : Addr.vault x lp ≠ .vault y lp := by
    intro e; cases e; exact h6 rfl
  refine ⟨⟨_, mapGet_set_same _ _ _, rfl, rfl, rfl, rfl, h7, rfl, rfl, rfl⟩, fun q hq => mapGet_set_other hq _ _, rfl, ?_, ?_, ?_,
    mapGet_set_same _ _ _⟩
  · intro a h1 h2 h3
    show mapGet a (mapSet _ _ _) = _
    rw [mapGet_set_other h3, mapGet_set_other h2, mapGet_set_other h1]
  · show mapGet _ (mapSet _ _ _) = _
    rw [mapGet_set_other (by simp), mapGet_set_other ne, mapGet_set_same]
  · show mapGet _ (mapSet _ _ _) = _
    rw [mapGet_set_other (by simp), mapGet_set_same]

/-- Once the mints are there, a pool of mints 1 and 2 can be opened at tick 20, one of mint 1 and mint 1 cannot. -/
example : ∃ w, Reachable w ∧ (∃ v, w.initializePool 7 100 1 2 20 = .ok v) ∧ ∀ v, w.initializePool 7 100 1 1 20 ≠ .ok v := by
  obtain ⟨w, h, e⟩ := holds_reachable (as := base) (p := fun w => (w.initializePool 7 100 1 2 20).isOk &&
    !(w.initializePool 7 100 1 1 20).isOk) (by decide +kernel)
  rw [Bool.and_eq_true] at e
  obtain ⟨e1, e2⟩ := e
  refine ⟨w, h, ?_, ?_⟩
  · cases hi : w.initializePool 7 100 1 2 20 with
    | ok v => exact ⟨v, rfl⟩
    | error _ => rw [hi] at e1; cases e1
  · intro v hv
    rw [hv] at e2; cases e2

/-! ### C125: everybody can provide liquidity -/

/-- Bought liquidity fits in 128 bits. -/
theorem Quote.small {tick lower upper x y l X Y : Nat} (ho : lower < upper) (h : Quote tick lower upper x y l X Y) :
    l < 2 ^ 128 := by
  obtain ⟨p, a, b, q, _, h2, h3, _, _, hx, hy, h5, _, _⟩ := h
  have hab := tickToRp_order ho h2 h3
  have bx : p < b → x * q * b / 10 ^ 12 * 10 ^ 12 / (b - q) < 2 ^ 128 := fun e =>
    ((Nat.div_le_self _ _).trans (Nat.div_mul_le_self _ _)).trans_lt (hx e)
  rw [h5]
  split
  · next e => exact bx (e.trans_lt hab)
  · next e =>
    split
    · next e' => exact (min_le_left _ _).trans_lt (bx e')
    · exact (Nat.div_le_self _ _).trans_lt (hy (by omega))

/-- Whoever has tokens to spend can provide liquidity between any two ticks, whatever the pool's other accounts: at most five
instructions that only create accounts, all of which anybody may send, make the deposit succeed. -/
theorem C125_ready {w : World} (hw : Reachable w) {lp : Nat} {p : PoolAcc} (hp : mapGet lp w.pools = some p)
    {c : Accounts} {lower upper x y l X Y : Nat} (hx : x < 2 ^ 64) (hy : y < 2 ^ 64) (ho : lower < upper)
    (hq : Quote p.gs.tick lower upper x y l X Y) (hX : X ≤ x * 10 ^ 12) (hr : Roomy p c.user lower upper l)
    (hf : Funded w lp p c l (X / 10 ^ 12) (Y / 10 ^ 12)) :
    ∃ is v, w.run is = .ok v ∧ is.length ≤ 5 ∧ (∀ i ∈ is, i.Creates c.user ∧ i.lp = lp) ∧
      v.tokens = w.tokens ∧ v.mints = w.mints ∧ (∀ q, q ≠ lp → mapGet q v.pools = mapGet q w.pools) ∧
      ∃ u, v.deposit lp c lower upper p.gs.tick x y = .ok (u, ⟨X / 10 ^ 12, Y / 10 ^ 12, l / 10 ^ 12⟩) := by
  obtain ⟨is, v, p', h1, h2, h3, ha, b1, b2, b3, b4, b5⟩ := add_all (user := c.user) hp ho
  have hl := hq.small ho
  refine ⟨is, v, h1, h2, h3, ha.tokens, ha.mints, ha.others, ?_⟩
  have room : ∀ {t : Nat}, (mapGet t p'.ticks).isSome → (∀ ts, mapGet t p.ticks = some ts → ts.gross + l < 2 ^ 128) →
      ∃ ts, mapGet t p'.ticks = some ts ∧ ts.gross + l < 2 ^ 128 := fun {t} h k => by
    obtain ⟨ts, h⟩ := Option.isSome_iff_exists.1 h
    refine ⟨ts, h, ?_⟩
    rcases ha.newTick t ts h with g | g
    · exact k ts g
    · rw [g, Nat.zero_add]; exact hl
  refine deposit_when (hw.run h1) ha.here hx hy (ha.gs.symm ▸ hq) hX rfl rfl ?_
  refine ⟨by rw [ha.gs], ho, b1, by rw [ha.gs]; exact b2, ?_, room b3 hr.starts, room b4 hr.ends, ?_, ?_, ?_, ?_, ?_, ?_, ?_⟩
  · obtain ⟨q, h⟩ := Option.isSome_iff_exists.1 b5
    refine ⟨q, h, ?_⟩
    rcases ha.newPosition _ q h with g | g
    · exact hr.position q g
    · rw [g, Nat.zero_add]; exact hl
  · rw [ha.gs]; exact hr.active
  · rw [ha.tokens, ha.x]; exact hf.tokenX
  · rw [ha.tokens, ha.y]; exact hf.tokenY
  · rw [ha.tokens, ha.x]; exact hf.vaultX
  · rw [ha.tokens, ha.y]; exact hf.vaultY
  · rw [ha.tokens]; exact hf.lpTokens
  · rw [ha.mints]; exact hf.supply

/-- A test of a new pool 100 of mints 1 and 2 and of the accounts of user 1. -/
def fresh (w : World) : Bool :=
  (mapGet 100 w.pools).any fun (p : PoolAcc) =>
    decide (p.gs.tick = 20 ∧ p.gs.liq = 0 ∧ p.xMint = 1 ∧ p.yMint = 2 ∧ p.ticks.length = 0 ∧ p.positions.length = 0) &&
    ((mapGet (.key 11) w.tokens).any fun (t : Token) => decide (t = ⟨1, .user 1, 1000, none, false⟩)) &&
    ((mapGet (.key 12) w.tokens).any fun (t : Token) => decide (t = ⟨2, .user 1, 1000, none, false⟩)) &&
    ((mapGet (.key 13) w.tokens).any fun (t : Token) => decide (t.mint = 100 ∧ t.frozen = false)) &&
    ((mapGet (.vault 1 100) w.tokens).any fun (t : Token) => decide (t.frozen = false)) &&
    ((mapGet (.vault 2 100) w.tokens).any fun (t : Token) => decide (t.frozen = false)) &&
    ((mapGet 100 w.mints).any fun (t : Mint) => decide (t.supply = 0))

theorem quote_fresh : Quote 20 10 30 100 100 199860057188516372 99800209433627 99999999999999 :=
  ⟨1001000450103, 1000500100001, 1001501050428, 1001000450103, by decide +kernel, by decide +kernel, by decide +kernel,
    by decide +kernel, by decide +kernel, by decide +kernel, by decide +kernel, by decide +kernel, by decide +kernel,
    by decide +kernel⟩

/-- The first deposit into a new pool: user 1 offers 100 of each token between the ticks 10 and 30, of which neither exists. -/
example : ∃ w, Reachable w ∧ ∃ p, mapGet 100 w.pools = some p ∧ p.gs.tick = 20 ∧ mapGet 10 p.ticks = none ∧
    ∃ l X Y, Quote p.gs.tick 10 30 100 100 l X Y ∧ X ≤ 100 * 10 ^ 12 ∧ Roomy p 1 10 30 l ∧
      Funded w 100 p (user 1 1 2 3) l (X / 10 ^ 12) (Y / 10 ^ 12) := by
  obtain ⟨w, h, e⟩ := holds_reachable (as := base ++ [.program (.initializePool 7 100 1 2 20)]) (p := fresh) (by decide +kernel)
  unfold fresh at e
  obtain ⟨p, hp, e⟩ := any_some e
  simp only [Bool.and_eq_true] at e
  obtain ⟨⟨⟨⟨⟨⟨e1, e5⟩, e6⟩, e7⟩, e8⟩, e9⟩, e10⟩ := e
  obtain ⟨a1, a2, a3, a4, a5, a6⟩ := of_decide_eq_true e1
  have a5 := List.length_eq_zero_iff.1 a5
  have a6 := List.length_eq_zero_iff.1 a6
  obtain ⟨t5, g5, f5⟩ := any_some e5
  obtain ⟨t6, g6, f6⟩ := any_some e6
  obtain ⟨t7, g7, f7⟩ := any_some e7
  obtain ⟨t8, g8, f8⟩ := any_some e8
  obtain ⟨t9, g9, f9⟩ := any_some e9
  obtain ⟨t10, g10, f10⟩ := any_some e10
  have f5 := of_decide_eq_true f5
  have f6 := of_decide_eq_true f6
  have f7 := of_decide_eq_true f7
  have f8 := of_decide_eq_true f8
  have f9 := of_decide_eq_true f9
  have f10 := of_decide_eq_true f10
  subst f5 f6
  refine ⟨w, h, p, hp, a1, by rw [a5]; rfl, _, _, _, a1.symm ▸ quote_fresh, by norm_num, ⟨?_, ?_, ?_, ?_⟩,
    ⟨_, g5, a3.symm, rfl, rfl, ?_, .inl ⟨rfl, fun k => nofun⟩⟩, ⟨_, g6, a4.symm, rfl, rfl, ?_, .inl ⟨rfl, fun k => nofun⟩⟩,
    ⟨t8, a3 ▸ g8, f8⟩, ⟨t9, a4 ▸ g9, f9⟩, ⟨t7, g7, f7⟩, ⟨t10, g10, ?_⟩⟩
  · rw [a6]; nofun
  · rw [a5]; nofun
  · rw [a5]; nofun
  · rw [a2]; norm_num
  · exact le_trans (by norm_num) (Nat.le_add_right _ _)
  · exact le_trans (by norm_num) (Nat.le_add_right _ _)
  · rw [f10]; norm_num

end Hmm.OnChain.World
