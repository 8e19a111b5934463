import Verif.Proofs.Earned
import Verif.Props.Fees
import Verif.Props.Solvency

/-
Who is owed the fees, and whether they can be paid: C101, C102.
-/

namespace Hmm.Pool

open Decimal PoolMath Sample

/-! ### C101: the fees of a swap go to the positions in range -/

/-- C101 (partial), sales of X: the fees of a swap are shared, at each tick where the price stops on its way
down, among the positions in range there, each getting its share per unit of liquidity, rounded down in the
twelfth place.  Missing: histories with a swap that ends within two millionths of a tick of the grid, for
which this is false. -/
theorem C101_sharedX_partial {fl : FloatEnv} {p p' : Pool} {dx o : Decimal} {r : SwapOutput} (hp : ClearReachable p)
    (h : p.executeSwapFromX fl dx o = .ok (p', r)) (hon : r.recv.toRat = dx.toRat → Away p') :
    ∃ ss, ss.length ≤ p.ticks.length + 1 ∧ Shared p p' ss ∧
      ∀ key, 0 < liqOf p.positions key → ∀ s ∈ ss, (key.lower ≤ s.tick → key.lower ≤ p.gs.tick) ∧
        (key.upper ≤ p'.gs.tick → key.upper ≤ s.tick) ∧ (key.upper ≤ s.tick → key.upper ≤ p.gs.tick) ∧
        (key.lower ≤ p'.gs.tick → key.lower ≤ s.tick) := by
  obtain ⟨ss, h1, h2⟩ := sellX_path hp h hon
  have hs := Sound.clearReachable hp
  refine ⟨ss, h1, h2.shared hs, fun key hk s hm => ?_⟩
  obtain ⟨_, i1, i2⟩ := hs.ends hk
  obtain ⟨t1, t2⟩ := h2.ticks s hm
  exact ⟨t1 _ i1, t2 _ i2, t1 _ i2, t2 _ i1⟩

/-- C101 (partial), sales of Y. -/
theorem C101_sharedY_partial {fl : FloatEnv} {p p' : Pool} {dy o : Decimal} {r : SwapOutput} (hp : ClearReachable p)
    (h : p.executeSwapFromY fl dy o = .ok (p', r)) (hon : r.recv.toRat = dy.toRat → Away p') :
    ∃ ss, ss.length ≤ p.ticks.length + 1 ∧ Shared p p' ss ∧
      ∀ key, 0 < liqOf p.positions key → ∀ s ∈ ss, (key.lower ≤ s.tick → key.lower ≤ p'.gs.tick) ∧
        (key.upper ≤ p.gs.tick → key.upper ≤ s.tick) ∧ (key.upper ≤ s.tick → key.upper ≤ p'.gs.tick) ∧
        (key.lower ≤ p.gs.tick → key.lower ≤ s.tick) := by
  obtain ⟨ss, h1, h2⟩ := sellY_path hp h hon
  have hs := Sound.clearReachable hp
  refine ⟨ss, h1, h2.shared hs, fun key hk s hm => ?_⟩
  obtain ⟨_, i1, i2⟩ := hs.ends hk
  obtain ⟨t1, t2⟩ := h2.ticks s hm
  exact ⟨t2 _ i1, t1 _ i2, t2 _ i2, t1 _ i1⟩

theorem sum_none {α : Type} {l : List α} {f : α → ℚ} (h : ∀ a ∈ l, f a = 0) : (l.map f).sum = 0 := by
  refine List.sum_eq_zero fun x hx => ?_
  obtain ⟨a, ha, rfl⟩ := List.mem_map.1 hx
  exact h a ha

/-- C101 (partial), the others: a position whose range lies above the price before a sale of X, or below the
price after it, earns nothing from it. -/
theorem C101_outsideX_partial {fl : FloatEnv} {p p' : Pool} {dx o : Decimal} {r : SwapOutput} (hp : ClearReachable p)
    (h : p.executeSwapFromX fl dx o = .ok (p', r)) (hon : r.recv.toRat = dx.toRat → Away p') {key : PositionKey}
    (hk : 0 < liqOf p.positions key) (hout : p.gs.tick < key.lower ∨ key.upper ≤ p'.gs.tick) (k : Kind) :
    p'.inside k key.lower key.upper = p.inside k key.lower key.upper := by
  obtain ⟨ss, _, h2, h3⟩ := C101_sharedX_partial hp h hon
  rw [h2.inside key hk k, sum_none, add_zero]
  intro s hm
  obtain ⟨t1, t2, _⟩ := h3 key hk s hm
  rw [if_neg]
  rintro ⟨c1, c2⟩
  rcases hout with h | h
  · have := t1 c1; omega
  · have := t2 h; omega

/-- C101 (partial), the others, sales of Y. -/
theorem C101_outsideY_partial {fl : FloatEnv} {p p' : Pool} {dy o : Decimal} {r : SwapOutput} (hp : ClearReachable p)
    (h : p.executeSwapFromY fl dy o = .ok (p', r)) (hon : r.recv.toRat = dy.toRat → Away p') {key : PositionKey}
    (hk : 0 < liqOf p.positions key) (hout : p'.gs.tick < key.lower ∨ key.upper ≤ p.gs.tick) (k : Kind) :
    p'.inside k key.lower key.upper = p.inside k key.lower key.upper := by
  obtain ⟨ss, _, h2, h3⟩ := C101_sharedY_partial hp h hon
  rw [h2.inside key hk k, sum_none, add_zero]
  intro s hm
  obtain ⟨t1, t2, _⟩ := h3 key hk s hm
  rw [if_neg]
  rintro ⟨c1, c2⟩
  rcases hout with h | h
  · have := t1 c1; omega
  · have := t2 h; omega

theorem totalLiq_nonneg {p : Pool} (hs : Sound p) : 0 ≤ p.totalLiq := by
  unfold totalLiq sumPos
  refine List.sum_nonneg fun x hx => ?_
  obtain ⟨⟨k', s⟩, hm, rfl⟩ := List.mem_map.1 hx
  have := (hs.booked.pos k' s (get_of_mem hs.booked.unique hm)).1
  simpa using this

/-- C101 (partial), in total: all positions together earn what a swap adds to the fee pots, less at most one
unit of the twelfth place for each unit of liquidity and each step. -/
theorem C101_total_partial {fl : FloatEnv} {p p' : Pool} {d o : Decimal} {r : SwapOutput} (hp : ClearReachable p)
    (h : p.executeSwapFromX fl d o = .ok (p', r) ∨ p.executeSwapFromY fl d o = .ok (p', r))
    (hon : r.recv.toRat = d.toRat → Away p') (k : Kind) :
    p.gained p' k ≤ (p'.pot k).toRat - (p.pot k).toRat ∧
    (p'.pot k).toRat - (p.pot k).toRat ≤ p.gained p' k + (p.ticks.length + 1) * (p.totalLiq * ulp 12) := by
  have hs := Sound.clearReachable hp
  obtain ⟨ss, h1, h2⟩ : ∃ ss, ss.length ≤ p.ticks.length + 1 ∧ Shared p p' ss := by
    rcases h with h | h
    · obtain ⟨ss, h1, h2⟩ := sellX_path hp h hon; exact ⟨ss, h1, h2.shared hs⟩
    · obtain ⟨ss, h1, h2⟩ := sellY_path hp h hon; exact ⟨ss, h1, h2.shared hs⟩
  obtain ⟨e1, e2⟩ := gained_pot hs.booked h2 k
  refine ⟨e1, e2.trans ?_⟩
  have := totalLiq_nonneg hs
  have := ulp_pos (s := 12)
  have : ((ss.length : ℕ) : ℚ) ≤ p.ticks.length + 1 := by exact_mod_cast h1
  gcongr

-- three positions, a sale of 17 X across tick 15: the conditions hold and fees are collected
example : ClearReachable opened.1 ∧ opened.1.executeSwapFromX fl (D 17) PoolMath.zero = .ok (traded.1, traded.2) ∧
    Away traded.1 ∧ (opened.1.pot .fx).toRat < (traded.1.pot .fx).toRat := by
  refine ⟨.step pool_clear opened_touches.clear, by decide +kernel, ?_, ?_⟩
  · refine away_of (t := 14) (a := ⟨1000700210022, 12, false⟩) (b := ⟨1000750243782, 12, false⟩) (by decide +kernel)
      (by decide +kernel) ?_ ?_
    all_goals rw [show traded.1.gs.rp = ⟨1000721112572, 12, false⟩ by decide +kernel]; norm_num [toRat]
  · rw [show opened.1.pot .fx = ⟨0, 12, false⟩ by decide +kernel,
      show traded.1.pot .fx = ⟨51000000000, 12, false⟩ by decide +kernel]
    norm_num [toRat]

/-- One position [10, 30) at tick 20, fee rate 1/2; a sale of X ends exactly on the price of tick 10. -/
def half : R Pool := do
  let p ← Pool.new (mid 20) 1 PoolMath.zero ⟨500000000000, 12, false⟩
  let (p, _) ← p.deposit 1 (D 10) (D 10) (mid 10) (mid 30)
  let dx ← dxFromLDrp p.gs.liq p.gs.rp (← tickToRp 10)
  return (← p.executeSwapFromX fl (← dx.add dx) PoolMath.zero).1

theorem half_reachable {p : Pool} (h : half = .ok p) : Reachable p := by
  unfold half at h
  rw [bind_ok] at h; obtain ⟨p0, h0, h⟩ := h
  rw [bind_ok] at h; obtain ⟨⟨p1, _⟩, h1, h⟩ := h
  simp only at h
  rw [bind_ok] at h; obtain ⟨t, h2, h⟩ := h
  rw [bind_ok] at h; obtain ⟨dx, h3, h⟩ := h
  rw [bind_ok] at h; obtain ⟨d2, h4, h⟩ := h
  rw [bind_ok] at h; obtain ⟨⟨p2, _⟩, h5, h⟩ := h
  cases h
  exact .step (.step (.new h0) (.deposit h1)) (.sellX h5)

/-- Then 1 Y is sold. -/
def halfSold : Pool × SwapOutput := get ((get half).executeSwapFromY fl (D 1) PoolMath.zero)

theorem inside_eval {p : Pool} {k : Kind} {l u : Nat} {e : Decimal} (h : p.feeRng (fun f => f.at k) l u = .ok e)
    (hl : l ∈ p.ticks.map (·.1)) (hu : u ∈ p.ticks.map (·.1)) : p.inside k l u = e.toRat := by
  rw [(feeRng_at h).2, if_pos hl, if_pos hu]; rfl

/-- C101 as stated is false: after a sale of X that ends exactly at the lower bound of the only position, the
pool counts its liquidity twice, and the position earns only half of the fee of the next sale of Y; the other
half belongs to nobody. -/
theorem C101_false : ¬ ∀ (p p' : Pool) (fl : FloatEnv) (dy o : Decimal) (r : SwapOutput), Reachable p →
    p.executeSwapFromY fl dy o = .ok (p', r) → ∃ ss, ss.length ≤ p.ticks.length + 1 ∧ Shared p p' ss := by
  intro h
  have hr := half_reachable (p := get half) (by decide +kernel)
  obtain ⟨ss, h1, h2⟩ := h (get half) halfSold.1 fl (D 1) PoolMath.zero halfSold.2 hr (by decide +kernel)
  obtain ⟨_, h3⟩ := gained_pot (Booked.reachable hr) h2 .fy
  rw [show (get half).ticks.length = 2 by decide +kernel] at h1
  have hpos : (get half).positions = [(⟨1, 10, 30⟩, ⟨⟨19986005718851637, 12, false⟩, Fees.zero⟩)] := by decide +kernel
  rw [show halfSold.1.pot .fy = ⟨500000000000, 12, false⟩ by decide +kernel,
    show (get half).pot .fy = ⟨0, 12, false⟩ by decide +kernel] at h3
  unfold gained totalLiq sumPos at h3
  rw [hpos] at h3
  simp only [List.map_cons, List.map_nil, List.sum_cons, List.sum_nil] at h3
  rw [inside_eval (p := halfSold.1) (e := ⟨12508752, 12, false⟩) (by decide +kernel) (by decide +kernel) (by decide +kernel),
    inside_eval (p := get half) (e := ⟨0, 12, false⟩) (by decide +kernel) (by decide +kernel) (by decide +kernel)] at h3
  have h4 : ((ss.length : ℕ) : ℚ) ≤ 3 := by exact_mod_cast h1
  norm_num [toRat, ulp] at h3
  linarith

/-! ### C102: what is due can be paid -/

theorem Fresh.clear {cap : ℚ} {n : Nat} {p : Pool} (h : Fresh cap n p) : ClearReachable p := by
  induction h with
  | new h => exact .new h
  | deposit _ _ _ _ h _ ih => exact .step ih (.deposit h)
  | withdraw _ h ih => exact .step ih (.withdraw h)
  | sellX _ h hon ih => exact .step ih (.sellX h hon)
  | sellY _ h hon ih => exact .step ih (.sellY h hon)

theorem Fresh.total {cap : ℚ} {n : Nat} {p : Pool} (h0 : 0 ≤ cap) (h : Fresh cap n p) : p.totalLiq ≤ cap := by
  have : ∃ m, Capped cap m p := by
    induction h with
    | new h => exact ⟨_, .new h⟩
    | deposit _ _ _ _ h hc ih => exact ⟨_, .deposit ih.choose_spec h hc⟩
    | withdraw _ h ih => exact ⟨_, .withdraw ih.choose_spec h⟩
    | sellX _ h hon ih => exact ⟨_, .sellX ih.choose_spec h hon⟩
    | sellY _ h hon ih => exact ⟨_, .sellY ih.choose_spec h hon⟩
  obtain ⟨_, h⟩ := this
  exact capped_total h0 h

/-- A withdrawal leaves nothing open that was not there. -/
theorem withdraw_old {p p1 : Pool} {user lower upper : Nat} {d : Decimal} {f : Fees}
    (h : p.setPosition user lower upper d = .ok (p1, f)) (hd : d.toRat ≤ 0)
    (ho : 0 < liqOf p1.positions ⟨user, lower, upper⟩) : mapGet ⟨user, lower, upper⟩ p.positions ≠ none := by
  intro hn
  obtain ⟨nf, old, base, m⟩ := setPosition_map h
  rcases setPositionMap_ok m with ⟨_, _, e, _⟩ | ⟨poz, n, e, _⟩
  · unfold liqOf at ho
    rw [e, mapGet_set_same] at ho
    simp only [Option.elim] at ho
    linarith
  · rw [hn] at e; cases e

theorem fresh_due {cap : ℚ} {n : Nat} {p : Pool} (h0 : 0 ≤ cap) (h : Fresh cap n p) :
    NotAhead p ∧ ∀ k, p.unclaimed k ≤ (p.pot k).toRat ∧
      (p.pot k).toRat ≤ p.unclaimed k + n * ((cap + 1) * ulp 12) := by
  have hu := ulp_pos (s := 12)
  induction h with
  | new h =>
    obtain ⟨tk, q, _, _, _, _, hq, rfl⟩ := new_ok h
    refine ⟨fun key hk => ?_, fun k => ?_⟩
    · simp [liqOf, mapGet] at hk
    · cases k <;> simp [unclaimed, sumPos, pot, zero_toRat]
  | @deposit n p p' user lower upper x y rpa rpb r hp hl hup hop h hc ih =>
    have hs := Sound.clearReachable hp.clear
    have hs' := Sound.clearReachable (.step hp.clear (.deposit h))
    obtain ⟨l1, u1, a, b, liq, p1, p2, px, py, _, _, _, _, g1, g2, g3, _, _, _, _, _, _, _, _, h1, _, _, h2, h3,
      h4, rfl⟩ := deposit_ok h
    rw [hl] at g1; cases g1
    rw [hup] at g2; cases g2
    obtain ⟨e1, e2, e4, _⟩ := payFees_frame h4
    obtain ⟨t1, t2⟩ := touch hs (Recorded.reachable hp.clear.reachable) hs' g3 h1 e1 e2 e4 h4 (fun k => by cases k <;> rfl)
      (pot_scale (Tidy.reachable hp.clear.reachable)) (fun _ => hop.imp_right fun h => h.out hp.clear.reachable) ih.1
    refine ⟨t1, fun k => ?_⟩
    obtain ⟨c, c1, c2, c3, c4⟩ := t2 k
    obtain ⟨i1, i2⟩ := ih.2 k
    have : ulp 12 ≤ (cap + 1) * ulp 12 := by nlinarith
    rw [c1, c2]
    push_cast
    constructor <;> linarith
  | @withdraw n p p' user liq rpa rpb r hp h ih =>
    have hs := Sound.clearReachable hp.clear
    have hs' := Sound.clearReachable (.step hp.clear (.withdraw h))
    obtain ⟨l1, u1, a, b, p1, p2, x0, y0, adj, px, py, hliq, g1, g2, g3, _, _, h1, _, _, _, _, _, _, _, _, _, h2, h3,
      h4, rfl⟩ := withdraw_ok h
    obtain ⟨e1, e2, e4, _⟩ := payFees_frame h4
    obtain ⟨t1, t2⟩ := touch hs (Recorded.reachable hp.clear.reachable) hs' g3 h1 e1 e2 e4 h4 (fun k => by cases k <;> rfl)
      (pot_scale (Tidy.reachable hp.clear.reachable)) (fun ho => .inl (withdraw_old h1 (by rw [neg_toRat]; linarith)
        (by rw [← e1]; exact ho))) ih.1
    refine ⟨t1, fun k => ?_⟩
    obtain ⟨c, c1, c2, c3, c4⟩ := t2 k
    obtain ⟨i1, i2⟩ := ih.2 k
    have : ulp 12 ≤ (cap + 1) * ulp 12 := by nlinarith
    rw [c1, c2]
    push_cast
    constructor <;> linarith
  | @sellX n fl p p' dx o r hp h hon ih =>
    have hs := Sound.clearReachable hp.clear
    obtain ⟨ss, _, h2⟩ := sellX_path hp.clear h hon
    have hin := fun key hk k => (h2.shared hs).inside key hk k
    refine ⟨fun key ho k => ?_, fun k => ?_⟩
    · rw [h2.positions] at ho ⊢
      rw [hin key ho k]
      have : 0 ≤ (ss.map fun s => if key.lower ≤ s.tick ∧ s.tick < key.upper then s.rate k else 0).sum := by
        refine List.sum_nonneg fun x hx => ?_
        obtain ⟨s, hm, rfl⟩ := List.mem_map.1 hx
        have := ((h2.split s hm).2 k).1
        split <;> linarith
      linarith [ih.1 key ho k]
    · obtain ⟨e1, e2⟩ := C101_total_partial hp.clear (.inl h) hon k
      obtain ⟨i1, i2⟩ := ih.2 k
      have hc := hp.total h0
      rw [unclaimed_gained h2.positions]
      have : ((p.ticks.length : ℚ) + 1) * (p.totalLiq * ulp 12) ≤ ((p.ticks.length : ℚ) + 1) * ((cap + 1) * ulp 12) := by
        gcongr; linarith
      push_cast
      rw [add_mul]
      constructor <;> linarith
  | @sellY n fl p p' dx o r hp h hon ih =>
    have hs := Sound.clearReachable hp.clear
    obtain ⟨ss, _, h2⟩ := sellY_path hp.clear h hon
    have hin := fun key hk k => (h2.shared hs).inside key hk k
    refine ⟨fun key ho k => ?_, fun k => ?_⟩
    · rw [h2.positions] at ho ⊢
      rw [hin key ho k]
      have : 0 ≤ (ss.map fun s => if key.lower ≤ s.tick ∧ s.tick < key.upper then s.rate k else 0).sum := by
        refine List.sum_nonneg fun x hx => ?_
        obtain ⟨s, hm, rfl⟩ := List.mem_map.1 hx
        have := ((h2.split s hm).2 k).1
        split <;> linarith
      linarith [ih.1 key ho k]
    · obtain ⟨e1, e2⟩ := C101_total_partial hp.clear (.inr h) hon k
      obtain ⟨i1, i2⟩ := ih.2 k
      have hc := hp.total h0
      rw [unclaimed_gained h2.positions]
      have : ((p.ticks.length : ℚ) + 1) * (p.totalLiq * ulp 12) ≤ ((p.ticks.length : ℚ) + 1) * ((cap + 1) * ulp 12) := by
        gcongr; linarith
      push_cast
      rw [add_mul]
      constructor <;> linarith

/-- C102 (partial): while every first deposit into a range begins at a tick not in use, the fee pots cover
what all positions together can claim, and no open position has noted more growth than its range has seen.
Missing: first deposits at a lower bound in use, for which this is false, and histories with a swap that ends
within two millionths of a tick of the grid. -/
theorem C102_covered_partial {cap : ℚ} {n : Nat} {p : Pool} (h0 : 0 ≤ cap) (h : Fresh cap n p) (k : Kind) :
    p.unclaimed k ≤ (p.pot k).toRat ∧
    ∀ key, 0 < liqOf p.positions key → noted p.positions key k ≤ p.inside k key.lower key.upper :=
  ⟨((fresh_due h0 h).2 k).1, fun key hk => (fresh_due h0 h).1 key hk k⟩

/-- C102 (partial), nothing is left over: the pots hold no more than the positions can claim, up to rounding. -/
theorem C102_tight_partial {cap : ℚ} {n : Nat} {p : Pool} (h0 : 0 ≤ cap) (h : Fresh cap n p) (k : Kind) :
    (p.pot k).toRat ≤ p.unclaimed k + n * (cap + 1) / 10 ^ 12 := by
  have := ((fresh_due h0 h).2 k).2
  unfold ulp at this
  calc _ ≤ _ := this
    _ = _ := by ring

/-- C102 (partial), payment: in such a state the fees due to an open position can always be paid out of the
pots, so they never stand in the way of a deposit into it or a withdrawal from it. -/
theorem C102_payable_partial {cap : ℚ} {n : Nat} {p p1 : Pool} {user lower upper : Nat} {d : Decimal} {f : Fees}
    (h0 : 0 ≤ cap) (h : Fresh cap n p) (ho : 0 < liqOf p.positions ⟨user, lower, upper⟩)
    (hset : p.setPosition user lower upper d = .ok (p1, f)) : ∃ p2, p1.payFees f = .ok p2 := by
  have hs := Sound.clearReachable h.clear
  have ht := Tidy.reachable h.clear.reachable
  have hr := Recorded.reachable h.clear.reachable
  obtain ⟨hn, hd⟩ := fresh_due h0 h
  refine payFees_of (fun k => ?_) (fun k => setPosition_amount ht hr hset ho k) fun k => ?_
  · rw [setPosition_pot hset]; exact pot_amount ht k
  · rw [setPosition_pot hset]
    have h1 := (setPosition_claim hset k).2.1
    have h2 := due_est hs ⟨user, lower, upper⟩ k
    have h3 := due_le hs hn ⟨user, lower, upper⟩ k
    have h4 := (hd k).1
    simp only at h2 h3
    linarith

/-- Three positions whose ranges begin at 10, 15 and 12, opened in this order, and the sale across tick 15. -/
theorem traded_fresh : Fresh 100000 3 opened.1 ∧ Fresh 100000 (3 + (opened.1.ticks.length + 1)) traded.1 := by
  have h0 : Fresh 100000 0 empty := .new (by decide +kernel : Pool.new (mid 20) 1 PoolMath.zero ⟨3000000000, 12, false⟩ = _)
  have h1 : Fresh 100000 1 one₁.1 := .deposit (r := one₁.2) (lower := 10) (upper := 30) h0 (by decide +kernel)
    (by decide +kernel) (.inr (unused_of h0.clear.reachable (by decide +kernel)))
    (by decide +kernel : empty.deposit 1 (D 10) (D 10) (mid 10) (mid 30) = _) (by decide +kernel)
  have h2 : Fresh 100000 2 pool := .deposit (r := (get (one₁.1.deposit 2 (D 10) (D 10) (mid 15) (mid 25))).2)
    (lower := 15) (upper := 25) h1 (by decide +kernel) (by decide +kernel)
    (.inr (unused_of h1.clear.reachable (by decide +kernel)))
    (by decide +kernel : one₁.1.deposit 2 (D 10) (D 10) (mid 15) (mid 25) = _) (by decide +kernel)
  have h3 : Fresh 100000 3 opened.1 := .deposit (r := opened.2) (lower := 12) (upper := 28) h2 (by decide +kernel)
    (by decide +kernel) (.inr (unused_of h2.clear.reachable (by decide +kernel)))
    (by decide +kernel : pool.deposit 3 (D 3) (D 2) (mid 12) (mid 28) = _) (by decide +kernel)
  refine ⟨h3, .sellX (r := traded.2) h3 (by decide +kernel : opened.1.executeSwapFromX fl (D 17) PoolMath.zero = _)
    fun _ => ?_⟩
  refine away_of (t := 14) (a := ⟨1000700210022, 12, false⟩) (b := ⟨1000750243782, 12, false⟩) (by decide +kernel)
      (by decide +kernel) ?_ ?_
  all_goals rw [show traded.1.gs.rp = ⟨1000721112572, 12, false⟩ by decide +kernel]; norm_num [toRat]

-- in that state fees are due, and a withdrawal of owner 3 passes the change of the position
example : 0 < liqOf traded.1.positions ⟨3, 12, 28⟩ ∧ 0 < (traded.1.pot .fx).toRat ∧
    (traded.1.setPosition 3 12 28 (D 2000).neg).isOk = true :=
  ⟨liqOf_pos (by decide +kernel), isPositive_toRat.1 (by decide +kernel), by decide +kernel⟩

/-- What is due to a position, from what the code computes. -/
theorem due_eval {p : Pool} {k : Kind} {key : PositionKey} {e : Decimal} {s : PositionState}
    (h : p.feeRng (fun f => f.at k) key.lower key.upper = .ok e) (hm : mapGet key p.positions = some s) :
    liqOf p.positions key * (p.est k key.upper - p.est k key.lower - noted p.positions key k) =
      s.liq.toRat * (e.toRat - (s.fees.at k).toRat) := by
  have : e.toRat = p.est k key.upper - p.est k key.lower := (feeRng_at h).2
  unfold liqOf noted
  rw [hm, this]; rfl

theorem late_reachable : Reachable late.1 :=
  .step sold_reachable (.deposit (r := late.2)
    (by decide +kernel : (get (pool.executeSwapFromX fl (D 1) PoolMath.zero)).1.deposit 3 (D 3) (D 2) (mid 10) (mid 30) = _))

/-- C102 as stated is false: once owner 3 has deposited into a range whose lower bound is in use, the
positions can claim more X than there is in the fee pot. -/
theorem C102_false : ¬ ∀ p : Pool, Reachable p → ∀ k, p.unclaimed k ≤ (p.pot k).toRat := by
  intro h
  have := h late.1 late_reachable .fx
  rw [show late.1.pot .fx = ⟨3000000000, 12, false⟩ by decide +kernel] at this
  unfold unclaimed sumPos at this
  rw [show late.1.positions = [(⟨1, 10, 30⟩, ⟨⟨19986005718851637, 12, false⟩, Fees.zero⟩),
    (⟨2, 15, 25⟩, ⟨⟨39967015861281937, 12, false⟩, Fees.zero⟩),
    (⟨3, 10, 30⟩, ⟨⟨4134901996341227, 12, false⟩, Fees.zero⟩)] by decide +kernel] at this
  simp only [List.map_cons, List.map_nil, List.sum_cons, List.sum_nil] at this
  rw [inside_eval (p := late.1) (l := 10) (u := 30) (e := ⟨50039, 12, false⟩) (by decide +kernel) (by decide +kernel)
      (by decide +kernel),
    inside_eval (p := late.1) (l := 15) (u := 25) (e := ⟨50039, 12, false⟩) (by decide +kernel) (by decide +kernel)
      (by decide +kernel)] at this
  norm_num [toRat, noted, mapGet, Fees.zero, Fees.at, PoolMath.zero] at this

/-- Owner 3 has taken the fees of others and left; then owner 1 withdraws everything. -/
def stuck : Pool × Receipt := get (gone.1.withdraw 1 ⟨19986005718851637, 12, false⟩ (mid 10) (mid 30))

theorem stuck_reachable : Reachable stuck.1 :=
  .step (.step late_reachable (.withdraw (r := gone.2)
    (by decide +kernel : late.1.withdraw 3 ⟨4134901996341227, 12, false⟩ (mid 10) (mid 30) = _)))
    (.withdraw (r := stuck.2)
    (by decide +kernel : gone.1.withdraw 1 ⟨19986005718851637, 12, false⟩ (mid 10) (mid 30) = _))

/-- C102, what goes wrong: owner 3 deposits at a lower bound in use and withdraws, then owner 1 withdraws.
Now owner 2 can neither withdraw any amount nor deposit more, whatever the amounts, since the pot is short of
the fees due to the position. -/
theorem C102_stuck : Reachable stuck.1 ∧ 0 < liqOf stuck.1.positions ⟨2, 15, 25⟩ ∧
    ¬ ∃ p' r, Touches stuck.1 p' ⟨2, 15, 25⟩ r := by
  refine ⟨stuck_reachable, liqOf_pos (by decide +kernel), ?_⟩
  rintro ⟨p', r, rpa, rpb, hl, hu, h⟩
  have key : ∃ d p1 p2, stuck.1.setPosition 2 15 25 d = .ok (p1, r.fees) ∧ p1.payFees r.fees = .ok p2 := by
    rcases h with ⟨x, y, h⟩ | ⟨liq, h⟩
    · obtain ⟨l1, u1, a, b, liq, p1, p2, px, py, _, _, _, _, g1, g2, g3, _, _, _, _, _, _, _, _, h1, _, _, h2, h3,
        h4, rfl⟩ := deposit_ok h
      rw [hl] at g1; cases g1
      rw [hu] at g2; cases g2
      exact ⟨_, _, _, h1, h4⟩
    · obtain ⟨l1, u1, a, b, p1, p2, x0, y0, adj, px, py, hliq, g1, g2, g3, _, _, h1, _, _, _, _, _, _, _, _, _, h2, h3,
        h4, rfl⟩ := withdraw_ok h
      rw [hl] at g1; cases g1
      rw [hu] at g2; cases g2
      exact ⟨_, _, _, h1, h4⟩
  obtain ⟨d, p1, p2, h1, h2⟩ := key
  have h3 := setPosition_claim_low h1 .fx
  have hpot : p1.xFee = ⟨1793013900, 12, false⟩ := by
    have : p1.xFee = stuck.1.xFee := setPosition_pot h1 .fx
    rw [this]; decide +kernel
  have hsc := (payFees_pot h2 .fx).2
  obtain ⟨_, _, _, _, h4, _⟩ := payFees_ok h2
  rw [show p1.pot .fx = ⟨1793013900, 12, false⟩ from hpot] at hsc
  rw [hpot] at h4
  have h5 := due_eval (p := stuck.1) (k := .fx) (key := ⟨2, 15, 25⟩) (e := ⟨50039, 12, false⟩)
    (s := ⟨⟨39967015861281937, 12, false⟩, Fees.zero⟩) (by decide +kernel) (by decide +kernel)
  simp only at h5
  rw [h5, ← hsc] at h3
  have h6 : (r.fees.at .fx).toRat ≤ (⟨1793013900, 12, false⟩ : Decimal).toRat := (lt_le h4).2.2 rfl
  norm_num [toRat, Fees.zero, Fees.at, PoolMath.zero, ulp] at h3 h6
  linarith

-- before, each of the two could still withdraw everything
example : Reachable gone.1 ∧ (gone.1.withdraw 1 ⟨19986005718851637, 12, false⟩ (mid 10) (mid 30)).isOk = true ∧
    (gone.1.withdraw 2 ⟨39967015861281937, 12, false⟩ (mid 15) (mid 25)).isOk = true :=
  ⟨.step late_reachable (.withdraw (r := gone.2)
    (by decide +kernel : late.1.withdraw 3 ⟨4134901996341227, 12, false⟩ (mid 10) (mid 30) = _)),
    by decide +kernel, by decide +kernel⟩

end Hmm.Pool
