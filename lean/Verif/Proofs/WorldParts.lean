import Verif.Proofs.WorldMixed
import Verif.Spec.WorldParts

/-
A withdrawal in parts.
-/

namespace Hmm.OnChain.World

open Decimal PoolMath

theorem floor_parts (a b A D : Nat) : a * A / D + b * A / D ≤ (a + b) * A / D ∧ (a + b) * A / D ≤ a * A / D + b * A / D + 1 := by
  rcases Nat.eq_zero_or_pos D with h | h
  · subst h; simp
  · rw [Nat.add_mul, Nat.add_div h]
    split <;> omega

/-- What liquidity is worth, in two parts. -/
theorem Worth.split {tick lower upper n k x y : Nat} (h : Worth tick lower upper (n + k) x y) :
    ∃ x1 y1 x2 y2, Worth tick lower upper n x1 y1 ∧ Worth tick lower upper k x2 y2 ∧ x1 + x2 ≤ x ∧ x ≤ x1 + x2 + 1 ∧
      y1 + y2 ≤ y ∧ y ≤ y1 + y2 + 1 := by
  obtain ⟨p, a, b, h1, h2, h3, h4, h5, h6, h7⟩ := h
  have le : ∀ {j : Nat}, j ≤ n + k → ∀ c, j * 10 ^ 12 * c ≤ (n + k) * 10 ^ 12 * c := fun h c =>
    Nat.mul_le_mul_right _ (Nat.mul_le_mul_right _ h)
  have e : ∀ j : Nat, j * (b - clampAt p a b) * 10 ^ 12 / (clampAt p a b * b / 10 ^ 12) / 10 ^ 12 =
      j * ((b - clampAt p a b) * 10 ^ 12) / (clampAt p a b * b / 10 ^ 12 * 10 ^ 12) := fun j => by
    rw [Nat.div_div_eq_div_mul, Nat.mul_assoc]
  have f1 := floor_parts n k ((b - clampAt p a b) * 10 ^ 12) (clampAt p a b * b / 10 ^ 12 * 10 ^ 12)
  have f2 := floor_parts n k (clampAt p a b - a) (10 ^ 12)
  rw [← e, ← e, ← e, ← h6] at f1
  rw [← h7] at f2
  exact ⟨_, _, _, _,
    ⟨p, a, b, h1, h2, h3, (le (by omega) _).trans_lt h4, (le (by omega) _).trans_lt h5, rfl, rfl⟩,
    ⟨p, a, b, h1, h2, h3, (le (by omega) _).trans_lt h4, (le (by omega) _).trans_lt h5, rfl, rfl⟩, f1.1, f1.2, f2.1, f2.2⟩

theorem approvalLeft_add {t : Token} {u n k : Nat} (hk : 0 < k) (h : MaySpend t u (n + k)) :
    approvalLeft (approvalLeft t.delegate u n) u k = approvalLeft t.delegate u (n + k) := by
  unfold approvalLeft
  rcases h with ⟨_, h⟩ | ⟨j, h, hj⟩
  · cases e : t.delegate with
    | none => rfl
    | some q =>
      obtain ⟨q, j⟩ := q
      have hq : q ≠ .user u := fun e' => h j (by rw [e, e'])
      simp only [if_neg hq]
  · rw [h]
    have h1 : j ≠ n := by omega
    simp only [if_true, if_neg h1]
    by_cases h2 : j = n + k
    · have : j - n = k := by omega
      rw [if_pos h2, if_pos this]
    · have : j - n ≠ k := by omega
      rw [if_neg h2, if_neg this, Nat.sub_sub]

theorem MaySpend.less {t : Token} {u n k : Nat} (h : MaySpend t u (n + k)) : MaySpend t u n := by
  rcases h with h | ⟨j, h, hj⟩
  · exact .inl h
  · exact .inr ⟨j, h, by omega⟩

theorem MaySpend.rest {t t' : Token} {u n k : Nat} (hk : 0 < k) (h : MaySpend t u (n + k)) (ho : t'.owner = t.owner)
    (hd : t'.delegate = approvalLeft t.delegate u n) : MaySpend t' u k := by
  unfold approvalLeft at hd
  rcases h with ⟨h1, h⟩ | ⟨j, h, hj⟩
  · refine .inl ⟨by rw [ho, h1], ?_⟩
    cases e : t.delegate with
    | none => rw [e] at hd; rw [hd]; simp
    | some q =>
      obtain ⟨q, j⟩ := q
      have hq : q ≠ .user u := fun e' => h j (by rw [e, e'])
      rw [e] at hd
      simp only [if_neg hq] at hd
      rw [hd]
      intro i hi
      cases hi
      exact hq rfl
  · rw [h] at hd
    have h1 : j ≠ n := by omega
    simp only [if_true, if_neg h1] at hd
    exact .inr ⟨j - n, hd, by omega⟩

theorem Redeemable.first {w : World} {lp : Nat} {p : PoolAcc} {c : Accounts} {lower upper current n k x y x1 y1 : Nat}
    (h : Redeemable w lp p c lower upper current (n + k) x y) (hw : Worth p.gs.tick lower upper n x1 y1) (hx : x1 ≤ x)
    (hy : y1 ≤ y) : Redeemable w lp p c lower upper current n x1 y1 := by
  obtain ⟨ps, o1, o2⟩ := h.position
  obtain ⟨vx, v1, v2, v3⟩ := h.vaultX
  obtain ⟨vy, v4, v5, v6⟩ := h.vaultY
  obtain ⟨tl, l1, l2, l3, l4, l5⟩ := h.lpTokens
  refine ⟨h.atTick, h.starts, h.ends, ⟨ps, o1, ?_⟩, hw, h.tokenX, h.tokenY, ⟨vx, v1, v2, by omega⟩, ⟨vy, v4, v5, by omega⟩,
    ⟨tl, l1, l2, l3, by omega, l5.less⟩⟩
  push_cast at o2
  have : (0 : ℚ) ≤ k := Nat.cast_nonneg _
  linarith

/-- After the first part the rest can be redeemed. -/
theorem Less.rest {lp : Nat} {r : Redemption} {m : Moved} {w v : World} (hw : Reachable w) {p q : PoolAcc}
    (hp : mapGet lp w.pools = some p) (g : Less lp r m w v p q) {k x y x2 y2 : Nat} (hk : 0 < k)
    (h : Redeemable w lp p r.c r.lower r.upper r.current (r.n + k) x y) (hW : Worth p.gs.tick r.lower r.upper k x2 y2)
    (hx : m.x + x2 ≤ x) (hy : m.y + y2 ≤ y) : Redeemable v lp q r.c r.lower r.upper r.current k x2 y2 := by
  have hg := (hw.guarded hp).1
  obtain ⟨gl, eg, _⟩ := g.here.gs
  have e1 : q.gs.tick = p.gs.tick := by rw [eg]
  have e2 := g.here.xMint
  have e3 := g.here.yMint
  obtain ⟨gx, w1, w2, w3, wd⟩ := hg.vaultX
  obtain ⟨gy, w4, w5, w6, wd'⟩ := hg.vaultY
  obtain ⟨ps, o1, o2⟩ := h.position
  obtain ⟨tx, x1, x2', x3, x4⟩ := h.tokenX
  obtain ⟨ty, y1, y2', y3, y4⟩ := h.tokenY
  obtain ⟨vx, v1, v2, v3⟩ := h.vaultX
  obtain ⟨vy, v4, v5, v6⟩ := h.vaultY
  obtain ⟨tl, l1, l2, l3, l4, l5⟩ := h.lpTokens
  obtain ⟨_, a1, _⟩ := g.present _ _ x1
  obtain ⟨_, b1, _⟩ := g.present _ _ y1
  obtain ⟨n1, c1, c2⟩ := g.present _ _ v1
  obtain ⟨n2, d1, d2⟩ := g.present _ _ v4
  obtain ⟨n3, f1, f2⟩ := g.present _ _ l1
  rw [if_pos rfl] at f1
  have ne : ∀ {a b : Addr} {s t : Token}, mapGet a w.tokens = some s → mapGet b w.tokens = some t →
      (s.mint ≠ t.mint ∨ s.owner ≠ t.owner) → a ≠ b := by
    rintro a b s t e1 e2 h rfl
    rw [e1] at e2; cases e2
    rcases h with h | h <;> exact h rfl
  have kX : (.vault p.xMint lp : Addr) ≠ .vault p.yMint lp := ne w1 w4 (.inl (by rw [w2, w5]; exact hg.ne))
  have nl : ∀ {a : Addr} {t : Token}, mapGet a w.tokens = some t → t.owner = .pool lp → t.delegate = none → a ≠ r.c.lp := by
    rintro a t h1 h2 h3 rfl
    rw [l1] at h1; cases h1
    rcases l5 with ⟨e, _⟩ | ⟨_, e, _⟩
    · rw [h2] at e; cases e
    · rw [h3] at e; cases e
  have n1' := nl w1 w3 wd
  have n2' := nl w4 w6 wd'
  have u1 : (.vault p.xMint lp : Addr) ≠ r.c.tokenX := ne w1 x1 (.inr (by rw [w3, x3]; simp))
  have u2 : (.vault p.xMint lp : Addr) ≠ r.c.tokenY := ne w1 y1 (.inr (by rw [w3, y3]; simp))
  have u3 : (.vault p.yMint lp : Addr) ≠ r.c.tokenX := ne w4 x1 (.inr (by rw [w6, x3]; simp))
  have u4 : (.vault p.yMint lp : Addr) ≠ r.c.tokenY := ne w4 y1 (.inr (by rw [w6, y3]; simp))
  have r1 : redeemed lp p r m (.vault p.xMint lp) = -m.x := by
    unfold redeemed at_
    rw [if_neg n1', if_neg u1, if_neg u2, if_pos rfl, if_neg kX]; ring
  have r2 : redeemed lp p r m (.vault p.yMint lp) = -m.y := by
    unfold redeemed at_
    rw [if_neg n2', if_neg u3, if_neg u4, if_pos rfl, if_neg kX.symm]; ring
  have r3 : -(r.n : ℤ) ≤ redeemed lp p r m r.c.lp := by
    unfold redeemed at_
    rw [if_pos rfl, if_neg n1'.symm, if_neg n2'.symm]
    split <;> split <;> omega
  rw [r1] at c2
  rw [r2] at d2
  obtain ⟨ps', pl, i1, i2, i3, i4⟩ := g.here.position
  rw [o1] at i1; cases i1
  refine ⟨e1 ▸ h.atTick, e1 ▸ h.starts, e1 ▸ h.ends, ⟨_, i3, ?_⟩, e1 ▸ hW,
    ⟨_, a1, by rw [e2]; exact x2', x3, x4⟩, ⟨_, b1, by rw [e3]; exact y2', y3, y4⟩,
    ⟨_, (congrArg (fun x => mapGet (Addr.vault x lp) v.tokens) e2).trans c1, v2, ?_⟩,
    ⟨_, (congrArg (fun x => mapGet (Addr.vault x lp) v.tokens) e3).trans d1, v5, ?_⟩,
    ⟨_, f1, l2, l3, ?_, l5.rest hk rfl rfl⟩⟩
  · unfold Position.amount at o2 ⊢
    simp only
    rw [i2] at o2 ⊢
    rw [i4]
    push_cast at o2
    rw [le_div_iff₀ (by positivity)] at o2 ⊢
    linarith
  · simp only; omega
  · simp only; omega
  · simp only; omega

theorem unset_twice {b b1 b2 b3 b4 : Bitmap} (h1 : b.unsetTick 0 = .ok b1) (h2 : b1.unsetTick 40000 = .ok b2)
    (h3 : b2.unsetTick 0 = .ok b3) (h4 : b3.unsetTick 40000 = .ok b4) : b4 = b2 := by
  have v0 : Bitmap.Valid 0 := ⟨by decide, by decide⟩
  have v4 : Bitmap.Valid 40000 := ⟨by decide, by decide⟩
  rw [Bitmap.unset_valid _ v0] at h1 h3
  rw [Bitmap.unset_valid _ v4] at h2 h4
  cases h1; cases h2; cases h3; cases h4
  unfold Bitmap.setByte
  congr 1
  funext i
  simp only
  split
  · simp [Nat.and_assoc]
  · split
    · simp [Nat.and_assoc]
    · rfl

/-- The effects of two parts are those of the whole. -/
theorem Less.append {lp : Nat} {r : Redemption} {m l : Moved} {k : Nat} {w v u : World} {p q o : PoolAcc} (hk : 0 < k)
    {x y : Nat} (hr : Redeemable w lp p r.c r.lower r.upper r.current (r.n + k) x y)
    (h : Less lp r m w v p q) (g : Less lp { r with n := k } l v u q o) :
    Less lp { r with n := r.n + k } ⟨m.x + l.x, m.y + l.y, m.lp + l.lp⟩ w u p o where
  present := by
    intro a t e
    obtain ⟨n1, a1, a2⟩ := h.present a t e
    obtain ⟨n2, b1, b2⟩ := g.present a _ a1
    refine ⟨n2, ?_, ?_⟩
    · rw [b1]
      simp only
      congr 2
      by_cases f : a = r.c.lp
      · rw [if_pos f, if_pos f, if_pos f]
        obtain ⟨tl, l1, _, _, _, l5⟩ := hr.lpTokens
        rw [f, l1] at e; cases e
        exact approvalLeft_add hk l5
      · rw [if_neg f, if_neg f, if_neg f]
    · rw [b2]
      simp only
      rw [a2]
      unfold redeemed at_
      rw [h.here.xMint, h.here.yMint]
      simp only
      push_cast
      split <;> split <;> split <;> split <;> split <;> ring
  absent := fun a e => g.absent a (h.absent a e)
  mint := by
    obtain ⟨t1, a1, a2, a3⟩ := h.mint
    obtain ⟨t2, b1, b2, b3⟩ := g.mint
    rw [a3] at b1; cases b1
    simp only at b2 b3
    refine ⟨t1, a1, by simp only; omega, ?_⟩
    rw [b3, Nat.sub_sub]
  mints := fun a e => by rw [g.mints a e, h.mints a e]
  pools := fun a e => by rw [g.pools a e, h.pools a e]
  pool := g.pool
  here := by
    have k1 := h.here
    have k2 := g.here
    obtain ⟨l1, e1, e2⟩ := k1.gs
    obtain ⟨l2, e3, e4⟩ := k2.gs
    have f1 : q.gs.tick = p.gs.tick := by rw [e1]
    refine ⟨by rw [k2.authority, k1.authority], by rw [k2.xMint, k1.xMint], by rw [k2.yMint, k1.yMint], ⟨l2, ?_, ?_⟩, ?_, ?_,
      fun a e => by rw [k2.others a e, k1.others a e], ?_⟩
    · rw [e3, e1]
    · rw [e4, f1, e1]
      simp only
      rw [e2]
      push_cast
      ring
    · obtain ⟨b, b1, b2, c1, c2, c3, c4⟩ := k1.bitmap
      obtain ⟨b', b3, b4, d1, d2, d3, d4⟩ := k2.bitmap
      rw [c4] at d1; cases d1
      have := unset_twice c2 c3 d2 d3
      exact ⟨b, b1, b2, c1, c2, c3, by rw [d4, this]⟩
    · obtain ⟨o1, n1, a1, a2, a3, a4⟩ := k1.position
      obtain ⟨o2, n2, b1, b2, b3, b4⟩ := k2.position
      simp only at b1 b3 b4
      rw [a3] at b1; cases b1
      refine ⟨o1, n2, a1, a2, b3, ?_⟩
      rw [b4]
      simp only
      rw [a4]
      push_cast
      ring
    · intro t
      rw [k2.ticks, k1.ticks]
      cases mapGet t p.ticks with
      | none => rfl
      | some ts =>
        simp only [Option.map_some, Option.some.injEq, Prod.mk.injEq, true_and]
        push_cast
        constructor <;> (split <;> split <;> ring)

/-- What some parts are paid together. -/
def total : List Moved → Moved
  | [] => ⟨0, 0, 0⟩
  | m :: ms => ⟨m.x + (total ms).x, m.y + (total ms).y, m.lp + (total ms).lp⟩

/-- A withdrawal can be made in parts. -/
theorem in_parts {lp : Nat} {c : Accounts} {lower upper current : Nat} : ∀ {ns : List Nat} {w : World} {p : PoolAcc} {x y : Nat},
    Reachable w → mapGet lp w.pools = some p → ns ≠ [] → (∀ k ∈ ns, 0 < k) →
    Redeemable w lp p c lower upper current ns.sum x y →
    ∃ ms u o, ms.map Moved.lp = ns ∧ Redemptions lp w (ms.map fun k => (⟨c, lower, upper, current, k.lp⟩, k)) u ∧
      Less lp ⟨c, lower, upper, current, ns.sum⟩ (total ms) w u p o ∧ (total ms).x ≤ x ∧ x < (total ms).x + ns.length ∧
      (total ms).y ≤ y ∧ y < (total ms).y + ns.length
  | [], _, _, _, _, _, _, h, _, _ => absurd rfl h
  | [n], w, p, x, y, hw, hp, _, h0, h => by
    rw [List.sum_singleton] at h
    have hn := h0 n (List.mem_singleton.2 rfl)
    obtain ⟨u, g⟩ := withdraw_when hw hp hn h
    obtain ⟨o, l⟩ := withdraw_less hw hp (r := ⟨c, lower, upper, current, n⟩) hn g
    refine ⟨[⟨x, y, n⟩], u, o, rfl, .cons g .nil, ?_, ?_⟩
    · rw [List.sum_singleton]; exact l
    · simp [total]
  | n :: k :: ns, w, p, x, y, hw, hp, _, h0, h => by
    rw [List.sum_cons] at h
    have hn := h0 n (List.mem_cons_self ..)
    have hk : 0 < (k :: ns).sum := by
      have := h0 k (List.mem_cons_of_mem _ (List.mem_cons_self ..))
      rw [List.sum_cons]; omega
    obtain ⟨x1, y1, x2, y2, w1, w2, i1, i2, i3, i4⟩ := h.worth.split
    obtain ⟨v, g⟩ := withdraw_when hw hp hn (h.first w1 (by omega) (by omega))
    obtain ⟨q, l⟩ := withdraw_less hw hp (r := ⟨c, lower, upper, current, n⟩) hn g
    have rest := l.rest hw hp hk h w2 i1 i3
    obtain ⟨ms, u, o, m1, m2, m3, m4, m5, m6, m7⟩ := in_parts (withdraw_reachable hw g) l.pool (by simp)
      (fun j hj => h0 j (List.mem_cons_of_mem _ hj)) rest
    refine ⟨⟨x1, y1, n⟩ :: ms, u, o, by simp [m1], .cons g m2, ?_, ?_⟩
    · rw [List.sum_cons]; exact Less.append hk h l m3
    · simp only [total, List.length_cons] at m5 m7 ⊢
      omega

/-- Two withdrawals that differ in what is paid. -/
theorem Less.owing {lp : Nat} {r : Redemption} {m l : Moved} {w v u : World} {p q o : PoolAcc}
    (h : Less lp r m w v p q) (g : Less lp r l w u p o) (hx : l.x ≤ m.x) (hy : l.y ≤ m.y) :
    Owing lp p r.c (m.x - l.x) (m.y - l.y) v u where
  tokens := by
    intro a t e
    cases f : mapGet a w.tokens with
    | none => rw [h.absent a f] at e; cases e
    | some s =>
      obtain ⟨n1, a1, a2⟩ := h.present a s f
      obtain ⟨n2, b1, b2⟩ := g.present a s f
      rw [a1] at e; cases e
      refine ⟨n2, b1, ?_⟩
      simp only
      rw [a2, b2]
      unfold redeemed at_
      push_cast [hx, hy]
      split <;> split <;> split <;> split <;> split <;> ring
  absent := by
    intro a e
    cases f : mapGet a w.tokens with
    | none => exact g.absent a f
    | some s =>
      obtain ⟨n1, a1, a2⟩ := h.present a s f
      rw [a1] at e; cases e
  mints := by
    intro x
    by_cases hx : x = lp
    · subst hx
      obtain ⟨t1, a1, _, a3⟩ := h.mint
      obtain ⟨t2, b1, _, b3⟩ := g.mint
      rw [a1] at b1; cases b1
      rw [a3, b3]
    · rw [g.mints x hx, h.mints x hx]
  others := fun x hx => by rw [g.pools x hx, h.pools x hx]
  pool := by
    intro x hx
    rw [h.pool] at hx; cases hx
    have k1 := h.here
    have k2 := g.here
    refine ⟨o, g.pool, ?_, ?_, ?_, ?_, ?_, ?_, ?_⟩
    · rw [k2.authority, k1.authority]
    · rw [k2.xMint, k1.xMint]
    · rw [k2.yMint, k1.yMint]
    · obtain ⟨n1, a1, a2⟩ := k1.gs
      obtain ⟨n2, b1, b2⟩ := k2.gs
      have : n2 = n1 := by
        have : (n2 : ℚ) = n1 := by rw [a2, b2]
        exact_mod_cast this
      rw [a1, b1, this]
    · obtain ⟨x1, x2, x3, a1, a2, a3, a4⟩ := k1.bitmap
      obtain ⟨y1, y2, y3, b1, b2, b3, b4⟩ := k2.bitmap
      rw [a1] at b1; cases b1
      rw [a2] at b2; cases b2
      rw [a3] at b3; cases b3
      rw [a4, b4]
    · intro j
      by_cases f : j = ⟨r.c.user, r.lower, r.upper⟩
      · subst f
        obtain ⟨o1, n1, a1, _, a3, a4⟩ := k1.position
        obtain ⟨o2, n2, b1, _, b3, b4⟩ := k2.position
        rw [a1] at b1; cases b1
        have : n2 = n1 := by
          have : (n2 : ℚ) = n1 := by rw [a4, b4]
          exact_mod_cast this
        rw [a3, b3, this]
      · rw [k2.others j f, k1.others j f]
    · intro t
      rw [k2.ticks, k1.ticks]

end Hmm.OnChain.World
