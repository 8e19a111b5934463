import Verif.Spec.OnChain
import Verif.Proofs.History
import Verif.Proofs.Avail
import Verif.Proofs.Bitmap

/-
Inversion of the on-chain handlers, and invariants of on-chain histories.
-/

namespace Hmm.OnChain

open Decimal PoolMath

theorem constraint_ok {b : Bool} {u : Unit} : constraint b = .ok u ↔ b = true := by
  unfold constraint; split <;> simp_all [rerr]

theorem load_ok {α : Type} {o : Option α} {a : α} : load o = .ok a ↔ o = some a := by
  unfold load; split <;> simp [rerr]

theorem guard_ok {α : Type} {p : Prop} [Decidable p] {a b : α} {c : Code} :
    (if p then .ok a else rerr c : R α) = .ok b ↔ p ∧ a = b := by
  split <;> simp_all [rerr]

theorem debit_ok {m m' : List (Nat × TokAcc)} {acc owner amount : Nat} : debit m acc owner amount = .ok m' ↔
    ∃ a, mapGet acc m = some a ∧ a.owner = owner ∧ amount ≤ a.amount ∧
      m' = mapSet acc { a with amount := a.amount - amount } m := by
  unfold debit
  simp only [bind_ok, load_ok, ite_ok, pure_ok, rerr_ne_ok, and_false, false_or, not_not, not_lt]
  constructor
  · rintro ⟨a, h1, h2, h3, rfl⟩; exact ⟨a, h1, h2, h3, rfl⟩
  · rintro ⟨a, h1, h2, h3, rfl⟩; exact ⟨a, h1, h2, h3, rfl⟩

theorem credit_ok {m m' : List (Nat × TokAcc)} {acc amount : Nat} : credit m acc amount = .ok m' ↔
    ∃ a, mapGet acc m = some a ∧ a.amount + amount < u64Size ∧
      m' = mapSet acc { a with amount := a.amount + amount } m := by
  unfold credit
  simp only [bind_ok, load_ok, ite_ok, pure_ok, rerr_ne_ok, and_false, or_false]
  constructor
  · rintro ⟨a, h1, h2, rfl⟩; exact ⟨a, h1, h2, rfl⟩
  · rintro ⟨a, h1, h2, rfl⟩; exact ⟨a, h1, h2, rfl⟩

theorem loadAccounts_ok {s : Chain} {c : Caller} {lower upper current : Nat} {a : Loaded} :
    loadAccounts s c lower upper current = .ok a ↔
      s.bitmap = some a.bitmap ∧ mapGet (⟨c.user, lower, upper⟩ : PosKey) s.positions = some a.pos ∧
      lower < upper ∧ mapGet lower s.ticks = some a.lwr ∧ a.lwr.tick = a.pos.lower ∧
      mapGet upper s.ticks = some a.upr ∧ a.upr.tick = a.pos.upper ∧
      mapGet current s.ticks = some a.cur ∧ a.cur.tick = current ∧ a.cur.tick = s.gs.tick ∧
      ownerOf s.userX c.tokenX = some c.user ∧ ownerOf s.userY c.tokenY = some c.user ∧
      (mapGet c.lp s.lp).isSome = true := by
  unfold loadAccounts ownerOf
  simp only [bind_ok, load_ok, constraint_ok, pure_ok, decide_eq_true_eq, Option.map_eq_some_iff]
  constructor
  · rintro ⟨b, h1, p, h2, _, h3, l, h4, _, h5, u, h6, _, h7, k, h8, _, h9, _, h10, ux, h11, _, h12, uy, h13, _, h14,
      lp, h15, rfl⟩
    exact ⟨h1, h2, h3, h4, h5, h6, h7, h8, h9, h10, ⟨ux, h11, h12⟩, ⟨uy, h13, h14⟩, by rw [h15]; rfl⟩
  · rintro ⟨h1, h2, h3, h4, h5, h6, h7, h8, h9, h10, ⟨ux, h11, h12⟩, ⟨uy, h13, h14⟩, h15⟩
    obtain ⟨lp, h15⟩ := Option.isSome_iff_exists.1 h15
    exact ⟨_, h1, _, h2, (), h3, _, h4, (), h5, _, h6, (), h7, _, h8, (), h9, (), h10, ux, h11, (), h12, uy, h13, (),
      h14, lp, h15, rfl⟩

/-- What a deposit works out on its way. -/
structure DepositData where
  a : Loaded
  x : Decimal
  y : Decimal
  rpa : Decimal
  rpb : Decimal
  rp : Decimal
  delta : Decimal
  b1 : Bitmap
  b : Bitmap
  xIn : Decimal
  yIn : Decimal
  fee : Fee
  pos : Position
  lwr : Tick
  upr : Tick
  g : Global
  fx : Decimal
  xDeb : Decimal
  fy : Decimal
  yDeb : Decimal

/-- The successful run of a deposit. -/
structure Deposited (s : Chain) (c : Caller) (lower upper current xa ya : Nat) (t : Chain) (m : Moved)
    (d : DepositData) : Prop where
  load : loadAccounts s c lower upper current = .ok d.a
  x : (Decimal.fromInt xa).toComputeScale = .ok d.x
  y : (Decimal.fromInt ya).toComputeScale = .ok d.y
  rpa : tickToRp lower = .ok d.rpa
  rpb : tickToRp upper = .ok d.rpb
  rp : tickToRp current = .ok d.rp
  delta : liqFromXYRpRng d.x d.y d.rp d.rpa d.rpb = .ok d.delta
  nonneg : d.delta.negative = false
  b1 : (if d.a.lwr.gross = 0 then d.a.bitmap.activateTick 0 else .ok d.a.bitmap) = .ok d.b1
  b : (if d.a.upr.gross = 0 then d.b1.activateTick 40000 else .ok d.b1) = .ok d.b
  xIn : xFromLRpRng d.delta d.rp d.rpa d.rpb = .ok d.xIn
  yIn : yFromLRpRng d.delta d.rp d.rpa d.rpb = .ok d.yIn
  fee : computeLatestFee lower upper current s.gs.fee d.a.lwr.fee d.a.upr.fee d.a.pos.fee.scale = .ok d.fee
  upd : updatePosition d.a.pos d.a.lwr d.a.upr d.delta lower upper d.fee = .ok (d.pos, d.lwr, d.upr)
  g : updateGlobal s.gs lower upper current d.delta = .ok d.g
  fx : feeTerm d.fee.fx d.fee.hx d.fee.scale d.xIn.scale = .ok d.fx
  xDeb : d.xIn.sub d.fx = .ok d.xDeb
  fy : feeTerm d.fee.fy d.fee.hy d.fee.scale d.yIn.scale = .ok d.fy
  yDeb : d.yIn.sub d.fy = .ok d.yDeb
  xMax : d.xDeb.gt d.x = .ok false
  yMax : d.yDeb.gt d.y = .ok false
  lp : d.delta.abs = .ok m.lp
  supply : s.lpSupply + m.lp < u64Size
  credit : credit s.lp c.lp m.lp = .ok t.lp
  dx : d.xDeb.abs = .ok m.x
  debitX : debit s.userX c.tokenX c.user m.x = .ok t.userX
  vaultX : s.vaultX + m.x < u64Size
  dy : d.yDeb.abs = .ok m.y
  debitY : debit s.userY c.tokenY c.user m.y = .ok t.userY
  vaultY : s.vaultY + m.y < u64Size
  result : t = { writeBack s d.g c.user lower upper current ⟨d.b, d.pos, d.lwr, d.upr, d.a.cur⟩ with
    lpSupply := s.lpSupply + m.lp, lp := t.lp, userX := t.userX, vaultX := s.vaultX + m.x, userY := t.userY,
    vaultY := s.vaultY + m.y }

theorem deposit_ok {s t : Chain} {c : Caller} {lower upper current xa ya : Nat} {m : Moved} :
    deposit s c lower upper current xa ya = .ok (t, m) ↔ ∃ d, Deposited s c lower upper current xa ya t m d := by
  constructor
  · intro h
    unfold deposit at h
    rw [bind_ok] at h; obtain ⟨a, h1, h⟩ := h
    rw [bind_ok] at h; obtain ⟨x, h2, h⟩ := h
    rw [bind_ok] at h; obtain ⟨y, h3, h⟩ := h
    rw [bind_ok] at h; obtain ⟨rpa, h4, h⟩ := h
    rw [bind_ok] at h; obtain ⟨rpb, h5, h⟩ := h
    rw [bind_ok] at h; obtain ⟨rp, h6, h⟩ := h
    rw [bind_ok] at h; obtain ⟨delta, h7, h⟩ := h
    rw [ite_ok] at h; rcases h with ⟨_, h⟩ | ⟨h8, h⟩; · simp [rerr] at h
    rw [bind_ok] at h; obtain ⟨b1, h9, h⟩ := h
    rw [bind_ok] at h; obtain ⟨b, h10, h⟩ := h
    rw [bind_ok] at h; obtain ⟨xIn, h11, h⟩ := h
    rw [bind_ok] at h; obtain ⟨yIn, h12, h⟩ := h
    rw [bind_ok] at h; obtain ⟨fee, h13, h⟩ := h
    rw [bind_ok] at h; obtain ⟨⟨pos, lwr, upr⟩, h14, h⟩ := h
    rw [bind_ok] at h; obtain ⟨g, h15, h⟩ := h
    rw [bind_ok] at h; obtain ⟨fx, h16, h⟩ := h
    rw [bind_ok] at h; obtain ⟨xDeb, h17, h⟩ := h
    rw [bind_ok] at h; obtain ⟨fy, h18, h⟩ := h
    rw [bind_ok] at h; obtain ⟨yDeb, h19, h⟩ := h
    rw [bind_ok] at h; obtain ⟨gx, h20, h⟩ := h
    rw [ite_ok] at h; rcases h with ⟨_, h⟩ | ⟨e1, h⟩; · simp [rerr] at h
    rw [bind_ok] at h; obtain ⟨gy, h21, h⟩ := h
    rw [ite_ok] at h; rcases h with ⟨_, h⟩ | ⟨e2, h⟩; · simp [rerr] at h
    rw [bind_ok] at h; obtain ⟨minted, h22, h⟩ := h
    rw [bind_ok] at h; obtain ⟨supply, h23, h⟩ := h
    rw [bind_ok] at h; obtain ⟨lp, h24, h⟩ := h
    rw [bind_ok] at h; obtain ⟨dx, h25, h⟩ := h
    rw [bind_ok] at h; obtain ⟨userX, h26, h⟩ := h
    rw [bind_ok] at h; obtain ⟨vaultX, h27, h⟩ := h
    rw [bind_ok] at h; obtain ⟨dy, h28, h⟩ := h
    rw [bind_ok] at h; obtain ⟨userY, h29, h⟩ := h
    rw [bind_ok] at h; obtain ⟨vaultY, h30, h⟩ := h
    rw [pure_ok, Prod.mk.injEq] at h
    obtain ⟨rfl, rfl⟩ := h
    rw [unwrap_ok] at h14 h17 h19 h20 h21
    rw [guard_ok] at h23 h27 h30
    obtain ⟨k1, rfl⟩ := h23
    obtain ⟨k2, rfl⟩ := h27
    obtain ⟨k3, rfl⟩ := h30
    rw [Bool.not_eq_true] at h8 e1 e2
    subst e1 e2
    exact ⟨⟨a, x, y, rpa, rpb, rp, delta, b1, b, xIn, yIn, fee, pos, lwr, upr, g, fx, xDeb, fy, yDeb⟩,
      ⟨h1, h2, h3, h4, h5, h6, h7, h8, h9, h10, h11, h12, h13, h14, h15, h16, h17, h18, h19, h20, h21, h22, k1, h24,
        h25, h26, k2, h28, h29, k3, rfl⟩⟩
  · rintro ⟨d, h⟩
    unfold deposit
    rw [h.load, bind_eq, h.x, bind_eq, h.y, bind_eq, h.rpa, bind_eq, h.rpb, bind_eq, h.rp, bind_eq, h.delta, bind_eq,
      h.nonneg, if_neg (by simp), h.b1, bind_eq, h.b, bind_eq, h.xIn, bind_eq, h.yIn, bind_eq, h.fee, bind_eq, h.upd,
      unwrap_eq, bind_eq]
    simp only
    rw [h.g, bind_eq, h.fx, bind_eq, h.xDeb, unwrap_eq, bind_eq, h.fy, bind_eq, h.yDeb, unwrap_eq, bind_eq, h.xMax,
      unwrap_eq, bind_eq, if_neg (by simp), h.yMax, unwrap_eq, bind_eq, if_neg (by simp), h.lp, bind_eq,
      if_pos h.supply, bind_eq, h.credit, bind_eq, h.dx, bind_eq, h.debitX, bind_eq, if_pos h.vaultX, bind_eq, h.dy,
      bind_eq, h.debitY, bind_eq, if_pos h.vaultY, bind_eq]
    rw [pure_ok, Prod.mk.injEq]
    exact ⟨h.result.symm, rfl⟩

/-- What a withdrawal works out on its way. -/
structure WithdrawData where
  a : Loaded
  amt : Decimal
  rpa : Decimal
  rpb : Decimal
  rp : Decimal
  fee : Fee
  pos : Position
  lwr : Tick
  upr : Tick
  b1 : Bitmap
  b : Bitmap
  g : Global
  xOut : Decimal
  yOut : Decimal
  fx : Decimal
  xCred : Decimal
  fy : Decimal
  yCred : Decimal

/-- The successful run of a withdrawal. -/
structure Withdrawn (s : Chain) (c : Caller) (lower upper current n : Nat) (t : Chain) (m : Moved)
    (d : WithdrawData) : Prop where
  load : loadAccounts s c lower upper current = .ok d.a
  amt : (Decimal.fromInt n).toComputeScale = .ok d.amt
  rpa : tickToRp lower = .ok d.rpa
  rpb : tickToRp upper = .ok d.rpb
  rp : tickToRp current = .ok d.rp
  fee : computeLatestFee lower upper current s.gs.fee d.a.lwr.fee d.a.upr.fee d.a.pos.fee.scale = .ok d.fee
  upd : updatePosition d.a.pos d.a.lwr d.a.upr d.amt.neg lower upper d.fee = .ok (d.pos, d.lwr, d.upr)
  b1 : d.a.bitmap.unsetTick 0 = .ok d.b1
  b : d.b1.unsetTick 40000 = .ok d.b
  g : updateGlobal s.gs lower upper current d.amt.neg = .ok d.g
  xOut : xFromLRpRng d.amt.neg.neg d.rp d.rpa d.rpb = .ok d.xOut
  yOut : yFromLRpRng d.amt.neg.neg d.rp d.rpa d.rpb = .ok d.yOut
  fx : feeTerm d.fee.fx d.fee.hx d.fee.scale d.xOut.scale = .ok d.fx
  xCred : d.xOut.add d.fx = .ok d.xCred
  fy : feeTerm d.fee.fy d.fee.hy d.fee.scale d.yOut.scale = .ok d.fy
  yCred : d.yOut.add d.fy = .ok d.yCred
  burn : debit s.lp c.lp c.user n = .ok t.lp
  supply : n ≤ s.lpSupply
  dx : d.xCred.abs = .ok m.x
  vaultX : m.x ≤ s.vaultX
  creditX : credit s.userX c.tokenX m.x = .ok t.userX
  dy : d.yCred.abs = .ok m.y
  vaultY : m.y ≤ s.vaultY
  creditY : credit s.userY c.tokenY m.y = .ok t.userY
  lp : m.lp = n
  result : t = { writeBack s d.g c.user lower upper current ⟨d.b, d.pos, d.lwr, d.upr, d.a.cur⟩ with
    lpSupply := s.lpSupply - n, lp := t.lp, userX := t.userX, vaultX := s.vaultX - m.x, userY := t.userY,
    vaultY := s.vaultY - m.y }

theorem withdraw_ok {s t : Chain} {c : Caller} {lower upper current n : Nat} {m : Moved} :
    withdraw s c lower upper current n = .ok (t, m) ↔ ∃ d, Withdrawn s c lower upper current n t m d := by
  constructor
  · intro h
    unfold withdraw at h
    rw [bind_ok] at h; obtain ⟨a, h1, h⟩ := h
    rw [bind_ok] at h; obtain ⟨amt, h2, h⟩ := h
    rw [bind_ok] at h; obtain ⟨rpa, h4, h⟩ := h
    rw [bind_ok] at h; obtain ⟨rpb, h5, h⟩ := h
    rw [bind_ok] at h; obtain ⟨rp, h6, h⟩ := h
    rw [bind_ok] at h; obtain ⟨fee, h13, h⟩ := h
    rw [bind_ok] at h; obtain ⟨⟨pos, lwr, upr⟩, h14, h⟩ := h
    rw [bind_ok] at h; obtain ⟨b1, h9, h⟩ := h
    rw [bind_ok] at h; obtain ⟨b, h10, h⟩ := h
    rw [bind_ok] at h; obtain ⟨g, h15, h⟩ := h
    rw [bind_ok] at h; obtain ⟨xOut, h11, h⟩ := h
    rw [bind_ok] at h; obtain ⟨yOut, h12, h⟩ := h
    rw [bind_ok] at h; obtain ⟨fx, h16, h⟩ := h
    rw [bind_ok] at h; obtain ⟨xCred, h17, h⟩ := h
    rw [bind_ok] at h; obtain ⟨fy, h18, h⟩ := h
    rw [bind_ok] at h; obtain ⟨yCred, h19, h⟩ := h
    rw [bind_ok] at h; obtain ⟨lp, h24, h⟩ := h
    rw [bind_ok] at h; obtain ⟨supply, h23, h⟩ := h
    rw [bind_ok] at h; obtain ⟨dx, h25, h⟩ := h
    rw [bind_ok] at h; obtain ⟨vaultX, h27, h⟩ := h
    rw [bind_ok] at h; obtain ⟨userX, h26, h⟩ := h
    rw [bind_ok] at h; obtain ⟨dy, h28, h⟩ := h
    rw [bind_ok] at h; obtain ⟨vaultY, h30, h⟩ := h
    rw [bind_ok] at h; obtain ⟨userY, h29, h⟩ := h
    rw [pure_ok, Prod.mk.injEq] at h
    obtain ⟨rfl, rfl⟩ := h
    rw [unwrap_ok] at h14 h17 h19
    rw [guard_ok] at h23 h27 h30
    obtain ⟨k1, rfl⟩ := h23
    obtain ⟨k2, rfl⟩ := h27
    obtain ⟨k3, rfl⟩ := h30
    exact ⟨⟨a, amt, rpa, rpb, rp, fee, pos, lwr, upr, b1, b, g, xOut, yOut, fx, xCred, fy, yCred⟩,
      ⟨h1, h2, h4, h5, h6, h13, h14, h9, h10, h15, h11, h12, h16, h17, h18, h19, h24, k1,
        h25, k2, h26, h28, k3, h29, rfl, rfl⟩⟩
  · rintro ⟨d, h⟩
    unfold withdraw
    rw [h.load, bind_eq, h.amt, bind_eq]
    simp only
    rw [h.rpa, bind_eq, h.rpb, bind_eq, h.rp, bind_eq, h.fee, bind_eq, h.upd, unwrap_eq, bind_eq]
    simp only
    rw [h.b1, bind_eq, h.b, bind_eq, h.g, bind_eq, h.xOut, bind_eq, h.yOut, bind_eq, h.fx, bind_eq, h.xCred,
      unwrap_eq, bind_eq, h.fy, bind_eq, h.yCred, unwrap_eq, bind_eq, h.burn, bind_eq,
      if_pos h.supply, bind_eq, h.dx, bind_eq, if_pos h.vaultX, bind_eq, h.creditX, bind_eq, h.dy,
      bind_eq, if_pos h.vaultY, bind_eq, h.creditY, bind_eq]
    rw [pure_ok, Prod.mk.injEq]
    refine ⟨h.result.symm, ?_⟩
    have := h.lp
    cases m
    simp_all

/-! ### Zero fees -/

theorem toScale_same {d c : Decimal} {s : Nat} (hs : d.scale = s) (h : d.toScale s = .ok c) : c = d := by
  rcases toScale_ok.1 h with ⟨h1, _⟩ | ⟨_, _, _, rfl⟩
  · omega
  · obtain ⟨v, s', n⟩ := d
    simp only at hs
    subst hs
    simp

theorem feeWithinRange_zero (lower upper current : Nat) :
    feeWithinRange lower upper current ⟨0, 12, false⟩ ⟨0, 12, false⟩ ⟨0, 12, false⟩ = .ok ⟨0, 12, false⟩ := by
  unfold feeWithinRange feeBelowAbove
  by_cases h1 : current ≥ lower <;> by_cases h2 : current ≥ upper <;> simp only [h1, h2, if_true, if_false] <;>
    decide +kernel

theorem computeLatestFee_zero (lower upper current : Nat) :
    computeLatestFee lower upper current Fee.zero Fee.zero Fee.zero 12 = .ok Fee.zero := by
  have h : ∀ sel : Fee → Nat, sel Fee.zero = 0 →
      latestFeeOf sel lower upper current Fee.zero Fee.zero Fee.zero 12 = .ok 0 := by
    intro sel hs
    unfold latestFeeOf
    rw [hs, show Fee.zero.scale = 12 from rfl, feeWithinRange_zero, bind_eq]
    decide +kernel
  unfold computeLatestFee
  rw [h _ rfl, bind_eq, h _ rfl, bind_eq, h _ rfl, bind_eq, h _ rfl, bind_eq]
  rfl

theorem feeTerm_zero (s : Nat) (h : s ≤ 50) (h' : 12 ≤ s) : feeTerm 0 0 12 s = .ok ⟨0, s, false⟩ := by
  unfold feeTerm
  rw [show checkedAdd 0 0 = .ok 0 from rfl, bind_eq]
  refine toScale_ok.2 (.inr ⟨h', pow10_lt_iff.2 (by show s - 12 ≤ 38; omega), ?_, ?_⟩)
  · show 0 * 10 ^ (s - 12) < u128Size
    rw [zero_mul]; decide
  · show _ = Decimal.mk (0 * _) _ _
    rw [zero_mul]; rfl

/-! ### Updates of accounts -/

/-- A tick account as the program keeps it. -/
structure GoodTick (t : Nat) (ts : Tick) : Prop where
  tick : ts.tick = t
  fee : ts.fee = Fee.zero
  net : ts.netScale = 12
  gross : ts.grossScale = 12

/-- A position account as the program keeps it. -/
structure GoodPosition (k : PosKey) (p : Position) : Prop where
  lower : p.lower = k.lower
  upper : p.upper = k.upper
  order : k.lower < k.upper
  fee : p.fee = Fee.zero
  scale : p.liqScale = 12

/-- The pool account as the program keeps it. -/
structure GoodGlobal (g : Global) : Prop where
  fee : g.fee = Fee.zero
  scale : g.liqScale = 12
  rpScale : g.rpScale = 12
  rp : ∃ q, tickToRp g.tick = .ok q ∧ q.value = g.rp

theorem toRat_nonneg_mk {d : Decimal} (h : d.negative = false) : d.toRat = (d.value : ℚ) / 10 ^ d.scale := by
  unfold toRat; rw [h]; simp

theorem updateTick_ok {ts ts' : Tick} {tick t : Nat} {delta : Decimal} {upper : Bool} (hg : GoodTick t ts)
    (h : updateTick ts tick delta upper = .ok ts') :
    tick = t ∧ GoodTick t ts' ∧ ts'.grossAmount = ts.grossAmount + delta.toRat ∧
    ts'.netAmount = ts.netAmount + (if upper then -1 else 1) * delta.toRat := by
  unfold updateTick at h
  rw [ite_ok] at h; rcases h with ⟨_, h⟩ | ⟨h1, h⟩; · simp [rerr] at h
  rw [bind_ok] at h; obtain ⟨n, h2, h⟩ := h
  rw [bind_ok] at h; obtain ⟨n', h3, h⟩ := h
  rw [bind_ok] at h; obtain ⟨g, h4, h⟩ := h
  rw [bind_ok] at h; obtain ⟨g', h5, h⟩ := h
  rw [ite_ok] at h; rcases h with ⟨_, h⟩ | ⟨h6, h⟩; · simp [rerr] at h
  rw [pure_ok] at h
  have e2 := toScale_same (show (Decimal.new _ _ _).scale = computeScale from hg.net) h2
  have e4 := toScale_same (show (Decimal.new _ _ _).scale = computeScale from hg.gross) h4
  subst e2 e4
  rw [unwrap_ok] at h3 h5
  have s3 := (add_ok.1 h3).2.2.1
  have s5 := (add_ok.1 h5).2.2.1
  have r3 := add_toRat h3
  have r5 := add_toRat h5
  rw [Bool.not_eq_true] at h6
  rw [not_not] at h1
  subst h
  refine ⟨by rw [h1, hg.tick], ⟨hg.tick, hg.fee, s3.trans hg.net, s5.trans hg.gross⟩, ?_, ?_⟩
  · unfold Tick.grossAmount
    rw [toRat_nonneg_mk h6] at r5
    show (g'.value : ℚ) / 10 ^ g'.scale = _
    rw [r5]
    congr 1
    exact toRat_nonneg_mk rfl
  · unfold Tick.netAmount
    have e : (if (if n'.negative = true then 1 else 0 : Nat) = 0 then (1 : ℚ) else -1) =
        if n'.negative then -1 else 1 := by cases n'.negative <;> simp
    simp only
    rw [e]
    show n'.toRat = _
    rw [r3]
    congr 1
    · unfold toRat Decimal.new
      by_cases h0 : ts.netNeg = 0 <;> simp [h0]
    · cases upper
      · simp
      · simp [neg_toRat]

theorem updatePosition_ok {p p' : Position} {l l' u u' : Tick} {delta : Decimal} {lower upper : Nat} {k : PosKey}
    (hp : GoodPosition k p)
    (h : updatePosition p l u delta lower upper Fee.zero = .ok (p', l', u')) :
    GoodPosition k p' ∧ p'.amount = p.amount + delta.toRat ∧
    updateTick l lower delta false = .ok l' ∧ updateTick u upper delta true = .ok u' := by
  unfold updatePosition at h
  rw [bind_ok] at h; obtain ⟨n, h2, h⟩ := h
  rw [bind_ok] at h; obtain ⟨n', h3, h⟩ := h
  rw [ite_ok] at h; rcases h with ⟨_, h⟩ | ⟨h6, h⟩; · simp [rerr] at h
  rw [bind_ok] at h; obtain ⟨l1, h4, h⟩ := h
  rw [bind_ok] at h; obtain ⟨u1, h5, h⟩ := h
  rw [pure_ok, Prod.mk.injEq, Prod.mk.injEq] at h
  obtain ⟨rfl, rfl, rfl⟩ := h
  rw [unwrap_ok] at h3 h4 h5
  have e2 := toScale_same (show (Decimal.new _ _ _).scale = computeScale from hp.scale) h2
  subst e2
  rw [Bool.not_eq_true] at h6
  refine ⟨⟨hp.lower, hp.upper, hp.order, rfl, (add_ok.1 h3).2.2.1.trans hp.scale⟩, ?_, h4, h5⟩
  have r3 := add_toRat h3
  rw [toRat_nonneg_mk h6] at r3
  unfold Position.amount
  show (n'.value : ℚ) / 10 ^ n'.scale = _
  rw [r3]
  congr 1
  exact toRat_nonneg_mk rfl

theorem updateGlobal_ok {g g' : Global} {lower upper current : Nat} {delta : Decimal} (hg : GoodGlobal g)
    (h : updateGlobal g lower upper current delta = .ok g') :
    GoodGlobal g' ∧ g'.tick = g.tick ∧ g'.rp = g.rp ∧
    g'.amount = g.amount + (if lower ≤ current ∧ current < upper then 1 else 0) * delta.toRat := by
  unfold updateGlobal at h
  rw [ite_ok] at h
  rcases h with ⟨hc, h⟩ | ⟨hc, h⟩
  · rw [bind_ok] at h; obtain ⟨l, h1, h⟩ := h
    rw [ite_ok] at h; rcases h with ⟨_, h⟩ | ⟨h6, h⟩; · simp [rerr] at h
    rw [pure_ok] at h; subst h
    rw [unwrap_ok] at h1
    rw [Bool.not_eq_true] at h6
    refine ⟨⟨hg.fee, (add_ok.1 h1).2.2.1.trans hg.scale, hg.rpScale, hg.rp⟩, rfl, rfl, ?_⟩
    have r := add_toRat h1
    rw [toRat_nonneg_mk h6] at r
    unfold Global.amount
    show (l.value : ℚ) / 10 ^ l.scale = _
    rw [r, if_pos hc, one_mul]
    congr 1
    exact toRat_nonneg_mk rfl
  · rw [pure_ok] at h; subst h
    rw [if_neg hc]
    exact ⟨hg, rfl, rfl, by ring⟩

/-! ### The shape of reachable accounts -/

/-- The accounts are as the program keeps them. -/
structure Good (s : Chain) : Prop where
  gs : GoodGlobal s.gs
  tick : ∀ t ts, mapGet t s.ticks = some ts → GoodTick t ts
  pos : ∀ k p, mapGet k s.positions = some p → GoodPosition k p
  unique : UniqueKeys s.positions

theorem fromInt_compute {n : Nat} {d : Decimal} (h : (Decimal.fromInt n).toComputeScale = .ok d) :
    d = ⟨n * 10 ^ 12, 12, false⟩ := by
  rcases toScale_ok.1 h with ⟨h1, _⟩ | ⟨_, _, _, rfl⟩
  · exact absurd h1 (by simp [Decimal.fromInt])
  · rfl

theorem abs_ok {d : Decimal} {n : Nat} (hs : d.scale = 12) : d.abs = .ok n ↔
    n = d.value / 10 ^ 12 ∧ n < u64Size := by
  unfold Decimal.abs
  rw [bind_ok]
  constructor
  · rintro ⟨e, h, h'⟩
    unfold toU64 at h'
    rw [u64_ok] at h'
    rcases toScale_ok.1 h with ⟨_, _, rfl⟩ | ⟨h1, _⟩
    · rw [hs] at h'
      exact ⟨h'.2.symm, by have := h'.1; simp only at this h'; omega⟩
    · omega
  · rintro ⟨rfl, h⟩
    refine ⟨_, toScale_ok.2 (.inl ⟨by omega, by rw [hs]; decide, rfl⟩), ?_⟩
    unfold toU64
    rw [u64_ok, hs]
    exact ⟨h, rfl⟩

theorem sub_zero12 {d c : Decimal} (hs : d.scale = 12) (hn : d.negative = false) (h : d.sub ⟨0, 12, false⟩ = .ok c) :
    c = d := by
  obtain ⟨v, s, n⟩ := d
  simp only at hs hn
  subst hs hn
  rw [sub_nn_le 12 (Nat.zero_le v)] at h
  cases h
  rfl

theorem add_zero12 {d c : Decimal} (hs : d.scale = 12) (hn : d.negative = false) (h : d.add ⟨0, 12, false⟩ = .ok c) :
    c = d := by
  obtain ⟨v, s, n⟩ := d
  simp only at hs hn
  subst hs hn
  rw [add_nn h]
  rfl

/-- X amounts for ordered prices. -/
theorem xFrom_order {l p a b : Nat} {c : Decimal} (hab : a < b)
    (h : xFromLRpRng ⟨l, 12, false⟩ ⟨p, 12, false⟩ ⟨a, 12, false⟩ ⟨b, 12, false⟩ = .ok c) :
    max (min p b) a ≤ b ∧ 0 < max (min p b) a * b / 10 ^ 12 ∧
      c = ⟨l * (b - max (min p b) a) / 10 ^ 12 * 10 ^ 12 / (max (min p b) a * b / 10 ^ 12), 12, false⟩ := by
  rcases (xFrom_nn h).2.2.2 with h | h
  · exact h
  · omega

/-- What a deposit does to well-kept accounts. -/
structure DepositView (s : Chain) (c : Caller) (lower upper current xa ya : Nat) (t : Chain) (m : Moved)
    (d : DepositData) (p a b l : Nat) : Prop where
  raw : Deposited s c lower upper current xa ya t m d
  cur : current = s.gs.tick
  order : lower < upper
  rp : d.rp = ⟨p, 12, false⟩
  rpa : d.rpa = ⟨a, 12, false⟩
  rpb : d.rpb = ⟨b, 12, false⟩
  prices : a < b
  delta : d.delta = ⟨l, 12, false⟩
  liq : liqFromXYRpRng ⟨xa * 10 ^ 12, 12, false⟩ ⟨ya * 10 ^ 12, 12, false⟩ ⟨p, 12, false⟩ ⟨a, 12, false⟩
    ⟨b, 12, false⟩ = .ok ⟨l, 12, false⟩
  fee : d.fee = Fee.zero
  pos : GoodPosition ⟨c.user, lower, upper⟩ d.pos
  posAmount : d.pos.amount = d.a.pos.amount + d.delta.toRat
  lwr : updateTick d.a.lwr lower d.delta false = .ok d.lwr
  upr : updateTick d.a.upr upper d.delta true = .ok d.upr
  g : GoodGlobal d.g
  gTick : d.g.tick = s.gs.tick
  gRp : d.g.rp = s.gs.rp
  gAmount : d.g.amount = s.gs.amount + (if lower ≤ s.gs.tick ∧ s.gs.tick < upper then 1 else 0) * d.delta.toRat
  xIn : ∃ v, d.xIn = ⟨v, 12, false⟩
  yIn : ∃ v, d.yIn = ⟨v, 12, false⟩
  xDeb : d.xDeb = d.xIn
  yDeb : d.yDeb = d.yIn
  x : m.x = d.xIn.value / 10 ^ 12
  y : m.y = d.yIn.value / 10 ^ 12
  lp : m.lp = l / 10 ^ 12

theorem tickToRp_mk {t : Nat} {c : Decimal} (h : tickToRp t = .ok c) : ∃ v, c = ⟨v, 12, false⟩ ∧ 0 < v := by
  obtain ⟨h1, h2⟩ := Pool.tickToRp_pos h
  obtain ⟨v, rfl⟩ := h1.eq
  exact ⟨v, rfl, toRat_pos_mk.1 h2⟩

theorem tickToRp_order {s t a b : Nat} (h : s < t) (ha : tickToRp s = .ok ⟨a, 12, false⟩)
    (hb : tickToRp t = .ok ⟨b, 12, false⟩) : a < b :=
  toRat_lt_mk.1 (C23_increasing h ha hb)

theorem Good.deposit {s t : Chain} (hs : Good s) {c : Caller} {lower upper current xa ya : Nat} {m : Moved}
    (h : deposit s c lower upper current xa ya = .ok (t, m)) :
    ∃ d p a b l, DepositView s c lower upper current xa ya t m d p a b l := by
  obtain ⟨d, h⟩ := deposit_ok.1 h
  obtain ⟨a1, a2, a3, a4, a5, a6, a7, a8, a9, a10, a11, a12, a13⟩ := loadAccounts_ok.1 h.load
  have gp := hs.pos _ _ a2
  have gl := hs.tick _ _ a4
  have gu := hs.tick _ _ a6
  have hfee : d.fee = Fee.zero := by
    have := h.fee
    rw [hs.gs.fee, gl.fee, gu.fee, gp.fee, show Fee.zero.scale = 12 from rfl, computeLatestFee_zero] at this
    exact (ok_inj.1 this).symm
  obtain ⟨p, ep, _⟩ := tickToRp_mk h.rp
  obtain ⟨a, ea, _⟩ := tickToRp_mk h.rpa
  obtain ⟨b, eb, _⟩ := tickToRp_mk h.rpb
  have hab : a < b := tickToRp_order a3 (ea ▸ h.rpa) (eb ▸ h.rpb)
  have ex := fromInt_compute h.x
  have ey := fromInt_compute h.y
  have hliq := h.delta
  rw [ex, ey, ep, ea, eb] at hliq
  obtain ⟨l, el⟩ : ∃ l, d.delta = ⟨l, 12, false⟩ := by
    rcases liqFrom_nn hliq with ⟨_, _, e⟩ | ⟨_, _, e⟩ | ⟨_, _, _, e⟩ <;> exact ⟨_, e⟩
  have hupd := h.upd
  rw [hfee] at hupd
  obtain ⟨u1, u2, u3, u4⟩ := updatePosition_ok gp hupd
  obtain ⟨g1, g2, g3, g4⟩ := updateGlobal_ok hs.gs h.g
  have hcur : current = s.gs.tick := a9.symm.trans a10
  have hx := h.xIn
  have hy := h.yIn
  rw [el, ep, ea, eb] at hx hy
  have hx' := (xFrom_order hab hx).2.2
  have hy' := yFrom_nn hy
  have hfx := h.fx
  have hfy := h.fy
  rw [hfee, show d.xIn.scale = 12 by rw [hx']] at hfx
  rw [hfee, show d.yIn.scale = 12 by rw [hy']] at hfy
  rw [show feeTerm Fee.zero.fx Fee.zero.hx Fee.zero.scale 12 = .ok ⟨0, 12, false⟩ from by decide, ok_inj] at hfx
  rw [show feeTerm Fee.zero.fy Fee.zero.hy Fee.zero.scale 12 = .ok ⟨0, 12, false⟩ from by decide, ok_inj] at hfy
  have hxd := h.xDeb
  have hyd := h.yDeb
  rw [← hfx] at hxd
  rw [← hfy] at hyd
  have exd := sub_zero12 (by rw [hx']) (by rw [hx']) hxd
  have eyd := sub_zero12 (by rw [hy']) (by rw [hy']) hyd
  refine ⟨d, p, a, b, l, ⟨h, hcur, a3, ep, ea, eb, hab, el, by rw [← el]; exact hliq, hfee, u1, u2, u3, u4, g1, g2, g3, ?_,
    ⟨_, hx'⟩, ⟨_, hy'⟩, exd, eyd, ?_, ?_, ?_⟩⟩
  · rw [g4, hcur]
  · exact ((abs_ok (by rw [exd, hx'])).1 h.dx).1.trans (by rw [exd])
  · exact ((abs_ok (by rw [eyd, hy'])).1 h.dy).1.trans (by rw [eyd])
  · exact ((abs_ok (by rw [el])).1 h.lp).1.trans (by rw [el])

/-- What a withdrawal does to well-kept accounts. -/
structure WithdrawView (s : Chain) (c : Caller) (lower upper current n : Nat) (t : Chain) (m : Moved)
    (d : WithdrawData) (p a b : Nat) : Prop where
  raw : Withdrawn s c lower upper current n t m d
  cur : current = s.gs.tick
  order : lower < upper
  rp : d.rp = ⟨p, 12, false⟩
  rpa : d.rpa = ⟨a, 12, false⟩
  rpb : d.rpb = ⟨b, 12, false⟩
  prices : a < b
  amt : d.amt = ⟨n * 10 ^ 12, 12, false⟩
  amtScale : d.amt.neg.scale = 12
  amtRat : d.amt.neg.toRat = -(n : ℚ)
  fee : d.fee = Fee.zero
  pos : GoodPosition ⟨c.user, lower, upper⟩ d.pos
  posAmount : d.pos.amount = d.a.pos.amount - n
  lwr : updateTick d.a.lwr lower d.amt.neg false = .ok d.lwr
  upr : updateTick d.a.upr upper d.amt.neg true = .ok d.upr
  g : GoodGlobal d.g
  gTick : d.g.tick = s.gs.tick
  gRp : d.g.rp = s.gs.rp
  gAmount : d.g.amount = s.gs.amount + (if lower ≤ s.gs.tick ∧ s.gs.tick < upper then 1 else 0) * -(n : ℚ)
  xOut : xFromLRpRng ⟨n * 10 ^ 12, 12, false⟩ ⟨p, 12, false⟩ ⟨a, 12, false⟩ ⟨b, 12, false⟩ = .ok d.xOut
  yOut : yFromLRpRng ⟨n * 10 ^ 12, 12, false⟩ ⟨p, 12, false⟩ ⟨a, 12, false⟩ ⟨b, 12, false⟩ = .ok d.yOut
  x : m.x = d.xOut.value / 10 ^ 12
  y : m.y = d.yOut.value / 10 ^ 12

theorem neg_neg_amount (v s : Nat) : (Decimal.mk v s false).neg.neg = ⟨v, s, false⟩ := by
  by_cases h : v = 0
  · subst h; rfl
  · have h1 : (Decimal.mk v s false).isNegative = false := rfl
    have h2 : (Decimal.mk v s false).isPositive = true := isPositive_iff.2 ⟨rfl, h⟩
    have h3 : (Decimal.mk v s true).isNegative = true := isNegative_iff.2 ⟨rfl, h⟩
    unfold Decimal.neg
    simp [h1, h2, h3]

theorem Good.withdraw {s t : Chain} (hs : Good s) {c : Caller} {lower upper current n : Nat} {m : Moved}
    (h : withdraw s c lower upper current n = .ok (t, m)) :
    ∃ d p a b, WithdrawView s c lower upper current n t m d p a b := by
  obtain ⟨d, h⟩ := withdraw_ok.1 h
  obtain ⟨a1, a2, a3, a4, a5, a6, a7, a8, a9, a10, a11, a12, a13⟩ := loadAccounts_ok.1 h.load
  have gp := hs.pos _ _ a2
  have gl := hs.tick _ _ a4
  have gu := hs.tick _ _ a6
  have hfee : d.fee = Fee.zero := by
    have := h.fee
    rw [hs.gs.fee, gl.fee, gu.fee, gp.fee, show Fee.zero.scale = 12 from rfl, computeLatestFee_zero] at this
    exact (ok_inj.1 this).symm
  obtain ⟨p, ep, _⟩ := tickToRp_mk h.rp
  obtain ⟨a, ea, _⟩ := tickToRp_mk h.rpa
  obtain ⟨b, eb, _⟩ := tickToRp_mk h.rpb
  have hab : a < b := tickToRp_order a3 (ea ▸ h.rpa) (eb ▸ h.rpb)
  have el := fromInt_compute h.amt
  have hsc : d.amt.neg.scale = 12 := by rw [neg_scale, el]
  have hrat : d.amt.neg.toRat = -(n : ℚ) := by
    rw [neg_toRat, el, toRat_mk]; push_cast; field_simp; norm_num
  have hupd := h.upd
  rw [hfee] at hupd
  obtain ⟨u1, u2, u3, u4⟩ := updatePosition_ok gp hupd
  obtain ⟨g1, g2, g3, g4⟩ := updateGlobal_ok hs.gs h.g
  have hcur : current = s.gs.tick := a9.symm.trans a10
  have hx := h.xOut
  have hy := h.yOut
  rw [el, neg_neg_amount, ep, ea, eb] at hx hy
  have hx' := (xFrom_order hab hx).2.2
  have hy' := yFrom_nn hy
  have hfx := h.fx
  have hfy := h.fy
  rw [hfee, show d.xOut.scale = 12 by rw [hx']] at hfx
  rw [hfee, show d.yOut.scale = 12 by rw [hy']] at hfy
  rw [show feeTerm Fee.zero.fx Fee.zero.hx Fee.zero.scale 12 = .ok ⟨0, 12, false⟩ from by decide, ok_inj] at hfx
  rw [show feeTerm Fee.zero.fy Fee.zero.hy Fee.zero.scale 12 = .ok ⟨0, 12, false⟩ from by decide, ok_inj] at hfy
  have hxd := h.xCred
  have hyd := h.yCred
  rw [← hfx] at hxd
  rw [← hfy] at hyd
  have exd := add_zero12 (by rw [hx']) (by rw [hx']) hxd
  have eyd := add_zero12 (by rw [hy']) (by rw [hy']) hyd
  refine ⟨d, p, a, b, ⟨h, hcur, a3, ep, ea, eb, hab, el, hsc, hrat, hfee, u1, ?_, u3, u4, g1, g2, g3, ?_,
    hx, hy, ?_, ?_⟩⟩
  · rw [u2, hrat]; ring
  · rw [g4, hcur, hrat]
  · exact ((abs_ok (by rw [exd, hx'])).1 h.dx).1.trans (by rw [exd])
  · exact ((abs_ok (by rw [eyd, hy'])).1 h.dy).1.trans (by rw [eyd])

theorem UniqueKeys.nil {κ α : Type} : UniqueKeys ([] : List (κ × α)) := List.nodup_nil

theorem Good.init {tick supply : Nat} {s : Chain} (h : initializePool tick supply = .ok s) : Good s := by
  unfold initializePool at h
  rw [bind_ok] at h; obtain ⟨q, h1, h⟩ := h
  rw [bind_ok] at h; obtain ⟨r, h2, h⟩ := h
  rw [pure_ok] at h; subst h
  obtain ⟨v, rfl, _⟩ := tickToRp_mk h1
  have := toScale_same (s := 12) rfl h2
  subst this
  exact ⟨⟨rfl, rfl, rfl, _, h1, rfl⟩, fun _ _ h => by simp [mapGet] at h, fun _ _ h => by simp [mapGet] at h, .nil⟩

theorem initializeTick_ok {s t : Chain} {tick : Nat} : initializeTick s tick = .ok t ↔
    mapGet tick s.ticks = none ∧
    t = { s with ticks := mapSet tick ⟨0, liquidityScale, 0, 0, liquidityScale, tick, Fee.zero⟩ s.ticks } := by
  unfold initializeTick
  simp only [bind_ok, constraint_ok, pure_ok, Option.isNone_iff_eq_none]
  constructor
  · rintro ⟨_, h, rfl⟩; exact ⟨h, rfl⟩
  · rintro ⟨h, rfl⟩; exact ⟨(), h, rfl⟩

theorem createPosition_ok {s t : Chain} {user lower upper : Nat} (h : createPosition s user lower upper = .ok t) :
    mapGet (⟨user, lower, upper⟩ : PosKey) s.positions = none ∧ lower < upper ∧
    (mapGet lower s.ticks).isSome ∧ (mapGet upper s.ticks).isSome ∧
    t = { s with positions := mapSet ⟨user, lower, upper⟩ ⟨0, liquidityScale, lower, upper, Fee.zero⟩ s.positions } := by
  unfold createPosition at h
  simp only [bind_ok, constraint_ok, load_ok, pure_ok, Option.isNone_iff_eq_none, decide_eq_true_eq] at h
  obtain ⟨_, h1, _, h2, l, h3, u, h4, rfl⟩ := h
  exact ⟨h1, h2, by rw [h3]; rfl, by rw [h4]; rfl, rfl⟩

theorem mapGet_set {κ α : Type} [DecidableEq κ] (k j : κ) (v : α) (m : List (κ × α)) :
    mapGet j (mapSet k v m) = if j = k then some v else mapGet j m := by
  split
  · next h => subst h; exact mapGet_set_same _ _ _
  · next h => exact mapGet_set_other h _ _

/-- The tick accounts after a deposit or withdrawal. -/
theorem writeBack_tick {s : Chain} {g : Global} {user lower upper current : Nat} {l : Loaded} (j : Nat) :
    mapGet j (writeBack s g user lower upper current l).ticks =
      if j = current then some l.cur else if j = upper then some l.upr else if j = lower then some l.lwr
      else mapGet j s.ticks := by
  unfold writeBack
  simp only [mapGet_set]

theorem Good.write {s : Chain} (hs : Good s) {g : Global} {user lower upper current : Nat} {l : Loaded}
    (hg : GoodGlobal g) (hp : GoodPosition ⟨user, lower, upper⟩ l.pos) (hl : GoodTick lower l.lwr)
    (hu : GoodTick upper l.upr) (hc : GoodTick current l.cur) :
    Good (writeBack s g user lower upper current l) := by
  refine ⟨hg, fun j ts h => ?_, fun k p h => ?_, hs.unique.set _ _⟩
  · rw [writeBack_tick] at h
    split at h
    · next e => cases h; rw [e]; exact hc
    · split at h
      · next e => cases h; rw [e]; exact hu
      · split at h
        · next e => cases h; rw [e]; exact hl
        · exact hs.tick _ _ h
  · change mapGet k (mapSet _ _ _) = _ at h
    rw [mapGet_set] at h
    split at h
    · next e => cases h; rw [e]; exact hp
    · exact hs.pos _ _ h

theorem Good.of_eq {s t : Chain} (hs : Good s) (h1 : t.gs = s.gs) (h2 : t.ticks = s.ticks)
    (h3 : t.positions = s.positions) : Good t :=
  ⟨h1 ▸ hs.gs, h2 ▸ hs.tick, h3 ▸ hs.pos, h3 ▸ hs.unique⟩

theorem DepositView.good {s : Chain} (hs : Good s) {c : Caller} {lower upper current xa ya : Nat} {t : Chain}
    {m : Moved} {d : DepositData} {p a b l : Nat} (h : DepositView s c lower upper current xa ya t m d p a b l) :
    Good t := by
  obtain ⟨a1, a2, a3, a4, a5, a6, a7, a8, a9, a10, a11, a12, a13⟩ := loadAccounts_ok.1 h.raw.load
  have k := hs.write (l := ⟨d.b, d.pos, d.lwr, d.upr, d.a.cur⟩) h.g h.pos
    (updateTick_ok (hs.tick _ _ a4) h.lwr).2.1 (updateTick_ok (hs.tick _ _ a6) h.upr).2.1 (hs.tick _ _ a8)
  rw [h.raw.result]
  exact k.of_eq rfl rfl rfl

theorem WithdrawView.good {s : Chain} (hs : Good s) {c : Caller} {lower upper current n : Nat} {t : Chain}
    {m : Moved} {d : WithdrawData} {p a b : Nat} (h : WithdrawView s c lower upper current n t m d p a b) :
    Good t := by
  obtain ⟨a1, a2, a3, a4, a5, a6, a7, a8, a9, a10, a11, a12, a13⟩ := loadAccounts_ok.1 h.raw.load
  have k := hs.write (l := ⟨d.b, d.pos, d.lwr, d.upr, d.a.cur⟩) h.g h.pos
    (updateTick_ok (hs.tick _ _ a4) h.lwr).2.1 (updateTick_ok (hs.tick _ _ a6) h.upr).2.1 (hs.tick _ _ a8)
  rw [h.raw.result]
  exact k.of_eq rfl rfl rfl

theorem initializeBitmap_ok {s t : Chain} : initializeBitmap s = .ok t ↔
    s.bitmap = none ∧ t = { s with bitmap := some Bitmap.empty } := by
  unfold initializeBitmap
  simp only [bind_ok, constraint_ok, pure_ok, Option.isNone_iff_eq_none]
  constructor
  · rintro ⟨_, h, rfl⟩; exact ⟨h, rfl⟩
  · rintro ⟨h, rfl⟩; exact ⟨(), h, rfl⟩

/-- A step is one of six things. -/
theorem Step.cases {s t : Chain} (h : Step s t) :
    initializeBitmap s = .ok t ∨ (∃ tick, initializeTick s tick = .ok t) ∨
    (∃ user lower upper, createPosition s user lower upper = .ok t) ∨
    (∃ c lower upper current x y m, OnChain.deposit s c lower upper current x y = .ok (t, m)) ∨
    (∃ c lower upper current n m, OnChain.withdraw s c lower upper current n = .ok (t, m)) ∨ External s t := by
  cases h with
  | instr i h =>
    cases i with
    | initializeBitmap => exact .inl h
    | initializeTick t => exact .inr (.inl ⟨_, h⟩)
    | createPosition u l h' => exact .inr (.inr (.inl ⟨_, _, _, h⟩))
    | deposit c l h' cur x y =>
      unfold exec at h
      rw [bind_ok] at h
      obtain ⟨⟨t', m⟩, h1, h⟩ := h
      rw [pure_ok] at h; subst h
      exact .inr (.inr (.inr (.inl ⟨_, _, _, _, _, _, _, h1⟩)))
    | withdraw c l h' cur n =>
      unfold exec at h
      rw [bind_ok] at h
      obtain ⟨⟨t', m⟩, h1, h⟩ := h
      rw [pure_ok] at h; subst h
      exact .inr (.inr (.inr (.inr (.inl ⟨_, _, _, _, _, _, h1⟩))))
  | external h => exact .inr (.inr (.inr (.inr (.inr h))))

theorem Good.initTick {s t : Chain} (hs : Good s) {tick : Nat} (h : initializeTick s tick = .ok t) : Good t := by
  obtain ⟨_, rfl⟩ := initializeTick_ok.1 h
  refine ⟨hs.gs, fun j ts h => ?_, hs.pos, hs.unique⟩
  simp only [mapGet_set] at h
  split at h
  · next e => cases h; subst e; exact ⟨rfl, rfl, rfl, rfl⟩
  · exact hs.tick _ _ h

theorem Good.create {s t : Chain} (hs : Good s) {user lower upper : Nat}
    (h : createPosition s user lower upper = .ok t) : Good t := by
  obtain ⟨_, h1, _, _, rfl⟩ := createPosition_ok h
  refine ⟨hs.gs, hs.tick, fun k p h => ?_, hs.unique.set _ _⟩
  simp only [mapGet_set] at h
  split at h
  · next e => cases h; rw [e]; exact ⟨rfl, rfl, h1, rfl, rfl⟩
  · exact hs.pos _ _ h

theorem Good.step {s t : Chain} (hs : Good s) (h : Step s t) : Good t := by
  rcases h.cases with h | ⟨_, h⟩ | ⟨_, _, _, h⟩ | ⟨_, _, _, _, _, _, _, h⟩ | ⟨_, _, _, _, _, _, h⟩ | h
  · obtain ⟨_, rfl⟩ := initializeBitmap_ok.1 h
    exact hs.of_eq rfl rfl rfl
  · exact hs.initTick h
  · exact hs.create h
  · obtain ⟨d, p, a, b, l, v⟩ := hs.deposit h
    exact v.good hs
  · obtain ⟨d, p, a, b, v⟩ := hs.withdraw h
    exact v.good hs
  · exact hs.of_eq h.gs h.ticks h.positions

theorem Good.reachable {supply0 : Nat} {s : Chain} (h : Reachable supply0 s) : Good s := by
  induction h with
  | init tick h => exact .init h
  | step _ h ih => exact ih.step h

/-! ### Sums over positions -/

theorem sumPos_eq (s : Chain) (w : PosKey → ℚ) : s.sumPos w = mapSum (fun k p => w k * Position.amount p) s.positions := rfl

theorem sumPos_write {s : Chain} {g : Global} {user lower upper current : Nat} {l : Loaded} {p : Position}
    (h : mapGet (⟨user, lower, upper⟩ : PosKey) s.positions = some p) (w : PosKey → ℚ) :
    (writeBack s g user lower upper current l).sumPos w =
      s.sumPos w + w ⟨user, lower, upper⟩ * (l.pos.amount - p.amount) := by
  rw [sumPos_eq, sumPos_eq]
  unfold writeBack
  simp only
  rw [mapSum_set, h]
  simp only [Option.elim]
  ring

theorem sumPos_of_eq {s t : Chain} (h : t.positions = s.positions) (w : PosKey → ℚ) : t.sumPos w = s.sumPos w := by
  unfold Chain.sumPos; rw [h]

theorem DepositView.sumPos {s : Chain} {c : Caller} {lower upper current xa ya : Nat} {t : Chain}
    {m : Moved} {d : DepositData} {p a b l : Nat} (h : DepositView s c lower upper current xa ya t m d p a b l)
    (w : PosKey → ℚ) : t.sumPos w = s.sumPos w + w ⟨c.user, lower, upper⟩ * d.delta.toRat := by
  rw [sumPos_of_eq (t := t) (s := writeBack s d.g c.user lower upper current ⟨d.b, d.pos, d.lwr, d.upr, d.a.cur⟩)
    (by rw [h.raw.result]), sumPos_write (loadAccounts_ok.1 h.raw.load).2.1, h.posAmount]
  ring

theorem WithdrawView.sumPos {s : Chain} {c : Caller} {lower upper current n : Nat} {t : Chain}
    {m : Moved} {d : WithdrawData} {p a b : Nat} (h : WithdrawView s c lower upper current n t m d p a b)
    (w : PosKey → ℚ) : t.sumPos w = s.sumPos w - w ⟨c.user, lower, upper⟩ * n := by
  rw [sumPos_of_eq (t := t) (s := writeBack s d.g c.user lower upper current ⟨d.b, d.pos, d.lwr, d.upr, d.a.cur⟩)
    (by rw [h.raw.result]), sumPos_write (loadAccounts_ok.1 h.raw.load).2.1, h.posAmount]
  ring

theorem create_sumPos {s t : Chain} {user lower upper : Nat}
    (h : createPosition s user lower upper = .ok t) (w : PosKey → ℚ) : t.sumPos w = s.sumPos w := by
  obtain ⟨h0, h1, _, _, rfl⟩ := createPosition_ok h
  rw [sumPos_eq, sumPos_eq]
  simp only
  rw [mapSum_set, h0]
  simp [Position.amount]

theorem initPool_ok {tick supply : Nat} {s : Chain} (h : initializePool tick supply = .ok s) :
    s.gs.liq = 0 ∧ s.gs.tick = tick ∧ s.positions = [] ∧ s.ticks = [] ∧ s.lpSupply = supply ∧ s.bitmap = none ∧
    s.vaultX = 0 ∧ s.vaultY = 0 ∧ s.gs.rpScale = 12 := by
  unfold initializePool at h
  rw [bind_ok] at h; obtain ⟨q, h1, h⟩ := h
  rw [bind_ok] at h; obtain ⟨r, h2, h⟩ := h
  rw [pure_ok] at h; subst h
  exact ⟨rfl, rfl, rfl, rfl, rfl, rfl, rfl, rfl, rfl⟩

/-- A position never has negative liquidity. -/
theorem amount_nonneg (p : Position) : 0 ≤ p.amount := by unfold Position.amount; positivity

/-! ### The global liquidity -/

theorem active_reachable {supply0 : Nat} {s : Chain} (h : Reachable supply0 s) :
    s.gs.amount = s.inRange s.gs.tick := by
  induction h with
  | init tick h =>
    obtain ⟨h1, _, h3, _⟩ := initPool_ok h
    unfold Global.amount Chain.inRange Chain.sumPos
    rw [h1, h3]; simp
  | @step s t hr h ih =>
    have hs := Good.reachable hr
    unfold Chain.inRange at *
    rcases h.cases with h | ⟨_, h⟩ | ⟨_, _, _, h⟩ | ⟨_, _, _, _, _, _, _, h⟩ | ⟨_, _, _, _, _, _, h⟩ | h
    · obtain ⟨_, rfl⟩ := initializeBitmap_ok.1 h
      exact ih
    · obtain ⟨_, rfl⟩ := initializeTick_ok.1 h
      exact ih
    · rw [create_sumPos h]
      obtain ⟨h0, h1, _, _, rfl⟩ := createPosition_ok h
      exact ih
    · obtain ⟨d, p, a, b, l, v⟩ := hs.deposit h
      have e : t.gs = d.g := by rw [v.raw.result]; rfl
      rw [v.sumPos, e, v.gTick, v.gAmount, ih]
    · obtain ⟨d, p, a, b, v⟩ := hs.withdraw h
      have e : t.gs = d.g := by rw [v.raw.result]; rfl
      rw [v.sumPos, e, v.gTick, v.gAmount, ih]
      ring
    · rw [sumPos_of_eq h.positions, h.gs, ih]

/-! ### The tick accounts -/

/-- Tick accounts agree with the positions, except the one at the pool's tick, which stays empty. -/
structure TickBooks (s : Chain) : Prop where
  other : ∀ t ts, t ≠ s.gs.tick → mapGet t s.ticks = some ts →
    ts.grossAmount = s.startingAt t + s.endingAt t ∧ ts.netAmount = s.startingAt t - s.endingAt t
  here : ∀ ts, mapGet s.gs.tick s.ticks = some ts → ts.gross = 0 ∧ ts.net = 0
  none : ∀ k p, mapGet k s.positions = some p → (mapGet k.lower s.ticks).isSome ∧ (mapGet k.upper s.ticks).isSome

theorem sumPos_zero {s : Chain} {w : PosKey → ℚ} (h : ∀ k p, (k, p) ∈ s.positions → w k = 0) : s.sumPos w = 0 := by
  rw [sumPos_eq, mapSum_congr (g := fun _ _ => 0) (fun k p hm => by rw [h k p hm, zero_mul])]
  unfold mapSum
  simp

theorem TickBooks.write {s : Chain} (hb : TickBooks s) {g : Global} {user lower upper : Nat}
    {l : Loaded} {lwr upr : Tick} {pos : Position} {e : ℚ} (hlu : lower < upper) (hg : g.tick = s.gs.tick)
    (hp : mapGet (⟨user, lower, upper⟩ : PosKey) s.positions = some pos)
    (hpa : l.pos.amount = pos.amount + e)
    (h1 : mapGet lower s.ticks = some lwr) (h2 : mapGet upper s.ticks = some upr)
    (h3 : mapGet s.gs.tick s.ticks = some l.cur)
    (hl : l.lwr.grossAmount = lwr.grossAmount + e ∧ l.lwr.netAmount = lwr.netAmount + e)
    (hu : l.upr.grossAmount = upr.grossAmount + e ∧ l.upr.netAmount = upr.netAmount - e) :
    TickBooks (writeBack s g user lower upper s.gs.tick l) := by
  have hgs : (writeBack s g user lower upper s.gs.tick l).gs.tick = s.gs.tick := hg
  refine ⟨fun t ts ht hm => ?_, fun ts hm => ?_, fun k p hk => ?_⟩
  · rw [hgs] at ht
    rw [writeBack_tick, if_neg ht] at hm
    unfold Chain.startingAt Chain.endingAt
    rw [sumPos_write hp, sumPos_write hp, hpa]
    split at hm
    · next e' =>
      cases hm
      have := hb.other upper upr (by omega) h2
      unfold Chain.startingAt Chain.endingAt at this
      rw [e', hu.1, hu.2, this.1, this.2, if_neg (by show ¬ lower = upper; omega), if_pos rfl]
      constructor <;> ring
    · next e1 =>
      split at hm
      · next e' =>
        cases hm
        have := hb.other lower lwr (by omega) h1
        unfold Chain.startingAt Chain.endingAt at this
        rw [e', hl.1, hl.2, this.1, this.2, if_pos rfl, if_neg (by show ¬ upper = lower; omega)]
        constructor <;> ring
      · next e2 =>
        have := hb.other t ts ht hm
        unfold Chain.startingAt Chain.endingAt at this
        rw [if_neg (by show ¬ lower = t; omega), if_neg (by show ¬ upper = t; omega), this.1, this.2]
        constructor <;> ring
  · rw [hgs, writeBack_tick, if_pos rfl] at hm
    cases hm
    exact hb.here _ h3
  · have hk' : (mapGet k.lower s.ticks).isSome ∧ (mapGet k.upper s.ticks).isSome := by
      change mapGet k (mapSet _ _ _) = _ at hk
      rw [mapGet_set] at hk
      split at hk
      · next e => rw [e]; exact ⟨by rw [h1]; rfl, by rw [h2]; rfl⟩
      · exact hb.none _ _ hk
    have aux : ∀ j, (mapGet j s.ticks).isSome → (mapGet j (writeBack s g user lower upper s.gs.tick l).ticks).isSome := by
      intro j hj
      rw [writeBack_tick]
      split
      · rfl
      · split
        · rfl
        · split
          · rfl
          · exact hj
    exact ⟨aux _ hk'.1, aux _ hk'.2⟩

theorem TickBooks.of_eq {s t : Chain} (hs : TickBooks s) (h1 : t.gs.tick = s.gs.tick) (h2 : t.ticks = s.ticks)
    (h3 : t.positions = s.positions) : TickBooks t := by
  refine ⟨fun j ts hj hm => ?_, fun ts hm => ?_, fun k p hk => ?_⟩
  · unfold Chain.startingAt Chain.endingAt
    rw [sumPos_of_eq h3, sumPos_of_eq h3]
    exact hs.other j ts (h1 ▸ hj) (h2 ▸ hm)
  · rw [h1, h2] at hm; exact hs.here ts hm
  · rw [h2]; rw [h3] at hk; exact hs.none k p hk

theorem get_of_mem' {κ α : Type} [DecidableEq κ] {k : κ} {v : α} {m : List (κ × α)} (hm : (k, v) ∈ m) :
    ∃ v', mapGet k m = some v' := by
  have : k ∈ m.map (·.1) := List.mem_map.2 ⟨_, hm, rfl⟩
  exact Option.isSome_iff_exists.1 (mapGet_isSome.2 this)

theorem TickBooks.step {s t : Chain} (hs : Good s) (hb : TickBooks s) (h : Step s t) : TickBooks t := by
  rcases h.cases with h | ⟨tick, h⟩ | ⟨user, lower, upper, h⟩ | ⟨_, _, _, _, _, _, _, h⟩ | ⟨_, _, _, _, _, _, h⟩ | h
  · obtain ⟨_, rfl⟩ := initializeBitmap_ok.1 h
    exact hb.of_eq rfl rfl rfl
  · obtain ⟨h0, rfl⟩ := initializeTick_ok.1 h
    refine ⟨fun j ts hj hm => ?_, fun ts hm => ?_, fun k p hk => ?_⟩
    · simp only [mapGet_set] at hm
      split at hm
      · next e =>
        subst e
        cases hm
        have z1 : s.startingAt j = 0 := sumPos_zero fun k p hk => by
          obtain ⟨p', hp'⟩ := get_of_mem' hk
          rw [if_neg]
          rintro rfl
          have := (hb.none _ _ hp').1
          rw [h0] at this
          simp at this
        have z2 : s.endingAt j = 0 := sumPos_zero fun k p hk => by
          obtain ⟨p', hp'⟩ := get_of_mem' hk
          rw [if_neg]
          rintro rfl
          have := (hb.none _ _ hp').2
          rw [h0] at this
          simp at this
        change _ = s.startingAt j + s.endingAt j ∧ _ = s.startingAt j - s.endingAt j
        rw [z1, z2]
        simp [Tick.grossAmount, Tick.netAmount]
      · exact hb.other j ts hj hm
    · simp only [mapGet_set] at hm
      split at hm
      · cases hm; exact ⟨rfl, rfl⟩
      · exact hb.here ts hm
    · have := hb.none k p hk
      simp only [mapGet_set]
      constructor
      · split
        · rfl
        · exact this.1
      · split
        · rfl
        · exact this.2
  · have e := create_sumPos h
    obtain ⟨h0, h1, h2, h3, rfl⟩ := createPosition_ok h
    refine ⟨fun j ts hj hm => ?_, fun ts hm => hb.here ts hm, fun k p hk => ?_⟩
    · unfold Chain.startingAt Chain.endingAt
      rw [e, e]
      exact hb.other j ts hj hm
    · simp only [mapGet_set] at hk
      split at hk
      · next e => rw [e]; exact ⟨h2, h3⟩
      · exact hb.none k p hk
  · obtain ⟨d, p, a, b, l, v⟩ := hs.deposit h
    obtain ⟨a1, a2, a3, a4, a5, a6, a7, a8, a9, a10, a11, a12, a13⟩ := loadAccounts_ok.1 v.raw.load
    have hl := (updateTick_ok (hs.tick _ _ a4) v.lwr).2.2
    have hu := (updateTick_ok (hs.tick _ _ a6) v.upr).2.2
    have hc := v.cur
    subst hc
    have k := TickBooks.write hb (g := d.g) (l := ⟨d.b, d.pos, d.lwr, d.upr, d.a.cur⟩) a3 v.gTick a2 v.posAmount
      a4 a6 a8 (by simpa using hl) (by simpa [sub_eq_add_neg] using hu)
    rw [v.raw.result]
    exact k.of_eq rfl rfl rfl
  · obtain ⟨d, p, a, b, v⟩ := hs.withdraw h
    obtain ⟨a1, a2, a3, a4, a5, a6, a7, a8, a9, a10, a11, a12, a13⟩ := loadAccounts_ok.1 v.raw.load
    have hl := (updateTick_ok (hs.tick _ _ a4) v.lwr).2.2
    have hu := (updateTick_ok (hs.tick _ _ a6) v.upr).2.2
    have hc := v.cur
    subst hc
    have k := TickBooks.write hb (g := d.g) (l := ⟨d.b, d.pos, d.lwr, d.upr, d.a.cur⟩) a3 v.gTick a2
      (v.posAmount.trans (by rw [sub_eq_add_neg, ← v.amtRat]))
      a4 a6 a8 (by simpa using hl) (by simpa [sub_eq_add_neg] using hu)
    rw [v.raw.result]
    exact k.of_eq rfl rfl rfl
  · exact hb.of_eq (by rw [h.gs]) h.ticks h.positions

theorem TickBooks.reachable {supply0 : Nat} {s : Chain} (h : Reachable supply0 s) : TickBooks s := by
  induction h with
  | init tick h =>
    obtain ⟨h1, h2, h3, h4, _⟩ := initPool_ok h
    refine ⟨fun j ts hj hm => ?_, fun ts hm => ?_, fun k p hk => ?_⟩
    · rw [h4] at hm; simp [mapGet] at hm
    · rw [h4] at hm; simp [mapGet] at hm
    · rw [h3] at hk; simp [mapGet] at hk
  | step hr h ih => exact .step (Good.reachable hr) ih h

/-! ### LP tokens -/

theorem floor_le (l : Nat) : ((l / 10 ^ 12 : Nat) : ℚ) ≤ (l : ℚ) / 10 ^ 12 := by
  rw [le_div_iff₀ (by norm_num)]
  exact_mod_cast Nat.div_mul_le_self l (10 ^ 12)

theorem backed_reachable {supply0 : Nat} {s : Chain} (h : Reachable supply0 s) :
    (s.lpSupply : ℚ) ≤ supply0 + s.totalLiquidity := by
  unfold Chain.totalLiquidity
  induction h with
  | init tick h =>
    obtain ⟨_, _, h3, _, h5, _⟩ := initPool_ok h
    unfold Chain.sumPos
    rw [h3, h5]; simp
  | @step s t hr h ih =>
    have hs := Good.reachable hr
    rcases h.cases with h | ⟨_, h⟩ | ⟨_, _, _, h⟩ | ⟨_, _, _, _, _, _, _, h⟩ | ⟨_, _, _, _, _, n, h⟩ | h
    · obtain ⟨_, rfl⟩ := initializeBitmap_ok.1 h
      exact ih
    · obtain ⟨_, rfl⟩ := initializeTick_ok.1 h
      exact ih
    · rw [create_sumPos h]
      obtain ⟨h0, h1, _, _, rfl⟩ := createPosition_ok h
      exact ih
    · obtain ⟨d, p, a, b, l, v⟩ := hs.deposit h
      rw [v.sumPos, v.delta, toRat_mk, v.raw.result, v.lp]
      simp only
      push_cast
      have := floor_le l
      linarith
    · obtain ⟨d, p, a, b, v⟩ := hs.withdraw h
      have hn := v.raw.supply
      rw [v.sumPos, v.raw.result]
      simp only
      rw [Nat.cast_sub hn]
      linarith
    · rw [sumPos_of_eq h.positions]
      have : (t.lpSupply : ℚ) ≤ s.lpSupply := by exact_mod_cast h.supply
      linarith

end Hmm.OnChain
