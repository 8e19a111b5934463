import Verif.Proofs.InParts
import Verif.Proofs.WorldOffers

/-
Deposits in parts.
-/

namespace Hmm.Pool

open Decimal PoolMath
open Hmm.OnChain.World (Super super_mul super_div)

/-! ### Liquidity and amounts in units -/

/-- The liquidity for an offer of `x` and `y` at root price `p` in the range from `a` to `b`. -/
def memLiq (K p a b x y : Nat) : Nat :=
  if p ≤ a then x * a / K * b / K * K / (b - a)
  else if p < b then min (x * p / K * b / K * K / (b - p)) (y * K / (p - a))
  else y * K / (b - a)

theorem super_lx (K p b : Nat) : Super fun x => x * p / K * b / K * K / (b - p) := by
  have h1 : Super fun x => x * p := super_mul p
  have h2 : Super fun x => x * p / K := (super_div K).comp h1
  have h3 : Super fun x => x * p / K * b := (super_mul b).comp h2
  have h4 : Super fun x => x * p / K * b / K := (super_div K).comp h3
  have h5 : Super fun x => x * p / K * b / K * K := (super_mul K).comp h4
  exact (super_div (b - p)).comp h5

theorem super_ly (K d : Nat) : Super fun y => y * K / d := (super_div d).comp (super_mul K)

theorem memLiq_add (K p a b x y x' y' : Nat) :
    memLiq K p a b x y + memLiq K p a b x' y' ≤ memLiq K p a b (x + x') (y + y') := by
  unfold memLiq
  split
  · exact super_lx K a b x x'
  · split
    · have h1 := super_lx K p b x x'
      have h2 := super_ly K (p - a) y y'
      simp only at h1 h2
      refine le_min (le_trans ?_ h1) (le_trans ?_ h2)
      · exact Nat.add_le_add (min_le_left _ _) (min_le_left _ _)
      · exact Nat.add_le_add (min_le_right _ _) (min_le_right _ _)
    · exact super_ly K (b - a) y y'

theorem memLiq_mono (K p a b : Nat) {x y x' y' : Nat} (hx : x ≤ x') (hy : y ≤ y') :
    memLiq K p a b x y ≤ memLiq K p a b x' y' := by
  obtain ⟨c, rfl⟩ := Nat.exists_eq_add_of_le hx
  obtain ⟨d, rfl⟩ := Nat.exists_eq_add_of_le hy
  exact (Nat.le_add_right _ _).trans (memLiq_add ..)

/-- What liquidity takes of X. -/
def memX (K p a b l : Nat) : Nat := l * (b - max (min p b) a) / K * K / (max (min p b) a * b / K)

/-- What liquidity takes of Y. -/
def memY (K p a b l : Nat) : Nat := l * (max (min p b) a - a) / K

theorem super_memX (K p a b : Nat) : Super (memX K p a b) := by
  have h1 : Super fun l => l * (b - max (min p b) a) := super_mul _
  have h2 : Super fun l => l * (b - max (min p b) a) / K := (super_div K).comp h1
  have h3 : Super fun l => l * (b - max (min p b) a) / K * K := (super_mul K).comp h2
  exact (super_div _).comp h3

theorem super_memY (K p a b : Nat) : Super (memY K p a b) := (super_div K).comp (super_mul _)

/-! ### One deposit -/

theorem deposit_quote {p p' : Pool} (rp : Reachable p) {o : Offer} {r : Receipt} {key : PositionKey} {rv av bv : Nat}
    (h : p.deposit o.user o.x o.y o.rpa o.rpb = .ok (p', r)) (hn : Names p key o.rpa o.rpb)
    (hx : o.x.Amount 12) (hy : o.y.Amount 12) (er : p.gs.rp = ⟨rv, 12, false⟩)
    (ha : tickToRp key.lower = .ok ⟨av, 12, false⟩) (hb : tickToRp key.upper = .ok ⟨bv, 12, false⟩) :
    r.x = ⟨memX (10 ^ 12) rv av bv (memLiq (10 ^ 12) rv av bv o.x.value o.y.value), 12, false⟩ ∧
    r.y = ⟨memY (10 ^ 12) rv av bv (memLiq (10 ^ 12) rv av bv o.x.value o.y.value), 12, false⟩ ∧
    p'.totalLiq = p.totalLiq + (⟨memLiq (10 ^ 12) rv av bv o.x.value o.y.value, 12, false⟩ : Decimal).toRat ∧
    p'.x.toRat = p.x.toRat + r.x.toRat ∧ p'.y.toRat = p.y.toRat + r.y.toRat ∧ p'.gs.rp = p.gs.rp ∧
    p'.spacing = p.spacing := by
  obtain ⟨lower, upper, a, b, liq, p1, p2, px, py, _, _, _, _, g1, g2, hlu, g3, g4, hl, _, kx, _, ky, _, hs, _, _, sx, sy,
    hf, rfl⟩ := deposit_ok h
  rw [hn.1] at g1; cases g1
  rw [hn.2] at g2; cases g2
  rw [ha] at g3; cases g3
  rw [hb] at g4; cases g4
  have hab := price_mono hlu.le ha hb
  rw [toRat_le_mk] at hab
  rw [er] at hl kx ky
  obtain ⟨xv, ex⟩ := hx.eq
  obtain ⟨yv, ey⟩ := hy.eq
  rw [ex, ey] at hl ⊢
  simp only
  have el : liq = ⟨memLiq (10 ^ 12) rv av bv xv yv, 12, false⟩ := by
    unfold memLiq
    rcases liqFrom_nn hl with ⟨c1, _, rfl⟩ | ⟨c1, c2, rfl⟩ | ⟨c1, c2, _, rfl⟩
    · rw [if_pos c1]
    · rw [if_neg (by omega), if_pos c2]
    · rw [if_neg (by omega), if_neg (by omega)]
  subst el
  generalize memLiq (10 ^ 12) rv av bv xv yv = l at *
  have e1 : r.x = ⟨memX (10 ^ 12) rv av bv l, 12, false⟩ := by
    rcases xFrom_nn kx with ⟨_, _, _, ⟨_, _, e⟩ | ⟨c, _⟩⟩
    · exact e
    · omega
  have e2 : r.y = ⟨memY (10 ^ 12) rv av bv l, 12, false⟩ := yFrom_nn ky
  obtain ⟨f1, _, f3, f4, _⟩ := payFees_frame hf
  have fr := setPosition_frame hs
  refine ⟨e1, e2, ?_, ?_, ?_, ?_, ?_⟩
  · have w := sumPos_setPosition (Booked.reachable rp).unique hs (fun _ => 1)
    unfold totalLiq
    simp only [f1]
    rw [w, one_mul]
  · show px.toRat = _
    rw [add_toRat sx, show p1.x = p.x by rw [fr]]
  · show py.toRat = _
    rw [add_toRat sy, show p1.y = p.y by rw [fr]]
  · show p2.gs.rp = _
    rw [f3, fr]
  · show p2.spacing = _
    rw [f4, fr]

/-! ### Many deposits -/

theorem units {v : Nat} : (⟨v, 12, false⟩ : Decimal).toRat = (v : ℚ) / 10 ^ 12 := toRat_mk v 12

theorem deposits_quote {key : PositionKey} {rv av bv : Nat} {p q : Pool} {os : List (Offer × Receipt)}
    (g : Deposits p os q) : Reachable p → (∀ d ∈ os, Names p key d.1.rpa d.1.rpb) →
    (∀ d ∈ os, d.1.x.Amount 12 ∧ d.1.y.Amount 12) → p.gs.rp = ⟨rv, 12, false⟩ →
    tickToRp key.lower = .ok ⟨av, 12, false⟩ → tickToRp key.upper = .ok ⟨bv, 12, false⟩ →
    ∃ ls : List Nat, ls.sum ≤ memLiq (10 ^ 12) rv av bv (os.map fun d => d.1.x.value).sum (os.map fun d => d.1.y.value).sum ∧
      (os.map fun d => d.2.x.toRat).sum = ((ls.map (memX (10 ^ 12) rv av bv)).sum : ℚ) / 10 ^ 12 ∧
      (os.map fun d => d.2.y.toRat).sum = ((ls.map (memY (10 ^ 12) rv av bv)).sum : ℚ) / 10 ^ 12 ∧
      q.totalLiq = p.totalLiq + (ls.sum : ℚ) / 10 ^ 12 ∧
      q.x.toRat = p.x.toRat + (os.map fun d => d.2.x.toRat).sum ∧
      q.y.toRat = p.y.toRat + (os.map fun d => d.2.y.toRat).sum := by
  induction g with
  | nil => intros; exact ⟨[], by simp⟩
  | @cons p p1 q o r os h _ ih =>
    intro rp hn ha er hla hlb
    have hn1 : Names p key o.rpa o.rpb := hn (o, r) (List.mem_cons_self ..)
    have ha1 : o.x.Amount 12 ∧ o.y.Amount 12 := ha (o, r) (List.mem_cons_self ..)
    obtain ⟨q1, q2, q3, q4, q5, q6, q7⟩ := deposit_quote (o := o) (key := key) rp h hn1 ha1.1 ha1.2 er hla hlb
    obtain ⟨ls, i1, i2, i3, i4, i5, i6⟩ := ih (.step rp (.deposit h))
      (fun d hd => (hn d (List.mem_cons_of_mem _ hd)).congr q7) (fun d hd => ha d (List.mem_cons_of_mem _ hd))
      (q6.trans er) hla hlb
    simp only [List.map_cons, List.sum_cons]
    refine ⟨memLiq (10 ^ 12) rv av bv o.x.value o.y.value :: ls, ?_, ?_, ?_, ?_, ?_, ?_⟩
    · rw [List.sum_cons]
      have k := fun K => memLiq_add K rv av bv o.x.value o.y.value (os.map fun d => d.1.x.value).sum
        (os.map fun d => d.1.y.value).sum
      exact (Nat.add_le_add_left i1 _).trans (k _)
    · rw [i2, q1, units, List.map_cons, List.sum_cons]; push_cast; ring
    · rw [i3, q2, units, List.map_cons, List.sum_cons]; push_cast; ring
    · rw [i4, q3, units, List.sum_cons]; push_cast; ring
    · rw [i5, q4]; ring
    · rw [i6, q5]; ring

end Hmm.Pool
