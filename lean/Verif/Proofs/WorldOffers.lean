import Verif.Proofs.WorldGather

/-
An offer made in parts.
-/

namespace Hmm.OnChain.World

open Decimal PoolMath

/-- Parts add up to no more than the whole. -/
def Super (f : Nat → Nat) : Prop := ∀ a b, f a + f b ≤ f (a + b)

theorem Super.mono {f : Nat → Nat} (h : Super f) {a b : Nat} (hab : a ≤ b) : f a ≤ f b := by
  obtain ⟨c, rfl⟩ := Nat.exists_eq_add_of_le hab
  exact (Nat.le_add_right _ _).trans (h a c)

theorem Super.comp {f g : Nat → Nat} (hf : Super f) (hg : Super g) : Super fun a => f (g a) := fun a b =>
  (hf _ _).trans (hf.mono (hg a b))

theorem super_mul (c : Nat) : Super (· * c) := fun a b => (Nat.add_mul a b c).ge

theorem super_div (c : Nat) : Super (· / c) := by
  intro a b
  rcases Nat.eq_zero_or_pos c with h | h
  · subst h; simp
  · simp only [Nat.add_div h]
    omega

theorem Super.sum {f : Nat → Nat} (h : Super f) : ∀ l : List Nat, (l.map f).sum ≤ f l.sum
  | [] => by simp
  | a :: l => by
    rw [List.map_cons, List.sum_cons, List.sum_cons]
    exact (Nat.add_le_add_left (h.sum l) _).trans (h _ _)

theorem super_x (b q K : Nat) : Super fun x => x * q * b / K * K / (b - q) := by
  have h1 : Super fun x => x * q * b := (super_mul b).comp (super_mul q)
  have h2 : Super fun x => x * q * b / K := (super_div K).comp h1
  have h3 : Super fun x => x * q * b / K * K := (super_mul K).comp h2
  exact (super_div (b - q)).comp h3

theorem super_y (a q K : Nat) : Super fun y => y * K / (q - a) := (super_div (q - a)).comp (super_mul K)

/-- What liquidity costs in X. -/
theorem super_dx (b q K : Nat) : Super fun l => l * (b - q) / K * K / (q * b / K) / K := by
  have h1 : Super fun l => l * (b - q) := super_mul (b - q)
  have h2 : Super fun l => l * (b - q) / K := (super_div K).comp h1
  have h3 : Super fun l => l * (b - q) / K * K := (super_mul K).comp h2
  have h4 : Super fun l => l * (b - q) / K * K / (q * b / K) := (super_div _).comp h3
  exact (super_div K).comp h4

/-- What liquidity costs in Y. -/
theorem super_dy (a q K : Nat) : Super fun l => l * (q - a) / K / K := by
  have h1 : Super fun l => l * (q - a) := super_mul (q - a)
  have h2 : Super fun l => l * (q - a) / K := (super_div K).comp h1
  exact (super_div K).comp h2

/-- The liquidity for an offer at root price `p` in the range from `a` to `b`. -/
def offerLiq (K M p a b q x y : Nat) : Nat :=
  if p ≤ a then x * q * b / K * K / (b - q)
  else if p < b then min (x * q * b / K * K / (b - q)) (y * M / (q - a))
  else y * M / (q - a)

theorem offerLiq_add (K M p a b q x y x' y' : Nat) :
    offerLiq K M p a b q x y + offerLiq K M p a b q x' y' ≤ offerLiq K M p a b q (x + x') (y + y') := by
  have h1 := super_x b q K x x'
  have h2 := super_y a q M y y'
  unfold offerLiq
  simp only at h1 h2
  split
  · exact h1
  · split
    · refine le_min (le_trans ?_ h1) (le_trans ?_ h2)
      · exact Nat.add_le_add (min_le_left _ _) (min_le_left _ _)
      · exact Nat.add_le_add (min_le_right _ _) (min_le_right _ _)
    · exact h2

theorem offerLiq_mono (K M p a b q : Nat) {x y x' y' : Nat} (hx : x ≤ x') (hy : y ≤ y') :
    offerLiq K M p a b q x y ≤ offerLiq K M p a b q x' y' := by
  obtain ⟨c, rfl⟩ := Nat.exists_eq_add_of_le hx
  obtain ⟨d, rfl⟩ := Nat.exists_eq_add_of_le hy
  exact (Nat.le_add_right _ _).trans (offerLiq_add ..)

/-- What deposits into one range get and pay, when each sees the price at which the first was made. -/
theorem Purchases.quotes {lp lower upper : Nat} {w u : World} {rs : List (Purchase × Moved)} (h : Purchases lp w rs u) :
    ∀ {p : PoolAcc}, Reachable w → mapGet lp w.pools = some p → (∀ r ∈ rs, r.1.lower = lower ∧ r.1.upper = upper) →
      ∀ r ∈ rs, ∃ l X Y, Quote p.gs.tick lower upper r.1.x r.1.y l X Y ∧ r.2.x = X / 10 ^ 12 ∧ r.2.y = Y / 10 ^ 12 ∧
        r.2.lp = l / 10 ^ 12 := by
  induction h with
  | nil => exact fun _ _ _ r hr => absurd hr List.not_mem_nil
  | cons h _ ih =>
    intro p hw hp hr r hm
    obtain ⟨l, X, Y, q, h1, _, h3, h4, h5, _, h7⟩ := deposit_both hw hp h
    obtain ⟨e1, e2⟩ := hr _ (List.mem_cons_self ..)
    simp only at e1 e2
    rcases List.mem_cons.1 hm with rfl | hm
    · rw [e1, e2] at h1
      exact ⟨l, X, Y, h1, h3, h4, h5⟩
    · obtain ⟨l', X', Y', k1, k⟩ := ih (deposit_reachable hw h) h7.pool (fun s hs => hr s (List.mem_cons_of_mem _ hs)) r hm
      rw [h7.here.gsTick] at k1
      exact ⟨l', X', Y', k1, k⟩

theorem offers_from {K M p a b q l x y : Nat} (hl : l = offerLiq K M p a b q x y) {rs : List (Purchase × Moved)}
    (hx : (rs.map fun r => r.1.x).sum ≤ x) (hy : (rs.map fun r => r.1.y).sum ≤ y) {f : Nat → Nat}
    {g : Purchase × Moved → Nat} (hf : Super f) (hg : ∀ r ∈ rs, g r = f (offerLiq K M p a b q r.1.x r.1.y)) :
    (rs.map g).sum ≤ f l := by
  have sum : ((rs.map fun r => offerLiq K M p a b q r.1.x r.1.y)).sum ≤ l := by
    rw [hl]
    refine le_trans ?_ (offerLiq_mono K M p a b q hx hy)
    clear hx hy hl hg
    induction rs with
    | nil => simp
    | cons r rs ih =>
      simp only [List.map_cons, List.sum_cons]
      exact (Nat.add_le_add_left ih _).trans (offerLiq_add ..)
  have e : rs.map g = (rs.map fun r => offerLiq K M p a b q r.1.x r.1.y).map f := by
    rw [List.map_map]
    exact List.map_congr_left hg
  rw [e]
  exact (hf.sum _).trans (hf.mono sum)

/-- Offers in parts get no more and pay no more than one that is at least as large. -/
theorem offers_sum {tick lower upper x y l X Y : Nat} (h : Quote tick lower upper x y l X Y) {rs : List (Purchase × Moved)}
    (hr : ∀ r ∈ rs, ∃ l X Y, Quote tick lower upper r.1.x r.1.y l X Y ∧ r.2.x = X / 10 ^ 12 ∧ r.2.y = Y / 10 ^ 12 ∧
      r.2.lp = l / 10 ^ 12) (hx : (rs.map fun r => r.1.x).sum ≤ x) (hy : (rs.map fun r => r.1.y).sum ≤ y) :
    (rs.map fun r => r.2.x).sum ≤ X / 10 ^ 12 ∧ (rs.map fun r => r.2.y).sum ≤ Y / 10 ^ 12 ∧
      (rs.map fun r => r.2.lp).sum ≤ l / 10 ^ 12 := by
  unfold Quote at h hr
  generalize (10 : Nat) ^ 12 = K at *
  generalize (10 : Nat) ^ 24 = M at *
  obtain ⟨p, a, b, q, h1, h2, h3, h4, _, _, _, h5, h6, h7⟩ := h
  have hr' : ∀ r ∈ rs, r.2.x = (fun l => l * (b - q) / K * K / (q * b / K) / K) (offerLiq K M p a b q r.1.x r.1.y) ∧
      r.2.y = (fun l => l * (q - a) / K / K) (offerLiq K M p a b q r.1.x r.1.y) ∧
      r.2.lp = offerLiq K M p a b q r.1.x r.1.y / K := by
    intro r hm
    obtain ⟨l', X', Y', ⟨p', a', b', q', k1, k2, k3, k4, _, _, _, k5, k6, k7⟩, k8, k9, k10⟩ := hr r hm
    rw [h1] at k1; cases k1
    rw [h2] at k2; cases k2
    rw [h3] at k3; cases k3
    rw [← h4] at k4; cases k4
    have : l' = offerLiq K M p a b q r.1.x r.1.y := k5
    refine ⟨?_, ?_, ?_⟩
    · rw [k8, k6, this]
    · rw [k9, k7, this]
    · rw [k10, this]
  have hl : l = offerLiq K M p a b q x y := h5
  refine ⟨?_, ?_, ?_⟩
  · rw [h6]; exact offers_from hl hx hy (super_dx b q K) fun r hm => (hr' r hm).1
  · rw [h7]; exact offers_from hl hx hy (super_dy a q K) fun r hm => (hr' r hm).2.1
  · exact offers_from hl hx hy (super_div K) fun r hm => (hr' r hm).2.2

end Hmm.OnChain.World
