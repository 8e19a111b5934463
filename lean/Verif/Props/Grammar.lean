import Verif.Props.Text

/-
Property of parsing decimals: which texts are accepted, C77.
-/

namespace Hmm

open Decimal

/-! ### C77 Only decimal numerals are parsed, and to the number they denote -/

/-- C77 is false of the code: `.+5` and `--5e1` are no numerals and are read as 0.05 and −50;
`1e-256` is read as 1. -/
theorem C77_false : fromStr ".+5".toList = .ok ⟨5, 2, false⟩ ∧
    fromStr "--5e1".toList = .ok ⟨500, 1, true⟩ ∧ fromStr "1e-256".toList = .ok ⟨1, 0, false⟩ := by
  decide +kernel

theorem splitAtChar_eq_none {p : Char → Bool} : ∀ {l : List Char}, splitAtChar p l = none →
    ∀ c ∈ l, p c = false := by
  intro l
  induction l with
  | nil => intro _ c hc; cases hc
  | cons x xs ih =>
    intro h c hc
    unfold splitAtChar at h
    by_cases hx : p x = true
    · rw [if_pos hx] at h; cases h
    · rw [if_neg hx] at h
      have hn : splitAtChar p xs = none := by
        cases e : splitAtChar p xs with
        | none => rfl
        | some v => rw [e] at h; cases h
      rcases List.mem_cons.1 hc with rfl | hm
      · exact Bool.eq_false_iff.2 hx
      · exact ih hn c hm

theorem splitAtChar_eq_some {p : Char → Bool} : ∀ {l a b : List Char}, splitAtChar p l = some (a, b) →
    ∃ c, p c = true ∧ l = a ++ c :: b ∧ ∀ x ∈ a, p x = false := by
  intro l
  induction l with
  | nil => intro a b h; cases h
  | cons x xs ih =>
    intro a b h
    unfold splitAtChar at h
    by_cases hx : p x = true
    · rw [if_pos hx] at h; cases h
      exact ⟨x, hx, rfl, fun y hy => by cases hy⟩
    · rw [if_neg hx] at h
      cases e : splitAtChar p xs with
      | none => rw [e] at h; cases h
      | some v =>
        obtain ⟨a', b'⟩ := v
        rw [e] at h; cases h
        obtain ⟨c, h1, h2, h3⟩ := ih e
        refine ⟨c, h1, by rw [h2]; rfl, ?_⟩
        intro y hy
        rcases List.mem_cons.1 hy with rfl | hm
        · exact Bool.eq_false_iff.2 hx
        · exact h3 y hm

theorem digitVal_eq_some {c : Char} {d : Nat} (h : digitVal c = some d) : d < 10 ∧ c = digitChar d := by
  unfold digitVal at h
  split at h
  · rename_i hc
    cases h
    refine ⟨by omega, ?_⟩
    unfold digitChar
    rw [show 48 + (c.toNat - 48) = c.toNat from by omega, Char.ofNat_toNat]
  · cases h

theorem readDigits_eq_some : ∀ {cs : List Char} {acc n : Nat}, readDigits cs acc = some n →
    ∃ ds, AllDigits ds ∧ cs = digitText ds ∧ n = ds.foldl (fun a d => a * 10 + d) acc := by
  intro cs
  induction cs with
  | nil =>
    intro acc n h
    cases h
    exact ⟨[], (by intro d hd; cases hd), rfl, rfl⟩
  | cons c cs ih =>
    intro acc n h
    unfold readDigits at h
    cases e : digitVal c with
    | none => rw [e] at h; cases h
    | some d =>
      rw [e] at h
      obtain ⟨hd, rfl⟩ := digitVal_eq_some e
      obtain ⟨ds, h1, h2, h3⟩ := ih h
      refine ⟨d :: ds, ?_, ?_, ?_⟩
      · intro x hx
        rcases List.mem_cons.1 hx with rfl | hm
        · exact hd
        · exact h1 x hm
      · rw [digitText_cons hd, h2]
      · rw [h3]; rfl

theorem stripPlus_noplus {s : List Char} (h : '+' ∉ s) : stripPlus s = s := by
  unfold stripPlus
  cases s with
  | nil => rfl
  | cons c cs =>
    rw [if_neg]
    simp only [List.head?_cons, Option.some.injEq]
    rintro rfl
    exact h (List.mem_cons_self ..)

theorem parseU128_ok {s : List Char} {n : Nat} (hp : '+' ∉ s) (h : parseU128 s = .ok n) :
    ∃ ds, AllDigits ds ∧ ds ≠ [] ∧ s = digitText ds ∧ n = decValue ds ∧ n < 2 ^ 128 := by
  unfold parseU128 at h
  rw [stripPlus_noplus hp] at h
  by_cases h0 : s = []
  · rw [if_pos h0] at h; cases h
  · rw [if_neg h0] at h
    cases e : readDigits s 0 with
    | none => rw [e] at h; cases h
    | some m =>
      rw [e] at h
      obtain ⟨ds, h1, h2, h3⟩ := readDigits_eq_some e
      simp only at h
      rw [u128_ok] at h
      obtain ⟨h4, h5⟩ := h
      refine ⟨ds, h1, ?_, h2, ?_, ?_⟩
      · rintro rfl; exact h0 h2
      · rw [← h5, h3]; rfl
      · unfold u128Size at *; omega

theorem digitText_split {ds : List Nat} {a b : List Char} (h : digitText ds = a ++ b) :
    ∃ x y, ds = x ++ y ∧ a = digitText x ∧ b = digitText y := by
  unfold digitText at *
  obtain ⟨x, y, h1, h2, h3⟩ := List.map_eq_append_iff.1 h
  exact ⟨x, y, h1, h2.symm, h3.symm⟩

/-- The unsigned part of an accepted text. -/
theorem splitPoint_shape {s : List Char} {n : Nat} (hp : '+' ∉ s)
    (h : parseU128 (splitPoint s).1 = .ok n) :
    ∃ lead frac, s = mantissa false lead frac ∧ AllDigits (allOf lead frac) ∧ allOf lead frac ≠ [] ∧
      n = decValue (allOf lead frac) ∧ (splitPoint s).2 = fracLen frac ∧ n < 2 ^ 128 := by
  cases e : splitAtChar (fun c => c == '.') s with
  | none =>
    have es : splitPoint s = (s, 0) := by unfold splitPoint; rw [e]
    rw [es] at h ⊢
    obtain ⟨ds, h1, h2, h3, h4, h5⟩ := parseU128_ok hp h
    exact ⟨ds, none, by rw [h3]; simp [mantissa], h1, h2, h4, rfl, h5⟩
  | some v =>
    obtain ⟨a, b⟩ := v
    have es : splitPoint s = (a ++ b, b.length) := by unfold splitPoint; rw [e]
    rw [es] at h ⊢
    obtain ⟨c, hc, hs, _⟩ := splitAtChar_eq_some e
    have hc' : c = '.' := by simpa using hc
    subst hc'
    have hp' : '+' ∉ a ++ b := by
      intro hm; apply hp; rw [hs]
      rcases List.mem_append.1 hm with h | h
      · exact List.mem_append_left _ h
      · exact List.mem_append_right _ (List.mem_cons_of_mem _ h)
    obtain ⟨ds, h1, h2, h3, h4, h5⟩ := parseU128_ok hp' h
    obtain ⟨x, y, rfl, rfl, rfl⟩ := digitText_split h3.symm
    refine ⟨x, some y, by rw [hs]; simp [mantissa], h1, h2, h4, ?_, h5⟩
    exact digitText_length y

theorem mantissa_neg (lead : List Nat) (frac : Option (List Nat)) :
    mantissa true lead frac = '-' :: mantissa false lead frac := by
  unfold mantissa; simp

theorem splitSign_ok {s b : List Char} {n : Bool} (h : splitSign s = .ok (b, n)) :
    s = (if n then ['-'] else []) ++ b := by
  unfold splitSign at h
  cases e : splitAtChar (fun c => c == '-') s with
  | none => rw [e] at h; cases h; rfl
  | some v =>
    obtain ⟨a, b'⟩ := v
    rw [e] at h
    simp only at h
    by_cases ha : a = []
    · rw [if_pos ha] at h; cases h
      obtain ⟨c, hc, hs, _⟩ := splitAtChar_eq_some e
      have hc' : c = '-' := by simpa using hc
      rw [hs, ha, hc']; rfl
    · rw [if_neg ha] at h; cases h

/-- A body with an exponent that is not positive. -/
theorem fromStrBody_shape {rec : List Char → R Decimal} {s : List Char} {x : Int} {d : Decimal}
    (hp : '+' ∉ s) (hx : x ≤ 0) (h : fromStrBody rec s x = .ok d) :
    ∃ neg lead frac, s = mantissa neg lead frac ∧ AllDigits (allOf lead frac) ∧ allOf lead frac ≠ [] ∧
      decValue (allOf lead frac) < 2 ^ 128 ∧
      d = ⟨decValue (allOf lead frac), (fracLen frac + x.natAbs) % 256, neg⟩ := by
  unfold fromStrBody at h
  by_cases h0 : s = []
  · rw [if_pos h0] at h; cases h
  · rw [if_neg h0, bind_ok] at h
    obtain ⟨⟨b, neg⟩, h1, h⟩ := h
    have hs := splitSign_ok h1
    simp only at h
    by_cases hd : ((splitPoint b).2 : Int) - x ≥ 2 ^ 63
    · rw [if_pos hd] at h; cases h
    · rw [if_neg hd, if_neg (by omega), bind_ok] at h
      obtain ⟨v, h2, h⟩ := h
      have hp' : '+' ∉ b := fun hm => hp (by rw [hs]; exact List.mem_append_right _ hm)
      obtain ⟨lead, frac, e1, e2, e3, e4, e5, e6⟩ := splitPoint_shape hp' h2
      cases h
      refine ⟨neg, lead, frac, ?_, e2, e3, by rw [← e4]; exact e6, ?_⟩
      · rw [hs, e1]; cases neg <;> simp [mantissa]
      · unfold Decimal.new
        rw [e4, e5]
        congr 1
        omega

theorem fromStrWith_mark {rec : List Char → R Decimal} {b x : List Char} {c : Char} {d : Decimal}
    (hc : c = 'e' ∨ c = 'E') (hb : ∀ y ∈ b, y ≠ 'e' ∧ y ≠ 'E')
    (h : fromStrWith rec (b ++ c :: x) = .ok d) :
    ∃ k, parseI64 x = .ok k ∧ fromStrBody rec b k = .ok d := by
  unfold fromStrWith at h
  rw [splitAtChar_some (l := b) (by rcases hc with rfl | rfl <;> decide)
    (by intro y hy; have := hb y hy; simp [this.1, this.2])] at h
  simp only at h
  rw [bind_ok] at h
  exact h

/-- C77 (partial): a text without `+` and without exponent is accepted only if it is an optional minus, digits
and an optional fraction; the digits, the sign and (up to 255 fraction digits) the number are exactly
those of the text.  Missing: plus signs, which are also accepted after a leading point, and longer
fractions (`C77_false`). -/
theorem C77_plain_partial {s : List Char} {d : Decimal} (hp : '+' ∉ s)
    (he : ∀ c ∈ s, c ≠ 'e' ∧ c ≠ 'E') (h : fromStr s = .ok d) :
    ∃ neg lead frac, s = mantissa neg lead frac ∧ AllDigits (allOf lead frac) ∧ allOf lead frac ≠ [] ∧
      d.negative = neg ∧ d.value = decValue (allOf lead frac) ∧
      (fracLen frac < 256 → d.toRat =
        (if neg then -1 else 1) * (decValue (allOf lead frac) : ℚ) / 10 ^ fracLen frac) := by
  unfold fromStr at h
  rw [fromStrWith_noexp he] at h
  obtain ⟨neg, lead, frac, h1, h2, h3, _, rfl⟩ := fromStrBody_shape hp le_rfl h
  refine ⟨neg, lead, frac, h1, h2, h3, rfl, rfl, fun hf => ?_⟩
  unfold toRat
  simp only [Int.natAbs_zero, Nat.add_zero]
  rw [Nat.mod_eq_of_lt hf]
  cases neg <;> simp [neg_div]

theorem parseI64_ok {s : List Char} {x : Int} (hp : '+' ∉ s) (h : parseI64 s = .ok x) :
    ∃ (eneg : Bool) (e : List Nat), AllDigits e ∧ e ≠ [] ∧ s = (if eneg then ['-'] else []) ++ digitText e ∧
      x = (if eneg then -1 else 1) * (decValue e : Int) := by
  unfold parseI64 at h
  by_cases h1 : s.head? = some '-'
  · rw [if_pos h1] at h
    obtain ⟨t, rfl⟩ : ∃ t, s = '-' :: t := by
      cases s with
      | nil => cases h1
      | cons c cs => simp at h1; exact ⟨cs, by rw [h1]⟩
    rw [ite_ok] at h
    rcases h with ⟨_, h⟩ | ⟨h0, h⟩
    · cases h
    · simp only [List.tail_cons] at h0 h
      cases e : readDigits t 0 with
      | none => rw [e] at h; cases h
      | some m =>
        rw [e] at h
        obtain ⟨ds, e1, e2, e3⟩ := readDigits_eq_some e
        simp only at h
        split at h
        · cases h
          refine ⟨true, ds, e1, ?_, by rw [e2]; rfl, ?_⟩
          · rintro rfl; exact h0 e2
          · rw [e3]; simp [decValue]
        · cases h
  · rw [if_neg h1, stripPlus_noplus hp] at h
    by_cases h0 : s = []
    · rw [if_pos h0] at h; cases h
    · rw [if_neg h0] at h
      cases e : readDigits s 0 with
      | none => rw [e] at h; cases h
      | some m =>
        rw [e] at h
        obtain ⟨ds, e1, e2, e3⟩ := readDigits_eq_some e
        simp only at h
        split at h
        · cases h
          refine ⟨false, ds, e1, ?_, by rw [e2]; rfl, ?_⟩
          · rintro rfl; exact h0 e2
          · rw [e3]; simp [decValue]
        · cases h

/-- C77 (partial): a text without `+` and with an exponent mark is accepted only if what follows the mark is an
optional minus and digits and what precedes it is a mantissa, possibly with a second minus when the
exponent is positive.  With an exponent that is not positive the number is the one denoted (up to 255
places).  Missing: plus signs, the second minus and wider scales (`C77_false`); what positive
exponents give is C16. -/
theorem C77_exponent_partial {b x : List Char} {c : Char} {d : Decimal} (hc : c = 'e' ∨ c = 'E')
    (hb : ∀ y ∈ b, y ≠ 'e' ∧ y ≠ 'E') (hp : '+' ∉ b ++ c :: x) (h : fromStr (b ++ c :: x) = .ok d) :
    ∃ (twice neg : Bool) (lead : List Nat) (frac : Option (List Nat)) (eneg : Bool) (e : List Nat),
      b = (if twice then ['-'] else []) ++ mantissa neg lead frac ∧
      x = (if eneg then ['-'] else []) ++ digitText e ∧
      AllDigits (allOf lead frac) ∧ allOf lead frac ≠ [] ∧ AllDigits e ∧ e ≠ [] ∧
      (twice → neg ∧ eneg = false ∧ 0 < decValue e) ∧
      (d.negative = neg) ∧
      ((eneg ∨ decValue e = 0) → fracLen frac + decValue e < 256 → d.toRat =
        (if neg then -1 else 1) * (decValue (allOf lead frac) : ℚ) / 10 ^ fracLen frac
          / 10 ^ decValue e) := by
  have hpb : '+' ∉ b := fun hm => hp (List.mem_append_left _ hm)
  have hpx : '+' ∉ x := fun hm => hp (List.mem_append_right _ (List.mem_cons_of_mem _ hm))
  unfold fromStr at h
  obtain ⟨k, hk, h⟩ := fromStrWith_mark hc hb h
  obtain ⟨eneg, e, e1, e2, e3, e4⟩ := parseI64_ok hpx hk
  by_cases hk0 : k ≤ 0
  · obtain ⟨neg, lead, frac, h1, h2, h3, _, rfl⟩ := fromStrBody_shape hpb hk0 h
    have hka : k.natAbs = decValue e := by rw [e4]; cases eneg <;> simp
    refine ⟨false, neg, lead, frac, eneg, e, by rw [h1]; rfl, e3, h2, h3, e1, e2, by simp, rfl, fun _ hf => ?_⟩
    unfold toRat
    simp only [hka]
    rw [Nat.mod_eq_of_lt hf, pow_add]
    cases neg <;> simp <;> field_simp
  · have hen : eneg = false := by
      cases eneg with
      | false => rfl
      | true => exfalso; simp only [if_true] at e4; omega
    have hpos : 0 < decValue e := by rw [hen] at e4; simp only [Bool.false_eq_true, if_false] at e4; omega
    unfold fromStrBody at h
    by_cases h0 : b = []
    · rw [if_pos h0] at h; cases h
    · rw [if_neg h0, bind_ok] at h
      obtain ⟨⟨u, neg⟩, h1, h⟩ := h
      have hs := splitSign_ok h1
      simp only at h
      split at h
      · cases h
      · rw [if_pos (by omega), bind_ok] at h
        obtain ⟨inner, h2, h⟩ := h
        rw [unwrap_ok] at h2
        rw [bind_ok] at h
        obtain ⟨v, h3, h⟩ := h
        have hpu : '+' ∉ u := fun hm => hpb (by rw [hs]; exact List.mem_append_right _ hm)
        have hbu : ∀ c ∈ u, c ≠ 'e' ∧ c ≠ 'E' := fun y hy => hb y (by rw [hs]; exact List.mem_append_right _ hy)
        rw [fromStrWith_noexp hbu] at h2
        obtain ⟨neg', lead, frac, g1, g2, g3, _, g5⟩ := fromStrBody_shape hpu le_rfl h2
        have hdn : d.negative = neg := by
          rcases toScale_ok.1 h with ⟨_, _, rfl⟩ | ⟨_, _, _, rfl⟩ <;> rfl
        cases neg with
        | true =>
          cases neg' with
          | true =>
            refine ⟨true, true, lead, frac, eneg, e, by rw [hs, g1], e3, g2, g3, e1, e2,
              fun _ => ⟨rfl, hen, hpos⟩, hdn, ?_⟩
            rintro (hh | hh)
            · rw [hen] at hh; cases hh
            · omega
          | false =>
            refine ⟨false, true, lead, frac, eneg, e, by rw [hs, g1, mantissa_neg]; rfl, e3, g2, g3, e1, e2,
              by simp, hdn, ?_⟩
            rintro (hh | hh)
            · rw [hen] at hh; cases hh
            · omega
        | false =>
          -- the sign was looked for and not found, so the inner text has none either
          have hn : neg' = false := by
            cases neg' with
            | false => rfl
            | true =>
              exfalso
              rw [g1, mantissa_neg] at hs
              simp only [Bool.false_eq_true, if_false, List.nil_append] at hs
              rw [hs] at h1
              unfold splitSign splitAtChar at h1
              simp at h1
          subst hn
          refine ⟨false, false, lead, frac, eneg, e, by rw [hs, g1], e3, g2, g3, e1, e2,
              by simp, hdn, ?_⟩
          rintro (hh | hh)
          · rw [hen] at hh; cases hh
          · omega

/-- C77: texts that are no numerals are refused. -/
example : (fromStr "12-5".toList).toOption = none ∧ (fromStr "".toList).toOption = none ∧
    (fromStr "1.2.3".toList).toOption = none ∧ (fromStr " 1".toList).toOption = none ∧
    (fromStr "-".toList).toOption = none ∧ (fromStr "5e".toList).toOption = none := by decide +kernel

example : fromStr "-12.50".toList = .ok ⟨1250, 2, true⟩ ∧ fromStr "25E-1".toList = .ok ⟨25, 1, false⟩ ∧
    '+' ∉ "-12.50".toList ∧ "25E-1".toList = "25".toList ++ 'E' :: "-1".toList := by decide +kernel

end Hmm
