import Verif.Props.Grammar
import Verif.Spec.Numeral

/-
Property of parsing decimals, C77: exactly which texts are accepted, and as which decimals, with plus
signs, exponents of either sign and scales of any size.
-/

namespace Hmm

open Decimal

theorem stripPlus_sign {plus : Bool} {ds : List Nat} (h : AllDigits ds) :
    stripPlus (sign plus '+' ++ digitText ds) = digitText ds := by
  cases plus with
  | false => exact stripPlus_text h
  | true => simp [sign, stripPlus]

theorem stripPlus_cases (s : List Char) : ∃ plus, s = sign plus '+' ++ stripPlus s := by
  unfold stripPlus
  cases s with
  | nil => exact ⟨false, rfl⟩
  | cons c cs =>
    by_cases hc : c = '+'
    · subst hc; exact ⟨true, by simp [sign]⟩
    · exact ⟨false, by simp [sign, hc]⟩

theorem parseU128_iff {s : List Char} {n : Nat} : parseU128 s = .ok n ↔
    ∃ plus ds, s = sign plus '+' ++ digitText ds ∧ AllDigits ds ∧ ds ≠ [] ∧ n = decValue ds ∧ n < 2 ^ 128 := by
  constructor
  · intro h
    obtain ⟨plus, hs⟩ := stripPlus_cases s
    unfold parseU128 at h
    generalize stripPlus s = t at h hs
    rw [ite_ok] at h
    rcases h with ⟨_, h⟩ | ⟨h0, h⟩
    · cases h
    · cases e : readDigits t 0 with
      | none => rw [e] at h; cases h
      | some m =>
        rw [e] at h
        obtain ⟨ds, h1, h2, h3⟩ := readDigits_eq_some e
        simp only at h
        rw [u128_ok] at h
        refine ⟨plus, ds, by rw [hs, h2], h1, ?_, by rw [← h.2, h3]; rfl, ?_⟩
        · rintro rfl; exact h0 h2
        · rw [← h.2]; exact h.1
  · rintro ⟨plus, ds, rfl, h1, h2, rfl, h4⟩
    unfold parseU128
    rw [stripPlus_sign h1, if_neg (digitText_ne_nil h2), readDigits_text ds 0 h1]
    exact u128_ok.2 ⟨h4, rfl⟩

theorem splitPoint_none {u : List Char} (h : ∀ c ∈ u, c ≠ '.') : splitPoint u = (u, 0) := by
  unfold splitPoint
  rw [splitAtChar_none (by intro c hc; simpa using h c hc)]

theorem splitPoint_some {a b : List Char} (h : ∀ c ∈ a, c ≠ '.') :
    splitPoint (a ++ '.' :: b) = (a ++ b, b.length) := by
  unfold splitPoint
  rw [splitAtChar_some (by simp) (by intro c hc; simpa using h c hc)]

theorem mem_sign {b : Bool} {c x : Char} (h : x ∈ sign b c) : x = c := by
  unfold sign at h
  cases b <;> simp at h
  exact h

theorem allDigits_left {a b : List Nat} (h : AllDigits (a ++ b)) : AllDigits a :=
  fun d hd => h d (List.mem_append_left _ hd)

theorem allDigits_right {a b : List Nat} (h : AllDigits (a ++ b)) : AllDigits b :=
  fun d hd => h d (List.mem_append_right _ hd)

/-- The unsigned part: exactly what is taken. -/
theorem splitPoint_iff {u : List Char} {n k : Nat} :
    (parseU128 (splitPoint u).1 = .ok n ∧ (splitPoint u).2 = k) ↔
      ∃ ds, Taken u ds k ∧ n = decValue ds ∧ n < 2 ^ 128 := by
  constructor
  · rintro ⟨h, hk⟩
    cases e : splitAtChar (fun c => c == '.') u with
    | none =>
      have es : splitPoint u = (u, 0) := by unfold splitPoint; rw [e]
      rw [es] at h hk
      obtain ⟨plus, ds, h1, h2, h3, h4, h5⟩ := parseU128_iff.1 h
      simp only at h1 hk
      subst hk
      exact ⟨ds, .inl (h1 ▸ .whole plus ds h2 h3), h4, h5⟩
    | some v =>
      obtain ⟨a, b⟩ := v
      have es : splitPoint u = (a ++ b, b.length) := by unfold splitPoint; rw [e]
      rw [es] at h hk
      obtain ⟨c, hc, hs, _⟩ := splitAtChar_eq_some e
      have hc' : c = '.' := by simpa using hc
      subst hc'
      obtain ⟨plus, ds, h1, h2, h3, h4, h5⟩ := parseU128_iff.1 h
      simp only at h1 hk
      subst hk
      refine ⟨ds, ?_, h4, h5⟩
      rcases List.append_eq_append_iff.1 h1 with ⟨r, e1, e2⟩ | ⟨r, e1, e2⟩
      · -- the plus is not before the point, or there is none
        cases plus with
        | false =>
          obtain ⟨rfl, rfl⟩ : a = [] ∧ r = [] := by
            have := e1.symm
            simp only [sign, Bool.false_eq_true, if_false] at this
            exact List.append_eq_nil_iff.1 this
          simp only [List.nil_append] at e2
          left
          rw [hs, e2]
          have := Unsigned.point false [] ds h2 h3
          simpa [sign, digitText] using this
        | true =>
          simp only [sign, if_true] at e1
          cases a with
          | nil =>
            simp only [List.nil_append] at e1
            right
            rw [e2, ← e1] at hs ⊢
            refine ⟨⟨by rw [hs]; rfl, h2, h3⟩, ?_⟩
            simp [digitText_length]
          | cons x a =>
            simp only [List.cons_append, List.cons.injEq] at e1
            obtain ⟨rfl, e1⟩ := e1
            obtain ⟨rfl, rfl⟩ := List.append_eq_nil_iff.1 e1.symm
            left
            simp only [List.nil_append] at e2
            rw [hs, e2]
            have := Unsigned.point true [] ds h2 h3
            simpa [sign, digitText] using this
      · obtain ⟨x, y, rfl, rfl, rfl⟩ := digitText_split e2
        left
        rw [hs, e1, digitText_length]
        exact .point plus x y h2 h3
  · rintro ⟨ds, h, rfl, hn⟩
    rcases h with h | ⟨⟨rfl, h1, h2⟩, rfl⟩
    · cases h with
      | whole plus _ h h0 =>
        rw [splitPoint_none]
        · exact ⟨parseU128_iff.2 ⟨plus, ds, rfl, h, h0, rfl, hn⟩, rfl⟩
        · intro c hc
          rcases List.mem_append.1 hc with hc | hc
          · rw [mem_sign hc]; decide
          · exact (mem_digitText h hc).2.2.2.1
      | point plus a b h h0 =>
        rw [splitPoint_some]
        · refine ⟨parseU128_iff.2 ⟨plus, a ++ b, ?_, h, h0, rfl, hn⟩, digitText_length b⟩
          rw [digitText_append, List.append_assoc]
        · intro c hc
          rcases List.mem_append.1 hc with hc | hc
          · rw [mem_sign hc]; decide
          · exact (mem_digitText (allDigits_left h) hc).2.2.2.1
    · have : splitPoint ('.' :: '+' :: digitText ds) = ('+' :: digitText ds, (digitText ds).length + 1) :=
        splitPoint_some (a := []) (b := '+' :: digitText ds) (by simp)
      rw [this]
      exact ⟨parseU128_iff.2 ⟨true, ds, rfl, h1, h2, rfl, hn⟩, by rw [digitText_length]⟩

theorem Taken.chars {u : List Char} {ds : List Nat} {k : Nat} (h : Taken u ds k) :
    u ≠ [] ∧ ∀ c ∈ u, c ≠ '-' ∧ c ≠ 'e' ∧ c ≠ 'E' := by
  have dig : ∀ {l : List Nat}, AllDigits l → ∀ c ∈ digitText l, c ≠ '-' ∧ c ≠ 'e' ∧ c ≠ 'E' :=
    fun hl c hc => ⟨(mem_digitText hl hc).2.2.1, (mem_digitText hl hc).1, (mem_digitText hl hc).2.1⟩
  rcases h with h | ⟨⟨rfl, h1, h2⟩, rfl⟩
  · cases h with
    | whole plus _ h h0 =>
      refine ⟨fun e => digitText_ne_nil h0 (List.append_eq_nil_iff.1 e).2, fun c hc => ?_⟩
      rcases List.mem_append.1 hc with hc | hc
      · rw [mem_sign hc]; decide
      · exact dig h c hc
    | point plus a b h h0 =>
      refine ⟨fun e => by simp at e, fun c hc => ?_⟩
      rcases List.mem_append.1 hc with hc | hc
      · rcases List.mem_append.1 hc with hc | hc
        · rw [mem_sign hc]; decide
        · exact dig (allDigits_left h) c hc
      · rcases List.mem_cons.1 hc with rfl | hc
        · decide
        · exact dig (allDigits_right h) c hc
  · refine ⟨by simp, fun c hc => ?_⟩
    rcases List.mem_cons.1 hc with rfl | hc
    · decide
    · rcases List.mem_cons.1 hc with rfl | hc
      · decide
      · exact dig h1 c hc

theorem splitSign_true (u : List Char) : splitSign ('-' :: u) = .ok (u, true) := by
  unfold splitSign
  have := splitAtChar_some (p := fun c => c == '-') (c := '-') (by simp) (l := []) (r := u) (by simp)
  rw [List.nil_append] at this
  rw [this]; rfl

theorem splitSign_false {u : List Char} (h : ∀ c ∈ u, c ≠ '-') : splitSign u = .ok (u, false) := by
  unfold splitSign
  rw [splitAtChar_none (by intro c hc; simpa using h c hc)]

/-- What a mantissa with an exponent that is not positive gives. -/
theorem body_nonpos_iff {rec : List Char → R Decimal} {b : List Char} {x : Int} {d : Decimal} (hx : x ≤ 0) :
    fromStrBody rec b x = .ok d ↔ ∃ neg u ds k, b = sign neg '-' ++ u ∧ Taken u ds k ∧
      decValue ds < 2 ^ 128 ∧ (k : Int) - x < 2 ^ 63 ∧
      d = ⟨decValue ds, (k + x.natAbs) % 256, neg⟩ := by
  constructor
  · intro h
    unfold fromStrBody at h
    rw [ite_ok] at h
    rcases h with ⟨_, h⟩ | ⟨h0, h⟩
    · cases h
    · rw [bind_ok] at h
      obtain ⟨⟨u, neg⟩, h1, h⟩ := h
      have hs := splitSign_ok h1
      simp only at h
      rw [ite_ok] at h
      rcases h with ⟨_, h⟩ | ⟨hd, h⟩
      · cases h
      · rw [if_neg (by omega), bind_ok] at h
        obtain ⟨v, h2, h⟩ := h
        obtain ⟨ds, g1, rfl, g3⟩ := splitPoint_iff.1 ⟨h2, rfl⟩
        cases h
        refine ⟨neg, u, ds, _, hs, g1, g3, not_le.1 hd, ?_⟩
        unfold Decimal.new
        congr 1
        omega
  · rintro ⟨neg, u, ds, k, rfl, ht, hv, hk, rfl⟩
    have hc := ht.chars
    obtain ⟨g1, g2⟩ := splitPoint_iff.2 ⟨ds, ht, rfl, hv⟩
    have hs : splitSign (sign neg '-' ++ u) = .ok (u, neg) := by
      cases neg with
      | true => exact splitSign_true u
      | false => exact splitSign_false (fun c h => (hc.2 c h).1)
    unfold fromStrBody
    rw [if_neg (by intro e; exact hc.1 (List.append_eq_nil_iff.1 e).2), bind_ok]
    refine ⟨_, hs, ?_⟩
    simp only
    rw [g2, if_neg (not_le.2 hk), if_neg (by omega), bind_ok]
    refine ⟨_, g1, ?_⟩
    unfold Decimal.new
    show Except.ok _ = _
    congr 2
    omega

theorem splitPoint_minus (u : List Char) : (splitPoint ('-' :: u)).2 = (splitPoint u).2 := by
  unfold splitPoint
  rw [splitAtChar, if_neg (by decide)]
  cases splitAtChar (fun c => c == '.') u <;> rfl

/-- What a mantissa with a positive exponent gives. -/
theorem body_pos_iff {rec : List Char → R Decimal} {b : List Char} {x : Int} {d : Decimal} (hx : 0 < x)
    (hb : ∀ c ∈ b, c ≠ 'e' ∧ c ≠ 'E') :
    fromStrBody (fromStrWith rec) b x = .ok d ↔ ∃ neg again u ds k, b = sign neg '-' ++ sign again '-' ++ u ∧
      (again = true → neg = true) ∧ Taken u ds k ∧ decValue ds < 2 ^ 128 ∧ k < 2 ^ 63 ∧
      k % 256 ≤ x.natAbs % 256 + 38 ∧ x.natAbs % 256 ≤ 38 ∧
      shifted (decValue ds) (k % 256) (x.natAbs % 256) * 10 ^ (x.natAbs % 256) < 2 ^ 128 ∧
      d = ⟨shifted (decValue ds) (k % 256) (x.natAbs % 256) * 10 ^ (x.natAbs % 256), x.natAbs % 256, neg⟩ := by
  generalize he : x.natAbs % 256 = e
  constructor
  · intro h
    unfold fromStrBody at h
    rw [ite_ok] at h
    rcases h with ⟨_, h⟩ | ⟨h0, h⟩
    · cases h
    · rw [bind_ok] at h
      obtain ⟨⟨w, neg⟩, h1, h⟩ := h
      have hs := splitSign_ok h1
      simp only at h
      rw [ite_ok] at h
      rcases h with ⟨_, h⟩ | ⟨hd, h⟩
      · cases h
      · rw [if_pos hx, bind_ok] at h
        obtain ⟨inner, h2, h⟩ := h
        rw [unwrap_ok] at h2
        rw [bind_ok] at h
        obtain ⟨v, h3, h⟩ := h
        have hbw : ∀ c ∈ w, c ≠ 'e' ∧ c ≠ 'E' := fun y hy => hb y (by rw [hs]; exact List.mem_append_right _ hy)
        rw [fromStrWith_noexp hbw] at h2
        obtain ⟨again, u, ds, k, g1, g2, g3, g4, g5⟩ := (body_nonpos_iff le_rfl).1 h2
        rw [he] at h3 h
        have hin : inner.value = decValue ds ∧ inner.scale = k % 256 := by
          rw [g5]; exact ⟨rfl, by simp⟩
        have hv : v.value = shifted (decValue ds) (k % 256) e ∧ k % 256 ≤ e + 38 := by
          unfold shifted
          rw [← hin.1, ← hin.2]
          rcases toScale_ok.1 h3 with ⟨l1, l2, rfl⟩ | ⟨l1, l2, l3, rfl⟩
          · have := pow10_lt_iff.1 l2
            exact ⟨by rw [if_pos l1], by omega⟩
          · exact ⟨by rw [if_neg (not_lt.2 l1)], by omega⟩
        refine ⟨neg, again, u, ds, k, by rw [hs, g1, List.append_assoc]; rfl, ?_, g2, g3, by omega, hv.2, ?_⟩
        · intro ha
          cases hn : neg with
          | true => rfl
          | false =>
            exfalso
            subst hn; subst ha
            simp only [Bool.false_eq_true, if_false, List.nil_append] at hs
            rw [hs, g1] at h1
            have := splitSign_true u
            simp only [sign, if_true, List.cons_append, List.nil_append] at h1
            rw [this] at h1
            cases h1
        · rcases toScale_ok.1 h with ⟨l1, _, _⟩ | ⟨_, l2, l3, rfl⟩
          · exact absurd l1 (by simp [Decimal.new])
          · simp only [Decimal.new, Nat.sub_zero, hv.1] at l2 l3 ⊢
            exact ⟨by have := pow10_lt_iff.1 l2; omega, l3, trivial⟩
  · rintro ⟨neg, again, u, ds, k, rfl, ha, ht, hv, hk, hke, h38, hfit, rfl⟩
    have hc := ht.chars
    have hk' : ((splitPoint (sign again '-' ++ u)).2 : Int) = k := by
      have e := (splitPoint_iff.2 ⟨ds, ht, rfl, hv⟩).2
      cases again with
      | false => exact_mod_cast e
      | true =>
        have := splitPoint_minus u
        rw [show sign true '-' ++ u = '-' :: u from rfl, this, e]
    have hs : splitSign (sign neg '-' ++ sign again '-' ++ u) = .ok (sign again '-' ++ u, neg) := by
      cases neg with
      | true => exact splitSign_true _
      | false =>
        have : again = false := by
          cases again with
          | false => rfl
          | true => exact absurd (ha rfl) (by decide)
        subst this
        exact splitSign_false (fun c h => (hc.2 c h).1)
    have hp10 := pow10_pos e
    have hsh : shifted (decValue ds) (k % 256) e < 2 ^ 128 := lt_of_le_of_lt (Nat.le_mul_of_pos_right _ hp10) hfit
    unfold fromStrBody
    rw [if_neg (by intro e; exact hc.1 (List.append_eq_nil_iff.1 e).2), bind_ok]
    refine ⟨_, hs, ?_⟩
    simp only
    rw [hk', if_neg (not_le.2 (by omega)), if_pos hx, bind_ok]
    have hbw : ∀ c ∈ sign again '-' ++ u, c ≠ 'e' ∧ c ≠ 'E' := fun y hy =>
      hb y (by rw [List.append_assoc]; exact List.mem_append_right _ hy)
    have hinner := (body_nonpos_iff (rec := rec) (b := sign again '-' ++ u) (x := 0) le_rfl).2
      ⟨again, u, ds, k, rfl, ht, hv, by omega, rfl⟩
    refine ⟨_, unwrap_ok.2 (by rw [fromStrWith_noexp hbw]; exact hinner), ?_⟩
    rw [bind_ok, he]
    refine ⟨⟨shifted (decValue ds) (k % 256) e, e, again⟩, ?_, ?_⟩
    · rw [toScale_ok]
      simp only [Int.natAbs_zero, Nat.add_zero]
      unfold shifted at hsh ⊢
      by_cases hl : e < k % 256
      · rw [if_pos hl] at hsh ⊢
        exact .inl ⟨hl, pow10_lt_iff.2 (by omega), rfl⟩
      · rw [if_neg hl] at hsh ⊢
        exact .inr ⟨not_lt.1 hl, pow10_lt_iff.2 (by omega), hsh, rfl⟩
    · rw [toScale_ok]
      right
      simp only [Decimal.new, Nat.sub_zero]
      exact ⟨Nat.zero_le _, pow10_lt_iff.2 (by omega), hfit, trivial⟩

theorem parseI64_iff {t : List Char} {x : Int} : parseI64 t = .ok x ↔
    Exponent t x ∧ -2 ^ 63 ≤ x ∧ x < 2 ^ 63 := by
  constructor
  · intro h
    unfold parseI64 at h
    rw [ite_ok] at h
    rcases h with ⟨h1, h⟩ | ⟨h1, h⟩
    · obtain ⟨t, rfl⟩ : ∃ r, t = '-' :: r := by
        cases t with
        | nil => cases h1
        | cons c cs => simp at h1; exact ⟨cs, by rw [h1]⟩
      rw [ite_ok] at h
      rcases h with ⟨_, h⟩ | ⟨h0, h⟩
      · cases h
      · simp only [List.tail_cons] at h0 h
        cases e : readDigits t 0 with
        | none => rw [e] at h; cases h
        | some m =>
          rw [e] at h
          obtain ⟨ds, e1, e2, e3⟩ := readDigits_eq_some e
          simp only at h
          rw [ite_ok] at h
          rcases h with ⟨hm, h⟩ | ⟨_, h⟩
          · cases h
            have e4 : m = decValue ds := e3
            subst e4
            rw [e2]
            exact ⟨.minus ds e1 (by rintro rfl; exact h0 e2), by omega, by omega⟩
          · cases h
    · obtain ⟨plus, hs⟩ := stripPlus_cases t
      generalize stripPlus t = r at h hs
      rw [ite_ok] at h
      rcases h with ⟨_, h⟩ | ⟨h0, h⟩
      · cases h
      · cases e : readDigits r 0 with
        | none => rw [e] at h; cases h
        | some m =>
          rw [e] at h
          obtain ⟨ds, e1, e2, e3⟩ := readDigits_eq_some e
          simp only at h
          rw [ite_ok] at h
          rcases h with ⟨hm, h⟩ | ⟨_, h⟩
          · cases h
            have e4 : m = decValue ds := e3
            subst e4
            rw [hs, e2]
            exact ⟨.plain plus ds e1 (by rintro rfl; exact h0 e2), by omega, by omega⟩
          · cases h
  · rintro ⟨h, hl, hu⟩
    cases h with
    | minus e h h0 =>
      unfold parseI64
      rw [if_pos (by simp), List.tail_cons, if_neg (digitText_ne_nil h0), readDigits_text e 0 h]
      have : e.foldl (fun a d => a * 10 + d) 0 = decValue e := rfl
      simp only [this]
      rw [if_pos (by omega)]
    | plain plus e h h0 =>
      unfold parseI64
      have hh : (sign plus '+' ++ digitText e).head? ≠ some '-' := by
        cases plus with
        | true => simp [sign]
        | false => exact (head_digitText h).2
      rw [if_neg hh, stripPlus_sign h, if_neg (digitText_ne_nil h0), readDigits_text e 0 h]
      have : e.foldl (fun a d => a * 10 + d) 0 = decValue e := rfl
      simp only [this]
      rw [if_pos (by omega)]

theorem fromStrWith_iff {rec : List Char → R Decimal} {s : List Char} {d : Decimal} :
    fromStrWith rec s = .ok d ↔ ∃ b x, Parts s b x ∧ fromStrBody rec b x = .ok d := by
  constructor
  · intro h
    unfold fromStrWith at h
    cases e : splitAtChar (fun c => c == 'e' || c == 'E') s with
    | none =>
      rw [e] at h
      refine ⟨s, 0, ⟨fun c hc => ?_, .inl ⟨rfl, rfl⟩⟩, h⟩
      have := splitAtChar_eq_none e c hc
      simpa using this
    | some v =>
      obtain ⟨b, t⟩ := v
      rw [e] at h
      simp only at h
      rw [bind_ok] at h
      obtain ⟨x, h1, h⟩ := h
      obtain ⟨c, hc, hs, hf⟩ := splitAtChar_eq_some e
      refine ⟨b, x, ⟨fun y hy => by simpa using hf y hy, .inr ⟨c, t, by simpa using hc, hs, parseI64_iff.1 h1⟩⟩, h⟩
  · rintro ⟨b, x, ⟨hf, h⟩, hb⟩
    rcases h with ⟨rfl, rfl⟩ | ⟨c, t, hc, rfl, hx⟩
    · rw [fromStrWith_noexp hf]; exact hb
    · unfold fromStrWith
      rw [splitAtChar_some (l := b) (by rcases hc with rfl | rfl <;> decide)
        (by intro y hy; have := hf y hy; simp [this.1, this.2])]
      simp only
      rw [bind_ok]
      exact ⟨x, parseI64_iff.2 hx, hb⟩

/-- C77: exactly which texts are read, and as which decimals.  A text is read if and only if it is an
optional minus, an optional second one if the exponent is positive, an unsigned part (a numeral, or a
point, a plus and digits), and an optional exponent, and the sizes are as stated.  If the exponent is
not positive the digits are kept and the scale is reduced modulo 256; if it is positive the digits
are cut or extended to as many places as the exponent says, modulo 256, and then as many zeros are
appended. -/
theorem C77_exact {s : List Char} {d : Decimal} : fromStr s = .ok d ↔
    ∃ b x neg again u ds k, Parts s b x ∧ b = sign neg '-' ++ sign again '-' ++ u ∧ Taken u ds k ∧
      decValue ds < 2 ^ 128 ∧ k < 2 ^ 63 ∧ (again = true → neg = true ∧ 0 < x) ∧
      ((x ≤ 0 ∧ (k : Int) - x < 2 ^ 63 ∧ d = ⟨decValue ds, (k + x.natAbs) % 256, neg⟩) ∨
       (0 < x ∧ k % 256 ≤ x.natAbs % 256 + 38 ∧ x.natAbs % 256 ≤ 38 ∧
        shifted (decValue ds) (k % 256) (x.natAbs % 256) * 10 ^ (x.natAbs % 256) < 2 ^ 128 ∧
        d = ⟨shifted (decValue ds) (k % 256) (x.natAbs % 256) * 10 ^ (x.natAbs % 256),
          x.natAbs % 256, neg⟩)) := by
  unfold fromStr
  rw [fromStrWith_iff]
  constructor
  · rintro ⟨b, x, hp, h⟩
    by_cases hx : x ≤ 0
    · obtain ⟨neg, u, ds, k, h1, h2, h3, h4, h5⟩ := (body_nonpos_iff hx).1 h
      exact ⟨b, x, neg, false, u, ds, k, hp, by rw [h1]; simp [sign], h2, h3, by omega, by simp,
        .inl ⟨hx, h4, h5⟩⟩
    · obtain ⟨neg, again, u, ds, k, h1, h2, h3, h4, h5, h6, h7, h8, h9⟩ :=
        (body_pos_iff (not_le.1 hx) hp.1).1 h
      exact ⟨b, x, neg, again, u, ds, k, hp, h1, h3, h4, h5, fun ha => ⟨h2 ha, not_le.1 hx⟩,
        .inr ⟨not_le.1 hx, h6, h7, h8, h9⟩⟩
  · rintro ⟨b, x, neg, again, u, ds, k, hp, h1, h2, h3, h4, h5, h | h⟩
    · obtain ⟨hx, hk, rfl⟩ := h
      refine ⟨b, x, hp, (body_nonpos_iff hx).2 ⟨neg, u, ds, k, ?_, h2, h3, hk, rfl⟩⟩
      have ha : again = false := by
        cases again with
        | false => rfl
        | true => have := (h5 rfl).2; omega
      rw [h1, ha]; simp [sign]
    · obtain ⟨hx, h6, h7, h8, rfl⟩ := h
      exact ⟨b, x, hp, (body_pos_iff hx hp.1).2
        ⟨neg, again, u, ds, k, h1, fun ha => (h5 ha).1, h2, h3, h4, h6, h7, h8, rfl⟩⟩

/-- C77 (partial): a text that is read is a numeral, or a numeral spoilt by a plus right after the
point or by a second minus.  Missing: that the spoilt ones are refused (`C77_false`). -/
theorem C77_numerals_partial {s : List Char} {d : Decimal} (h : fromStr s = .ok d) :
    (∃ q, Numeral s q) ∨
    (∃ b x neg again ds, Parts s b x ∧ b = sign neg '-' ++ sign again '-' ++ '.' :: '+' :: digitText ds) ∨
    (∃ b x u ds k, Parts s b x ∧ b = '-' :: '-' :: u ∧ Unsigned u ds k) := by
  obtain ⟨b, x, neg, again, u, ds, k, hp, hb, ht, _, _, ha, _⟩ := C77_exact.1 h
  rcases ht with ht | ⟨⟨rfl, _, _⟩, _⟩
  · cases again with
    | false => exact .inl ⟨_, b, x, neg, u, ds, k, hp, by rw [hb]; simp [sign], ht, rfl⟩
    | true =>
      have hn := (ha rfl).1
      subst hn
      exact .inr (.inr ⟨b, x, u, ds, k, hp, hb, ht⟩)
  · exact .inr (.inl ⟨b, x, neg, again, ds, hp, hb⟩)

theorem rat_shift (n k e : Nat) (h : k ≤ e) : ((n * 10 ^ (e - k) : Nat) : ℚ) = n / 10 ^ k * 10 ^ e := by
  have : (10 : ℚ) ^ e = 10 ^ (e - k) * 10 ^ k := by rw [← pow_add]; congr 1; omega
  push_cast
  rw [this]; field_simp

theorem parseU128_sign {plus : Bool} {ds : List Nat} (h : AllDigits ds) (h0 : ds ≠ []) :
    parseU128 (sign plus '+' ++ digitText ds) = u128 (decValue ds) := by
  unfold parseU128
  rw [stripPlus_sign h, if_neg (digitText_ne_nil h0), readDigits_text ds 0 h]
  rfl

theorem Unsigned.split {u : List Char} {ds : List Nat} {k : Nat} (h : Unsigned u ds k) :
    parseU128 (splitPoint u).1 = u128 (decValue ds) ∧ (splitPoint u).2 = k := by
  cases h with
  | whole plus _ h h0 =>
    rw [splitPoint_none]
    · exact ⟨parseU128_sign h h0, rfl⟩
    · intro c hc
      rcases List.mem_append.1 hc with hc | hc
      · rw [mem_sign hc]; decide
      · exact (mem_digitText h hc).2.2.2.1
  | point plus a b h h0 =>
    rw [splitPoint_some]
    · refine ⟨?_, digitText_length b⟩
      rw [List.append_assoc, ← digitText_append]
      exact parseU128_sign h h0
    · intro c hc
      rcases List.mem_append.1 hc with hc | hc
      · rw [mem_sign hc]; decide
      · exact (mem_digitText (allDigits_left h) hc).2.2.2.1

/-- The unsigned part has only one reading. -/
theorem Unsigned.unique {u : List Char} {ds ds' : List Nat} {k k' : Nat} (h : Unsigned u ds k)
    (h' : Taken u ds' k') (hv : decValue ds' < 2 ^ 128) : decValue ds = decValue ds' ∧ k = k' := by
  obtain ⟨e1, e2⟩ := h.split
  obtain ⟨g1, g2⟩ := splitPoint_iff.2 ⟨ds', h', rfl, hv⟩
  rw [e1] at g1
  exact ⟨(u128_ok.1 g1).2, by omega⟩

theorem sign_unique {neg neg' : Bool} {u u' : List Char} (h : ∀ c ∈ u, c ≠ '-') (h' : ∀ c ∈ u', c ≠ '-')
    (e : sign neg '-' ++ u = sign neg' '-' ++ u') : neg = neg' ∧ u = u' := by
  cases neg <;> cases neg' <;> simp [sign] at e
  · exact ⟨rfl, e⟩
  · exact absurd rfl (h '-' (by rw [e]; simp))
  · exact absurd rfl (h' '-' (by rw [← e]; simp))
  · exact ⟨rfl, e⟩

theorem fromStrWith_parts {rec : List Char → R Decimal} {s b : List Char} {x : Int} (hp : Parts s b x) :
    fromStrWith rec s = fromStrBody rec b x := by
  obtain ⟨hf, h⟩ := hp
  rcases h with ⟨rfl, rfl⟩ | ⟨c, t, hc, rfl, hx⟩
  · exact fromStrWith_noexp hf
  · unfold fromStrWith
    rw [splitAtChar_some (l := b) (by rcases hc with rfl | rfl <;> decide)
      (by intro y hy; have := hf y hy; simp [this.1, this.2])]
    simp only
    rw [parseI64_iff.2 hx]
    rfl

/-- C77 (partial): a numeral whose exponent is not positive is read as the number it denotes if
fraction and exponent together make at most 255 places; one whose exponent is positive if the
fraction is not longer than the exponent and the exponent is below 256.  Missing: more
places, and fractions longer than the exponent (`C77_false`, C16). -/
theorem C77_value_partial {s b u : List Char} {x : Int} {neg : Bool} {ds : List Nat} {k : Nat} {d : Decimal}
    (hp : Parts s b x) (hb : b = sign neg '-' ++ u) (hu : Unsigned u ds k)
    (hk : (x ≤ 0 ∧ k + x.natAbs < 256) ∨ (0 < x ∧ x < 256 ∧ (k : Int) ≤ x)) (h : fromStr s = .ok d) :
    d.toRat = (if neg then -1 else 1) * (decValue ds : ℚ) / 10 ^ k * (10 : ℚ) ^ x := by
  have huc : ∀ c ∈ u, c ≠ '-' := fun c hc => ((Taken.chars (.inl hu)).2 c hc).1
  unfold fromStr at h
  rw [fromStrWith_parts hp] at h
  rcases hk with ⟨hx, hk⟩ | ⟨hx, hx', hk⟩
  · obtain ⟨neg', u', ds', k', h1, h2, h3, _, rfl⟩ := (body_nonpos_iff hx).1 h
    obtain ⟨rfl, rfl⟩ := sign_unique huc (fun c hc => (h2.chars.2 c hc).1) (hb.symm.trans h1)
    obtain ⟨e1, rfl⟩ := hu.unique h2 h3
    unfold toRat
    simp only
    rw [Nat.mod_eq_of_lt hk, e1]
    have : (10 : ℚ) ^ x = 1 / 10 ^ x.natAbs := by
      conv_lhs => rw [show x = -(x.natAbs : Int) from by omega]
      rw [zpow_neg, zpow_natCast, one_div]
    rw [this, pow_add]
    cases neg <;> simp <;> field_simp
  · obtain ⟨neg', again, u', ds', k', h1, h2, h3, h4, h5, h6, h7, h8, rfl⟩ := (body_pos_iff hx hp.1).1 h
    have hag : again = false := by
      cases again with
      | false => rfl
      | true =>
        have := h2 rfl
        subst this
        exfalso
        rw [hb] at h1
        cases neg with
        | false =>
          simp only [sign, Bool.false_eq_true, if_false, if_true, List.nil_append, List.cons_append] at h1
          exact huc '-' (by rw [h1]; simp) rfl
        | true =>
          simp only [sign, if_true, List.nil_append, List.cons_append, List.cons.injEq, true_and] at h1
          exact huc '-' (by rw [h1]; simp) rfl
    subst hag
    obtain ⟨rfl, rfl⟩ := sign_unique huc (fun c hc => (h3.chars.2 c hc).1)
      (hb.symm.trans (h1.trans (show sign neg' '-' ++ sign false '-' ++ u' = sign neg' '-' ++ u' by simp [sign])))
    obtain ⟨e1, rfl⟩ := hu.unique h3 h4
    have e2 : x.natAbs % 256 = x.natAbs := Nat.mod_eq_of_lt (by omega)
    have e3 : k % 256 = k := Nat.mod_eq_of_lt (by omega)
    have hxe : (10 : ℚ) ^ x = 10 ^ x.natAbs := by
      conv_lhs => rw [show x = (x.natAbs : Int) from by omega]
      exact zpow_natCast _ _
    unfold toRat shifted
    simp only [e2, e3]
    rw [if_neg (show ¬ x.natAbs < k from by omega), Nat.cast_mul, rat_shift _ _ _ (by omega), e1, hxe]
    cases neg <;> simp <;> field_simp

/-- C77: texts with plus signs; both kinds of texts that are no numerals and are read. -/
example : fromStr "+12.5".toList = .ok ⟨125, 1, false⟩ ∧ fromStr "-+1.5e+2".toList = .ok ⟨15000, 2, true⟩ ∧
    fromStr ".+5".toList = .ok ⟨5, 2, false⟩ ∧ fromStr "--.+5e2".toList = .ok ⟨500, 2, true⟩ ∧
    (fromStr "--5".toList).toOption = none ∧ (fromStr "1.+5".toList).toOption = none := by decide +kernel

/-- C77: the hypotheses of `C77_value_partial`. -/
example : ∃ b u ds k d, Parts "-+1.5E+2".toList b 2 ∧ b = sign true '-' ++ u ∧ Unsigned u ds k ∧
    ((k : Int) ≤ 2) ∧ fromStr "-+1.5E+2".toList = .ok d ∧ d.toRat = -150 := by
  refine ⟨"-+1.5".toList, "+1.5".toList, [1] ++ [5], 1, ⟨15000, 2, true⟩, ⟨by decide, .inr ⟨'E', "+2".toList,
    .inr rfl, rfl, ?_, by norm_num, by norm_num⟩⟩, rfl, ?_, by norm_num, by decide +kernel, ?_⟩
  · exact .plain true [2] (by unfold AllDigits; decide) (by simp)
  · exact .point true [1] [5] (by unfold AllDigits; decide) (by simp)
  · norm_num [toRat]

end Hmm
