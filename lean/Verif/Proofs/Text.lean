import Verif.Model.DecimalText
import Verif.Spec.Text
import Verif.Proofs.Rounding

/-
Helper lemmas about digit texts.
-/

namespace Hmm

theorem decValue_append_one (ds : List Nat) (d : Nat) : decValue (ds ++ [d]) = decValue ds * 10 + d := by
  unfold decValue; rw [List.foldl_append]; rfl

theorem allDigits_append {a b : List Nat} : AllDigits (a ++ b) ↔ AllDigits a ∧ AllDigits b := by
  unfold AllDigits
  constructor
  · intro h; exact ⟨fun d hd => h d (List.mem_append_left _ hd), fun d hd => h d (List.mem_append_right _ hd)⟩
  · rintro ⟨h1, h2⟩ d hd
    rcases List.mem_append.1 hd with h | h
    · exact h1 d h
    · exact h2 d h

theorem digitText_append (a b : List Nat) : digitText (a ++ b) = digitText a ++ digitText b :=
  List.map_append

theorem digitText_length (a : List Nat) : (digitText a).length = a.length := List.length_map _

theorem digitChar_eq {d : Nat} (h : d < 10) :
    (['0', '1', '2', '3', '4', '5', '6', '7', '8', '9'].getD d '0') = digitChar d := by
  have : ∀ d : Fin 10, (['0', '1', '2', '3', '4', '5', '6', '7', '8', '9'].getD d.val '0') = digitChar d.val := by
    decide
  exact this ⟨d, h⟩

theorem digitText_cons {d : Nat} {ds : List Nat} (h : d < 10) :
    digitText (d :: ds) = digitChar d :: digitText ds := by
  unfold digitText; rw [List.map_cons, digitChar_eq h]

theorem digitVal_digitChar {d : Nat} (h : d < 10) : digitVal (digitChar d) = some d := by
  have : ∀ d : Fin 10, digitVal (digitChar d.val) = some d.val := by decide
  exact this ⟨d, h⟩

theorem digitChar_ne {d : Nat} (h : d < 10) :
    digitChar d ≠ 'e' ∧ digitChar d ≠ 'E' ∧ digitChar d ≠ '-' ∧ digitChar d ≠ '.' ∧ digitChar d ≠ '+' := by
  have : ∀ d : Fin 10, digitChar d.val ≠ 'e' ∧ digitChar d.val ≠ 'E' ∧ digitChar d.val ≠ '-' ∧
      digitChar d.val ≠ '.' ∧ digitChar d.val ≠ '+' := by decide
  exact this ⟨d, h⟩

theorem mem_digitText {ds : List Nat} (h : AllDigits ds) {c : Char} (hc : c ∈ digitText ds) :
    c ≠ 'e' ∧ c ≠ 'E' ∧ c ≠ '-' ∧ c ≠ '.' ∧ c ≠ '+' := by
  unfold digitText at hc
  obtain ⟨d, hd, rfl⟩ := List.mem_map.1 hc
  rw [digitChar_eq (h d hd)]
  exact digitChar_ne (h d hd)

theorem readDigits_text : ∀ (ds : List Nat) (acc : Nat), AllDigits ds →
    readDigits (digitText ds) acc = some (ds.foldl (fun a d => a * 10 + d) acc) := by
  intro ds
  induction ds with
  | nil => intro acc _; rfl
  | cons d ds ih =>
    intro acc h
    have hd : d < 10 := h d (List.mem_cons_self ..)
    rw [digitText_cons hd, readDigits, digitVal_digitChar hd]
    exact ih _ (fun x hx => h x (List.mem_cons_of_mem _ hx))

theorem head_digitText {ds : List Nat} (h : AllDigits ds) :
    (digitText ds).head? ≠ some '+' ∧ (digitText ds).head? ≠ some '-' := by
  cases ds with
  | nil => simp [digitText]
  | cons d ds =>
    have hd : d < 10 := h d (List.mem_cons_self ..)
    have hp := digitChar_ne hd
    rw [digitText_cons hd]
    simp [hp]

theorem digitText_ne_nil {ds : List Nat} (h0 : ds ≠ []) : digitText ds ≠ [] := by
  cases ds with
  | nil => exact absurd rfl h0
  | cons d ds => simp [digitText]

theorem stripPlus_text {ds : List Nat} (h : AllDigits ds) : stripPlus (digitText ds) = digitText ds := by
  unfold stripPlus; rw [if_neg (head_digitText h).1]

theorem parseU128_text {ds : List Nat} (h : AllDigits ds) (h0 : ds ≠ []) :
    parseU128 (digitText ds) = u128 (decValue ds) := by
  unfold parseU128
  rw [stripPlus_text h, if_neg (digitText_ne_nil h0), readDigits_text ds 0 h]
  rfl

/-- The digits of a printed number. -/
theorem natTextAux_spec : ∀ (fuel n : Nat) (acc : List Char), n < 10 ^ (fuel + 1) →
    ∃ ds, AllDigits ds ∧ ds ≠ [] ∧ natTextAux (fuel + 1) n acc = digitText ds ++ acc ∧ decValue ds = n := by
  intro fuel
  induction fuel with
  | zero =>
    intro n acc h
    have hn : n < 10 := by simpa using h
    refine ⟨[n], ?_, by simp, ?_, ?_⟩
    · intro d hd; simp at hd; subst hd; exact hn
    · rw [natTextAux, if_pos hn, digitText_cons hn]; rfl
    · simp [decValue]
  | succ fuel ih =>
    intro n acc h
    rw [natTextAux]
    by_cases hn : n < 10
    · refine ⟨[n], ?_, by simp, ?_, ?_⟩
      · intro d hd; simp at hd; subst hd; exact hn
      · rw [if_pos hn, digitText_cons hn]; rfl
      · simp [decValue]
    · rw [if_neg hn]
      obtain ⟨ds, h1, h2, h3, h4⟩ := ih (n / 10) (digitChar (n % 10) :: acc) (by
        rw [Nat.div_lt_iff_lt_mul (by norm_num)]
        calc n < 10 ^ (fuel + 1 + 1) := h
          _ = 10 ^ (fuel + 1) * 10 := pow_succ _ _)
      have hm : n % 10 < 10 := Nat.mod_lt _ (by norm_num)
      refine ⟨ds ++ [n % 10], ?_, by simp, ?_, ?_⟩
      · rw [allDigits_append]
        refine ⟨h1, ?_⟩
        intro d hd; simp at hd; subst hd; exact hm
      · rw [h3, digitText_append, digitText_cons hm, List.append_assoc]; rfl
      · rw [decValue_append_one, h4]; omega

theorem natText_spec (n : Nat) : ∃ ds, AllDigits ds ∧ ds ≠ [] ∧ natText n = digitText ds ∧ decValue ds = n := by
  obtain ⟨ds, h1, h2, h3, h4⟩ := natTextAux_spec n n [] (by
    calc n < 2 ^ n := Nat.lt_two_pow_self
      _ ≤ 10 ^ n := Nat.pow_le_pow_left (by norm_num) n
      _ ≤ 10 ^ (n + 1) := Nat.pow_le_pow_right (by norm_num) (by omega))
  exact ⟨ds, h1, h2, by unfold natText; rw [h3, List.append_nil], h4⟩

theorem splitAtChar_none {p : Char → Bool} : ∀ {l : List Char}, (∀ c ∈ l, p c = false) →
    splitAtChar p l = none := by
  intro l
  induction l with
  | nil => intro _; rfl
  | cons c cs ih =>
    intro h
    rw [splitAtChar, if_neg (by rw [h c (List.mem_cons_self ..)]; simp)]
    rw [ih fun x hx => h x (List.mem_cons_of_mem _ hx)]

theorem splitAtChar_some {p : Char → Bool} {c : Char} (hc : p c = true) : ∀ {l r : List Char},
    (∀ x ∈ l, p x = false) → splitAtChar p (l ++ c :: r) = some (l, r) := by
  intro l
  induction l with
  | nil => intro r _; rw [List.nil_append, splitAtChar, if_pos hc]
  | cons x xs ih =>
    intro r h
    rw [List.cons_append, splitAtChar, if_neg (by rw [h x (List.mem_cons_self ..)]; simp)]
    rw [ih fun y hy => h y (List.mem_cons_of_mem _ hy)]

theorem fromStrWith_noexp {rec : List Char → R Decimal} {s : List Char}
    (h : ∀ c ∈ s, c ≠ 'e' ∧ c ≠ 'E') : Decimal.fromStrWith rec s = Decimal.fromStrBody rec s 0 := by
  unfold Decimal.fromStrWith
  rw [splitAtChar_none]
  intro c hc
  have := h c hc
  simp [this.1, this.2]

theorem fromStrWith_exp {rec : List Char → R Decimal} {b e : List Char} {x : Int}
    (h : ∀ c ∈ b, c ≠ 'e' ∧ c ≠ 'E') (he : parseI64 e = .ok x) :
    Decimal.fromStrWith rec (b ++ 'e' :: e) = Decimal.fromStrBody rec b x := by
  unfold Decimal.fromStrWith
  rw [splitAtChar_some (by decide)]
  · simp only [he]; rfl
  · intro c hc
    have := h c hc
    simp [this.1, this.2]

theorem mantissa_chars {neg : Bool} {lead : List Nat} {frac : Option (List Nat)}
    (hd : AllDigits (allOf lead frac)) : ∀ c ∈ mantissa neg lead frac, c ≠ 'e' ∧ c ≠ 'E' := by
  intro c hc
  unfold mantissa at hc
  unfold allOf at hd
  cases frac with
  | none =>
    simp only [List.append_nil, List.mem_append] at hc
    rcases hc with hc | hc
    · cases neg <;> simp at hc; subst hc; decide
    · have := mem_digitText hd hc; exact ⟨this.1, this.2.1⟩
  | some f =>
    rw [allDigits_append] at hd
    simp only [List.mem_append, List.mem_cons] at hc
    rcases hc with (hc | hc) | hc | hc
    · cases neg <;> simp at hc; subst hc; decide
    · have := mem_digitText hd.1 hc; exact ⟨this.1, this.2.1⟩
    · subst hc; decide
    · have := mem_digitText hd.2 hc; exact ⟨this.1, this.2.1⟩

theorem mantissa_ne_nil {neg : Bool} {lead : List Nat} {frac : Option (List Nat)}
    (h0 : allOf lead frac ≠ []) : mantissa neg lead frac ≠ [] := by
  unfold mantissa
  unfold allOf at h0
  cases frac with
  | none =>
    cases neg <;> cases lead <;> simp [digitText] at *
  | some f => simp

/-- The sign split. -/
theorem mantissa_sign {neg : Bool} {lead : List Nat} {frac : Option (List Nat)}
    (hd : AllDigits (allOf lead frac)) :
    Decimal.splitSign (mantissa neg lead frac) = .ok (mantissa false lead frac, neg) := by
  unfold Decimal.splitSign
  have hno : ∀ c ∈ mantissa false lead frac, (c == '-') = false := by
    intro c hc
    unfold mantissa at hc
    unfold allOf at hd
    cases frac with
    | none =>
      simp only [Bool.false_eq_true, if_false, List.append_nil, List.nil_append] at hc
      have := mem_digitText hd hc; simp [this.2.2.1]
    | some f =>
      rw [allDigits_append] at hd
      simp only [Bool.false_eq_true, if_false, List.nil_append, List.mem_append, List.mem_cons] at hc
      rcases hc with hc | hc | hc
      · have := mem_digitText hd.1 hc; simp [this.2.2.1]
      · subst hc; decide
      · have := mem_digitText hd.2 hc; simp [this.2.2.1]
  cases neg with
  | false => rw [splitAtChar_none hno]
  | true =>
    have e : mantissa true lead frac = [] ++ '-' :: mantissa false lead frac := by
      unfold mantissa; simp
    rw [e, splitAtChar_some (by decide) (by simp)]
    simp

/-- The fraction split. -/
theorem mantissa_frac {lead : List Nat} {frac : Option (List Nat)}
    (hd : AllDigits (allOf lead frac)) :
    Decimal.splitPoint (mantissa false lead frac) = (digitText (allOf lead frac), fracLen frac) := by
  unfold Decimal.splitPoint mantissa allOf fracLen
  unfold allOf at hd
  cases frac with
  | none =>
    simp only [Bool.false_eq_true, if_false, List.append_nil, List.nil_append]
    rw [splitAtChar_none]
    intro c hc
    have := mem_digitText hd hc; simp [this.2.2.2.1]
  | some f =>
    rw [allDigits_append] at hd
    simp only [Bool.false_eq_true, if_false, List.nil_append]
    rw [splitAtChar_some (by decide)]
    · simp [digitText_append, digitText_length]
    · intro c hc
      have := mem_digitText hd.1 hc; simp [this.2.2.2.1]

/-- Parsing a mantissa with an exponent that is not positive. -/
theorem fromStrBody_nonpos {rec : List Char → R Decimal} {neg : Bool} {lead : List Nat}
    {frac : Option (List Nat)} {k : Nat}
    (hd : AllDigits (allOf lead frac)) (h0 : allOf lead frac ≠ [])
    (hv : decValue (allOf lead frac) < u128Size) (hk : fracLen frac + k < 256) :
    Decimal.fromStrBody rec (mantissa neg lead frac) (-(k : Int))
      = .ok ⟨decValue (allOf lead frac), fracLen frac + k, neg⟩ := by
  unfold Decimal.fromStrBody
  rw [if_neg (mantissa_ne_nil h0), mantissa_sign hd]
  simp only [bind, Except.bind]
  rw [mantissa_frac hd]
  have hdiff : ((fracLen frac : Int) - -(k : Int)) = ((fracLen frac + k : Nat) : Int) := by
    push_cast; ring
  simp only [hdiff]
  rw [if_neg (by
    have : (((fracLen frac + k : Nat)) : Int) < 256 := by exact_mod_cast hk
    norm_num; omega), if_neg (by omega), parseU128_text hd h0]
  unfold u128
  rw [if_pos hv]
  simp only [Int.natAbs_natCast, Nat.mod_eq_of_lt hk]
  rfl

/-- Parsing a mantissa with a positive exponent. -/
theorem fromStrBody_pos {neg : Bool} {lead : List Nat} {frac : Option (List Nat)} {k : Nat}
    (hd : AllDigits (allOf lead frac)) (h0 : allOf lead frac ≠ [])
    (hv : decValue (allOf lead frac) < u128Size) (hf : fracLen frac < 256) (hk0 : 0 < k)
    (hk : k < 256) (rec2 : List Char → R Decimal) :
    Decimal.fromStrBody (Decimal.fromStrWith rec2) (mantissa neg lead frac) (k : Int)
      = ((Decimal.mk (decValue (allOf lead frac)) (fracLen frac) false).toScale k >>= fun v =>
          (Decimal.mk v.value 0 neg).toScale k) := by
  unfold Decimal.fromStrBody
  rw [if_neg (mantissa_ne_nil h0), mantissa_sign hd]
  simp only [bind, Except.bind]
  rw [mantissa_frac hd]
  have hinner : Decimal.fromStrWith rec2 (mantissa false lead frac)
      = .ok ⟨decValue (allOf lead frac), fracLen frac, false⟩ := by
    rw [fromStrWith_noexp (mantissa_chars hd)]
    have := fromStrBody_nonpos (rec := rec2) (neg := false) (k := 0) hd h0 hv (by omega)
    simpa using this
  simp only [hinner, unwrap]
  rw [if_neg (by
    have : ((fracLen frac : Nat) : Int) < 256 := by exact_mod_cast hf
    norm_num; omega), if_pos (by exact_mod_cast hk0)]
  simp only [Int.natAbs_natCast, Nat.mod_eq_of_lt hk]
  rfl

theorem parseI64_text {ds : List Nat} (h : AllDigits ds) (h0 : ds ≠ []) (hv : decValue ds < 2 ^ 63) :
    parseI64 (digitText ds) = .ok (decValue ds : Int) ∧
    parseI64 ('-' :: digitText ds) = .ok (-(decValue ds : Int)) := by
  have hr : readDigits (digitText ds) 0 = some (decValue ds) := readDigits_text ds 0 h
  have hne := digitText_ne_nil h0
  unfold parseI64
  constructor
  · rw [if_neg (head_digitText h).2, stripPlus_text h, if_neg hne, hr]
    simp only
    rw [if_pos hv]
  · rw [if_pos (by rfl), List.tail_cons, if_neg hne, hr]
    simp only
    rw [if_pos (le_of_lt hv)]

theorem decValue_zeros (k : Nat) (ds : List Nat) : decValue (List.replicate k 0 ++ ds) = decValue ds := by
  unfold decValue
  rw [List.foldl_append]
  congr 1
  induction k with
  | zero => rfl
  | succ k ih => rw [List.replicate_succ, List.foldl_cons]; exact ih

theorem allDigits_zeros (k : Nat) : AllDigits (List.replicate k 0) := by
  intro d hd; rw [List.eq_of_mem_replicate hd]; norm_num

theorem digitText_zeros (k : Nat) : digitText (List.replicate k 0) = List.replicate k '0' := by
  unfold digitText; rw [List.map_replicate]; rfl

/-- A displayed decimal is a mantissa text of the value with as many fraction digits as the scale. -/
theorem display_spec (d : Decimal) : ∃ lead frac, AllDigits (allOf lead frac) ∧ allOf lead frac ≠ [] ∧
    d.display = mantissa d.negative lead frac ∧ decValue (allOf lead frac) = d.value ∧
    fracLen frac = d.scale := by
  obtain ⟨ds, h1, h2, h3, h4⟩ := natText_spec d.value
  have hlen : (natText d.value).length = ds.length := by rw [h3, digitText_length]
  have hpre : ∀ (rep : List Char), (if d.negative then '-' :: rep else rep)
      = (if d.negative then ['-'] else []) ++ rep := by
    intro rep; cases d.negative <;> rfl
  unfold Decimal.display
  simp only [hlen]
  rw [hpre, h3]
  by_cases hs : d.scale > 0
  · rw [if_pos hs]
    by_cases hs1 : d.scale > ds.length
    · rw [if_pos hs1]
      refine ⟨[0], some (List.replicate (d.scale - ds.length) 0 ++ ds), ?_, by simp [allOf], ?_, ?_, ?_⟩
      · unfold allOf
        simp only [allDigits_append]
        exact ⟨by intro d hd; simp at hd; subst hd; norm_num, allDigits_zeros _, h1⟩
      · unfold mantissa
        simp only [digitText_append, digitText_zeros]
        simp [digitText]
      · unfold allOf
        simp only
        rw [show [0] ++ (List.replicate (d.scale - ds.length) 0 ++ ds)
          = List.replicate (d.scale - ds.length + 1) 0 ++ ds by
            rw [List.replicate_succ]; rfl]
        rw [decValue_zeros, h4]
      · simp [fracLen]; omega
    · rw [if_neg hs1]
      by_cases hs2 : d.scale = ds.length
      · rw [if_pos hs2]
        refine ⟨[0], some ds, ?_, by simp [allOf], ?_, ?_, ?_⟩
        · unfold allOf
          simp only [allDigits_append]
          exact ⟨by intro d hd; simp at hd; subst hd; norm_num, h1⟩
        · unfold mantissa
          simp [digitText]
        · unfold allOf
          have := decValue_zeros 1 ds
          simp only
          rw [← h4]; exact this
        · simp [fracLen, hs2]
      · rw [if_neg hs2]
        refine ⟨ds.take (ds.length - d.scale), some (ds.drop (ds.length - d.scale)), ?_, ?_, ?_, ?_, ?_⟩
        · unfold allOf; simp only [List.take_append_drop]; exact h1
        · unfold allOf; simp only [List.take_append_drop]; exact h2
        · unfold mantissa
          simp only [digitText, List.map_take, List.map_drop, List.append_assoc]
        · unfold allOf; simp only [List.take_append_drop]; exact h4
        · simp [fracLen]; omega
  · rw [if_neg hs]
    refine ⟨ds, none, h1, h2, ?_, h4, ?_⟩
    · unfold mantissa; simp
    · simp [fracLen]; omega

end Hmm
