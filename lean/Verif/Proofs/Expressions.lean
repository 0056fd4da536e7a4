import Verif.Proofs.Plain

/-! # Ordinary text is read piece by piece -/

namespace Verif.ActGrammar

open Peg Spec

/-! ## What is no act -/

/-- A text of some kind of characters and then another one can only be at the beginning of a text in one way. -/
theorem whole_word {P : Char → Prop} {w rest a b : Str} {d : Char} (hl : ∀ c ∈ w, P c) (hr : ∀ c ∈ rest.head?, ¬ P c) (ha : ∀ c ∈ a, P c)
    (hd : ¬ P d) (h : a ++ d :: b <+: w ++ rest) : a = w ∧ d :: b <+: rest := by
  induction w generalizing a with
  | nil =>
    cases a with
    | nil => exact ⟨rfl, h⟩
    | cons x a =>
      obtain ⟨t, ht⟩ := h
      rw [List.nil_append, List.cons_append, List.cons_append] at ht
      exact absurd (ha x (List.mem_cons_self ..)) (hr x (by rw [← ht]; rfl))
  | cons y w ih =>
    cases a with
    | nil =>
      obtain ⟨t, ht⟩ := h
      rw [List.nil_append, List.cons_append, List.cons_append] at ht
      have := (List.cons.inj ht).1
      exact absurd (hl y (List.mem_cons_self ..)) (this ▸ hd)
    | cons x a =>
      rw [List.cons_append, List.cons_append, List.cons_prefix_cons] at h
      obtain ⟨h1, h2⟩ := ih (fun c hc => hl c (List.mem_cons_of_mem _ hc)) (fun c hc => ha c (List.mem_cons_of_mem _ hc)) h.2
      exact ⟨by rw [h.1, h1], h2⟩

theorem upper_first {c : Char} (h : isUpperAz c = true ∨ c ∈ py"ÉÁŐÚÖÜÓÍŰ") : isUpperHun c = true := by
  unfold isUpperHun
  rw [Bool.or_eq_true, List.contains_iff_mem]
  exact h

theorem fails_abbreviation_of {s : Str} (hs : ∀ c ∈ s.head?, isSpace c = false) (h : ∀ a, a <+: s → ¬ Abbreviated a) : Fails abbreviation s := by
  refine Fails.located ?_
  have e : s.dropWhile isSpace = s := by
    cases s with
    | nil => rfl
    | cons c s => exact dropWhile_cons_of (hs c rfl)
  rw [e]
  have pat : ∀ r : Regex, (∀ a, Matches r a → Abbreviated a) → Fails (pattern r) s := by
    intro r hr
    refine fails_pattern ?_
    cases he : r.ends s with
    | nil => rfl
    | cons n ns =>
      have := (ends_matches r s n (by rw [he]; exact List.mem_cons_self ..)).2
      exact absurd (hr _ this) (h _ (List.take_prefix n s))
  exact Fails.or (pat _ fun a ha => abbreviated_of_matches (.inl ha)) (pat _ fun a ha => abbreviated_of_matches (.inr ha))

/-- What does not begin with a capital letter is no abbreviation. -/
theorem fails_abbreviation {c : Char} {s : Str} (hs : isSpace c = false) (h : isUpperHun c = false) : Fails abbreviation (c :: s) := by
  refine fails_abbreviation_of (by rintro _ ⟨⟩; exact hs) ?_
  rintro a ⟨t, ht⟩ ⟨x, e, r, rfl, hx, _⟩
  have := (List.cons.inj ht).1
  rw [← this, upper_first hx] at h
  cases h

/-- An abbreviation is a word with something at its end. -/
theorem abbreviated_prefix {w rest a : Str} (hl : ∀ x ∈ w, hunLetter x ∨ x = '-') (hr : ∀ x ∈ rest.head?, ¬ hunLetter x ∧ x ≠ '-')
    (hp : a <+: w ++ rest) (ha : Abbreviated a) : ∃ r, a = w ++ r ∧ r <+: rest ∧
      (r ∈ [py" tv.", py" vhr."] ∨ ∃ z, r = '.' :: z ∧ z ∈ [py"", py"tv.", py"vhr.", py" tv.", py" vhr."]) := by
  obtain ⟨x, e, r, rfl, hx, hn, he, hr'⟩ := ha
  have hr2 : ∀ x ∈ rest.head?, ¬ (hunLetter x ∨ x = '-') := fun x hx h => h.elim (hr x hx).1 (hr x hx).2
  have lows : ∀ t : Str, (∀ y ∈ t, hunLower y) → ∀ y ∈ x :: e ++ t, hunLetter y ∨ y = '-' := by
    intro t ht y hy
    rcases List.mem_append.mp hy with hy | hy
    · rcases List.mem_cons.mp hy with rfl | hy
      · exact .inl (.inr hx)
      · exact .inl (.inl (he y hy))
    · exact .inl (.inl (ht y hy))
  have dot : ∀ t u : Str, r = t ++ '.' :: u → (∀ y ∈ t, hunLower y) → x :: e ++ t = w ∧ '.' :: u <+: rest := by
    rintro t u rfl ht
    exact whole_word hl hr2 (lows t ht) (d := '.') (b := u) (by decide +kernel) (by simpa using hp)
  have space : ∀ u : Str, r = ' ' :: u → x :: e = w ∧ ' ' :: u <+: rest := by
    rintro u rfl
    exact whole_word hl hr2 (a := x :: e) (by simpa using lows [] (by simp)) (d := ' ') (b := u) (by decide +kernel) hp
  rcases hr' with rfl | ⟨p, q, z, rfl, hp', hq, hz⟩
  · obtain ⟨h1, h2⟩ := dot [] [] rfl (by simp)
    rw [List.append_nil] at h1
    exact ⟨py".", by rw [h1], h2, .inr ⟨[], rfl, by simp⟩⟩
  · simp only [List.mem_cons, List.not_mem_nil, or_false] at hp' hq hz
    rcases hp' with rfl | rfl
    · rcases hq with rfl | rfl
      · rcases hz with rfl | rfl
        · obtain ⟨h1, h2⟩ := dot (py"tv") [] rfl (by unfold hunLower; decide +kernel)
          exact ⟨py".", by rw [← h1]; simp, h2, .inr ⟨[], rfl, by simp⟩⟩
        · obtain ⟨h1, h2⟩ := dot (py"vhr") [] rfl (by unfold hunLower; decide +kernel)
          exact ⟨py".", by rw [← h1]; simp, h2, .inr ⟨[], rfl, by simp⟩⟩
      · rcases hz with rfl | rfl
        · obtain ⟨h1, h2⟩ := space _ rfl
          exact ⟨_, by rw [h1]; rfl, h2, .inl (by simp)⟩
        · obtain ⟨h1, h2⟩ := space _ rfl
          exact ⟨_, by rw [h1]; rfl, h2, .inl (by simp)⟩
    · obtain ⟨h1, h2⟩ := dot [] (q ++ z) rfl (by simp)
      rw [List.append_nil] at h1
      refine ⟨_, by rw [h1]; rfl, h2, .inr ⟨q ++ z, rfl, ?_⟩⟩
      rcases hq with rfl | rfl <;> rcases hz with rfl | rfl <;> simp

/-- A word without a full stop after it is no abbreviation. -/
theorem fails_abbreviation_word {c : Char} {w rest : Str} (hc : isSpace c = false) (hl : ∀ x ∈ c :: w, hunLetter x ∨ x = '-')
    (hr : ∀ x ∈ rest.head?, ¬ hunLetter x ∧ x ≠ '-') (ha : ∀ e ∈ [py".", py" tv.", py" vhr."], ¬ e <+: rest) :
    Fails abbreviation (c :: w ++ rest) := by
  refine fails_abbreviation_of (by rintro _ ⟨⟩; exact hc) ?_
  intro a hp hA
  obtain ⟨r, -, h1, h2 | ⟨z, rfl, -⟩⟩ := abbreviated_prefix hl hr hp hA
  · exact ha r (List.mem_cons_of_mem _ h2) h1
  · exact ha (py".") (by simp) ((by simp : py"." <+: '.' :: z).trans h1)

/-- What does not begin with a number is not the number of an act. -/
theorem fails_actId_start {s : Str} (h : ∀ c ∈ first s, isAsciiDigit c = false) : Fails actId s :=
  Fails.located (Fails.bind (fails_number (by rw [first_dropWhile]; exact h)))

/-- A number without a full stop and that word is not the number of an act. -/
theorem fails_actId {d t : Str} (hd : Digits d) (ht : ∀ c ∈ t.head?, isAsciiDigit c = false)
    (h : NotFirst (py".") t ∨ ∃ u, t = '.' :: u ∧ (py"évi").isPrefixOf (u.dropWhile isSpace) = false) : Fails actId (d ++ t) := by
  have hdw : (d ++ t).dropWhile isSpace = d ++ t := by
    obtain ⟨c, d, rfl⟩ := List.exists_cons_of_ne_nil hd.1
    exact dropWhile_cons_of (digit_not_space (hd.2 c (List.mem_cons_self ..)))
  refine Fails.located ?_
  rw [hdw]
  refine (reads_number hd ht).fails ?_
  rcases h with h | ⟨u, rfl, hu⟩
  · exact (fails_first (a := '.') rfl h).bind
  · exact (reads_dot u).fails (Fails.bind fun n => token_not_prefix hu)

/-! ## References are no acts -/

theorem id_digits {k : PartKind} {id : Str} (h : Identifies k id) (hk : k = .article ∨ k = .numericPoint ∨ k = .numericSubpoint) :
    ∃ D R, id = D ++ R ∧ Digits D ∧ ∀ c ∈ R.head?, isAsciiDigit c = false ∧ isSpace c = false ∧ c ≠ '.' := by
  have sign : ∀ c : Char, c ∈ py":/" → isAsciiDigit c = false ∧ isSpace c = false ∧ c ≠ '.' := by decide +kernel
  rcases hk with rfl | rfl | rfl
  · obtain ⟨b, n, l, rfl, hb, hn, hl⟩ := h
    rcases hb with rfl | ⟨d, hd, rfl⟩
    · refine ⟨n, l, rfl, hn, ?_⟩
      rcases hl with rfl | ⟨c, _, rfl⟩
      · rintro _ ⟨⟩
      · rintro _ ⟨⟩; exact sign _ (by decide)
    · refine ⟨d, ':' :: (n ++ l), by simp, hd, ?_⟩
      rintro _ ⟨⟩
      exact sign _ (by decide)
  · obtain ⟨n, l, rfl, hn, hl⟩ := h
    refine ⟨n, l, rfl, hn, ?_⟩
    rcases hl with rfl | ⟨c, hc, rfl | rfl⟩
    · rintro _ ⟨⟩
    · rintro _ ⟨⟩; exact ⟨lower_not_ascii hc, lower_not_space hc, ne_of_class hc⟩
    · rintro _ ⟨⟩; exact sign _ (by decide)
  · exact ⟨id, [], by simp, h, by rintro _ ⟨⟩⟩

theorem item_no_act {k : PartKind} {n : Nat} {x : Item} {w s : Str} (h : ItemText k n x w)
    (hs : (py"évi").isPrefixOf (s.dropWhile isSpace) = false) : Fails actId (w ++ s) := by
  by_cases hk : k = .article ∨ k = .numericPoint ∨ k = .numericSubpoint
  · obtain ⟨-, h⟩ := h
    cases x with
    | inl r =>
      obtain ⟨hx, hy, d, hd, hw⟩ := h
      obtain ⟨D, R, e, hD, hR⟩ := id_digits hx hk
      have hw' : w = r.1.1 ++ d ++ r.1.2 ++ py"." := by rcases hk with rfl | rfl | rfl <;> exact hw
      obtain ⟨c, rfl, hc⟩ := dash_cases hd
      have hc' : ∀ c ∈ py"−–-", isAsciiDigit c = false ∧ isSpace c = false ∧ c ≠ '.' := by decide +kernel
      rw [hw', e]
      simp only [List.append_assoc]
      have key : ∀ t : Str, (∀ x ∈ (R ++ [c] ++ t).head?, isAsciiDigit x = false ∧ isSpace x = false ∧ x ≠ '.') := by
        intro t x hx
        cases R with
        | nil => cases hx; exact hc' _ hc
        | cons y R => cases hx; exact hR _ rfl
      have key' := key (r.1.2 ++ ((py".") ++ s))
      simp only [List.append_assoc] at key'
      refine fails_actId hD (fun x hx => (key' x hx).1) (.inl fun x hx => ?_)
      unfold first at hx
      cases hh : R ++ ([c] ++ (r.1.2 ++ ((py".") ++ s))) with
      | nil => simp at hh
      | cons y t =>
        rw [hh] at hx key'
        obtain ⟨-, h2, h3⟩ := key' y rfl
        rw [dropWhile_cons_of h2] at hx
        cases hx
        simpa using h3
    | inr r =>
      obtain ⟨hi, hw⟩ := h
      obtain ⟨D, R, e, hD, hR⟩ := id_digits hi hk
      have hw' : w = r.1 ++ py"." := by rcases hk with rfl | rfl | rfl <;> exact hw
      rw [hw', e]
      simp only [List.append_assoc]
      cases R with
      | nil => exact fails_actId hD (by rintro _ ⟨⟩; decide) (.inr ⟨s, rfl, hs⟩)
      | cons y R =>
        obtain ⟨h1, h2, h3⟩ := hR y rfl
        refine fails_actId hD (by rintro _ ⟨⟩; exact h1) (.inl ?_)
        exact notFirst_cons h2 (by simpa using h3)
  · obtain ⟨c, t, rfl, hb⟩ := item_start h
    refine fails_actId_start ?_
    rw [List.cons_append, first_cons (begins_not_space hb)]
    rintro _ ⟨⟩
    cases k with
    | paragraph => cases hb; decide
    | alphabeticPoint => exact lower_not_ascii hb
    | alphabeticSubpoint => exact lower_not_ascii hb
    | _ => simp at hk

theorem separator_no_year {g : Str} (h : SeparatorText g) (s : Str) : (py"évi").isPrefixOf ((g ++ s).dropWhile isSpace) = false := by
  obtain ⟨c, o, a, rfl, hc, ho, ha, hn⟩ := h
  simp only [List.mem_cons, List.not_mem_nil, or_false] at hc ho ha
  have sp : isSpace ' ' = true := by decide
  have l : ∀ x ∈ py",;évi", isSpace x = false := by decide +kernel
  rcases hc with rfl | rfl | rfl
  · rcases ho with rfl | rfl | rfl | rfl | rfl
    · exact absurd rfl (hn rfl)
    all_goals
      simp only [List.nil_append, List.cons_append, List.dropWhile_cons_of_pos sp]
      rw [dropWhile_cons_of (l _ (by decide))]
      rfl
  · simp only [List.cons_append]
    rw [dropWhile_cons_of (l _ (by decide))]
    rfl
  · simp only [List.cons_append]
    rw [dropWhile_cons_of (l _ (by decide))]
    rfl

theorem end_no_year {k : PartKind} {e : Str} (h : EndText k e) (s : Str) : (py"évi").isPrefixOf ((' ' :: e ++ s).dropWhile isSpace) = false := by
  obtain ⟨c, t, rfl, hc⟩ := end_head h
  have hne : ∀ c ∈ py"§bpa", ('é' == c) = false := by decide +kernel
  rw [List.cons_append, dropWhile_space, List.cons_append, dropWhile_cons_of (end_not_space c hc)]
  simp only [List.isPrefixOf, hne c hc, Bool.false_and]

theorem part_no_act {n : Nat} {p : ParsedPart} {w : Str} (h : PartText n p w) (s : Str) : Fails actId (w ++ s) := by
  obtain ⟨items, u, e, hi, he, rfl, _⟩ := h
  cases hi with
  | one h =>
    rw [List.append_assoc]
    exact item_no_act h (end_no_year he s)
  | cons h hg hs =>
    simp only [List.append_assoc]
    refine item_no_act h ?_
    exact separator_no_year hg _

theorem begins_not_upper {k : PartKind} {c : Char} (h : Begins k c) : isUpperHun c = false ∧ c ≠ '„' := by
  have dig : isAsciiDigit c = true → isUpperHun c = false ∧ c ≠ '„' := by
    intro h
    refine ⟨?_, ne_of_class h⟩
    cases hu : isUpperHun c with
    | false => rfl
    | true =>
      have hl : hunLetter c := hunLetter_iff.mpr (by rw [hu, Bool.or_true])
      rw [letter_not_digit hl] at h
      cases h
  have low : isLowerAz c = true → isUpperHun c = false ∧ c ≠ '„' := by
    intro h
    refine ⟨?_, ne_of_class h⟩
    have hb := lower_bounds h
    unfold isUpperHun
    rw [Bool.or_eq_false_iff]
    constructor
    · cases hu : isUpperAz c with
      | false => rfl
      | true =>
        have := (isUpperAz_iff c).mp hu
        omega
    · have h1 : ∀ x ∈ py"ÉÁŐÚÖÜÓÍŰ", isLowerAz x = false := by decide +kernel
      cases hc : (py"ÉÁŐÚÖÜÓÍŰ").contains c with
      | false => rfl
      | true =>
        rw [h1 c (List.contains_iff_mem.mp hc)] at h
        cases h
  cases k with
  | article => exact dig h
  | numericPoint => exact dig h
  | numericSubpoint => exact dig h
  | paragraph => cases h; decide +kernel
  | alphabeticPoint => exact low h
  | alphabeticSubpoint => exact low h

theorem fails_actReference {c : Char} {s : Str} (hs : isSpace c = false) (h1 : Fails abbreviation (c :: s)) (h2 : Fails actId (c :: s)) :
    Fails actReference (c :: s) := by
  refine Fails.rule ?_
  rw [dropWhile_cons_of hs]
  exact Fails.or h1.bind h2.bind

/-! ## Quotations -/

theorem fails_quoteIn {s : Str} (h : NotFirst (py"„") s) : ∀ n, Fails (quoteIn n) s
  | 0 => fun _ => rfl
  | n + 1 => by
    unfold quoteIn
    refine Fails.rule (Fails.bind (fails_first (a := '„') rfl ?_))
    intro c hc
    rw [first_dropWhile] at hc
    exact h c hc

theorem fails_quote {s : Str} (h : NotFirst (py"„") s) : Fails quote s := fun n => fails_quoteIn h _ n

theorem many_fails {α : Type} {p : Peg α} {s : Str} (h : Fails p s) : Reads (many p) [] s [] := fun n => many_steps (.nil _) (h n)

/-- What is repeated in a quotation. -/
def innerQuote (m : Nat) : Peg QuoteTree := do
  let q ← quoteIn m
  let s ← unquoted
  pure (QuoteTree.list [.list q, .text s])

theorem unquoted_reads {w r : Str} (h : ∀ c ∈ w, c ∉ py"„”") (hr : ∀ c ∈ r.head?, c ∈ py"„”") : Reads unquoted w r w := by
  refine Reads.matches (star_ends (fun c hc => ?_) (fun c hc => ?_))
  · have := h c hc
    simp only [List.mem_cons, List.not_mem_nil, or_false, not_or] at this
    simp [this.1, this.2]
  · have := hr c hc
    simp only [List.mem_cons, List.not_mem_nil, or_false] at this
    rcases this with rfl | rfl <;> decide

/-- How a text with quotations in it is read. -/
def ReadInside (m : Nat) (u : Str) (w : Str) (ts : List QuoteTree) : Prop :=
  (∀ c ∈ w, c ∉ py"„”") ∧ ∃ v, u = w ++ v ∧ (∀ c ∈ v.head?, c = '„') ∧ quotesText ts = v ∧
    ∀ rest n, Steps (innerQuote m) ⟨n, v ++ '”' :: rest⟩ ts ⟨n + v.length, '”' :: rest⟩

theorem inside_reads {m : Nat} {u w : Str} {ts : List QuoteTree} (h : ReadInside m u w ts) (rest : Str) :
    Reads (quoteIn (m + 1)) ('„' :: u ++ py"”") rest [.text (py"„"), .text w, .list ts, .text (py"”")] := by
  obtain ⟨hw, v, rfl, hv, _, hs⟩ := h
  have h1 : Reads (token (py"„")) (py"„") (w ++ (v ++ ((py"”") ++ rest))) (py"„") := reads_word (c := '„') rfl (by decide +kernel) (.inl (by decide +kernel))
  have h2 : Reads unquoted w (v ++ ((py"”") ++ rest)) w := by
    refine unquoted_reads hw ?_
    cases v with
    | nil => rintro _ ⟨⟩; decide
    | cons a v => intro c hc; rw [hv c hc]; decide
  have h3 : Reads (token (py"”")) (py"”") rest (py"”") := reads_word (c := '”') rfl (by decide +kernel) (.inl (by decide +kernel))
  have h4 : Fails (innerQuote m) ('”' :: rest) := (fails_quoteIn (notFirst_cons (by decide +kernel) (by decide)) m).bind
  have h5 : Reads (many (innerQuote m)) v ((py"”") ++ rest) ts := fun n => many_steps (hs rest n) (h4 _)
  have h6 : Reads (do
      let o ← token (py"„")
      let s ← unquoted
      let inner ← many (innerQuote m)
      let c ← token (py"”")
      pure [QuoteTree.text o, .text s, .list inner, .text c]) ((py"„") ++ (w ++ (v ++ ((py"”") ++ [])))) rest
      [QuoteTree.text (py"„"), .text w, .list ts, .text (py"”")] := by
    refine Reads.bind (by simpa using h1) (Reads.bind (by simpa using h2) (Reads.bind (by simpa using h5) (Reads.bind (by simpa using h3) ?_)))
    exact reads_nil _ _
  have h7 := h6.rule (c := '„') rfl (by decide +kernel)
  have e : ((py"„") ++ (w ++ (v ++ ((py"”") ++ [])))) = '„' :: (w ++ v) ++ py"”" := by simp
  rw [e] at h7
  exact h7

theorem balanced_inside {u : Str} (h : Balanced u) : ∃ w ts, ∀ m, u.length ≤ m → ReadInside m u w ts := by
  induction h with
  | @plain w h => exact ⟨w, [], fun m _ => ⟨h, [], by simp, by simp, rfl, fun rest n => .nil _⟩⟩
  | @quote w u v h _ _ ihu ihv =>
    obtain ⟨x, ts, hu⟩ := ihu
    obtain ⟨y, ss, hv⟩ := ihv
    refine ⟨w, .list [.list [.text (py"„"), .text x, .list ts, .text (py"”")], .text y] :: ss, fun m hm => ?_⟩
    simp only [List.length_append, List.length_cons] at hm
    obtain ⟨k, rfl⟩ : ∃ k, m = k + 1 := ⟨m - 1, by omega⟩
    have hu := hu k (by omega)
    obtain ⟨hy, z, rfl, hz, hz2, hv⟩ := hv (k + 1) (by omega)
    have e1 : u = x ++ quotesText ts := by
      obtain ⟨_, v, e, _, e2, _⟩ := hu
      rw [e, e2]
    refine ⟨h, '„' :: u ++ '”' :: (y ++ z),
      by simp only [List.append_assoc], by rintro _ ⟨⟩; rfl, ?_, fun rest n => ?_⟩
    · simp [quotesText, quoteText, hz2, e1]
    · have h1 := inside_reads hu (y ++ (z ++ '”' :: rest))
      have h2 : Reads unquoted y (z ++ '”' :: rest) y := by
        refine unquoted_reads hy ?_
        cases z with
        | nil => rintro _ ⟨⟩; decide
        | cons a v => intro c hc; rw [hz c hc]; decide
      have h3 : innerQuote (k + 1) ⟨n, '„' :: u ++ '”' :: (y ++ z) ++ '”' :: rest⟩ =
          some (.list [.list [.text (py"„"), .text x, .list ts, .text (py"”")], .text y],
            ⟨n + ('„' :: u ++ py"”").length + y.length, z ++ '”' :: rest⟩) := by
        unfold innerQuote
        have e : '„' :: u ++ '”' :: (y ++ z) ++ '”' :: rest = ('„' :: u ++ py"”") ++ (y ++ (z ++ '”' :: rest)) := by simp
        rw [e, bind_some (h1 n), bind_some (h2 _)]
        rfl
      refine .cons h3 (by simp; omega) ?_
      have := hv rest (n + ('„' :: u ++ py"”").length + y.length)
      have e : n + ('„' :: u ++ py"”").length + y.length + z.length = n + ('„' :: u ++ '”' :: (y ++ z)).length := by simp; omega
      rw [e] at this
      exact this

theorem quoteIn_reads {u : Str} (h : Balanced u) : ∃ i, quotesText i = u ∧ ∀ m, u.length ≤ m → ∀ rest,
    Reads (quoteIn (m + 1)) ('„' :: u ++ py"”") rest (.text (py"„") :: i ++ [.text (py"”")]) := by
  obtain ⟨w, ts, h⟩ := balanced_inside h
  refine ⟨[.text w, .list ts], ?_, fun m hm => inside_reads (h m hm)⟩
  obtain ⟨_, v, e, _, e2, _⟩ := h _ (Nat.le_refl _)
  simp [quotesText, quoteText, e, e2]

theorem quote_read {w rest : Str} (h : Balanced w) : ∃ q, Reads quote ('„' :: w ++ py"”") rest q := by
  obtain ⟨i, _, hi⟩ := quoteIn_reads h
  exact ⟨_, fun n => hi ('„' :: w ++ (py"”") ++ rest).length (by simp; omega) rest n⟩

/-! ## Single expressions -/

theorem fails_word {c : Char} {s : Str} (hs : isSpace c = false) (hc : ¬ hunLetter c) (hd : c ≠ '-') : Fails word (c :: s) := by
  refine Fails.rule ?_
  rw [dropWhile_cons_of hs]
  refine fails_pattern (plus_none ?_)
  rintro _ ⟨⟩
  rw [Bool.or_eq_false_iff]
  exact ⟨by rw [← Bool.not_eq_true, ← hunLetter_iff]; exact hc, by simpa using hd⟩

theorem reads_word_token {c : Char} {w rest : Str} (hs : isSpace c = false) (hl : ∀ x ∈ c :: w, hunLetter x ∨ x = '-')
    (hr : ∀ x ∈ rest.head?, ¬ hunLetter x ∧ x ≠ '-') : Reads anyToken (c :: w) rest (c :: w) := by
  have h1 : Reads (pattern (.plus fun c => isLowerHun c || isUpperHun c || c == '-')) (c :: w) rest (c :: w) := by
    refine Reads.matches (plus_ends (by simp) (fun x hx => ?_) (fun x hx => ?_))
    · rcases hl x hx with h | rfl
      · rw [hunLetter_iff.mp h, Bool.true_or]
      · simp
    · obtain ⟨h1, h2⟩ := hr x hx
      rw [Bool.or_eq_false_iff]
      exact ⟨by rw [← Bool.not_eq_true, ← hunLetter_iff]; exact h1, by simpa using h2⟩
  exact (Reads.left (h1.rule (c := c) rfl hs)).rule (c := c) rfl hs

theorem reads_number_token {w rest : Str} (hw : Digits w) (hr : ∀ c ∈ rest.head?, isAsciiDigit c = false) : Reads anyToken w rest w := by
  obtain ⟨c, t, rfl⟩ := List.exists_cons_of_ne_nil hw.1
  have hc := hw.2 c (List.mem_cons_self ..)
  have hl : ¬ hunLetter c := by
    intro h
    rw [letter_not_digit h] at hc
    cases hc
  refine (Reads.right ?_ (Reads.left (reads_number hw hr))).rule (c := c) rfl (digit_not_space hc)
  exact fails_word (digit_not_space hc) hl (ne_of_class hc)

theorem reads_mark_token {c : Char} {rest : Str} (hs : isSpace c = false) (hc : ¬ hunLetter c) (hd : isAsciiDigit c = false) (hn : c ≠ '-') :
    Reads anyToken [c] rest [c] := by
  refine (Reads.right (fails_word hs hc hn) (Reads.right (fails_number ?_) (reads_letter ?_))).rule (c := c) rfl hs
  · rw [List.singleton_append, first_cons hs]
    rintro _ ⟨⟩
    exact hd
  · have : c ≠ '\n' := by
      rintro rfl
      exact absurd hs (by decide)
    simpa using this

theorem not_letter_upper {c : Char} (h : ¬ hunLetter c) : isUpperHun c = false := by
  cases hu : isUpperHun c with
  | false => rfl
  | true => exact absurd (hunLetter_iff.mpr (by rw [hu, Bool.or_true])) h

theorem plain_no_act {w rest : Str} (h : PlainText w rest) : Fails abbreviation (w ++ rest) ∧ Fails actId (w ++ rest) := by
  have start : ∀ {c : Char} {t : Str}, isSpace c = false → isAsciiDigit c = false → Fails actId (c :: t) := by
    intro c t hs hd
    refine fails_actId_start ?_
    rw [first_cons hs]
    rintro _ ⟨⟩
    exact hd
  cases h with
  | mark hc hd hs hn => exact ⟨fails_abbreviation hs (not_letter_upper hc), start hs hd⟩
  | bracket _ => exact ⟨fails_abbreviation (by decide) (by decide +kernel), start (by decide) (by decide)⟩
  | ending hl hr => exact ⟨fails_abbreviation (by decide) (by decide +kernel), start (by decide) (by decide)⟩
  | quoted h => exact ⟨fails_abbreviation (by decide +kernel) (by decide +kernel), start (by decide +kernel) (by decide +kernel)⟩
  | word hw hl hf hr hs ha =>
    obtain ⟨c, t, rfl⟩ := List.exists_cons_of_ne_nil hw
    have hc : hunLetter c := by
      rcases hl c (List.mem_cons_self ..) with h | h
      · exact h
      · exact absurd h (hf c (by simp))
    refine ⟨?_, start (letter_not_space hc) (letter_not_digit hc)⟩
    rcases ha with ha | ha
    · refine fails_abbreviation (letter_not_space hc) ?_
      rcases ha c rfl with h1 | h1
      · exact (begins_not_upper (k := .alphabeticPoint) h1).1
      · have : ∀ x ∈ py"éáőúöüóíű", isUpperHun x = false := by decide +kernel
        exact this c h1
    · exact fails_abbreviation_word (letter_not_space hc) hl hr ha
  | number hw hr h =>
    obtain ⟨c, t, rfl⟩ := List.exists_cons_of_ne_nil hw.1
    have hc := hw.2 c (List.mem_cons_self ..)
    refine ⟨fails_abbreviation (digit_not_space hc) (begins_not_upper (k := .article) hc).1, fails_actId hw (fun c hc => (hr c hc).1) (.inl ?_)⟩
    rcases h with h | ⟨d, u, rfl, _⟩
    · exact notFirst_sub h (by decide)
    · exact notFirst_cons (by decide) (by decide)
  | dotted hw hd h hp =>
    obtain ⟨c, t, rfl⟩ := List.exists_cons_of_ne_nil hw.1
    have hc := hw.2 c (List.mem_cons_self ..)
    refine ⟨fails_abbreviation (digit_not_space hc) (begins_not_upper (k := .article) hc).1,
      fails_actId hw (by rintro _ ⟨⟩; decide) (.inr ⟨_, rfl, ?_⟩)⟩
    rw [← Bool.not_eq_true, List.isPrefixOf_iff_prefix]
    rintro ⟨v, hv⟩
    exact h 'é' (by unfold first; rw [← hv]; rfl) (by decide)

theorem fails_reference {s : Str} (h : ∀ k, Fails (partOf k) (s.dropWhile isSpace)) : Fails reference s := by
  refine Fails.located (Fails.or (Fails.bind (h .article)) (Fails.or (Fails.bind (h .article)) (Fails.or ?_ (Fails.or ?_ ?_))))
  · exact no_paragraph h
  · exact no_point h
  · exact no_subpoint h

/-- A piece of plain text is passed over. -/
theorem plain_read {w rest : Str} (h : PlainText w rest) : Reads anySimpleExpression w rest (.node .other []) := by
  obtain ⟨c, t, hct⟩ := List.exists_cons_of_ne_nil (plain_ne h)
  have hs : isSpace c = false := by
    cases h with
    | mark _ _ hs _ => cases hct; exact hs
    | bracket _ => cases hct; decide
    | ending _ _ => cases hct; decide
    | quoted _ => cases hct; decide +kernel
    | word hw hl hf _ _ _ =>
      rcases hl c (by rw [hct]; exact List.mem_cons_self ..) with h | h
      · exact letter_not_space h
      · exact absurd h (hf c (by rw [hct]; simp))
    | number hw _ _ => exact digit_not_space (hw.2 c (by rw [hct]; exact List.mem_cons_self ..))
    | dotted hw _ _ _ => exact digit_not_space (hw.2 c (by rw [hct]; exact List.mem_cons_self ..))
  by_cases hq : c = '„'
  · cases h with
    | quoted h =>
      obtain ⟨q, hr⟩ := quote_read (rest := rest) h
      exact (Reads.left (hr.to (f := fun _ => pure (ParseTree.node .other [])) (reads_nil _ _))).rule (c := '„') rfl (by decide +kernel)
    | mark _ _ _ hn => cases hct; exact absurd (by rw [hq]; decide) hn
    | bracket _ => cases hct; exact absurd hq (by decide)
    | ending _ _ => cases hct; exact absurd hq (by decide)
    | word hw hl hf _ _ _ =>
      rcases hl c (by rw [hct]; exact List.mem_cons_self ..) with h | h
      · exact absurd hq (letter_ne h)
      · exact absurd h (hf c (by rw [hct]; simp))
    | number hw _ _ => exact absurd hq (ne_of_class (hw.2 c (by rw [hct]; exact List.mem_cons_self ..)))
    | dotted hw _ _ _ => exact absurd hq (ne_of_class (hw.2 c (by rw [hct]; exact List.mem_cons_self ..)))
  · have hcr : w ++ rest = c :: (t ++ rest) := by rw [hct]; rfl
    have hnq : Fails (do let _ ← quote; pure (ParseTree.node .other [])) (w ++ rest) :=
      (fails_quote (by rw [hcr]; exact notFirst_cons hs (by simpa using hq))).bind
    have hnc : Fails compoundReference (w ++ rest) := by
      have hdw : (w ++ rest).dropWhile isSpace = w ++ rest := by rw [hcr]; exact dropWhile_cons_of hs
      obtain ⟨h1, h2⟩ := plain_no_act h
      refine Fails.rule (Fails.or ?_ ?_)
      · rw [hdw, hcr]
        rw [hcr] at h1 h2
        exact (fails_actReference hs h1 h2).bind
      · refine (fails_reference fun k => ?_).bind
        rw [hdw, hdw]
        exact plain_fails h k
    have hna : Fails (do let _ ← abbreviation; pure (ParseTree.node .other [])) (w ++ rest) := (plain_no_act h).1.bind
    suffices ht : Reads anyToken w rest w from
      (Reads.right hnq (Reads.right hnc (Reads.right hna (ht.to (reads_nil _ _))))).rule (c := c) (by rw [hct]; rfl) hs
    cases h with
    | mark hc hd hs hn => exact reads_mark_token hs hc hd (by rintro rfl; exact hn (by decide))
    | bracket _ => exact reads_mark_token (by decide) (by decide +kernel) (by decide) (by decide)
    | ending hl hr =>
      refine reads_word_token (by decide) (fun x hx => ?_) hr
      rcases List.mem_cons.mp hx with rfl | hx
      · exact .inr rfl
      · exact hl x hx
    | quoted _ => cases hct; exact absurd rfl hq
    | word hw hl hf hr _ _ => subst hct; exact reads_word_token hs hl hr
    | number hw hr _ => exact reads_number_token hw fun c hc => (hr c hc).1
    | dotted hw _ _ _ => exact reads_number_token hw (by rintro _ ⟨⟩; decide)

/-- A reference is read. -/
theorem reference_expression {n : Nat} {ps : List ParsedPart} {w rest : Str} (h : ReferenceText n ps w) (hr : Quiet rest) :
    anySimpleExpression ⟨n, w ++ rest⟩ = some (.node (.compoundReference none [(ps, ↑n, ↑(n + w.length))]) [], ⟨n + w.length, rest⟩) := by
  obtain ⟨p, ps, rfl⟩ : ∃ p ps', ps = p :: ps' := by cases h <;> exact ⟨_, _, rfl⟩
  obtain ⟨u, v, hw, hp⟩ := reference_part h
  obtain ⟨c, t, hc, hb⟩ := part_start hp
  have hs := begins_not_space hb
  have hcr : w ++ rest = c :: (t ++ v ++ rest) := by rw [hw, hc]; rfl
  obtain ⟨hup, hq⟩ := begins_not_upper hb
  have hnq : Fails (do let _ ← quote; pure (ParseTree.node .other [])) (w ++ rest) :=
    (fails_quote (by rw [hcr]; exact notFirst_cons hs (by simpa using hq))).bind
  have hna : Fails actReference (w ++ rest) := by
    rw [hcr]
    refine fails_actReference hs (fails_abbreviation hs hup) ?_
    rw [← hcr, hw, List.append_assoc]
    exact part_no_act hp _
  have hsk : (⟨n, w ++ rest⟩ : At).skip = ⟨n, w ++ rest⟩ := by rw [hcr]; exact skip_cons hs n
  have h1 : compoundReference ⟨n, w ++ rest⟩ = some (.node (.compoundReference none [(p :: ps, ↑n, ↑(n + w.length))]) [], ⟨n + w.length, rest⟩) := by
    unfold compoundReference rule
    rw [hsk, or_right (bind_none (hna n)), bind_some (reference_read h hr)]
    rfl
  unfold anySimpleExpression rule
  rw [hsk, or_right (hnq n), or_left h1]

end Verif.ActGrammar
