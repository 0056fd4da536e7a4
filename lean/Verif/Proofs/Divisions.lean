import Verif.Proofs.Stated
import Verif.Spec.Structural

/-! # The names of the divisions of acts are read (grammar.ebnf:120-148, 193-197) -/

namespace Verif.ActGrammar

open Peg Spec

/-! ## Numbers with letters -/

theorem lettered_reads {p : Peg Str} {n l s : Str} (hp : Reads p n (l ++ '.' :: s) n)
    (hl : l = [] ∨ ∃ c, isUpperAz c = true ∧ (l = [c] ∨ l = ['/', c])) :
    ∃ id, id.flatten = n ++ l ∧ Reads (lettered p) (n ++ l) ('.' :: s) id := by
  have inner : ∃ o, (n :: o.getD []).flatten = n ++ l ∧ Reads (opt (do
      let s ← opt (token (py"/"))
      let l ← pattern (.set isUpperAz)
      pure (s.toList ++ [l]))) l ('.' :: s) o := by
    rcases hl with rfl | ⟨c, hc, rfl | rfl⟩
    · refine ⟨none, by simp, Fails.opt ?_⟩
      have h1 : Fails (token (py"/")) ('.' :: s) := fails_text rfl
      exact h1.opt.fails (f := fun s => do let l ← pattern (.set isUpperAz); pure (s.toList ++ [l]))
        (fails_pattern (set_none (by rintro _ ⟨⟩; decide))).bind
    · have h1 : Fails (token (py"/")) ([c] ++ '.' :: s) := fails_token (a := '/') rfl (by
        rw [List.singleton_append, first_cons (upper_not_space hc)]
        rintro _ ⟨⟩
        exact ne_of_class hc)
      have h2 : Reads (pattern (.set isUpperAz)) [c] ('.' :: s) [c] := set_some hc
      exact ⟨some [[c]], by simp, Reads.opt (Reads.bind (u := []) (v := [c]) h1.opt (h2.to (reads_nil _ _)))⟩
    · have h2 : Reads (pattern (.set isUpperAz)) [c] ('.' :: s) [c] := set_some hc
      have h3 : Reads (token (py"/")) (py"/") ([c] ++ '.' :: s) (py"/") := reads_text (by decide +kernel)
      exact ⟨some [py"/", [c]], by simp, Reads.opt (Reads.bind (u := py"/") (v := [c]) h3.opt (h2.to (reads_nil _ _)))⟩
  obtain ⟨o, h1, h2⟩ := inner
  exact ⟨_, h1, hp.bind (h2.to (reads_nil _ _))⟩

theorem romanDigit_upper {c : Char} (h : c ∈ py"IVXLCDM") : isUpperAz c = true := by
  have : ∀ c ∈ py"IVXLCDM", isUpperAz c = true := by decide
  exact this c h

theorem reads_roman {n rest : Str} (h : RomanDigits n) (hr : ∀ c ∈ rest.head?, c ∉ py"IVXLCDM") : Reads roman n rest n := by
  obtain ⟨c, t, rfl⟩ := List.exists_cons_of_ne_nil h.1
  have hc := h.2 c (List.mem_cons_self ..)
  refine (Reads.matches (plus_ends h.1 (fun c hc => by simpa using h.2 c hc) fun c hc => ?_)).rule (c := c) rfl (upper_not_space (romanDigit_upper hc))
  have := hr c hc
  simpa using this

theorem romans_reads {x : Str} (h : Lettered RomanDigits x) (s : Str) : ∃ id, id.flatten = x ∧ Reads (lettered roman) x ('.' :: s) id := by
  obtain ⟨n, l, rfl, hn, hl⟩ := h
  by_cases hr : ∃ c ∈ py"IVXLCDM", l = [c]
  · obtain ⟨c, hc, rfl⟩ := hr
    have h1 : RomanDigits (n ++ [c]) := ⟨by simp, fun d hd => by
      rcases List.mem_append.mp hd with h | h
      · exact hn.2 d h
      · rw [List.mem_singleton.mp h]; exact hc⟩
    have := lettered_reads (l := []) (s := s) (reads_roman h1 (by rintro _ ⟨⟩; decide)) (.inl rfl)
    simpa using this
  · refine lettered_reads (reads_roman hn ?_) hl
    rcases hl with rfl | ⟨c, hc, rfl | rfl⟩
    · rintro _ ⟨⟩; decide
    · rintro _ ⟨⟩ hm
      exact hr ⟨c, hm, rfl⟩
    · rintro _ ⟨⟩; decide

theorem digits_reads {x : Str} (h : Lettered Digits x) (s : Str) : ∃ id, id.flatten = x ∧ Reads (lettered number) x ('.' :: s) id := by
  obtain ⟨n, l, rfl, hn, hl⟩ := h
  refine lettered_reads (reads_number hn ?_) hl
  rcases hl with rfl | ⟨c, hc, rfl | rfl⟩
  · rintro _ ⟨⟩; decide
  · rintro _ ⟨⟩
    exact upper_not_ascii hc
  · rintro _ ⟨⟩; decide

/-- A Roman number begins with a capital letter that is not followed by a small one. -/
theorem romans_head {x : Str} (h : Lettered RomanDigits x) (s : Str) :
    ∃ c d t, x ++ '.' :: s = c :: d :: t ∧ c ∈ py"IVXLCDM" ∧ (isUpperAz d = true ∨ d ∈ py"/.") := by
  obtain ⟨n, l, rfl, hn, hl⟩ := h
  obtain ⟨c, n, rfl⟩ := List.exists_cons_of_ne_nil hn.1
  have hc := hn.2 c (List.mem_cons_self ..)
  cases n with
  | nil =>
    rcases hl with rfl | ⟨d, hd, rfl | rfl⟩
    · exact ⟨c, '.', _, rfl, hc, .inr (by decide)⟩
    · exact ⟨c, d, _, rfl, hc, .inl hd⟩
    · exact ⟨c, '/', _, rfl, hc, .inr (by decide)⟩
  | cons d n => exact ⟨c, d, _, rfl, hc, .inl (romanDigit_upper (hn.2 d (by simp)))⟩

theorem digitsLettered_head {x : Str} (h : Lettered Digits x) : ∃ c t, x = c :: t ∧ isAsciiDigit c = true := by
  obtain ⟨n, l, rfl, hn, hl⟩ := h
  obtain ⟨c, n, rfl⟩ := List.exists_cons_of_ne_nil hn.1
  exact ⟨c, _, rfl, hn.2 c (List.mem_cons_self ..)⟩

theorem letters_ofNumber {l : Str} (hl : l = [] ∨ ∃ c, isUpperAz c = true ∧ (l = [c] ∨ l = ['/', c])) : ∀ c ∈ l, isOfNumber c = true := by
  rcases hl with rfl | ⟨d, hd, rfl | rfl⟩
  · simp
  · simp [isOfNumber, hd]
  · intro c hc
    simp only [List.mem_cons, List.not_mem_nil, or_false] at hc
    rcases hc with rfl | rfl
    · decide +kernel
    · simp [isOfNumber, hd]

theorem digits_after {x : Str} (h : Lettered Digits x) (s : Str) : afterNumber (x ++ '.' :: ' ' :: s) = afterNumber s := by
  obtain ⟨n, l, rfl, hn, hl⟩ := h
  have : n ++ l ++ '.' :: ' ' :: s = (n ++ (l ++ py". ")) ++ s := by simp
  rw [this]
  refine afterNumber_append fun c hc => ?_
  rcases List.mem_append.mp hc with hc | hc
  · exact ofNumber_digits hn c hc
  · rcases List.mem_append.mp hc with hc | hc
    · exact letters_ofNumber hl c hc
    · have : ∀ c ∈ py". ", isOfNumber c = true := by decide +kernel
      exact this c hc

theorem romans_after {x : Str} (h : Lettered RomanDigits x) (s : Str) : afterNumber (x ++ '.' :: ' ' :: s) = afterNumber s := by
  obtain ⟨n, l, rfl, hn, hl⟩ := h
  have : n ++ l ++ '.' :: ' ' :: s = (n ++ (l ++ py". ")) ++ s := by simp
  rw [this]
  refine afterNumber_append fun c hc => ?_
  rcases List.mem_append.mp hc with hc | hc
  · simp [isOfNumber, romanDigit_upper (hn.2 c hc)]
  · rcases List.mem_append.mp hc with hc | hc
    · exact letters_ofNumber hl c hc
    · have : ∀ c ∈ py". ", isOfNumber c = true := by decide +kernel
      exact this c hc

/-! ## Numbers in words -/

theorem capital_ordinal {x : Str} (h : CapitalOrdinal x) : ∃ c d t, x = c :: d :: t ∧ isSpace c = false ∧ isSpace d = false ∧ isName x = true ∧
    isUpperAz d = false ∧ d ∉ py"/.IVXLCDM§" ∧ isOfNumber d = false ∧ isAsciiDigit c = false ∧ isLowerAz c = false ∧ c ∉ py"a(§„" := by
  have key : ∀ x, CapitalOrdinal x → (match x with
      | c :: d :: t => !isSpace c && !isSpace d && isName (c :: d :: t) && !isUpperAz d && !((py"/.IVXLCDM§").contains d) && !isOfNumber d && !isAsciiDigit c && !isLowerAz c &&
        !((py"a(§„").contains c)
      | _ => false) = true := by
    unfold CapitalOrdinal
    decide +kernel
  have := key x h
  match x, this with
  | c :: d :: t, this =>
    simp only [Bool.and_eq_true, Bool.not_eq_true', List.contains_eq_mem, decide_eq_false_iff_not] at this
    obtain ⟨⟨⟨⟨⟨⟨⟨⟨h1, h2⟩, h3⟩, h4⟩, h5⟩, h6⟩, h7⟩, h8⟩, h9⟩ := this
    exact ⟨c, d, t, rfl, h1, h2, h3, h4, h5, h6, h7, h8, h9⟩

theorem reads_capital {x rest : Str} (h : CapitalOrdinal x) (hr : ∀ c ∈ rest.head?, isNameChar c = false) :
    Reads hungarianOrdinalCapital x rest x := by
  obtain ⟨c, d, t, rfl, hc, _⟩ := capital_ordinal h
  exact (reads_names (ts := capitalOrdinals) h (by decide +kernel) hr).rule (c := c) rfl hc

/-- A Roman number is no number in words. -/
theorem romans_not_words {x : Str} (h : Lettered RomanDigits x) (s : Str) : Fails hungarianOrdinalCapital (x ++ '.' :: s) := by
  obtain ⟨c, d, t, e, hc, hd⟩ := romans_head h s
  rw [e]
  have hs := upper_not_space (romanDigit_upper hc)
  refine Fails.rule (fails_tokens fun u hu => fails_text ?_)
  rw [dropWhile_cons_of hs, dropWhile_cons_of hs]
  obtain ⟨a, b, v, rfl, _, _, _, h1, h2, _⟩ := capital_ordinal (x := u) hu
  have : b ≠ d := by
    rintro rfl
    rcases hd with hd | hd
    · rw [h1] at hd; cases hd
    · refine h2 ?_
      have : ∀ c ∈ py"/.", c ∈ py"/.IVXLCDM§" := by decide
      exact this b hd
  simp [List.isPrefixOf, this]

/-- A number in words is no Roman number with a full stop. -/
theorem words_not_romans {α : Type} {x : Str} (h : CapitalOrdinal x) (s : Str) (f : List Str → Peg α) :
    Fails (do let id ← lettered roman; let _ ← token (py"."); f id) (x ++ s) := by
  obtain ⟨c, d, t, rfl, hc, hsd, _, h1, h2, _⟩ := capital_ordinal h
  rw [List.cons_append, List.cons_append]
  by_cases hm : c ∈ py"IVXLCDM"
  · have h3 : Reads roman [c] (d :: (t ++ s)) [c] := reads_roman ⟨by simp, by simpa using hm⟩ (by
      rintro _ ⟨⟩ hd
      refine h2 ?_
      have : ∀ c ∈ py"IVXLCDM", c ∈ py"/.IVXLCDM§" := by decide
      exact this d hd)
    have no : ∀ a ∈ py"/.", ∀ {t' : Str}, t'.head? = some a → Fails (token t') (d :: (t ++ s)) := fun a ha t' ht => fails_token ht (by
      rw [first_cons hsd]
      rintro _ ⟨⟩ rfl
      refine h2 ?_
      have : ∀ c ∈ py"/.", c ∈ py"/.IVXLCDM§" := by decide
      exact this d ha)
    have h4 : Reads (opt (do
        let s ← opt (token (py"/"))
        let l ← pattern (.set isUpperAz)
        pure (s.toList ++ [l]))) [] (d :: (t ++ s)) none :=
      Fails.opt ((no '/' (by decide) rfl).opt.fails (f := fun s => do let l ← pattern (.set isUpperAz); pure (s.toList ++ [l]))
        (fails_pattern (set_none (by rintro _ ⟨⟩; exact h1))).bind)
    have h5 : Reads (lettered roman) [c] (d :: (t ++ s)) [[c]] := h3.to (h4.to (reads_nil _ _))
    exact h5.fails (no '.' (by decide) rfl).bind
  · refine Fails.bind (fails_lettered (Fails.rule (fails_pattern (plus_none ?_))))
    rw [dropWhile_cons_of hc]
    rintro _ ⟨⟩
    simpa using hm

/-! ## Divisions -/

/-- What is read is what is named. -/
inductive DivisionRead : Division → ParsedStructRef → Prop
  | subtitle {id x} (h : id.flatten = x) : DivisionRead (.subtitle x) (.subtitleNumber id)
  | titled {q x} (h : Quoted q x) : DivisionRead (.titled x) (.subtitleTitle none (some q))
  | chapter {id x} (h : id.flatten = x) : DivisionRead (.chapter x) (.chapterNumber id)
  | part {b x} : DivisionRead (.part b x) (.partNumber b x)
  | title {b id x} (h : id.flatten = x) : DivisionRead (.title b x) (.titleNumber b id)

theorem numbered_reads {α : Type} {p : Peg (List Str)} {f : List Str → α} {x e t R : Str} {id : List Str} {c : Char}
    (hp : Reads p x ('.' :: ' ' :: (e ++ R)) id) (he : Inflected t e) (hc : t.head? = some c) (hs : isSpace c = false) (hR : WordEnds R) :
    Reads (do let id ← p; let _ ← token (py"."); let _ ← suffix t; pure (f id) : Peg α) (x ++ '.' :: ' ' :: e) R (f id) := by
  obtain ⟨y, h1⟩ := reads_suffix he hc hs hR
  have h2 : Reads (do let _ ← token (py"."); let _ ← suffix t; pure (f id) : Peg α) ('.' :: ' ' :: e) R (f id) :=
    Reads.bind (u := ['.']) (v := ' ' :: e) (reads_dot (' ' :: e ++ R)) ((h1.space (suffix_skip _)).to (f := fun _ => pure (f id)) (reads_nil _ _))
  exact Reads.bind (v := '.' :: ' ' :: e) hp h2

theorem chapter_reads {x e R : Str} (hx : Lettered RomanDigits x) (he : Inflected (py"Fejezet") e) (hR : WordEnds R) :
    ∃ id, id.flatten = x ∧ Reads chapterNumber (x ++ '.' :: ' ' :: e) R (.chapterNumber id) := by
  obtain ⟨id, h1, h2⟩ := romans_reads hx (' ' :: (e ++ R))
  obtain ⟨c, d, t, e', hc, _⟩ := romans_head hx (' ' :: e)
  exact ⟨id, h1, (numbered_reads (f := ParsedStructRef.chapterNumber) h2 he rfl (by decide +kernel) hR).rule (c := c) (by rw [e']; rfl) (upper_not_space (romanDigit_upper hc))⟩

theorem book_read {b : Option Str} {u rest : Str} {c : Char} (hb : BookText b u) (hc : isSpace c = false)
    (hn : Fails (do let b ← hungarianOrdinalCapital; let _ ← token (py"Könyv"); pure b) (c :: rest)) (n : Nat) :
    ∃ k, ofBook ⟨n, u ++ c :: rest⟩ = some (b, k) ∧ k.skip = ⟨n + u.length, c :: rest⟩ := by
  cases b with
  | none =>
    cases hb
    exact ⟨_, opt_none (hn n), skip_cons hc n⟩
  | some b =>
    obtain ⟨hb, rfl⟩ := hb
    refine ⟨⟨n + b.length + 6, ' ' :: c :: rest⟩, ?_, ?_⟩
    · have h1 := reads_capital (rest := (py" Könyv ") ++ c :: rest) hb no_name_space n
      have h2 : Reads (token (py"Könyv")) (py" Könyv") (' ' :: c :: rest) (py"Könyv") := name_space (by decide +kernel) no_name_space
      rw [List.append_assoc]
      exact opt_some ((bind_some h1).trans (bind_some (h2 _)))
    · rw [space_skip hc]
      simp
      omega

theorem lettered_skip (i : At) : lettered roman i.skip = lettered roman i := by
  have : roman i.skip = roman i := rule_skip _ i
  unfold lettered
  cases h : roman i with
  | none => rw [bind_none h, bind_none (this.trans h)]
  | some x => rw [bind_some (a := x.1) (j := x.2) h, bind_some (a := x.1) (j := x.2) (this.trans h)]

/-- What may come after the name of a division. -/
structure Ends (R : Str) : Prop where
  word : WordEnds R
  name : ∀ c ∈ R.head?, isNameChar c = false

theorem division_first {d : Division} {v : Str} (h : DivisionText d v) (R : Str) : ∃ c t, v ++ R = c :: t ∧ isSpace c = false ∧ isLowerAz c = false := by
  have cap : ∀ {x s : Str}, CapitalOrdinal x → ∃ c t, x ++ s = c :: t ∧ isSpace c = false ∧ isLowerAz c = false := by
    intro x s hx
    obtain ⟨c, d, t, rfl, hc, _, _, _, _, _, _, hl, _⟩ := capital_ordinal hx
    exact ⟨c, _, rfl, hc, hl⟩
  have rom : ∀ {x s : Str}, Lettered RomanDigits x → ∃ c t, x ++ '.' :: s = c :: t ∧ isSpace c = false ∧ isLowerAz c = false := by
    intro x s hx
    obtain ⟨c, d, t, e, hc, _⟩ := romans_head hx s
    have low : ∀ c ∈ py"IVXLCDM", isLowerAz c = false := by decide
    exact ⟨c, _, e, upper_not_space (romanDigit_upper hc), low c hc⟩
  cases h with
  | subtitle hx he =>
    obtain ⟨c, t, rfl, hc⟩ := digitsLettered_head hx
    exact ⟨c, _, rfl, digit_not_space hc, digit_not_lower' hc⟩
  | titled hq hc =>
    obtain ⟨t, rfl⟩ := quote_head hq
    exact ⟨_, _, rfl, by decide +kernel, by decide +kernel⟩
  | chapter hx he =>
    simp only [List.append_assoc]
    exact rom hx
  | @part b u x e hb hx he =>
    cases b with
    | none =>
      cases hb
      simp only [List.append_assoc, List.nil_append]
      exact cap hx
    | some b =>
      obtain ⟨hb, rfl⟩ := hb
      simp only [List.append_assoc]
      exact cap hb
  | @title b u x e hb hx he =>
    cases b with
    | none =>
      cases hb
      simp only [List.append_assoc, List.nil_append]
      exact rom hx
    | some b =>
      obtain ⟨hb, rfl⟩ := hb
      simp only [List.append_assoc]
      exact cap hb

theorem division_start {d : Division} {v : Str} (h : DivisionText d v) (R : Str) : ∃ c t, v ++ R = c :: t ∧ isSpace c = false := by
  obtain ⟨c, t, e, hc, _⟩ := division_first h R
  exact ⟨c, t, e, hc⟩

theorem no_digits {c : Char} {s : Str} (hs : isSpace c = false) (h : isAsciiDigit c = false) : Fails subtitleNumber (c :: s) := by
  refine Fails.rule (fails_lettered (fails_number ?_)).bind
  rw [dropWhile_cons_of hs, first_cons hs]
  rintro _ ⟨⟩
  exact h

theorem no_digits_division {d : Division} {v R : Str} (h : DivisionText d v) (hd : ∀ x, d ≠ .subtitle x) : Fails subtitleNumber (v ++ R) := by
  have cap : ∀ {x s : Str}, CapitalOrdinal x → Fails subtitleNumber (x ++ s) := by
    intro x s hx
    obtain ⟨c, d, t, rfl, hc, _, _, _, _, _, h, _⟩ := capital_ordinal hx
    exact no_digits hc h
  have rom : ∀ {x s : Str}, Lettered RomanDigits x → Fails subtitleNumber (x ++ '.' :: s) := by
    intro x s hx
    obtain ⟨c, d, t, e, hc, _⟩ := romans_head hx s
    rw [e]
    exact no_digits (upper_not_space (romanDigit_upper hc)) (upper_not_ascii (romanDigit_upper hc))
  cases h with
  | subtitle hx he => exact absurd rfl (hd _)
  | titled hq hc =>
    obtain ⟨t, rfl⟩ := quote_head hq
    exact no_digits (by decide +kernel) (by decide)
  | chapter hx he =>
    simp only [List.append_assoc]
    exact rom hx
  | @part b u x e hb hx he =>
    cases b with
    | none =>
      cases hb
      simp only [List.append_assoc, List.nil_append]
      exact cap hx
    | some b =>
      obtain ⟨hb, rfl⟩ := hb
      simp only [List.append_assoc]
      exact cap hb
  | @title b u x e hb hx he =>
    cases b with
    | none =>
      cases hb
      simp only [List.append_assoc, List.nil_append]
      exact rom hx
    | some b =>
      obtain ⟨hb, rfl⟩ := hb
      simp only [List.append_assoc]
      exact cap hb

theorem subtitleTitle_reads {x q c R : Str} (hq : QuoteText x q) (hc : c ∈ [py"", py" című"]) (hR : ∀ c ∈ R.head?, isNameChar c = false) :
    ∃ y, Quoted y x ∧ Reads subtitleTitle (q ++ c ++ py" alcíme") R (.subtitleTitle none (some y)) := by
  obtain ⟨y, hy, h1⟩ := quote_from hq
  refine ⟨y, hy, ?_⟩
  obtain ⟨t, ht⟩ := quote_head hq
  have h0 : Reads quote q (c ++ ((py" alcíme") ++ R)) y := fun n => h1 (by
    rw [ht]
    exact skip_cons (by decide +kernel) n)
  have h2 : ∃ o, Reads (opt (token (py"című"))) c ((py" alcíme") ++ R) o := by
    simp only [List.mem_cons, List.not_mem_nil, or_false] at hc
    rcases hc with rfl | rfl
    · exact ⟨_, Fails.opt (fails_text rfl)⟩
    · exact ⟨_, Reads.opt (name_space (by decide +kernel) no_name_space)⟩
  obtain ⟨o, h2⟩ := h2
  have h3 : Reads (token (py"alcíme")) (py" alcíme") R (py"alcíme") := name_space (by decide +kernel) hR
  have h4 : Reads (do
      let _ ← opt (token (py"című"))
      let _ ← token (py"alcíme")
      pure (ParsedStructRef.subtitleTitle none (some y)) : Peg ParsedStructRef) (c ++ py" alcíme") R _ := h2.bind (h3.to (reads_nil _ _))
  have h5 : Reads (Peg.or (do
      let q ← quote
      pure (ParsedStructRef.subtitleTitle none (some q))) (do
      let words ← many (do
        Peg.not (token (py"alcíme"))
        Peg.not (token (py"című"))
        anyToken)
      pure (ParsedStructRef.subtitleTitle (some words) none))) q ((c ++ py" alcíme") ++ R) (.subtitleTitle none (some y)) := by
    rw [List.append_assoc]
    exact Reads.left (h0.to (reads_nil _ _))
  rw [List.append_assoc]
  exact (h5.bind h4).rule (c := '„') (by rw [ht]; rfl) (by decide +kernel)

theorem no_chapter_words {x : Str} (h : CapitalOrdinal x) (s : Str) : Fails chapterNumber (x ++ s) := by
  obtain ⟨c, d, t, rfl, hc, _⟩ := capital_ordinal h
  refine Fails.rule ?_
  rw [List.cons_append, dropWhile_cons_of hc]
  exact words_not_romans h s _

theorem no_chapter_title {x e : Str} (h : Lettered RomanDigits x) (he : Inflected (py"Cím") e) (s : Str) :
    Fails chapterNumber (x ++ '.' :: ' ' :: (e ++ s)) := by
  obtain ⟨c, d, t, e', hc, _⟩ := romans_head h (' ' :: (e ++ s))
  obtain ⟨id, _, h1⟩ := romans_reads h (' ' :: (e ++ s))
  refine Fails.rule ?_
  have : (x ++ '.' :: ' ' :: (e ++ s)).dropWhile isSpace = x ++ '.' :: ' ' :: (e ++ s) := by
    rw [e']
    exact dropWhile_cons_of (upper_not_space (romanDigit_upper hc))
  rw [this]
  refine h1.fails ((reads_dot (' ' :: (e ++ s))).fails (fails_suffix (by decide) ?_).bind)
  obtain ⟨l, rfl, _⟩ := he
  rfl

theorem no_chapter_division {d : Division} {v R : Str} (h : DivisionText d v) (hd : ∀ x, d ≠ .chapter x) : Fails chapterNumber (v ++ R) := by
  have start : ∀ {c : Char} {t : Str}, isSpace c = false → c ∉ py"IVXLCDM" → Fails chapterNumber (c :: t) := by
    intro c t hs hc
    refine Fails.rule (fails_lettered (Fails.rule (fails_pattern (plus_none ?_)))).bind
    rw [dropWhile_cons_of hs, dropWhile_cons_of hs]
    rintro _ ⟨⟩
    simpa using hc
  cases h with
  | subtitle hx he =>
    obtain ⟨c, t, rfl, hc⟩ := digitsLettered_head hx
    refine start (digit_not_space hc) fun hm => ?_
    have := upper_not_ascii (romanDigit_upper hm)
    rw [hc] at this
    cases this
  | titled hq hc =>
    obtain ⟨t, rfl⟩ := quote_head hq
    exact start (by decide +kernel) (by decide)
  | chapter hx he => exact absurd rfl (hd _)
  | @part b u x e hb hx he =>
    cases b with
    | none =>
      cases hb
      simp only [List.append_assoc, List.nil_append]
      exact no_chapter_words hx _
    | some b =>
      obtain ⟨hb, rfl⟩ := hb
      simp only [List.append_assoc]
      exact no_chapter_words hb _
  | @title b u x e hb hx he =>
    cases b with
    | none =>
      cases hb
      simp only [List.append_assoc, List.nil_append]
      exact no_chapter_title hx he R
    | some b =>
      obtain ⟨hb, rfl⟩ := hb
      simp only [List.append_assoc]
      exact no_chapter_words hb _

theorem no_book_part {x e : Str} (hx : CapitalOrdinal x) (he : Inflected (py"Rész") e) (R : Str) :
    Fails (do let b ← hungarianOrdinalCapital; let _ ← token (py"Könyv"); pure b) (x ++ ' ' :: (e ++ R)) := by
  refine (reads_capital hx no_name_space).fails (f := fun b => do let _ ← token (py"Könyv"); pure b) (Fails.bind (fails_text ?_))
  obtain ⟨l, rfl, _⟩ := he
  rfl

theorem no_book_title {x : Str} (hx : Lettered RomanDigits x) (s : Str) :
    Fails (do let b ← hungarianOrdinalCapital; let _ ← token (py"Könyv"); pure b) (x ++ '.' :: s) := (romans_not_words hx s).bind

theorem division_part {b : Option Str} {u x e R : Str} (hb : BookText b u) (hx : CapitalOrdinal x) (he : Inflected (py"Rész") e) (hR : WordEnds R)
    {i : At} {m : Nat} (hi : i.skip = ⟨m, u ++ (x ++ ' ' :: (e ++ R))⟩) :
    partNumber i = some (.partNumber b x, ⟨m + u.length + x.length + 1 + e.length, R⟩) := by
  obtain ⟨c, d, t, hx', hc, _⟩ := capital_ordinal hx
  have hb' := book_read (rest := d :: t ++ ' ' :: (e ++ R)) hb hc (by have := no_book_part hx he R; rw [hx'] at this; exact this) m
  have e1 : c :: (d :: t ++ ' ' :: (e ++ R)) = x ++ ' ' :: (e ++ R) := by rw [hx']; rfl
  rw [e1] at hb'
  obtain ⟨k, h1, h2⟩ := hb'
  have h3 : hungarianOrdinalCapital k = some (x, ⟨m + u.length + x.length, ' ' :: (e ++ R)⟩) := by
    have := reads_capital (rest := ' ' :: (e ++ R)) hx no_name_space (m + u.length)
    rw [← h2] at this
    exact (rule_skip _ k).symm.trans this
  obtain ⟨y, h4⟩ := reads_suffix (rest := R) he (c := 'R') rfl (by decide +kernel) hR
  have h5 := (h4.space (suffix_skip _)) (m + u.length + x.length)
  unfold partNumber rule
  rw [hi]
  have e2 : m + u.length + x.length + (' ' :: e).length = m + u.length + x.length + 1 + e.length := by simp; omega
  rw [e2] at h5
  exact (bind_some h1).trans ((bind_some h3).trans (bind_some h5))

theorem no_part_title {b : Option Str} {u x : Str} (hb : BookText b u) (hx : Lettered RomanDigits x) (s : Str) {i : At} {m : Nat}
    (hi : i.skip = ⟨m, u ++ (x ++ '.' :: s)⟩) : partNumber i = none := by
  obtain ⟨c, d, t, hx', hc, _⟩ := romans_head hx s
  have hb' := book_read (rest := d :: t) hb (upper_not_space (romanDigit_upper hc)) (by have := no_book_title hx s; rw [hx'] at this; exact this) m
  rw [← hx'] at hb'
  obtain ⟨k, h1, h2⟩ := hb'
  have h3 : hungarianOrdinalCapital k = none := by
    have := romans_not_words hx s (m + u.length)
    rw [← h2] at this
    exact (rule_skip _ k).symm.trans this
  unfold partNumber rule
  rw [hi]
  exact (bind_some h1).trans (bind_none h3)

theorem division_title {b : Option Str} {u x e R : Str} (hb : BookText b u) (hx : Lettered RomanDigits x) (he : Inflected (py"Cím") e) (hR : WordEnds R)
    {i : At} {m : Nat} (hi : i.skip = ⟨m, u ++ (x ++ '.' :: ' ' :: (e ++ R))⟩) :
    ∃ id, id.flatten = x ∧ titleNumber i = some (.titleNumber b id, ⟨m + u.length + x.length + 2 + e.length, R⟩) := by
  obtain ⟨c, d, t, hx', hc, _⟩ := romans_head hx (' ' :: (e ++ R))
  have hb' := book_read (rest := d :: t) hb (upper_not_space (romanDigit_upper hc)) (by
    have := no_book_title hx (' ' :: (e ++ R)); rw [hx'] at this; exact this) m
  rw [← hx'] at hb'
  obtain ⟨k, h1, h2⟩ := hb'
  obtain ⟨id, hid, h3⟩ := romans_reads hx (' ' :: (e ++ R))
  refine ⟨id, hid, ?_⟩
  have h4 := numbered_reads (f := ParsedStructRef.titleNumber b) h3 he (c := 'C') rfl (by decide +kernel) hR (m + u.length)
  have e2 : m + u.length + (x ++ '.' :: ' ' :: e).length = m + u.length + x.length + 2 + e.length := by simp; omega
  rw [e2, List.append_assoc, List.cons_append, List.cons_append, ← h2] at h4
  unfold titleNumber rule
  rw [hi]
  refine (bind_some h1).trans (Eq.trans ?_ h4)
  have := lettered_skip k
  cases hl : lettered roman k with
  | none => rw [bind_none hl, bind_none (this.trans hl)]
  | some x => rw [bind_some (a := x.1) (j := x.2) hl, bind_some (a := x.1) (j := x.2) (this.trans hl)]

theorem division_read {d : Division} {v R : Str} (h : DivisionText d v) (hR : Ends R) (m : Nat)
    (ht : Known (.division d) ∨ subtitleTitle ⟨m, v ++ R⟩ = none) :
    ∃ r, DivisionRead d r ∧ structuralAlternatives ⟨m, v ++ R⟩ = some (r, ⟨m + v.length, R⟩) := by
  have hch := no_chapter_division (R := R) h
  have hsub := no_digits_division (R := R) h
  obtain ⟨c0, t0, e0, hs0⟩ := division_start h R
  cases h with
  | @subtitle x e hx he =>
    obtain ⟨id, h1, h2⟩ := digits_reads hx (' ' :: (e ++ R))
    obtain ⟨c, t, hx', hc⟩ := digitsLettered_head hx
    have h3 := (numbered_reads (f := ParsedStructRef.subtitleNumber) h2 he rfl (by decide +kernel) hR.word).rule (c := c) (by rw [hx']; rfl) (digit_not_space hc)
    refine ⟨_, .subtitle h1, or_left ?_⟩
    have e1 : x ++ (py". ") ++ e = x ++ '.' :: ' ' :: e := by simp
    rw [e1]
    exact h3 m
  | @titled x q c hq hc =>
    obtain ⟨y, hy, h1⟩ := subtitleTitle_reads hq hc hR.name
    refine ⟨_, .titled hy, ?_⟩
    unfold structuralAlternatives
    rw [or_right (hsub (by rintro _ ⟨⟩) m)]
    exact or_left (h1 m)
  | @chapter x e hx he =>
    obtain ⟨id, h1, h2⟩ := chapter_reads hx he hR.word
    refine ⟨_, .chapter h1, ?_⟩
    have ht := ht.resolve_left (fun h => h)
    unfold structuralAlternatives
    rw [or_right (hsub (by rintro _ ⟨⟩) m), or_right ht]
    refine or_left ?_
    have e1 : x ++ (py". ") ++ e = x ++ '.' :: ' ' :: e := by simp
    rw [e1]
    exact h2 m
  | @part b u x e hb hx he =>
    have ht := ht.resolve_left (fun h => h)
    refine ⟨_, .part, ?_⟩
    have e1 : u ++ x ++ ' ' :: e ++ R = u ++ (x ++ ' ' :: (e ++ R)) := by simp
    have h1 := division_part hb hx he hR.word (i := ⟨m, u ++ x ++ ' ' :: e ++ R⟩) (m := m) (by rw [e0, skip_cons hs0, ← e0, e1])
    have e2 : m + (u ++ x ++ ' ' :: e).length = m + u.length + x.length + 1 + e.length := by simp; omega
    rw [← e2] at h1
    unfold structuralAlternatives
    rw [or_right (hsub (by rintro _ ⟨⟩) m), or_right ht, or_right (hch (by rintro _ ⟨⟩) m)]
    exact or_left h1
  | @title b u x e hb hx he =>
    have ht := ht.resolve_left (fun h => h)
    have e1 : u ++ x ++ (py". ") ++ e ++ R = u ++ (x ++ '.' :: ' ' :: (e ++ R)) := by simp
    obtain ⟨id, hid, h1⟩ := division_title hb hx he hR.word (i := ⟨m, u ++ x ++ (py". ") ++ e ++ R⟩) (m := m) (by rw [e0, skip_cons hs0, ← e0, e1])
    refine ⟨_, .title hid, ?_⟩
    have e2 : m + (u ++ x ++ (py". ") ++ e).length = m + u.length + x.length + 2 + e.length := by simp; omega
    rw [← e2] at h1
    have hpart := no_part_title hb hx (' ' :: (e ++ R)) (i := ⟨m, u ++ x ++ (py". ") ++ e ++ R⟩) (m := m) (by rw [e0, skip_cons hs0, ← e0, e1])
    unfold structuralAlternatives
    rw [or_right (hsub (by rintro _ ⟨⟩) m), or_right ht, or_right (hch (by rintro _ ⟨⟩) m), or_right hpart]
    exact h1

/-! ## Places -/

theorem bind_skip {α β : Type} {p : Peg α} {f : α → Peg β} {i : At} (h : p i.skip = p i) : (p >>= f) i.skip = (p >>= f) i := by
  cases hp : p i with
  | none => rw [bind_none hp, bind_none (h.trans hp)]
  | some x => rw [bind_some (a := x.1) (j := x.2) hp, bind_some (a := x.1) (j := x.2) (h.trans hp)]

theorem opt_bind_skip {α β : Type} {p : Peg α} {f : Option α → Peg β} {i : At} (h : p i.skip = p i) (hf : f none i.skip = f none i) :
    (opt p >>= f) i.skip = (opt p >>= f) i := by
  cases hp : p i with
  | none => rw [bind_some (opt_none hp), bind_some (opt_none (h.trans hp)), hf]
  | some x => rw [bind_some (opt_some (a := x.1) (j := x.2) hp), bind_some (opt_some (a := x.1) (j := x.2) (h.trans hp))]

theorem or_skip {α : Type} {p q : Peg α} {i : At} (hp : p i.skip = p i) (hq : q i.skip = q i) : Peg.or p q i.skip = Peg.or p q i := by
  cases h : p i with
  | none => rw [or_right h, or_right (hp.trans h), hq]
  | some x => rw [or_left h, or_left (hp.trans h)]

theorem pieces_skip (i : At) : articleIdPieces i.skip = articleIdPieces i := by
  unfold articleIdPieces
  exact opt_bind_skip (bind_skip (number_skip i)) (bind_skip (number_skip i))

theorem alternatives_skip (i : At) : structuralAlternatives i.skip = structuralAlternatives i :=
  or_skip (rule_skip _ i) (or_skip (rule_skip _ i) (or_skip (rule_skip _ i) (or_skip (rule_skip _ i) (rule_skip _ i))))

theorem position_skip (i : At) : structuralPosition i.skip = structuralPosition i :=
  or_skip (opt_bind_skip (rule_skip _ i) (bind_skip (rule_skip _ i)))
    (or_skip (opt_bind_skip (rule_skip _ i) (bind_skip (rule_skip _ i))) (alternatives_skip i))

/-- The article is read, and then one of the words is looked for. -/
theorem beside_read {x b g T : Str} (hb : Noun b) (hx : ArticleNumber x) (hg : EndText .article g) (hT : WordEnds T) {j : At} {n : Nat}
    (hj : j.skip = ⟨n, b ++ (x ++ '.' :: ' ' :: (g ++ T))⟩) :
    ∃ pieces, pieces.flatten = x ∧ ∀ words, besideArticle words j =
      (do let _ ← tokens words; pure pieces : Peg (List Str)) ⟨n + b.length + x.length + 2 + g.length, T⟩ := by
  obtain ⟨c, z, hc, hd⟩ := article_head hx
  obtain ⟨pieces, h1, h2⟩ := pieces_read hx (stop_dot (' ' :: (g ++ T))) (n + b.length)
  obtain ⟨y, h3⟩ := reads_suffixOf (k := .article) hg hT
  have e1 : b ++ (x ++ '.' :: ' ' :: (g ++ T)) = b ++ c :: (z ++ '.' :: ' ' :: (g ++ T)) := by rw [hc]; rfl
  have hj' : j.skip.skip = ⟨n, b ++ c :: (z ++ '.' :: ' ' :: (g ++ T))⟩ := by rw [skip_skip, hj, e1]
  obtain ⟨o, k, h4, h5⟩ := noun_read hb (digit_not_space hd) (fun h => by subst h; exact absurd hd (by decide)) hj'
  have h6 : articleIdPieces k = some (pieces, ⟨n + b.length + x.length, '.' :: ' ' :: (g ++ T)⟩) := by
    rw [← pieces_skip, h5]
    rw [hc] at h2 ⊢
    exact h2
  refine ⟨pieces, h1, fun words => ?_⟩
  unfold besideArticle rule
  have e2 : n + b.length + x.length + (['.'] : Str).length + (' ' :: g).length = n + b.length + x.length + 2 + g.length := by simp; omega
  rw [← e2]
  exact (bind_some h4).trans ((bind_some h6).trans ((bind_some (reads_dot (' ' :: (g ++ T)) _)).trans (bind_some (h3 _))))

/-- What is read is what is named. -/
inductive SpotRead : Spot → ParsedStructRef → Prop
  | division {d r} (h : DivisionRead d r) : SpotRead (.division d) r
  | before {id x} (h : id.flatten = x) : SpotRead (.before x) (.beforeArticle id)
  | after {id x} (h : id.flatten = x) : SpotRead (.after x) (.afterArticle id)

theorem chapter_skip (i : At) : chapterNumber i.skip = chapterNumber i := rule_skip _ i

theorem no_chapter_start {c : Char} {t : Str} (hs : isSpace c = false) (hc : c ∉ py"IVXLCDM") : Fails chapterNumber (c :: t) := by
  refine Fails.rule (fails_lettered (Fails.rule (fails_pattern (plus_none ?_)))).bind
  rw [dropWhile_cons_of hs, dropWhile_cons_of hs]
  rintro _ ⟨⟩
  simpa using hc

theorem capital_no_beside {x s : Str} (hx : CapitalOrdinal x) (words : List Str) : Fails (besideArticle words) (x ++ s) := by
  obtain ⟨c, d, t, rfl, hc, _, _, _, h2, h3, _, _, h4⟩ := capital_ordinal hx
  refine no_besideArticle (fails_az hc fun h => h4 (by subst h; decide)) ?_
  by_cases hn : isOfNumber c = true
  · have : c :: d :: t ++ s = [c] ++ d :: (t ++ s) := rfl
    rw [this, afterNumber_append (by simpa using hn), afterNumber_cons h3]
    intro h
    cases h
    exact h2 (by decide)
  · rw [List.cons_append, afterNumber_cons (by simpa using hn)]
    intro h
    cases h
    exact h4 (by decide)

theorem division_no_beside {d : Division} {v : Str} (h : DivisionText d v) (hd : ∀ x, d ≠ .chapter x) (R : Str) (words : List Str) :
    Fails (besideArticle words) (v ++ R) := by
  cases h with
  | @subtitle x e hx he =>
    obtain ⟨l, rfl, _⟩ := he
    obtain ⟨c, t, hc, hd⟩ := digitsLettered_head hx
    refine no_besideArticle ?_ ?_
    · rw [hc]
      exact fails_az (digit_not_space hd) (fun h => by subst h; exact absurd hd (by decide))
    · have e1 : x ++ (py". ") ++ ((py"alcím") ++ l) ++ R = x ++ '.' :: ' ' :: ((py"alcím") ++ l ++ R) := by simp
      rw [e1, digits_after hx, List.append_assoc, List.cons_append, afterNumber_cons (by decide +kernel)]
      intro h
      cases h
  | titled hq hc =>
    obtain ⟨t, rfl⟩ := quote_head hq
    refine no_besideArticle (fails_az (by decide +kernel) (by decide)) ?_
    simp only [List.cons_append]
    rw [afterNumber_cons (by decide +kernel)]
    intro h
    cases h
  | chapter hx he => exact absurd rfl (hd _)
  | @part b u x e hb hx he =>
    cases b with
    | none =>
      cases hb
      simp only [List.append_assoc, List.nil_append]
      exact capital_no_beside hx words
    | some b =>
      obtain ⟨hb, rfl⟩ := hb
      simp only [List.append_assoc]
      exact capital_no_beside hb words
  | @title b u x e hb hx he =>
    cases b with
    | none =>
      cases hb
      obtain ⟨l, rfl, _⟩ := he
      have e1 : [] ++ x ++ (py". ") ++ ((py"Cím") ++ l) ++ R = x ++ '.' :: ' ' :: ((py"C") ++ ((py"ím") ++ l ++ R)) := by simp
      rw [e1]
      refine no_besideArticle ?_ ?_
      · obtain ⟨c, d, t, e, hc, _⟩ := romans_head hx (' ' :: ((py"C") ++ ((py"ím") ++ l ++ R)))
        rw [e]
        exact fails_az (upper_not_space (romanDigit_upper hc)) (fun h => by subst h; exact absurd hc (by decide))
      · rw [romans_after hx, afterNumber_append (by decide +kernel), List.append_assoc, List.cons_append, afterNumber_cons (by decide +kernel)]
        intro h
        cases h
    | some b =>
      obtain ⟨hb, rfl⟩ := hb
      simp only [List.append_assoc]
      exact capital_no_beside hb words

theorem spot_first {s : Spot} {v : Str} (h : SpotText s v) (R : Str) : ∃ c t, v ++ R = c :: t ∧ isSpace c = false ∧ c ≠ 'h' := by
  have beside : ∀ {x u s : Str}, BesideText x u → ∃ c t, u ++ s = c :: t ∧ isSpace c = false ∧ c ≠ 'h' := by
    rintro x u s ⟨c, b, g, rfl, hb, hx, hg, hc⟩
    rcases hc with rfl | ⟨y, e, hy, he, rfl⟩
    · obtain ⟨c, z, rfl, hd⟩ := article_head hx
      simp only [Noun, List.mem_cons, List.not_mem_nil, or_false] at hb
      rcases hb with rfl | rfl | rfl
      · exact ⟨c, _, rfl, digit_not_space hd, ne_of_class hd⟩
      · exact ⟨'a', _, rfl, by decide +kernel, by decide⟩
      · exact ⟨'a', _, rfl, by decide +kernel, by decide⟩
    · simp only [List.append_assoc]
      obtain ⟨c, d, t, e, hc, _⟩ := romans_head hy (' ' :: (e ++ (' ' :: (b ++ (x ++ ((py". ") ++ (g ++ s)))))))
      exact ⟨c, _, e, upper_not_space (romanDigit_upper hc), ne_of_class (romanDigit_upper hc)⟩
  cases h with
  | division h =>
    obtain ⟨c, t, e, hc, hl⟩ := division_first h R
    exact ⟨c, t, e, hc, by rintro rfl; cases hl⟩
  | before h he =>
    rw [List.append_assoc]
    exact beside h
  | after h he =>
    rw [List.append_assoc]
    exact beside h

theorem spot_start {s : Spot} {v : Str} (h : SpotText s v) (R : Str) : ∃ c t, v ++ R = c :: t ∧ isSpace c = false := by
  obtain ⟨c, t, e, hc, _⟩ := spot_first h R
  exact ⟨c, t, e, hc⟩

theorem spot_read {s : Spot} {v R : Str} (h : SpotText s v) (hR : Ends R) (hb : ∀ words, Fails (besideArticle words) R) {i : At} {m : Nat}
    (hi : i.skip = ⟨m, v ++ R⟩) (ht : Known s ∨ subtitleTitle i = none) :
    ∃ r, SpotRead s r ∧ structuralPosition i = some (r, ⟨m + v.length, R⟩) := by
  -- what is beside an article
  have beside : ∀ {x u e : Str}, BesideText x u → (∀ c ∈ e.head?, c = ' ') → e ≠ [] → i.skip = ⟨m, u ++ (e ++ R)⟩ →
      ∃ pieces k, pieces.flatten = x ∧ (∃ o, opt chapterNumber i = some (o, k)) ∧ ∀ words, besideArticle words k =
        (do let _ ← tokens words; pure pieces : Peg (List Str)) ⟨m + u.length, e ++ R⟩ := by
    rintro x u e ⟨c, b, g, rfl, hb, hx, hg, hc⟩ he hne hj
    have hw : WordEnds (e ++ R) := by
      cases e with
      | nil => exact absurd rfl hne
      | cons d t =>
        rintro _ ⟨⟩
        rw [he d rfl]
        decide
    rcases hc with rfl | ⟨y, f, hy, hf, rfl⟩
    · have e1 : [] ++ b ++ x ++ (py". ") ++ g ++ (e ++ R) = b ++ (x ++ '.' :: ' ' :: (g ++ (e ++ R))) := by simp
      rw [e1] at hj
      obtain ⟨pieces, h1, h2⟩ := beside_read hb hx hg hw hj
      have h3 : chapterNumber i = none := by
        rw [← show chapterNumber i.skip = chapterNumber i from rule_skip _ i, hj]
        obtain ⟨c, z, rfl, hd⟩ := article_head hx
        simp only [Noun, List.mem_cons, List.not_mem_nil, or_false] at hb
        rcases hb with rfl | rfl | rfl
        · refine no_chapter_start (digit_not_space hd) (fun hm => ?_) _
          have := upper_not_ascii (romanDigit_upper hm)
          rw [hd] at this
          cases this
        · exact no_chapter_start (by decide +kernel) (by decide) _
        · exact no_chapter_start (by decide +kernel) (by decide) _
      refine ⟨pieces, i, h1, ⟨_, opt_none h3⟩, fun words => ?_⟩
      rw [h2]
      have e2 : m + b.length + x.length + 2 + g.length = m + ([] ++ b ++ x ++ (py". ") ++ g).length := by simp; omega
      rw [e2]
    · have e1 : y ++ (py". ") ++ f ++ (py" ") ++ b ++ x ++ (py". ") ++ g ++ (e ++ R) =
          y ++ '.' :: ' ' :: f ++ ' ' :: (b ++ (x ++ '.' :: ' ' :: (g ++ (e ++ R)))) := by simp
      rw [e1] at hj
      obtain ⟨id, _, h3⟩ := chapter_reads (R := ' ' :: (b ++ (x ++ '.' :: ' ' :: (g ++ (e ++ R))))) hy hf (by rintro _ ⟨⟩; decide)
      have h4 := h3 m
      rw [← hj] at h4
      have h4 := (rule_skip _ i).symm.trans h4
      have hk : (⟨m + (y ++ '.' :: ' ' :: f).length, ' ' :: (b ++ (x ++ '.' :: ' ' :: (g ++ (e ++ R))))⟩ : At).skip =
          ⟨m + (y ++ '.' :: ' ' :: f).length + 1, b ++ (x ++ '.' :: ' ' :: (g ++ (e ++ R)))⟩ := by
        obtain ⟨c, z, rfl, hd⟩ := article_head hx
        simp only [Noun, List.mem_cons, List.not_mem_nil, or_false] at hb
        rcases hb with rfl | rfl | rfl
        · exact space_skip (digit_not_space hd) _
        · exact space_skip (by decide +kernel) _
        · exact space_skip (by decide +kernel) _
      obtain ⟨pieces, h1, h2⟩ := beside_read hb hx hg hw hk
      refine ⟨pieces, _, h1, ⟨_, opt_some h4⟩, fun words => ?_⟩
      rw [h2]
      have e2 : m + (y ++ '.' :: ' ' :: f).length + 1 + b.length + x.length + 2 + g.length =
          m + (y ++ (py". ") ++ f ++ (py" ") ++ b ++ x ++ (py". ") ++ g).length := by simp; omega
      rw [e2]
  cases h with
  | @division d v h =>
    obtain ⟨r, h1, h2⟩ := division_read h hR m (ht.imp_right fun ht => by rw [← hi]; exact (rule_skip _ i).trans ht)
    refine ⟨r, .division h1, ?_⟩
    rw [← hi, alternatives_skip] at h2
    rw [← h2]
    have none_of : ∀ {α : Type} {words : List Str} {f : List Str → Peg α},
        (do let _ ← opt chapterNumber; let p ← besideArticle words; f p : Peg α) i = none := by
      intro α words f
      by_cases hd : ∃ x, d = .chapter x
      · obtain ⟨x, rfl⟩ := hd
        cases h with
        | @chapter x e hx he =>
          obtain ⟨id, _, h3⟩ := chapter_reads (R := R) hx he hR.word
          have h4 := h3 m
          rw [show x ++ '.' :: ' ' :: e = x ++ (py". ") ++ e by simp, ← hi] at h4
          rw [bind_some (opt_some ((chapter_skip i).symm.trans h4))]
          exact bind_none (hb words _)
      · have hd' : ∀ x, d ≠ .chapter x := fun x h => hd ⟨x, h⟩
        have h3 := no_chapter_division (R := R) h hd' m
        rw [← hi] at h3
        have h4 := division_no_beside h hd' R words m
        rw [← hi] at h4
        rw [bind_some (opt_none ((chapter_skip i).symm.trans h3))]
        exact bind_none ((rule_skip _ i).symm.trans h4)
    unfold structuralPosition afterArticle beforeArticle
    rw [or_right none_of, or_right none_of]
  | @before x u e h he =>
    obtain ⟨pieces, k, h1, ⟨o, h2⟩, h3⟩ := beside (e := e) h (by revert e; simp) (by revert e; simp) (by rw [hi, List.append_assoc])
    refine ⟨_, .before h1, ?_⟩
    have n1 : afterArticle k = none := bind_none ((h3 _).trans (bind_none (fails_tokens (fun t ht => by
      simp only [List.mem_cons, List.not_mem_nil, or_false] at ht he
      rcases ht with rfl | rfl <;> rcases he with rfl | rfl <;> exact fails_text rfl) _)))
    obtain ⟨w, hw, rfl⟩ : ∃ w ∈ [py"megelőzően", py"megelőző"], e = ' ' :: w := by
      simp only [List.mem_cons, List.not_mem_nil, or_false] at he
      rcases he with rfl | rfl
      · exact ⟨_, by simp, rfl⟩
      · exact ⟨_, by simp, rfl⟩
    have n2 : beforeArticle k = some (.beforeArticle pieces, ⟨m + u.length + (' ' :: w).length, R⟩) :=
      bind_some ((h3 _).trans (bind_some (names_space hw (by decide +kernel) hR.name _)))
    rw [List.length_append, ← Nat.add_assoc]
    unfold structuralPosition
    rw [or_right ((bind_some h2).trans n1)]
    exact or_left ((bind_some h2).trans n2)
  | @after x u e h he =>
    obtain ⟨pieces, k, h1, ⟨o, h2⟩, h3⟩ := beside (e := e) h (by revert e; simp) (by revert e; simp) (by rw [hi, List.append_assoc])
    refine ⟨_, .after h1, ?_⟩
    obtain ⟨w, hw, rfl⟩ : ∃ w ∈ [py"követően", py"követő"], e = ' ' :: w := by
      simp only [List.mem_cons, List.not_mem_nil, or_false] at he
      rcases he with rfl | rfl
      · exact ⟨_, by simp, rfl⟩
      · exact ⟨_, by simp, rfl⟩
    have n2 : afterArticle k = some (.afterArticle pieces, ⟨m + u.length + (' ' :: w).length, R⟩) :=
      bind_some ((h3 _).trans (bind_some (names_space hw (by decide +kernel) hR.name _)))
    rw [List.length_append, ← Nat.add_assoc]
    unfold structuralPosition
    exact or_left ((bind_some h2).trans n2)

/-! ## Divisions are no references -/

theorem id_no_item {k : PartKind} (hk : k = .article ∨ k = .numericPoint ∨ k = .numericSubpoint) {w rest : Str} (hid : Reads (idOf k) w rest w)
    (hn : NotFirst (py".-–−") rest) : Fails (rangeOf k) (w ++ rest) ∧ Fails (singleOf k) (w ++ rest) := by
  have dot : Fails (token (py".")) rest := fails_first (a := '.') rfl (notFirst_sub hn (by decide))
  have da : Fails dash rest := fails_dash (notFirst_sub hn (by decide))
  rcases hk with rfl | rfl | rfl
  · exact ⟨hid.fails ((dot.bind).opt.fails da.bind), hid.fails dot.bind⟩
  · exact ⟨hid.fails da.bind, hid.fails dot.bind⟩
  · exact ⟨hid.fails da.bind, hid.fails dot.bind⟩

/-- The number of an article with a full stop and without the right sign after it is no list. -/
theorem article_no_list {x t : Str} (hx : ArticleNumber x) (hd : ∀ c ∈ first t, isAsciiDigit c = false) (h : NotFirst (py"§,;évi-–−") t) :
    Fails (partOf .article) (x ++ '.' :: t) := by
  intro n
  have ha : After .article t := by
    refine ⟨notFirst_sub h (by decide), fun _ n x j hx => ?_⟩
    rw [articleSuffix_none (notFirst_sub h (by decide)) n] at hx
    cases hx
  obtain ⟨c, u, hc, hcd⟩ := article_head hx
  have hj : (⟨n, x ++ '.' :: t⟩ : At).skip.skip = ⟨n, (x ++ py".") ++ t⟩ := by
    rw [skip_skip, List.append_assoc, hc]
    exact skip_cons (digit_not_space hcd) n
  refine part_none (items_read (k := .article) (.one (x := .inr (x, ↑n, ↑(n + (x ++ py".").length))) ⟨rfl, hx, rfl⟩) ha (separated_nothing (notFirst_sub h (by decide))) hj ?_) ?_
    (articleSuffix_none (notFirst_sub h (by decide)) _)
  · rw [skip_skip] at hj
    rw [hj]
    exact Nat.le_refl _
  · exact fails_itemOf (fails_item_number (.inl rfl) (by rw [first_dropWhile]; exact hd)) _

theorem division_parts {d : Division} {v : Str} (h : DivisionText d v) (R : Str) (k : PartKind) : Fails (partOf k) (v ++ R) := by
  have start : ∀ {c : Char} {t : Str}, isSpace c = false → isAsciiDigit c = false → isLowerAz c = false → c ≠ '(' → Fails (partOf k) (c :: t) := by
    intro c t h1 h2 h3 h4
    refine fails_start h1 ?_
    cases k <;> simp [Begins, h2, h3, h4]
  have cap : ∀ {x s : Str}, CapitalOrdinal x → Fails (partOf k) (x ++ s) := by
    intro x s hx
    obtain ⟨c, d, t, rfl, hc, _, _, _, _, _, h1, h2, h3⟩ := capital_ordinal hx
    exact start hc h1 h2 fun h => h3 (by subst h; decide)
  have rom : ∀ {x s : Str}, Lettered RomanDigits x → Fails (partOf k) (x ++ '.' :: s) := by
    intro x s hx
    obtain ⟨c, d, t, e, hc, _⟩ := romans_head hx s
    rw [e]
    have : ∀ c ∈ py"IVXLCDM", isLowerAz c = false ∧ c ≠ '(' := by decide
    exact start (upper_not_space (romanDigit_upper hc)) (upper_not_ascii (romanDigit_upper hc)) (this c hc).1 (this c hc).2
  cases h with
  | @subtitle x e hx he =>
    obtain ⟨l, rfl, _⟩ := he
    have e1 : x ++ (py". ") ++ ((py"alcím") ++ l) ++ R = x ++ '.' :: ' ' :: ((py"alcím") ++ (l ++ R)) := by simp
    rw [e1]
    obtain ⟨c0, t0, hx0, hc0⟩ := digitsLettered_head hx
    have lower : (k = .paragraph ∨ k = .alphabeticPoint ∨ k = .alphabeticSubpoint) → Fails (partOf k) (x ++ '.' :: ' ' :: ((py"alcím") ++ (l ++ R))) := by
      intro hk
      rw [hx0]
      refine fails_start (digit_not_space hc0) ?_
      rcases hk with rfl | rfl | rfl
      · exact ne_of_class hc0
      · exact digit_lower hc0
      · exact digit_lower hc0
    have ht1 : ∀ c ∈ first (' ' :: ((py"alcím") ++ (l ++ R))), isAsciiDigit c = false := by
      rw [first_space, List.cons_append, first_cons (by decide +kernel)]
      rintro _ ⟨⟩
      decide
    have ht2 : NotFirst (py"§,;évi-–−") (' ' :: ((py"alcím") ++ (l ++ R))) := by
      intro c
      rw [first_space, List.cons_append, first_cons (by decide +kernel)]
      rintro ⟨⟩
      decide
    have number : (k = .article ∨ k = .numericPoint ∨ k = .numericSubpoint) → Fails (partOf k) (x ++ '.' :: ' ' :: ((py"alcím") ++ (l ++ R))) := by
      intro hk
      obtain ⟨n, y, rfl, hn, hy⟩ := hx
      rcases hy with rfl | ⟨c, hc, rfl | rfl⟩
      · rw [List.append_nil]
        refine dotted_no_list hk hn ht1 ht2 ?_
        intro u hu
        rw [dropWhile_space, List.cons_append, dropWhile_cons_of (by decide +kernel)]
        simp only [List.mem_cons, List.not_mem_nil, or_false] at hu
        rcases hu with rfl | rfl
        · rintro ⟨r, hr⟩; cases hr
        · rintro ⟨r, hr⟩; cases hr
      · have hlow : isLowerAz c = false := by
          rw [Bool.eq_false_iff]
          intro hl
          have := (isUpperAz_iff c).mp hc
          have := lower_bounds hl
          omega
        have hne : ∀ cs : Str, (∀ d ∈ cs, isUpperAz d = false) → c ∉ cs := fun cs hcs hm => absurd ((hcs c hm).symm.trans hc) (by decide)
        have hcs := upper_not_space hc
        refine fails_partOf ?_
        rw [List.append_assoc, List.singleton_append]
        obtain ⟨c1, n1, rfl⟩ := List.exists_cons_of_ne_nil hn.1
        have hc1 := hn.2 c1 (List.mem_cons_self ..)
        rw [List.cons_append, dropWhile_cons_of (digit_not_space hc1)]
        refine id_no_item hk (w := c1 :: n1) (reads_plain_id hk hn ?_ (notFirst_cons hcs (hne _ (by decide)))) (notFirst_cons hcs (hne _ (by decide)))
        rintro _ ⟨⟩
        exact ⟨upper_not_ascii hc, hlow⟩
      · have hlow : isLowerAz c = false := by
          rw [Bool.eq_false_iff]
          intro hl
          have := (isUpperAz_iff c).mp hc
          have := lower_bounds hl
          omega
        have e2 : n ++ ['/', c] ++ '.' :: ' ' :: ((py"alcím") ++ (l ++ R)) = n ++ '/' :: c :: '.' :: ' ' :: ((py"alcím") ++ (l ++ R)) := by simp
        have hnum : Reads Verif.ActGrammar.number n ('/' :: c :: '.' :: ' ' :: ((py"alcím") ++ (l ++ R))) n := reads_number hn (by rintro _ ⟨⟩; decide)
        have hc1 := hc0
        have hslash : NotFirst (py".-–−") ('/' :: c :: '.' :: ' ' :: ((py"alcím") ++ (l ++ R))) := notFirst_cons (by decide +kernel) (by decide)
        obtain ⟨c1, n1, rfl⟩ := List.exists_cons_of_ne_nil hn.1
        have hc1 := hn.2 c1 (List.mem_cons_self ..)
        rcases hk with rfl | rfl | rfl
        · exact article_no_list ⟨[], c1 :: n1, ['/', c], by simp, .inl rfl, hn, .inr ⟨c, hc, rfl⟩⟩ ht1 ht2
        · rw [e2]
          refine fails_partOf ?_
          rw [List.cons_append, dropWhile_cons_of (digit_not_space hc1)]
          refine id_no_item (.inr (.inl rfl)) (w := c1 :: n1) ?_ hslash
          have h1 : Fails (do let s ← opt (token (py"/")); let l ← pattern (.set isLowerAz); pure (s.getD [] ++ l))
              ('/' :: c :: '.' :: ' ' :: ((py"alcím") ++ (l ++ R))) := by
            have h0 : Reads (token (py"/")) (py"/") (c :: '.' :: ' ' :: ((py"alcím") ++ (l ++ R))) (py"/") := reads_text (by decide +kernel)
            exact h0.opt.fails (f := fun s => do let l ← pattern (.set isLowerAz); pure (s.getD [] ++ l))
              (fails_pattern (set_none (by rintro _ ⟨⟩; exact hlow))).bind
          have h3 := h1.opt.to (f := fun l => pure (c1 :: n1 ++ l.getD [])) (reads_nil _ _)
          have h4 := (hnum.to (f := fun n => do let l ← opt (do let s ← opt (token (py"/")); let l ← pattern (.set isLowerAz); pure (s.getD [] ++ l)); pure (n ++ l.getD [])) h3).rule (c := c1) rfl (digit_not_space hc1)
          have e : c1 :: n1 ++ (none : Option Str).getD [] = c1 :: n1 := by simp
          rw [e] at h4
          exact h4
        · rw [e2]
          refine fails_partOf ?_
          rw [List.cons_append, dropWhile_cons_of (digit_not_space hc1)]
          exact id_no_item (.inr (.inr rfl)) (w := c1 :: n1) (hnum.rule (c := c1) rfl (digit_not_space hc1)) hslash
    cases k with
    | article => exact number (.inl rfl)
    | numericPoint => exact number (.inr (.inl rfl))
    | numericSubpoint => exact number (.inr (.inr rfl))
    | paragraph => exact lower (.inl rfl)
    | alphabeticPoint => exact lower (.inr (.inl rfl))
    | alphabeticSubpoint => exact lower (.inr (.inr rfl))
  | titled hq hc =>
    obtain ⟨t, rfl⟩ := quote_head hq
    exact start (by decide +kernel) (by decide) (by decide) (by decide)
  | chapter hx he =>
    simp only [List.append_assoc]
    exact rom hx
  | @part b u x e hb hx he =>
    cases b with
    | none =>
      cases hb
      simp only [List.append_assoc, List.nil_append]
      exact cap hx
    | some b =>
      obtain ⟨hb, rfl⟩ := hb
      simp only [List.append_assoc]
      exact cap hb
  | @title b u x e hb hx he =>
    cases b with
    | none =>
      cases hb
      simp only [List.append_assoc, List.nil_append]
      exact rom hx
    | some b =>
      obtain ⟨hb, rfl⟩ := hb
      simp only [List.append_assoc]
      exact cap hb

end Verif.ActGrammar
