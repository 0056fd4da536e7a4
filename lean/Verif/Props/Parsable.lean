import Verif.Proofs.Parsable
import Verif.Props.Usual

/-! # Which texts are parsed (C89) -/

set_option maxRecDepth 100000

namespace Verif.Props
open Spec

/-- C89. An article whose lists leave no doubt is parsed exactly if there is text after its number and, if this begins with a bracket, the
title in brackets ends within three lines and there is more text after it. -/
theorem article_parsed_iff {lines : List Line} {inAct : Bool} (h : TameArticle lines)
    (heading : ∃ first, lines.head? = some first ∧ ∃ i, ArticleHeading first.content i) :
    (∃ n, parseArticle lines inAct = .ok n) ↔ ArticleFits lines := article_fits h heading

/-- C89. The lines of every act can be divided into a preamble and elements. -/
theorem act_always_divided {lines : List Line} (hl : ∀ l ∈ lines, Fine l ∧ PlainDigits l) :
    ∃ preamble body ps, ActDivided lines preamble body ps := act_divides hl

/-- C89. An act is parsed exactly if quotations are closed after the preamble, there is an element, and every article is of this form. It
does not matter what is written in the titles of its books, parts, chapters and the like. -/
theorem act_parsed_iff {lines preamble body : List Line} {ps : List (Opening × List Line)} (h : ActDivided lines preamble body ps)
    (hl : ∀ l ∈ lines, Fine l ∧ PlainDigits l) (clear : ∀ q ∈ ps, (∃ i, q.1 = .article i) → ClearArticle q.2)
    (identifier subject : Str) (date : Date) : (∃ a, parseAct identifier date subject lines = .ok a) ↔
      QuotesClosed body ∧ ps ≠ [] ∧ ∀ q ∈ ps, (∃ i, q.1 = .article i) → ArticleFits q.2 := act_fits h hl clear identifier subject date

/-- C89. Whatever the articles contain, an act is parsed only if it has an element and in the lines after the preamble no quotation is closed
that was not opened, and none is left open. -/
theorem act_quotations_closed {lines preamble body : List Line} {ps : List (Opening × List Line)} (h : ActDivided lines preamble body ps)
    (hl : ∀ l ∈ lines, Fine l ∧ PlainDigits l) {identifier subject : Str} {date : Date} {act : Act}
    (ha : parseAct identifier date subject lines = .ok act) : QuotesClosed body ∧ ps ≠ [] := act_closes h hl ha

/-- C89. Without the assumption on digits the claim does not hold: `isdigit` holds for a raised digit, but it cannot be read. -/
theorem raised_digit_fails :
    (parseAct [] ⟨2020, 1, 1⟩ [] [spread 0 (py"1. § Szöveg."), spread 0 (py"I2. fejezet")]).toOption.isSome = true ∧
      parseAct [] ⟨2020, 1, 1⟩ [] [spread 0 (py"1. § Szöveg."), spread 0 (py"I². fejezet")] = .error .actParsing := by
  constructor <;> decide +kernel

/-- C89. Without the assumption on quotations after a list the claim does not hold: the text after a list is looked for inside of a quotation
too, and then its two halves cannot be read. -/
theorem quotation_in_list_fails :
    QuotesClosed [spread 0 (py"1. § Lista:"), spread 10 (py"a) x,"), spread 10 (py"b) „y"), spread 0 (py"z”.")] ∧
      parseAct [] ⟨2020, 1, 1⟩ [] [spread 0 (py"1. § Lista:"), spread 10 (py"a) x,"), spread 10 (py"b) „y"), spread 0 (py"z”.")]
        = .error .actParsing ∧
      (parseAct [] ⟨2020, 1, 1⟩ [] [spread 0 (py"1. § Lista:"), spread 10 (py"a) x,"), spread 10 (py"b) „y"), spread 12 (py"z”.")]).toOption.isSome
        = true :=
  ⟨iterate_stop (by decide +kernel), by decide +kernel, by decide +kernel⟩

/-! ## An act with a title in brackets, a list, and a quotation in the next paragraph -/

def clearArticle : List Line :=
  [spread 0 (py"1. § [Cím]"), spread 0 (py"(1) Lista:"), spread 10 (py"a) x,"), spread 10 (py"b) y."),
   spread 0 (py"(2) A Ptk. így változik:"), spread 10 (py"„5. § Új"), spread 10 (py"a) szöveg,"), spread 10 (py"ny) vége”")]

def clearLines : List Line :=
  [spread 0 (py"Az Országgyűlés ezt alkotja:"), spread 0 (py"I. fejezet"), spread 0 (py"Bevezetés")] ++ clearArticle ++ [spread 0 (py"2. § Vége.")]

/-- The lines from each of the numbers up to the next one. -/
def cutPieces (ls : List Line) : List Nat → List (List Line)
  | [] => []
  | [a] => [ls.drop a]
  | a :: b :: more => lineSlice ls a b :: cutPieces ls (b :: more)

theorem cutPieces_starts (ps : List (List Line)) : ∀ pre, cutPieces (pre ++ ps.flatten) (startsOf pre.length ps) = ps := by
  induction ps with
  | nil => intro pre; rfl
  | cons p ps ih =>
    intro pre
    cases ps with
    | nil => simp [startsOf, cutPieces]
    | cons q ps =>
      have e : pre ++ (p :: q :: ps).flatten = (pre ++ p) ++ (q :: ps).flatten := by simp
      have := ih (pre ++ p)
      rw [← e, List.length_append] at this
      have hs : lineSlice (pre ++ (p :: q :: ps).flatten) pre.length (pre.length + p.length) = p := by
        unfold lineSlice
        rw [e, List.take_left' (by simp), List.drop_left' rfl]
      rw [startsOf, startsOf, cutPieces, hs]
      rw [startsOf] at this
      rw [this]

theorem number_cut {first first' : Line} {i gap text : Str} (hf : Fine first) (number : IsArticleId i) (space : gap = [] ∨ gap = py" ")
    (begins : first.content = i ++ py"." ++ gap ++ py"§ " ++ text)
    (cut : CutLine first (i ++ py"." ++ gap ++ py"§ ").length first.content.length first') :
    strFind (py"§ ") first.content = some (i ++ py"." ++ gap).length ∧
      first.slice (((i ++ py"." ++ gap).length : Int) + 2) = .ok first' := by
  constructor
  · rw [begins, List.append_assoc (i ++ py"." ++ gap), strFind_skip, strFind_here _ _ (by simp)]
    · simp
    · intro hm
      rcases List.mem_append.1 hm with hm | hm
      · rcases List.mem_append.1 hm with hm | hm
        · exact section_sign number hm
        · revert hm; decide
      · rcases space with rfl | rfl
        · cases hm
        · revert hm; decide
  · rw [← cut_from hf cut]
    congr 1
    simp; omega

/-- Whether the lists in the lines leave no doubt. -/
def clearCheck (ls : List Line) : Bool :=
  (List.range ls.length).all fun n => n == 0 || openQuotes (ls.take n) != 0 ||
      ((ls[n]?.all fun m => (!startsWith m.content (py"a) ") && !startsWith m.content (py"1. ")) ||
        (List.range ls.length).all fun k => decide (k ≤ n) || openQuotes (ls.take k) == 0) &&
      ls[n]?.all fun m => !startsWith m.content (py"ny) ") && !startsWith m.content (py"sz) "))

theorem clear_all {ls : List Line} (h : clearCheck ls = true) : ClearLists ls := by
  unfold clearCheck at h
  simp only [List.all_eq_true, List.mem_range, Bool.or_eq_true, Bool.and_eq_true, beq_iff_eq, bne_iff_ne] at h
  refine ⟨?_, ?_⟩
  · rintro x m y l after rfl hx hq ⟨text, ht⟩
    rcases h x.length (by simp) with (h | h) | ⟨h, _⟩
    · exact absurd (List.length_eq_zero_iff.1 h) hx
    · exact absurd (by rw [List.append_assoc, List.take_left' rfl]; exact hq) h
    · simp only [List.append_assoc, List.cons_append, List.getElem?_append_right (Nat.le_refl _), Nat.sub_self, List.getElem?_cons_zero,
        Option.all_some, Bool.or_eq_true, Bool.and_eq_true, Bool.not_eq_true', List.all_eq_true, List.mem_range, decide_eq_true_eq,
        beq_iff_eq] at h
      rcases h with h | h
      · rcases ht with ht | ht <;> simp [ht, startsWith] at h
      · rcases h (x ++ m :: y).length (by simp) with h | h
        · simp at h; omega
        · have e : x ++ m :: (y ++ l :: after) = (x ++ m :: y) ++ l :: after := by simp
          rwa [e, List.take_left' rfl] at h
  · rintro x l after rfl hx hq ⟨text, ht⟩
    rcases h x.length (by simp) with (h | h) | ⟨_, h⟩
    · exact absurd (List.length_eq_zero_iff.1 h) hx
    · exact absurd (by rw [List.take_left' rfl]; exact hq) h
    · simp only [List.getElem?_append_right (Nat.le_refl _), Nat.sub_self, List.getElem?_cons_zero, Option.all_some, Bool.and_eq_true,
        Bool.not_eq_true'] at h
      rcases ht with ht | ht <;> simp [ht, startsWith] at h

/-- The lines after the number and title of an article, as they are found by the parser. -/
def textLines (ls : List Line) : Option (List Line) :=
  match ls with
  | [] => none
  | first :: rest => (strFind (py"§ ") first.content).bind fun n => match first.slice ((n : Int) + 2) with
    | .ok cut => match articleTitle (cut :: rest) with
      | .ok (_, ls) => (skipEmptyLine ls).toOption
      | .error _ => none
    | .error _ => none

/-- The paragraphs in the lines, as they are found by the parser. -/
def paragraphLines (ls : List Line) : List (List Line) :=
  if ls.head?.bind (fun l => matchParagraph l.content) = some (py"1") then
    cutPieces ls (headerLoop paragraphParser none 0 (levels 0 ls)).yields
  else [ls]

theorem clear_paragraphs {ls : List Line} (hf : ∀ l ∈ ls, Fine l)
    (h : ((textLines ls).all fun text => (paragraphLines text).all clearCheck) = true) : ClearArticle ls := by
  intro text ps ht hp p hm
  have h1 : textLines ls = some text := by
    cases ht with
    | @plain first rest first' i gap words number space begins noTitle cut =>
      obtain ⟨e1, e2⟩ := number_cut (hf first (by simp)) number space begins cut
      have hc : first'.content = words := by
        rw [cut.content (hf first (by simp)), begins, List.drop_left' rfl]
      have hne : words ≠ [] := by
        rintro rfl
        have := cut.1
        rw [begins, List.append_nil] at this
        exact absurd this (Nat.lt_irrefl _)
      obtain ⟨c, w, rfl⟩ := List.exists_cons_of_ne_nil hne
      have hb : c ≠ '[' := by simpa using noTitle
      have hfull : first'.isEmptyLine = false := nonempty_of_content (by rw [hc]; simp)
      have htitle : articleTitle (first' :: rest) = .ok (none, first' :: rest) := by
        unfold articleTitle
        simp [hc, hb]
      simp only [textLines, e1, Option.bind_some, e2, htitle, skipEmptyLine, hfull, Bool.false_eq_true, if_false, Except.toOption]
    | @titled first rest i gap words n ls number space begins title short ends empty =>
      have hne : (i ++ py"." ++ gap ++ py"§ ").length < first.content.length := by
        cases words with
        | nil => simp at title
        | cons c w => rw [begins]; simp
      obtain ⟨cut, hcut, _, hcc⟩ := fine_from (hf first (by simp)) (a := (i ++ py"." ++ gap ++ py"§ ").length) (by omega)
      obtain ⟨e1, e2⟩ := number_cut (hf first (by simp)) number space begins (slice_cut (hf first (by simp)) hne hcut)
      have hc : cut.content = words := by rw [hcc, begins, List.drop_left' rfl]
      obtain ⟨w, rfl⟩ : ∃ w, words = '[' :: w := by
        cases words with
        | nil => simp at title
        | cons c w => exact ⟨w, by simpa using title⟩
      obtain ⟨t, h1⟩ := (title_ends (rest := rest) (ls := rest.drop n) hc).2
        ⟨n, short, by simpa [hc] using ends.1, by simpa [hc] using ends.2.1, rfl⟩
      have hs : skipEmptyLine (rest.drop n) = .ok text := by
        rcases empty with ⟨he, hh⟩ | ⟨e, he, hd⟩
        · rw [he]
          cases text with
          | nil => exact absurd he ends.2.2.2.1
          | cons l ls => simp [skipEmptyLine, hh l rfl]
        · rw [hd]
          simp [skipEmptyLine, he]
      simp only [textLines, e1, Option.bind_some, e2, h1, hs, Except.toOption]
  rw [h1, Option.all_some] at h
  have h2 : paragraphLines text = ps := by
    cases hp with
    | one unnumbered =>
      unfold paragraphLines
      rw [if_neg]
      intro hh
      exact unnumbered (matchParagraph_iff.1 (by simpa using hh))
    | several numbered division =>
      unfold paragraphLines
      rw [if_pos (by simpa using matchParagraph_iff.2 numbered)]
      obtain ⟨own, qs, d1, _, d3⟩ := division_exists _ 0 none [] (by simp)
      obtain ⟨rfl, rfl⟩ := division_unique d1 division
      rw [openQuotes_nil] at d3
      rw [d3, (division_lines d1).1]
      exact cutPieces_starts _ []
  rw [h2] at h
  exact clear_all (List.all_eq_true.1 h p hm)

theorem plain_all {ls : List Line} (h : (ls.all fun l => l.content.all fun c => !isDigit c || (decimalValue c).isSome) = true) :
    ∀ l ∈ ls, PlainDigits l := by
  intro l hl c hc hd
  have := List.all_eq_true.1 (List.all_eq_true.1 h l hl) c hc
  simpa [hd] using this

theorem header_opens {strict : Bool} {st : BodyState} {line previous : Line} {o : Opening} (ho : Opens strict st previous line o)
    (h : headerParser strict st line previous bodyParsers = .ok (some o.parser)) : ∀ p, Opens strict st previous line p → o.rank ≤ p.rank := by
  intro p hp
  have := header_lowest h p hp
  cases o with
  | article i => exact this
  | structural k i => cases k <;> exact this

theorem clear_article : ClearArticle clearArticle := clear_paragraphs (fine_all (by decide +kernel)) (by decide +kernel)

theorem clear_heading : ArticleHeading (spread 0 (py"1. § [Cím]")).content (py"1") := matchArticle_iff.1 (by decide +kernel)

/-- The article can be read. -/
example : TameArticle clearArticle ∧ (∃ first, clearArticle.head? = some first ∧ ∃ i, ArticleHeading first.content i) ∧ ArticleFits clearArticle ∧
    ∃ n, parseArticle clearArticle true = .ok n := by
  have tame : TameArticle clearArticle := ⟨fine_all (by decide +kernel), iterate_stop (by decide +kernel), clear_article⟩
  have heading : ∃ first, clearArticle.head? = some first ∧ ∃ i, ArticleHeading first.content i := ⟨_, rfl, _, clear_heading⟩
  have fits : ArticleFits clearArticle := by
    refine ⟨py"1", py" ", py"[Cím]", _, _, rfl, .inl (.inl ⟨by simp, by decide⟩), .inr rfl, by decide +kernel, by simp, fun _ => ⟨0, by omega, ?_⟩⟩
    exact ⟨by simp, ⟨_, rfl, by decide⟩, by decide +kernel, by simp, by simp⟩
  exact ⟨tame, heading, fits, (article_parsed_iff tame heading).2 fits⟩

/-- One with a title that does not end cannot. -/
example : TameArticle [spread 0 (py"1. § [Cím"), spread 0 (py"(1) Szöveg.")] ∧ ¬ ArticleFits [spread 0 (py"1. § [Cím"), spread 0 (py"(1) Szöveg.")] := by
  have tame : TameArticle [spread 0 (py"1. § [Cím"), spread 0 (py"(1) Szöveg.")] :=
    ⟨fine_all (by decide +kernel), iterate_stop (by decide +kernel), clear_paragraphs (fine_all (by decide +kernel)) (by decide +kernel)⟩
  refine ⟨tame, fun h => ?_⟩
  obtain ⟨n, hn⟩ := (article_parsed_iff (inAct := true) tame ⟨_, rfl, py"1", matchArticle_iff.1 (by decide +kernel)⟩).2 h
  have : (parseArticle [spread 0 (py"1. § [Cím"), spread 0 (py"(1) Szöveg.")] true).toOption.isNone = true := by decide +kernel
  rw [hn] at this
  cases this

theorem clear_divided : ActDivided clearLines [spread 0 (py"Az Országgyűlés ezt alkotja:")] (clearLines.drop 1)
    [(.structural .chapter (some (py"1")), [spread 0 (py"I. fejezet"), spread 0 (py"Bevezetés")]), (.article (py"1"), clearArticle),
      (.article (py"2"), [spread 0 (py"2. § Vége.")])] where
  whole := rfl
  plain := by
    rintro a l b h
    rcases a with _ | ⟨x, a⟩
    · obtain ⟨rfl, rfl⟩ := List.cons.inj h
      exact header_none (by decide +kernel)
    · obtain ⟨_, h⟩ := List.cons.inj h
      simp at h
  begins := by
    intro l rest h
    obtain ⟨rfl, _⟩ := List.cons.inj h
    exact ⟨.structural .chapter (some (py"1")), structHeading_iff.1 (by decide +kernel), fun _ => .inl rfl⟩
  pieces := by
    refine .begins (by decide +kernel) ⟨structHeading_iff.1 (by decide +kernel), fun _ => .inl rfl⟩
      (header_opens ⟨structHeading_iff.1 (by decide +kernel), fun _ => .inl rfl⟩ (by decide +kernel)) ?_
    refine .continues (by decide +kernel) (header_none (by decide +kernel)) ?_
    refine .begins (by decide +kernel) ⟨clear_heading, by simp [remember]⟩ (header_opens ⟨clear_heading, by simp [remember]⟩ (by decide +kernel)) ?_
    refine .continues (by decide +kernel) (header_none (by decide +kernel)) ?_
    refine .continues (by decide +kernel) (header_none (by decide +kernel)) ?_
    refine .continues (by decide +kernel) (header_none (by decide +kernel)) ?_
    refine .continues (by decide +kernel) (header_none (by decide +kernel)) ?_
    refine .continues (by decide +kernel) (header_none (by decide +kernel)) ?_
    refine .quoted (by decide +kernel) ?_
    refine .quoted (by decide +kernel) ?_
    refine .begins (by decide +kernel) ⟨matchArticle_iff.1 (by decide +kernel), ?_⟩
      (header_opens ⟨matchArticle_iff.1 (by decide +kernel), ?_⟩ (by decide +kernel)) (.done ..)
    all_goals
      intro x hx
      obtain rfl := Option.some.inj hx
      decide +kernel

/-- The act can be read. -/
example : ∃ preamble body ps, ActDivided clearLines preamble body ps ∧ (∀ l ∈ clearLines, Fine l ∧ PlainDigits l) ∧
    (∀ q ∈ ps, (∃ i, q.1 = .article i) → ClearArticle q.2) ∧ QuotesClosed body ∧ ps.length = 3 :=
  ⟨_, _, _, clear_divided, fun l hl => ⟨fine_all (by decide +kernel) l hl, plain_all (by decide +kernel) l hl⟩, by
    intro q hq h
    simp only [List.mem_cons, List.not_mem_nil, or_false] at hq
    rcases hq with rfl | rfl | rfl
    · obtain ⟨i, h⟩ := h
      cases h
    · exact clear_article
    · exact clear_paragraphs (fine_all (by decide +kernel)) (by decide +kernel), iterate_stop (by decide +kernel), rfl⟩

/-- The act that can be read meets these hypotheses, and the same lines with one more closing quote at the end are not read. -/
example : (∃ preamble body ps, ActDivided clearLines preamble body ps) ∧ (∀ l ∈ clearLines, Fine l ∧ PlainDigits l) ∧
    (parseAct [] ⟨2020, 1, 1⟩ [] clearLines).toOption.isSome = true ∧
    (parseAct [] ⟨2020, 1, 1⟩ [] (clearLines ++ [spread 0 (py"Ennyi”.")])).toOption.isSome = false ∧
    (parseAct [] ⟨2020, 1, 1⟩ [] (clearLines ++ [spread 0 (py"„Ennyi.")])).toOption.isSome = false :=
  ⟨⟨_, _, _, clear_divided⟩, fun l hl => ⟨fine_all (by decide +kernel) l hl, plain_all (by decide +kernel) l hl⟩, by decide +kernel,
    by decide +kernel, by decide +kernel⟩

end Verif.Props
