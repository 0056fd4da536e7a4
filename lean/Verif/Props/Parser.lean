import Verif.Proofs.ParsedAct
import Verif.Proofs.Children

/-! # Properties C25, C26, C27, C28, C29: parsing the lines of acts -/

namespace Verif.Props

open Verif Spec

/-! ## Samples -/

/-- A line with one part for every character, as it comes from a PDF. -/
def spread (dx : Rat) (s : Str) (bold : Bool := false) : Line :=
  { parts := match s with
      | [] => []
      | c :: cs => ⟨dx, [c], bold⟩ :: cs.map fun c => ⟨5, [c], bold⟩ }

/-- A line with one part for all of its text. -/
def coarse (dx : Rat) (s : Str) : Line := { parts := [⟨dx, s, false⟩] }

/-- The lines of an act with a chapter, a title, points, a wrap-up and a quoted article. -/
def sampleLines : List Line :=
  [spread 0 (py"Az Országgyűlés ezt alkotja:"), emptyLine, spread 100 (py"I. FEJEZET"), spread 100 (py"SZABÁLYOK"),
   emptyLine, spread 0 (py"1. § [Cím]"), emptyLine, spread 10 (py"(1) Hatályos"), spread 20 (py"a) most, vagy"),
   spread 20 (py"b) máskor,"), spread 10 (py"ha kell."), spread 10 (py"(2) Helyébe ez lép:"),
   spread 10 (py"„2. § Új szöveg,"), spread 10 (py"a) vége”"), spread 0 (py"2. § Vége.")]

/-- Parsing with some data that does not matter here. -/
def parseSample (lines : List Line) : Res Act := parseAct (py"2020. évi I. törvény") ⟨2020, 1, 1⟩ (py"Tárgy") lines

theorem fineEnd_iff (l : Line) : FineEnd l ↔ l.parts.getLast?.all (fun p => p.content.length == 1) = true := by
  unfold FineEnd
  cases l.parts.getLast? <;> simp

theorem fine_of_all {lines : List Line}
    (h : lines.all (fun l => l.parts.getLast?.all fun p => p.content.length == 1) = true) : ∀ l ∈ lines, FineEnd l :=
  fun l hl => (fineEnd_iff l).mpr (List.all_eq_true.mp h l hl)

theorem short_titles {lines : List Line}
    (h : lines.all (fun l => !isInfix (py"§ [") l.content || l.content.getLast? == some ']') = true) :
    ¬ LongTitle lines := by
  rintro ⟨before, a, b, c, after, rfl, h1, h2, _, _⟩
  have := List.all_eq_true.mp h a (by simp)
  rw [h1] at this
  exact h2 (by simpa using this)

/-! ## C25: no text is lost -/

/-- C25. The lines of an act that parses are those of the preamble followed by those of each element, and every one of
these says, apart from spaces, what its lines say. Missing from the full claim: lines whose last part has several
characters, titles of articles on three lines, and the lines below the name of a general or special part, for which
text is lost, see below. -/
theorem act_keeps_text_partial {identifier subject : Str} {date : Date} {lines : List Line} {act : Act}
    (h : parseAct identifier date subject lines = .ok act) (hf : ∀ l ∈ lines, FineEnd l) (ht : ¬ LongTitle lines) :
    ∃ pre blocks, lines = pre ++ blocks.flatten ∧ ink (linesText pre) = ink act.preamble ∧
      Both Reads blocks act.children := by
  obtain ⟨pre, blocks, h1, h2, _, _, h5⟩ := parseAct_spec h
  refine ⟨pre, blocks, h1, by rw [h2, ink_joinLines], h5.imp fun b hb e _ hq => ?_⟩
  obtain ⟨q, hq⟩ := hq
  obtain ⟨x, y, hxy⟩ := mem_flatten_split hb
  refine body_reads hq (fun l hl => hf l ?_) fun hl => ht ?_
  · rw [h1, hxy]; simp [hl]
  · have := LongTitle.wider (a := pre ++ x) (c := y) hl
    rw [h1, hxy]
    simpa using this

theorem reads_articles {blocks : List (List Line)} {cs : List Node} (h : Both Reads blocks cs)
    (hc : ∀ c ∈ cs, c.type = .article) : ink (linesText blocks.flatten) = ink (printedL cs) := by
  induction h with
  | nil => rfl
  | @cons b c bs cs hr _ ih =>
    have hb : ink (linesText b) = ink (printed c) := by
      have := hc c (by simp)
      cases c <;> first | exact hr | cases this
    rw [List.flatten_cons, linesText_append, ink_append, hb, ih fun c h => hc c (by simp [h]), printedL, ink_append]

/-- C25. If there are only articles, then the text of the whole act is the text of all lines. -/
theorem articles_keep_text_partial {identifier subject : Str} {date : Date} {lines : List Line} {act : Act}
    (h : parseAct identifier date subject lines = .ok act) (hf : ∀ l ∈ lines, FineEnd l) (ht : ¬ LongTitle lines)
    (ha : ∀ c ∈ act.children, c.type = .article) :
    ink (linesText lines) = ink (act.preamble ++ printedL act.children) := by
  obtain ⟨pre, blocks, rfl, h2, h3⟩ := act_keeps_text_partial h hf ht
  rw [linesText_append, ink_append, h2, reads_articles h3 ha, ink_append]

example : (∀ l ∈ sampleLines, FineEnd l) ∧ ¬ LongTitle sampleLines ∧
    (parseSample sampleLines).toOption.map (fun a => (a.preamble, a.children.map printed)) = some
      (py"Az Országgyűlés ezt alkotja:", [[], py"1.§[Cím](1)Hatályosa)most, vagyb)máskor,ha kell.(2)Helyébe ez lép:„2. § Új szöveg,a) vége”",
        py"2.§Vége."]) :=
  ⟨fine_of_all (by decide +kernel), short_titles (by decide +kernel), by decide +kernel⟩

example : ∀ act, parseSample (sampleLines.drop 14) = .ok act → (∀ c ∈ act.children, c.type = .article) ∧
    act.children.length = 1 := by
  intro act h
  have : (parseSample (sampleLines.drop 14)).toOption.all
    (fun a => a.children.all (fun c => decide (c.type = .article)) && a.children.length == 1) = true := by decide +kernel
  rw [h] at this
  simpa [Except.toOption] using this

/-- Two different texts with the same result. -/
def Confused (a b : List Line) : Prop :=
  (∃ act, parseSample a = .ok act ∧ parseSample b = .ok act) ∧ ink (linesText a) ≠ ink (linesText b)

theorem confused_of {a b : List Line} (h : (parseSample a).toOption.isSome = true) (h' : parseSample a = parseSample b)
    (ht : ink (linesText a) ≠ ink (linesText b)) : Confused a b := by
  refine ⟨?_, ht⟩
  cases hp : parseSample a with
  | error e => rw [hp] at h; cases h
  | ok act => exact ⟨act, rfl, by rw [← h', hp]⟩

/-- C25. The code violates the claim: the text of points is lost if a line has one part for all of its text. -/
theorem coarse_points_lost :
    Confused [spread 0 (py"1. § Ha"), coarse 10 (py"a) igen,"), coarse 10 (py"b) nem.")]
      [spread 0 (py"1. § Ha"), coarse 10 (py"a) nem,"), coarse 10 (py"b) igen.")] :=
  confused_of (by decide +kernel) (by decide +kernel) (by decide +kernel)

/-- C25. The code violates the claim: of a title on three lines the second line is taken twice and the third one lost. -/
theorem third_title_line_lost :
    Confused [spread 0 (py"1. § [Cím"), spread 0 (py"és"), spread 0 (py"igen]"), spread 0 (py"Szöveg.")]
      [spread 0 (py"1. § [Cím"), spread 0 (py"és"), spread 0 (py"nem]"), spread 0 (py"Szöveg.")] :=
  confused_of (by decide +kernel) (by decide +kernel) (by decide +kernel)

/-- C25. The code violates the claim: what stands between the name of a general or special part and the next header is
lost. -/
theorem below_special_part_lost :
    Confused [spread 0 (py"ÁLTALÁNOS RÉSZ"), spread 0 (py"igen"), spread 0 (py"1. § Szöveg.")]
      [spread 0 (py"ÁLTALÁNOS RÉSZ"), spread 0 (py"nem"), spread 0 (py"1. § Szöveg.")] :=
  confused_of (by decide +kernel) (by decide +kernel) (by decide +kernel)

/-! ## C26: siblings are numbered -/

/-- C26. In everything that is inside a parsed act, points and subpoints are at least two, begin with the first
identifier of their kind, follow each other, and so are different; paragraphs too, unless there is only one. -/
theorem act_numbered {identifier subject : Str} {date : Date} {lines : List Line} {act : Act}
    (h : parseAct identifier date subject lines = .ok act) :
    ∀ c ∈ act.children, ∀ m, Inside m c → ChildrenNumbered m := by
  obtain ⟨pre, blocks, _, _, _, _, h5⟩ := parseAct_spec h
  intro c hc m hm
  obtain ⟨b, _, q, hq⟩ := h5.mem_right hc
  cases q with
  | article =>
    obtain ⟨i, t, ps, rfl, facts⟩ := parseArticle_spec hq
    exact article_numbered facts m hm
  | struct k =>
    obtain ⟨e', rfl, _, _⟩ := struct_reads hq
    cases hm with
    | self => trivial
    | deeper hc _ => simp [Node.children] at hc

example : ((parseSample sampleLines).toOption.bind fun a => (a.children[1]?).bind fun c => (c.children[0]?).map fun p =>
    (p.identifier, p.children.map (·.identifier))) =
    some (some (py"1"), [some (py"a"), some (py"b")]) := by decide +kernel

example : LetterAfter (py"n") (py"ny") ∧ LetterAfter (py"ny") (py"o") ∧ LetterAfter (py"n") (py"o") ∧
    ¬ LetterAfter (py"n") (py"p") := by
  refine ⟨letterAfter_iff.mpr (by decide), letterAfter_iff.mpr (by decide), letterAfter_iff.mpr (by decide), ?_⟩
  rw [letterAfter_iff]; decide

/-! ## C27: elements begin outside quotes -/

/-- C27. Every article, structural element, paragraph, point and subpoint of a parsed act begins on a line before which
all quotes opened in the body are closed. If those of the preamble are closed too, the same is true of all lines.
Missing from the full claim: preambles with an open quote, and lines whose last part has several characters, for which
the claim is false, see below. -/
theorem act_divided_partial {identifier subject : Str} {date : Date} {lines : List Line} {act : Act}
    (h : parseAct identifier date subject lines = .ok act) (hf : ∀ l ∈ lines, FineEnd l) :
    ∃ pre blocks, lines = pre ++ blocks.flatten ∧ act.preamble = joinLines pre ∧ DividedL [] blocks act.children ∧
      (openQuotes pre = 0 → DividedL pre blocks act.children) := by
  obtain ⟨pre, blocks, h1, h2, h3, h4, h5⟩ := parseAct_spec h
  have hfb : ∀ b ∈ blocks, ∀ l ∈ b, FineEnd l := by
    intro b hb l hl
    obtain ⟨x, y, hxy⟩ := mem_flatten_split hb
    exact hf l (by rw [h1, hxy]; simp [hl])
  refine ⟨pre, blocks, h1, h2, body_dividedL h5 [] hfb h4 (by rw [openQuotes_nil, h3]; rfl), fun h0 => ?_⟩
  exact body_dividedL h5 pre hfb (by rw [h0]; exact h4) (by rw [h0, h3]; rfl)

example : (∀ l ∈ sampleLines, FineEnd l) ∧ (parseSample sampleLines).toOption.isSome = true ∧
    openQuotes (sampleLines.take 13) = 1 :=
  ⟨fine_of_all (by decide +kernel), by decide +kernel, by decide +kernel⟩

/-- C27. The code violates the claim: quotes are not counted in the preamble, so an article may begin inside one. -/
theorem article_in_open_quote :
    (parseSample [spread 0 (py"„Idézet"), spread 0 (py"1. § Szöveg.")]).toOption.map
        (fun a => (a.preamble, a.children.map Node.identifier)) = some (py"„Idézet", [some (py"1")]) ∧
      openQuotes [spread 0 (py"„Idézet")] = 1 := by
  constructor <;> decide +kernel

/-- The lines of a point whose quote is closed in the wrap-up of all points. -/
def coarseQuote : List Line :=
  [spread 0 (py"1. § Ha"), spread 20 (py"a) x,"), coarse 20 (py"b) „y"), spread 30 (py"1. p,"), spread 30 (py"2. q,"),
   spread 10 (py"vége”")]

/-- C27. The code violates the claim if lines have one part for all of their text: the opening quote is lost together
with the rest of the line, and the subpoints begin inside it. -/
theorem subpoints_in_coarse_quote :
    ((parseSample coarseQuote).toOption.bind fun a => (a.children[0]?).bind fun c => (c.children[0]?).bind fun p =>
      (p.children[1]?).map fun b => b.children.map Node.identifier) = some [some (py"1"), some (py"2")] ∧
      openQuotes (coarseQuote.take 3) = 1 ∧ openQuotes (coarseQuote.take 4) = 1 := by
  refine ⟨?_, ?_, ?_⟩ <;> decide +kernel

/-! ## C28: the kind of children -/

/-- The kinds of children an element can have: quoted blocks and points in paragraphs, subpoints in points. -/
inductive ChildKinds : List SubParser → Prop
  | paragraph : ChildKinds [quotedParser, alphabeticPointParser.asSub alphabeticPointKids,
      numericPointParser.asSub numericPointKids]
  | numericPoint : ChildKinds [(alphabeticSubpointParser []).asSub subpointKids]
  | alphabeticPoint (s i : Str) (h : alphabeticPointParser.header s = some i) :
      ChildKinds [numericSubpointParser.asSub subpointKids, (alphabeticSubpointParser i).asSub subpointKids]
  | subpoint : ChildKinds []

theorem ChildKinds.apart {ps : List SubParser} (h : ChildKinds ps) : ps.Pairwise Apart := by
  cases h with
  | paragraph => exact paragraph_subparsers_apart
  | numericPoint => simp
  | alphabeticPoint s i h => exact alphabetic_subparsers_apart (matchLettered_letters (by simp [Letters]) h)
  | subpoint => exact .nil

/-- C28. No line of text can be the first header of two kinds of children of the same element. -/
theorem first_headers_differ (l : Line) :
    ¬ ((l.content.head? = some '„' ∨ l.content.head? = some '“') ∧ alphabeticPointParser.header l.content = some (py"a")) ∧
    ¬ ((l.content.head? = some '„' ∨ l.content.head? = some '“') ∧ numericPointParser.header l.content = some (py"1")) ∧
    ¬ (alphabeticPointParser.header l.content = some (py"a") ∧ numericPointParser.header l.content = some (py"1")) ∧
    ∀ s i, alphabeticPointParser.header s = some i →
      ¬ (numericSubpointParser.header l.content = some (py"1") ∧
        (alphabeticSubpointParser i).header l.content = some (i ++ py"a")) := by
  refine ⟨?_, ?_, ?_, ?_⟩
  · rintro ⟨h, h'⟩
    obtain ⟨c, t, e, hc⟩ := matchLettered_head (by simp [Letters]) h'
    rw [e] at h
    rcases h with h | h <;> obtain rfl := Option.some.inj h <;> exact absurd hc (by decide)
  · rintro ⟨h, h'⟩
    obtain ⟨c, t, e, hc⟩ := matchNumbered_head h'
    rw [e] at h
    rcases h with h | h <;> obtain rfl := Option.some.inj h <;> exact absurd hc (by decide)
  · rintro ⟨h, h'⟩
    exact lettered_not_numbered (by simp [Letters]) h h'
  · rintro s i hi ⟨h, h'⟩
    exact lettered_not_numbered (matchLettered_letters (by simp [Letters]) hi) h' h

/-- C28. Where the first header of a kind of children is: on the first line outside quotes that has it. -/
theorem first_header_place (P : ElementParser) (kids : ChildReader) (lines : List Line) (n : Nat) :
    ((P.asSub kids).firstHeader lines = .ok (some n) → FirstLine (fun l => P.header l.content = some P.first) lines n) ∧
    (quotedParser.firstHeader lines = .ok (some n) →
      FirstLine (fun l => l.content.head? = some '„' ∨ l.content.head? = some '“') lines n) :=
  ⟨findFirstHeader_first, quotedFirst_first⟩

/-- C28. Sorting the kinds of children by the lines of their first headers never fails, and gives them in the order of
these lines, which are all different. -/
theorem kinds_never_tie {ps : List SubParser} (hp : ChildKinds ps) {lines : List Line} {found : List (Nat × SubParser)}
    (h : firstHeaders lines ps = .ok found) :
    ∃ sorted, sortHeaders found = .ok sorted ∧ sorted.Perm found ∧ sorted.Pairwise fun a b => a.1 < b.1 := by
  obtain ⟨sorted, hs⟩ := sortHeaders_total (firstHeaders_apart hp.apart h)
  obtain ⟨h1, h2⟩ := sortHeaders_spec hs
  exact ⟨sorted, hs, h1, h2⟩

/-- C28. The kind of children chosen is the one whose header comes first, apart from kinds whose header is on the very
first line, where there is no intro, and from those that refused the lines. Missing from the full claim: a kind may
refuse although its header comes first, see below. -/
theorem kind_chosen_partial {ps : List SubParser} {lines : List Line} {pi : Bool} {intro w : Option Str} {cs : List Node}
    (h : childrenBy ps lines pi = .ok (intro, cs, w)) :
    ∃ p ∈ ps, ∃ n, p.firstHeader lines = .ok (some n) ∧ p.extract (lines.drop n) pi = .ok (cs, w) ∧
      ∀ q ∈ ps, ∀ m, q.firstHeader lines = .ok (some m) → m < n →
        (m = 0 ∧ q.mustHaveIntro = true) ∨ q.extract (lines.drop m) pi = .error .saeNotFound :=
  childrenBy_choice h

/-- C28. A kind of points refuses the lines only if it has just one header in them. -/
theorem kind_refused {P : ElementParser} {kids : ChildReader} {lines : List Line} {pi : Bool}
    (h : (P.asSub kids).extract lines pi = .error .saeNotFound) :
    P.mustHaveMultiple = true ∧ (findHeaderLines P lines).toList = .ok [0] :=
  (extractMultiple_errors h).2 rfl

/-- A paragraph with one lettered point and two numbered ones. -/
def mixedLines : List Line :=
  [spread 0 (py"Intro:"), spread 10 (py"a) egy,"), spread 10 (py"1. kettő,"), spread 10 (py"2. három.")]

example : ((paragraphKids mixedLines none true).toOption.map fun r => r.2.1.map Node.type) =
    some [.sae .numericPoint, .sae .numericPoint] := by decide +kernel

example : ChildKinds [numericSubpointParser.asSub subpointKids, (alphabeticSubpointParser (py"c")).asSub subpointKids] ∧
    (firstHeaders [spread 0 (py"Ha:"), spread 0 (py"ca) x,"), spread 0 (py"1. y"), spread 0 (py"2. z")]
      [numericSubpointParser.asSub subpointKids, (alphabeticSubpointParser (py"c")).asSub subpointKids]).toOption.map
        (fun r => r.map (·.1)) = some [2, 1] :=
  ⟨.alphabeticPoint (py"c) Ha:") (py"c") (by decide), by decide +kernel⟩

/-- C28. The code violates the claim on the choice: the header a) comes first, but the children are the numbered points,
because there is no b). -/
theorem later_kind_chosen :
    (alphabeticPointParser.asSub alphabeticPointKids).firstHeader mixedLines = .ok (some 1) ∧
    (numericPointParser.asSub numericPointKids).firstHeader mixedLines = .ok (some 2) ∧
    ((paragraphKids mixedLines none true).toOption.map fun r => r.2.1.map Node.type) =
      some [.sae .numericPoint, .sae .numericPoint] := by
  refine ⟨?_, ?_, ?_⟩ <;> decide +kernel

/-! ## C29: errors -/

/-- C29. The act parser gives an act or its own error. -/
theorem act_or_error (identifier subject : Str) (date : Date) (lines : List Line) :
    (∃ act, parseAct identifier date subject lines = .ok act) ∨
      parseAct identifier date subject lines = .error .actParsing := by
  unfold parseAct
  split
  · exact .inr rfl
  · exact .inl ⟨_, rfl⟩

/-- C29. Every element of an act that parses was made, without error, by the parser of its kind from its own lines, and
these are all the lines after the preamble. -/
theorem act_parts_parsed {identifier subject : Str} {date : Date} {lines : List Line} {act : Act}
    (h : parseAct identifier date subject lines = .ok act) :
    ∃ pre blocks, lines = pre ++ blocks.flatten ∧
      Both (fun b e => (∃ q : BodyParser, q.parse b true = .ok e)) blocks act.children := by
  obtain ⟨pre, blocks, h1, _, _, _, h5⟩ := parseAct_spec h
  exact ⟨pre, blocks, h1, h5⟩

/-- An element without children that has none because of the lines and not because of a failure: no kind of children has
a header, or it is on the first line, or it refused the lines. -/
def NoChildren (ps : List SubParser) (lines : List Line) (pi : Bool) : Prop :=
  ∀ p ∈ ps, p.firstHeader lines = .ok none ∨ ∃ n, p.firstHeader lines = .ok (some n) ∧
    ((n = 0 ∧ p.mustHaveIntro = true) ∨ p.extract (lines.drop n) pi = .error .saeNotFound)

theorem childKinds_none {ps : List SubParser} (hp : ChildKinds ps) {lines : List Line} {pi : Bool}
    (h : childrenBy ps lines pi = .error .noSubelements) : NoChildren ps lines pi := by
  have he : ∀ (P : ElementParser) (kids : ChildReader) n r, (P.asSub kids).extract (List.drop n lines) pi = .error r →
      r ≠ .noSubelements := fun P kids n r hr => (extractMultiple_errors hr).1
  have hq : ∀ n r, quotedParser.extract (List.drop n lines) pi = .error r → r ≠ .noSubelements :=
    fun n r hr => quotedExtract_errors hr
  have hf : ∀ (P : ElementParser) (kids : ChildReader), Quiet ((P.asSub kids).firstHeader lines) :=
    fun P kids => findFirstHeader_quiet P lines
  refine childrenBy_none ?_ ?_ h
  · cases hp with
    | paragraph =>
      simp only [List.mem_cons, List.not_mem_nil, or_false, forall_eq_or_imp, forall_eq]
      exact ⟨quotedFirst_quiet _ _ _ fun e h => quoteLevel_error lines e h, hf _ _, hf _ _⟩
    | numericPoint => simp only [List.mem_cons, List.not_mem_nil, or_false, forall_eq]; exact hf _ _
    | alphabeticPoint s i h =>
      simp only [List.mem_cons, List.not_mem_nil, or_false, forall_eq_or_imp, forall_eq]
      exact ⟨hf _ _, hf _ _⟩
    | subpoint => simp
  · cases hp with
    | paragraph =>
      simp only [List.mem_cons, List.not_mem_nil, or_false, forall_eq_or_imp, forall_eq]
      exact ⟨hq, he _ _, he _ _⟩
    | numericPoint => simp only [List.mem_cons, List.not_mem_nil, or_false, forall_eq]; exact he _ _
    | alphabeticPoint s i h =>
      simp only [List.mem_cons, List.not_mem_nil, or_false, forall_eq_or_imp, forall_eq]
      exact ⟨he _ _, he _ _⟩
    | subpoint => simp

/-- C29. A failure while reading the children of an element makes the element fail too: it is made either from children
that were read without error or, as plain text, from lines in which no kind of children could be read. -/
theorem failure_not_hidden {P : ElementParser} {ps : List SubParser} (hp : ChildKinds ps) {kids : ChildReader}
    {first : Line} {rest : List Line} {pi : Bool} {n : Node}
    (hk : ∀ lines, kids lines (P.header first.content) pi = childrenBy ps lines pi)
    (h : parseElement P kids (first :: rest) pi = .ok n) :
    ∃ first', (∃ p, P.kind.headerPrefix (P.header first.content) = .ok p ∧ first.slice p.length = .ok first') ∧
      ((∃ intro cs w, childrenBy ps (first' :: rest) pi = .ok (intro, cs, w) ∧ n.children = cs) ∨
       (NoChildren ps (first' :: rest) pi ∧ n = .sae P.kind { identifier := P.header first.content, text := some (joinLines (first' :: rest)) } [])) := by
  simp only [parseElement] at h
  obtain ⟨p, hp', h⟩ := resBind_ok h
  cases hs : startsWith first.content p with
  | false => simp [hs] at h
  | true =>
    simp only [hs, Bool.not_true, Bool.false_eq_true, if_false] at h
    obtain ⟨first', hf, h⟩ := resBind_ok h
    refine ⟨first', ⟨p, hp', hf⟩, ?_⟩
    rw [hk] at h
    cases hr : childrenBy ps (first' :: rest) pi with
    | ok r =>
      obtain ⟨intro, cs, w⟩ := r
      simp only [hr] at h
      obtain ⟨rfl, _⟩ := mkSae_ok h
      exact .inl ⟨intro, cs, w, rfl, rfl⟩
    | error e =>
      simp only [hr] at h
      have h' : e = .noSubelements ∧
          mkSae P.kind { identifier := P.header first.content, text := some (joinLines (first' :: rest)) } none =
            .ok n := by
        cases e <;> first | exact ⟨rfl, h⟩ | cases h
      obtain ⟨rfl, h'⟩ := h'
      obtain ⟨rfl, _⟩ := mkSae_ok h'
      exact .inr ⟨childKinds_none hp hr, rfl⟩

example : ChildKinds [quotedParser, alphabeticPointParser.asSub alphabeticPointKids,
      numericPointParser.asSub numericPointKids] ∧
    (parseElement paragraphParser paragraphKids mixedLines true).toOption.isSome = true :=
  ⟨.paragraph, by decide +kernel⟩

/-- C29. The header of a point is read for every letter, and the next one is looked for without error. -/
theorem every_letter_read (c : Char) (hc : isLowerAz c = true) (rest : Str) (a b : Str) :
    alphabeticPointParser.header (c :: py") " ++ rest) = some [c] ∧
      ∃ r, alphabeticPointParser.kind.isNextIdentifier a b = .ok r := by
  refine ⟨?_, _, rfl⟩
  simp [alphabeticPointParser, matchLettered, startsWith, hc]

/-- C29. The header of a subpoint is read for every letter, and the next one is looked for without error, below a numbered
point and below a point with a single letter. Missing from the full claim: points whose identifier has two letters, for
which it is false, see below. -/
theorem every_subletter_read_partial (p : Str) (hp : p.length ≤ 1) (c d : Char) (hc : isLowerAz c = true) (rest : Str) :
    (alphabeticSubpointParser p).header (p ++ c :: py") " ++ rest) = some (p ++ [c]) ∧
      ∃ r, (alphabeticSubpointParser p).kind.isNextIdentifier (p ++ [c]) (p ++ [d]) = .ok r := by
  match p, hp with
  | [], _ =>
    refine ⟨?_, ?_⟩
    · simp [alphabeticSubpointParser, matchLettered, startsWith, hc]
    · exact ⟨isNextLetterHun [c] [d], rfl⟩
  | [x], _ =>
    refine ⟨?_, ?_⟩
    · simp [alphabeticSubpointParser, matchLettered, startsWith, hc]
    · exact ⟨isNextLetterHun [c] [d], by simp [alphabeticSubpointParser, SaeKind.isNextIdentifier, alphabeticSubpointIsNext]⟩

/-- C29. The code violates the claim: a point ny) with subpoints cannot be parsed, while n) with subpoints can. -/
theorem two_letters_fail :
    parseElement alphabeticPointParser alphabeticPointKids
      [spread 0 (py"ny) ha"), spread 10 (py"nya) x,"), spread 10 (py"nyb) y.")] true = .error .saeParsing ∧
    ((parseElement alphabeticPointParser alphabeticPointKids
      [spread 0 (py"n) ha"), spread 10 (py"na) x,"), spread 10 (py"nb) y.")] true).toOption.map
        fun n => n.children.map Node.identifier) = some [some (py"na"), some (py"nb")] := by
  constructor <;> decide +kernel

/-- C29. The code violates the claim: points gy) and ty) are not recognised, although gy is accepted after g. -/
theorem digraphs_not_read (rest : Str) :
    alphabeticPointParser.header (py"gy) " ++ rest) = none ∧ alphabeticPointParser.header (py"ty) " ++ rest) = none ∧
      isNextLetterHun (py"g") (py"gy") = true := by
  refine ⟨?_, ?_, by decide⟩ <;> simp [alphabeticPointParser, matchLettered, startsWith]

end Verif.Props
