import Verif.Proofs.Gazette
import Verif.Proofs.ParsedArticle

/-! # The gazette (C44, C45, C51) -/

namespace Verif.Props
open Spec

/-! ## C44: pages -/

/-- A small gazette of two pages. -/
def sampleGazette : PdfOfLines :=
  [[⟨[⟨0, py"MAGYAR KÖZLÖNY 71. szám", false⟩], 0⟩, emptyLine, ⟨[⟨0, py"A MAGYAR KÖZTÁRSASÁG HIVATALOS LAPJA", false⟩], 0⟩,
    ⟨[⟨0, py"2011. június 28., kedd", false⟩], 0⟩, emptyLine, ⟨[⟨0, py"Tartalomjegyzék", false⟩], 0⟩],
   [⟨[⟨0, py"15202 MAGYAR KÖZLÖNY", false⟩], 0⟩, emptyLine, ⟨[⟨0, py"II. Törvények", false⟩], 0⟩]]

theorem headerExtractor_some {pdf : PdfOfLines} {k : KozlonyPages} (h : headerExtractor pdf = .ok (some k)) :
    ∃ first more line, pdf = first :: more ∧ first[3]? = some line ∧ Date.fromHungarianText line.content = .ok k.publicationDate ∧
      k.pages = ⟨first.take 5, first.drop 5⟩ :: pdf.map fun page => ⟨page.take 2, page.drop 2⟩ := by
  unfold headerExtractor at h
  obtain ⟨b, hb, h⟩ := resBind_ok h
  cases b with
  | false => cases h
  | true =>
    cases pdf with
    | nil => cases hb
    | cons first more =>
      simp only [if_true, List.headD_cons] at h
      cases hl : first[3]? with
      | none => simp [hl] at h
      | some line =>
        simp only [hl] at h
        obtain ⟨d, hd, h⟩ := resBind_ok h
        injection h with h
        injection h with h
        subst h
        exact ⟨first, more, line, rfl, hl, hd, rfl⟩

/-- C44. The property fails for every gazette: its first page is there twice, once without the first five lines and once without
the first two, so the pages of the result are not the pages of the gazette. -/
theorem first_page_twice {pdf : PdfOfLines} {k : KozlonyPages} (h : headerExtractor pdf = .ok (some k)) :
    ∃ first more p q others, pdf = first :: more ∧ k.pages = p :: q :: others ∧
      p.header ++ p.lines = first ∧ q.header ++ q.lines = first ∧ p.lines = first.drop 5 ∧ q.lines = first.drop 2 ∧
      k.pages.map (fun p => p.header ++ p.lines) ≠ pdf := by
  obtain ⟨first, more, line, rfl, -, -, hk⟩ := headerExtractor_some h
  refine ⟨first, more, _, _, _, rfl, hk, ?_, ?_, rfl, rfl, ?_⟩
  · exact List.take_append_drop 5 first
  · exact List.take_append_drop 2 first
  · intro he
    have := congrArg List.length he
    simp [hk] at this

/-- C44. After the first result, every page of the gazette is there exactly once, in order, cut after its second line. -/
theorem pages_once_partial {pdf : PdfOfLines} {k : KozlonyPages} (h : headerExtractor pdf = .ok (some k)) :
    k.pages.tail.map (fun p => p.header ++ p.lines) = pdf ∧
    k.pages.tail.map (·.lines) = pdf.map (·.drop 2) := by
  obtain ⟨first, more, line, rfl, -, -, hk⟩ := headerExtractor_some h
  rw [hk, List.tail_cons, List.map_map, List.map_map]
  constructor
  · refine Eq.trans (List.map_congr_left ?_) (List.map_id _)
    intro page _
    exact List.take_append_drop 2 page
  · rfl

/-- C44. The pages are taken of every file whose first line has the name of the gazette and whose fourth line has a date, and this
is the date of publication. -/
theorem gazette_read {first : List Line} {more : PdfOfLines} {a b c d : Line} {rest : List Line} {date : Date}
    (hf : first = a :: b :: c :: d :: rest) (ht : ∃ x y, a.content = x ++ (py"MAGYAR KÖZLÖNY") ++ y)
    (hd : Date.fromHungarianText d.content = .ok date) :
    ∃ k, headerExtractor (first :: more) = .ok (some k) ∧ k.publicationDate = date := by
  obtain ⟨x, y, ht⟩ := ht
  subst hf
  have hi : isMagyarKozlony ((a :: b :: c :: d :: rest) :: more) = .ok true := by
    simp only [isMagyarKozlony]
    rw [ht, List.append_assoc, isInfix_append]
  have : headerExtractor ((a :: b :: c :: d :: rest) :: more) = (Date.fromHungarianText d.content).bind fun date =>
      .ok (some ⟨date, ⟨(a :: b :: c :: d :: rest).take 5, (a :: b :: c :: d :: rest).drop 5⟩ ::
        ((a :: b :: c :: d :: rest) :: more).map fun page => ⟨page.take 2, page.drop 2⟩⟩) := by
    unfold headerExtractor
    rw [hi]
    rfl
  rw [hd] at this
  exact ⟨_, this, rfl⟩

example : ∃ k, headerExtractor sampleGazette = .ok (some k) ∧ k.pages.length = 3 ∧ k.publicationDate = ⟨2011, 6, 28⟩ :=
  ⟨_, by rfl, by decide +kernel, by decide +kernel⟩

/-! ## C45: acts -/

/-- C45. The acts are cut out of the lines of the section in order and share no line. Each one is given by the lines from its
title to the signatures, where one footnote may have been removed from the body. Its lines alone give the same act. -/
theorem acts_cut_partial (s : LawsSection) :
    CutOut (fun act lines => ActLines Footnoted s.publicationDate act lines ∧
      lawExtractor ⟨s.publicationDate, emptyLine :: lines⟩ = ⟨[act], none⟩) s.lines (lawExtractor s).yields :=
  lawLoop_cut s.publicationDate s.lines {} [] ⟨rfl, rfl⟩ fun h => absurd rfl h

/-- C45. If no line begins with an asterisk, the body of each act is consecutive lines of the section. -/
theorem acts_consecutive_partial (s : LawsSection) (h : ∀ l ∈ s.lines, l.content.head? ≠ some '*') :
    CutOut (ActLines Eq s.publicationDate) s.lines (lawExtractor s).yields := by
  refine CutOut.mono ?_ (acts_cut_partial s)
  rintro a seg hsub ⟨⟨title, subject, raw, blank, names, signature, rfl, h1, h2, h3, h4, h5, h6, h7, h8, h9⟩, -⟩
  refine ⟨title, subject, raw, blank, names, signature, rfl, h1, h2, h3, h4, h5, h6, h7, h8, ?_⟩
  generalize a.body ++ [blank, names, signature] = body at h9
  cases h9 with
  | same => rfl
  | @removed before b note b' after hb hbl hn hb' =>
    exact absurd hn (h note (hsub.subset (by simp)))

/-- C45. An act never influences the next: if the lines up to some line give one more act than the lines before it, the rest is
read as if it were the whole section. -/
theorem act_resets {date : Date} {before : List Line} {line : Line}
    (h : (lawExtractor ⟨date, before ++ [line]⟩).yields.length > (lawExtractor ⟨date, before⟩).yields.length) (rest : List Line) :
    lawExtractor ⟨date, before ++ line :: rest⟩ =
      ⟨(lawExtractor ⟨date, before ++ [line]⟩).yields ++ (lawExtractor ⟨date, rest⟩).yields, (lawExtractor ⟨date, rest⟩).stop⟩ := by
  unfold lawExtractor at h ⊢
  dsimp only at h ⊢
  have : ∀ (before : List Line) (m : LawMachine) (seen : List Line), Reached m seen →
      (lawLoop date m (before ++ [line])).yields.length > (lawLoop date m before).yields.length →
      lawLoop date m (before ++ line :: rest) =
        ⟨(lawLoop date m (before ++ [line])).yields ++ (lawLoop date {} rest).yields, (lawLoop date {} rest).stop⟩ := by
    intro before
    induction before with
    | nil =>
      intro m seen hr h
      cases hf : m.feed date line with
      | error e =>
        rw [List.nil_append, lawLoop] at h
        simp [hf, lawLoop] at h
      | ok r =>
        obtain ⟨m', r⟩ := r
        rw [List.nil_append, List.nil_append, lawLoop_cons_ok hf, lawLoop_cons_ok hf]
        rw [List.nil_append, lawLoop_cons_ok hf] at h
        rcases feed_reached hr hf with ⟨rfl, -⟩ | ⟨a, rfl, rfl, -, -⟩
        · simp [lawLoop] at h
        · simp [lawLoop]
    | cons l before ih =>
      intro m seen hr h
      cases hf : m.feed date l with
      | error e =>
        rw [List.cons_append, lawLoop, lawLoop] at h
        simp [hf] at h
      | ok r =>
        obtain ⟨m', r⟩ := r
        have hr' : ∃ seen', Reached m' seen' := by
          rcases feed_reached hr hf with ⟨-, h | ⟨-, h⟩⟩ | ⟨a, -, rfl, -, -⟩
          · exact ⟨_, h⟩
          · exact ⟨_, h⟩
          · exact ⟨[], rfl, rfl⟩
        obtain ⟨seen', hr'⟩ := hr'
        rw [List.cons_append, lawLoop_cons_ok hf, lawLoop_cons_ok hf] at h
        rw [List.cons_append, List.cons_append, lawLoop_cons_ok hf, lawLoop_cons_ok hf,
          ih m' seen' hr' (by simpa using h)]
        simp
  exact this before {} [] ⟨rfl, rfl⟩ h

/-- C45. An act after a blank line is always found, and what follows it is read as if it were the whole section. -/
theorem act_found {date : Date} {between subjectLines body rest : List Line} {blank title blank' names signature : Line}
    {subject : Str} (hbetween : ∀ l ∈ between, l.parts ≠ []) (hblank : blank.parts = []) (htitle : ActTitle title.content)
    (hsubject : SubjectLines subjectLines subject) (hbody : body ≠ []) (hblank' : blank'.parts = [])
    (hsig : Signature signature.content) (hplain : Plain (body ++ [blank', names])) :
    lawExtractor ⟨date, between ++ blank :: title :: subjectLines ++ body ++ blank' :: names :: signature :: rest⟩ =
      ⟨⟨title.content, date, subject, body⟩ :: (lawExtractor ⟨date, rest⟩).yields, (lawExtractor ⟨date, rest⟩).stop⟩ := by
  unfold lawExtractor
  dsimp only
  rw [List.append_assoc, List.append_assoc, lawLoop_skip date _ _ hbetween,
    show (blank :: title :: subjectLines) ++ (body ++ blank' :: names :: signature :: rest) =
      blank :: title :: (subjectLines ++ (body ++ [blank', names] ++ signature :: rest)) by simp,
    lawLoop_title date hblank htitle, lawLoop_subject date hsubject, lawLoop_plain date _ _ [] (by simpa using hplain)]
  have h1 : LawMachine.feed ⟨title.content, subject, [] ++ (body ++ [blank', names]), .bodyBeforeAsteriskFooter⟩ date signature =
      .ok ({}, some ⟨title.content, date, subject, body⟩) := by
    show LawMachine.feedBefore ⟨title.content, subject, [] ++ (body ++ [blank', names]), .bodyBeforeAsteriskFooter⟩ date signature = _
    rcases feedBefore_cases ⟨title.content, subject, [] ++ (body ++ [blank', names]), .bodyBeforeAsteriskFooter⟩ date signature with
      h | ⟨p, x, y, -, -, -, h, -⟩ | ⟨p, x, y, -, -, -, h, -⟩
    · rw [h.1, feedAfter_end (body := body) (blank := blank') (names := names) rfl hbody hblank' hsig]
    · exact absurd h (signature_not_blank hsig)
    · exact absurd h (signature_not_blank hsig)
  rw [lawLoop_cons_ok h1]
  rfl

/-- C45. The same for an act with a footnote: its body has a blank line in place of it. -/
theorem footnoted_act_found {date : Date} {between subjectLines front back rest : List Line}
    {blank title b note b' blank' names signature : Line} {subject : Str}
    (hbetween : ∀ l ∈ between, l.parts ≠ []) (hblank : blank.parts = []) (htitle : ActTitle title.content)
    (hsubject : SubjectLines subjectLines subject) (hfront : front ≠ []) (hb : b.parts = []) (hb' : b'.parts = [])
    (hnote : note.content.head? = some '*') (hblank' : blank'.parts = []) (hsig : Signature signature.content)
    (hplain : Plain (front ++ [b, note])) (hback : Unsigned (front ++ [emptyLine] ++ back ++ [blank', names])) :
    lawExtractor ⟨date, between ++ blank :: title :: subjectLines ++ (front ++ [b, note, b'] ++ back) ++
        blank' :: names :: signature :: rest⟩ =
      ⟨⟨title.content, date, subject, front ++ [emptyLine] ++ back⟩ :: (lawExtractor ⟨date, rest⟩).yields,
        (lawExtractor ⟨date, rest⟩).stop⟩ := by
  unfold lawExtractor
  dsimp only
  rw [List.append_assoc, List.append_assoc, lawLoop_skip date _ _ hbetween,
    show (blank :: title :: subjectLines) ++ (front ++ [b, note, b'] ++ back ++ blank' :: names :: signature :: rest) =
      blank :: title :: (subjectLines ++ (front ++ [b, note] ++ b' :: (back ++ [blank', names] ++ signature :: rest))) by simp,
    lawLoop_title date hblank htitle, lawLoop_subject date hsubject, lawLoop_plain date _ _ [] (by simpa using hplain)]
  have h1 : LawMachine.feed ⟨title.content, subject, [] ++ (front ++ [b, note]), .bodyBeforeAsteriskFooter⟩ date b' =
      .ok (⟨title.content, subject, front ++ [emptyLine], .bodyAfterAsteriskFooter⟩, none) := by
    show LawMachine.feedBefore ⟨title.content, subject, [] ++ (front ++ [b, note]), .bodyBeforeAsteriskFooter⟩ date b' = _
    rcases feedBefore_cases ⟨title.content, subject, [] ++ (front ++ [b, note]), .bodyBeforeAsteriskFooter⟩ date b' with
      h | ⟨p, x, y, h1, -, -, -, -, h⟩ | ⟨p, x, y, h1, -, -, -, hy, -⟩
    · exact absurd hnote (h.2 front b note rfl hfront hb hb')
    · rw [h]
      have : front = p := (List.append_inj' (show front ++ [b, note] = p ++ [x, y] from h1) rfl).1
      subst this
      rfl
    · have h2 := (List.append_inj' (show front ++ [b, note] = p ++ [x, y] from h1) rfl).2
      have : note = y := by simpa using (List.cons.inj h2).2
      rw [this, hy] at hnote
      cases hnote
  rw [lawLoop_cons_ok h1, lawLoop_unsigned date _ _ _ (by simpa using hback)]
  have h2 : LawMachine.feed ⟨title.content, subject, front ++ [emptyLine] ++ (back ++ [blank', names]), .bodyAfterAsteriskFooter⟩
      date signature = .ok ({}, some ⟨title.content, date, subject, front ++ [emptyLine] ++ back⟩) := by
    show Except.ok (LawMachine.feedAfter _ date signature) = _
    rw [feedAfter_end (body := front ++ [emptyLine] ++ back) (blank := blank') (names := names) (by simp) (by simp) hblank' hsig]
  rw [lawLoop_cons_ok h2]
  rfl

/-- A line with one part. -/
def textLine (s : Str) : Line := ⟨[⟨0, s, false⟩], 0⟩

/-- A short act with the signatures. -/
def signedAct (body : List Line) : List Line :=
  emptyLine :: textLine (py"2010. évi CLVIII. törvény") :: textLine (py"a tárgyról*") :: body ++
    [emptyLine, textLine (py"Dr. Schmitt Pál s. k., Dr. Kövér László s. k.,"),
     textLine (py"köztársasági elnök az Országgyűlés elnöke")]

/-- C45. The lines of an act are not consecutive lines of the section if it has a footnote: it is removed from the body. -/
theorem footnote_removed :
    lawExtractor ⟨⟨2010, 12, 28⟩, signedAct [textLine (py"1. § A"), emptyLine, textLine (py"* Elfogadva."), emptyLine,
        textLine (py"2. § B")]⟩ =
      ⟨[⟨py"2010. évi CLVIII. törvény", ⟨2010, 12, 28⟩, py"a tárgyról", [textLine (py"1. § A"), emptyLine, textLine (py"2. § B")]⟩],
        none⟩ := by rfl

/-- C45. A second blank line above the title makes the act disappear. -/
theorem second_blank_line : lawExtractor ⟨⟨2010, 12, 28⟩, emptyLine :: signedAct [textLine (py"1. § A")]⟩ = ⟨[], none⟩ := by
  rfl

example : lawExtractor ⟨⟨2010, 12, 28⟩, signedAct [textLine (py"1. § A")] ++ signedAct [textLine (py"1. § B")]⟩ =
    ⟨[⟨py"2010. évi CLVIII. törvény", ⟨2010, 12, 28⟩, py"a tárgyról", [textLine (py"1. § A")]⟩,
      ⟨py"2010. évi CLVIII. törvény", ⟨2010, 12, 28⟩, py"a tárgyról", [textLine (py"1. § B")]⟩], none⟩ := by rfl

/-- The hypotheses of `act_found` and `footnoted_act_found` for the acts above. -/
example : ActTitle (py"2010. évi CLVIII. törvény") ∧ Signature (py"köztársasági elnök az Országgyűlés elnöke") ∧
    SubjectLines [textLine (py"a tárgyról*")] (py"a tárgyról") ∧
    Plain ([textLine (py"1. § A"), textLine (py"2. § B")] ++ [emptyLine, textLine (py"Dr. Schmitt Pál s. k., Dr. Kövér László s. k.,")]) ∧
    Plain ([textLine (py"1. § A")] ++ [emptyLine, textLine (py"* Elfogadva.")]) ∧
    Unsigned ([textLine (py"1. § A")] ++ [emptyLine] ++ [textLine (py"2. § B")] ++
      [emptyLine, textLine (py"Dr. Schmitt Pál s. k., Dr. Kövér László s. k.,")]) := by
  refine ⟨⟨'2', '0', '1', '0', '.', '.', py"CLVIII", [], by decide, by decide, by decide, by decide, by decide, by decide, by decide,
    by decide, rfl⟩, ⟨[], [], .inl rfl, rfl⟩, ⟨[], _, rfl, by simp [textLine, Line.content], by simp, by simp [textLine, Line.content],
    rfl⟩, ?_, ?_, ?_⟩
  · intro p x y z q h hp hx
    match p, h with
    | [], _ => exact absurd rfl hp
    | [_], h => simp only [List.cons_append, List.nil_append, List.cons.injEq] at h; rw [← h.2.1] at hx; cases hx
    | _ :: _ :: _, h => have := congrArg List.length h; simp at this; omega
  · intro p x y z q h hp hx
    have := congrArg List.length h
    have := List.length_pos_iff.2 hp
    simp at *
    omega
  · intro p x y z q h hp hx
    match p, h with
    | [], _ => exact absurd rfl hp
    | [_], h =>
      simp only [List.cons_append, List.nil_append, List.cons.injEq] at h
      rw [← h.2.2.2.1]
      rintro ⟨al, rest, -, hc⟩
      cases hc
    | [_, _], h => simp only [List.cons_append, List.nil_append, List.cons.injEq] at h; rw [← h.2.2.1] at hx; cases hx
    | _ :: _ :: _ :: _, h => have := congrArg List.length h; simp at this; omega

example : SubjectLines [textLine (py"a"), textLine (py"b*")] (py"a b") :=
  ⟨[textLine (py"a")], textLine (py"b*"), rfl, by simp [textLine, Line.content], by simp [textLine, Line.content],
    by simp [textLine, Line.content], by decide⟩

/-! ## C51: sections -/

/-- C51. The pages that have lines are divided into sections at the titles, every page belongs to one of them, and a laws section is
all of its pages without the titles. -/
theorem sections_of_pages {k : KozlonyPages} {line : Line} {lines : List Line} {pages : List (List Line)}
    (hp : (k.pages.map (·.lines)).filter (· ≠ []) = (line :: lines) :: pages) (ht : line.content ∈ sectionTitles) :
    ∃ sections, Sections (· ∈ sectionTitles) ((line :: lines) :: pages) sections ∧
      sectionExtractor k = ⟨(sections.filter (·.1 = py"II. Törvények")).map
        fun s => ⟨k.publicationDate, sectionLines s.1 s.2⟩, none⟩ := by
  have hlaws : ∀ sections, lawsSections k.publicationDate sections = (sections.filter (·.1 = py"II. Törvények")).map
      fun s => (⟨k.publicationDate, sectionLines s.1 s.2⟩ : LawsSection) := by
    intro sections
    induction sections with
    | nil => rfl
    | cons s rest ih =>
      unfold lawsSections at ih ⊢
      rw [List.flatMap_cons, ih, sectionOf, isLawsType]
      by_cases h : s.1 = py"II. Törvények"
      · simp [h]
      · simp [h]
  have : ∀ pages' : List PageWithHeader, (pages'.map (·.lines)).filter (· ≠ []) = (line :: lines) :: pages →
      ∃ sections, Sections (· ∈ sectionTitles) ((line :: lines) :: pages) sections ∧
        sectionLoop k.publicationDate none [] pages' = ⟨lawsSections k.publicationDate sections, none⟩ := by
    intro pages'
    induction pages' with
    | nil =>
      intro h
      cases h
    | cons page rest ih =>
      intro h
      cases hl : page.lines with
      | nil =>
        rw [List.map_cons, hl, List.filter_cons_of_neg (by simp)] at h
        rw [sectionLoop_empty hl]
        exact ih h
      | cons line' lines' =>
        rw [List.map_cons, hl, List.filter_cons_of_pos (by simp)] at h
        injection h with h1 h2
        injection h1 with h3 h4
        subst h3 h4
        obtain ⟨others, later, sections, g1, g2, g3, g4, g5⟩ := sectionLoop_some k.publicationDate rest line'.content
          (lines' ++ [emptyLine]) ht
        rw [g1] at h2
        subst h2
        refine ⟨_, Sections.first ht rfl g2 g3 g4, ?_⟩
        rw [sectionLoop]
        simp only [hl]
        rw [if_pos (show line'.content ∈ sectionTypes from ht), if_neg (by simp)]
        simp only [g5]
        simp [lawsSections, sectionLines]
  obtain ⟨sections, h1, h2⟩ := this k.pages hp
  exact ⟨sections, h1, by rw [sectionExtractor, h2, hlaws]⟩

/-- C51. Otherwise nothing is extracted, and it is an error. -/
theorem sections_fail {k : KozlonyPages}
    (h : ∀ line lines pages, (k.pages.map (·.lines)).filter (· ≠ []) = (line :: lines) :: pages → line.content ∉ sectionTitles) :
    ∃ e, sectionExtractor k = ⟨[], some e⟩ ∧
      (e = .assertionError ↔ ∀ p ∈ k.pages, p.lines = []) := by
  unfold sectionExtractor
  generalize k.pages = pages at h
  induction pages with
  | nil => exact ⟨.assertionError, rfl, by simp⟩
  | cons page rest ih =>
    cases hl : page.lines with
    | nil =>
      rw [sectionLoop_empty hl]
      obtain ⟨e, h1, h2⟩ := ih fun line lines pages hp => h line lines pages
        (by rw [List.map_cons, hl, List.filter_cons_of_neg (by simp)]; exact hp)
      exact ⟨e, h1, by rw [h2]; simp [hl]⟩
    | cons line lines =>
      have := h line lines _ (by rw [List.map_cons, hl, List.filter_cons_of_pos (by simp)])
      refine ⟨.valueError, ?_, by simp [hl]⟩
      rw [sectionLoop]
      simp only [hl]
      rw [if_neg (show line.content ∉ sectionTypes from this)]

example : sectionExtractor ⟨⟨2011, 6, 28⟩, [⟨[], [textLine (py"Tartalomjegyzék"), textLine (py"x")]⟩, ⟨[], []⟩,
      ⟨[], [textLine (py"II. Törvények"), textLine (py"a")]⟩, ⟨[], [textLine (py"b")]⟩,
      ⟨[], [textLine (py"IX. Határozatok Tára"), textLine (py"c")]⟩]⟩ =
    ⟨[⟨⟨2011, 6, 28⟩, [textLine (py"a"), emptyLine, textLine (py"b"), emptyLine]⟩], none⟩ := by rfl

end Verif.Props
