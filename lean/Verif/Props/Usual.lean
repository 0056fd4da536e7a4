import Verif.Proofs.Usual
import Verif.Props.Parser

/-! # Acts written in the usual way are parsed as they are written (C81) -/

set_option maxRecDepth 100000

namespace Verif.Props
open Spec

/-- C81. An act whose body is written in the usual way, with every element in its place, is parsed, and the result has exactly the preamble
and the elements that are written there. -/
theorem act_as_written {lines : List Line} {preamble : Str} {ns : List Node} (h : BodyWritten lines preamble ns) (hf : ∀ l ∈ lines, Fine l)
    (identifier subject : Str) (date : Date) :
    parseAct identifier date subject lines = .ok ⟨identifier, date, subject, preamble, ns⟩ := act_parsed h hf identifier subject date

/-- C81. The same for a single article, in an act or in an amendment. -/
theorem article_as_written {inAct : Bool} {lines : List Line} {n : Node} (h : ArticleWritten inAct lines n) (hf : ∀ l ∈ lines, Fine l) :
    parseArticle lines inAct = .ok n := article_parsed h hf

/-- C81. What is written decides what the act is: lines cannot be read in two ways. -/
theorem written_once {lines : List Line} {p q : Str} {ns ms : List Node} (h : BodyWritten lines p ns) (h' : BodyWritten lines q ms)
    (hf : ∀ l ∈ lines, Fine l) : p = q ∧ ns = ms := by
  have e := (act_parsed h hf [] [] ⟨1, 1, 1⟩).symm.trans (act_parsed h' hf [] [] ⟨1, 1, 1⟩)
  injection e with e
  injection e with _ _ _ e1 e2
  exact ⟨e1, e2⟩

/-! ## An act that is written in this way -/

theorem fine_all {lines : List Line} (h : lines.all (fun l => l.parts.all fun p => p.content.length == 1) = true) : ∀ l ∈ lines, Fine l := by
  intro l hl p hp
  have := List.all_eq_true.mp (List.all_eq_true.mp h l hl) p hp
  simpa using this

theorem no_element {inAct : Bool} {st : BodyState} {previous line : Line}
    (h : ((matchArticle line.content).isNone && !line.bold &&
      [StructKind.book, .part, .title, .chapter].all fun k => (k.extractIdentifier line).toOption == some none) = true) :
    NoElement inAct st previous line := by
  simp only [Bool.and_eq_true, Option.isNone_iff_eq_none, Bool.not_eq_true', List.all_cons, List.all_nil, Bool.and_true, beq_iff_eq] at h
  obtain ⟨⟨h1, h2⟩, h3, h4, h5, h6⟩ := h
  have no : ∀ {k : StructKind}, (k.extractIdentifier line).toOption = some none → ∀ j, ¬ StructHeading k line.content j := by
    intro k hk j hj
    rw [structHeading_iff.2 hj] at hk
    cases hk
  refine ⟨fun j hj => ?_, fun k j hk => ?_, by rw [h2]; intro h; cases h⟩
  · rw [matchArticle_iff.2 hj.1] at h1
    cases h1
  · cases k with
    | book => exact no h3 j
    | part => exact no h4 j
    | title => exact no h5 j
    | chapter => exact no h6 j
    | subtitle => exact absurd rfl hk

theorem no_element_empty {inAct : Bool} (st : BodyState) (previous : Line) : NoElement inAct st previous emptyLine := no_element (by decide +kernel)

theorem no_list {k : SaeKind} {id : Option Str} {first : Line} {rest : List Line} (h : ∀ l ∈ rest, ¬ BeginsList k id l) :
    NoListAfterFirst k id (first :: rest) := by
  rintro before l after hb hne -
  cases before with
  | nil => exact absurd rfl hne
  | cons b before =>
    obtain ⟨-, rfl⟩ := List.cons.inj hb
    exact h l (by simp)

theorem no_quotes {ls : List Line} (h : ls.all (fun l => openQuotes [l] == 0) = true) : QuotesClosed ls := by
  have all : ∀ ms : List Line, (∀ l ∈ ms, openQuotes [l] = 0) → openQuotes ms = 0 := by
    intro ms
    induction ms with
    | nil => intro _; rfl
    | cons l ms ih =>
      intro hm
      rw [openQuotes_cons', ih fun l hl => hm l (by simp [hl]), hm l (by simp)]
      rfl
  have h' : ∀ l ∈ ls, openQuotes [l] = 0 := fun l hl => by simpa using List.all_eq_true.1 h l hl
  refine ⟨fun before after hb => ?_, all _ h'⟩
  rw [all before fun l hl => h' l (by rw [hb]; simp [hl])]
  omega

theorem alone {k : SaeKind} {p i : Str} {line : Line} : NotTheNext k p i line [] := by
  intro before l after h
  simp at h

/-- The quotation in the sample, without its quotation marks. -/
def sampleQuotation : List Line := [spread 15 (py"2. § Új szöveg,"), { spread 10 (py"a) vége") with marginRight := 20 }]

/-- What is written in the sample. -/
def sampleNodes : List Node :=
  [.structural ⟨.chapter, py"1", py"SZABÁLYOK", false⟩,
   .article (py"1") (some (py"Cím"))
    [.sae .paragraph { identifier := some (py"1"), intro := some (py"Hatályos"), wrapUp := some (py"ha kell.") }
      [.sae .alphabeticPoint { identifier := some (py"a"), text := some (py"most, vagy") } [],
       .sae .alphabeticPoint { identifier := some (py"b"), text := some (py"máskor,") } []],
     .sae .paragraph { identifier := some (py"2"), intro := some (py"Helyébe ez lép:") } [.quoted sampleQuotation]],
   .article (py"2") none [.sae .paragraph { identifier := none, text := some (py"Vége.") } []]]

theorem sample_points : ListWritten true (PointSays true) .alphabeticPoint [] none
    [spread 20 (py"a) most, vagy"), spread 20 (py"b) máskor,"), spread 10 (py"ha kell.")]
    [.sae .alphabeticPoint { identifier := some (py"a"), text := some (py"most, vagy") } [],
     .sae .alphabeticPoint { identifier := some (py"b"), text := some (py"máskor,") } []] (some (py"ha kell.")) := by
  refine .item (line := spread 20 (py"a) most, vagy")) (own := []) (i := py"a") rfl (by simp)
    ⟨⟨.inl ⟨'a', by decide, rfl⟩, py"most, vagy", rfl⟩, spread 35 (py"most, vagy"), by unfold CutLine; decide +kernel,
      .text (no_quotes (by decide +kernel)) ⟨_, _, rfl, rfl⟩ (no_list (by simp))⟩ (no_quotes (by decide +kernel)) alone ?_
  refine .lastAndText (line := spread 20 (py"b) máskor,")) (own := []) (text := [spread 10 (py"ha kell.")]) (empty := []) (i := py"b") (by decide)
    ⟨0, .inl ⟨rfl, rfl⟩⟩ ?_
    ⟨⟨.inl ⟨'b', by decide, rfl⟩, py"máskor,", rfl⟩, spread 35 (py"máskor,"), by unfold CutLine; decide +kernel,
      .text (no_quotes (by decide +kernel)) ⟨_, _, rfl, rfl⟩ (no_list (by simp))⟩ (no_quotes (by decide +kernel)) (no_quotes (by decide +kernel)) ?_
    ⟨by simp, ?_⟩ (by simp) ?_ (by simp)
  · intro l hl
    cases hl
    decide +kernel
  · intro before l after hb _ _ j hj
    have : l = spread 10 (py"ha kell.") := by
      cases before with
      | nil => exact (List.cons.inj hb).1.symm
      | cons b before => simp at hb
    subst this
    have := alphabeticPoint_looks.header.2 hj
    rw [show alphabeticPointParser.header (spread 10 (py"ha kell.")).content = none by decide +kernel] at this
    cases this
  · intro l hl
    cases hl
    decide +kernel
  · intro l hl
    cases List.mem_singleton.1 hl
    rfl

theorem sample_quotation : QuotationsWritten [spread 10 (py"„2. § Új szöveg,"), spread 10 (py"a) vége”")] [.quoted sampleQuotation] := by
  refine .last (q := [spread 10 (py"„2. § Új szöveg,"), spread 10 (py"a) vége”")]) (empty := []) ?_ (by simp)
  refine .several (middle := []) ⟨'„', _, .inl rfl, rfl⟩ (by decide +kernel) (by decide +kernel) ?_ ?_ ?_ ?_
  · refine ⟨fun before after h => ?_, by decide +kernel⟩
    match before, h with
    | [], _ => decide
    | [a], h => obtain ⟨rfl, _⟩ := List.cons.inj h; decide +kernel
    | [a, b], h =>
      obtain ⟨rfl, h'⟩ := List.cons.inj h
      obtain ⟨rfl, _⟩ := List.cons.inj h'
      decide +kernel
  · intro before after h
    obtain ⟨rfl, rfl⟩ : before = [] ∧ after = [] := by simpa using h
    decide +kernel
  · unfold CutLine; decide +kernel
  · unfold CutLine; decide +kernel

theorem sample_paragraphs : ListWritten true (ParagraphSays true) .paragraph [] none
    [spread 10 (py"(1) Hatályos"), spread 20 (py"a) most, vagy"), spread 20 (py"b) máskor,"), spread 10 (py"ha kell."),
     spread 10 (py"(2) Helyébe ez lép:"), spread 10 (py"„2. § Új szöveg,"), spread 10 (py"a) vége”")]
    [.sae .paragraph { identifier := some (py"1"), intro := some (py"Hatályos"), wrapUp := some (py"ha kell.") }
      [.sae .alphabeticPoint { identifier := some (py"a"), text := some (py"most, vagy") } [],
       .sae .alphabeticPoint { identifier := some (py"b"), text := some (py"máskor,") } []],
     .sae .paragraph { identifier := some (py"2"), intro := some (py"Helyébe ez lép:") } [.quoted sampleQuotation]] none := by
  have hno : ∀ l : Line, paragraphParser.header l.content = none → ∀ j, ¬ ElementHeading .paragraph [] l.content j := by
    intro l hl j hj
    rw [paragraph_looks.header.2 hj] at hl
    cases hl
  refine .item (line := spread 10 (py"(1) Hatályos")) (own := [spread 20 (py"a) most, vagy"), spread 20 (py"b) máskor,"), spread 10 (py"ha kell.")])
    (i := py"1") rfl (by simp) ?_ (no_quotes (by decide +kernel)) ?_ ?_
  · refine ⟨⟨.inl ⟨by decide, by decide⟩, py"Hatályos", rfl⟩, spread 30 (py"Hatályos"), by unfold CutLine; decide +kernel, ?_⟩
    refine .list (intro := [spread 30 (py"Hatályos")]) (.letters _) (by decide) (no_quotes (by decide +kernel)) ⟨_, _, rfl, rfl, ?_⟩ (no_list (by simp))
      sample_points (by decide)
    intro hj
    have := alphabeticPoint_looks.header.2 hj
    rw [show alphabeticPointParser.header (spread 30 (py"Hatályos")).content = none by decide +kernel] at this
    cases this
  · intro before l after hb _ _ j hj
    have hl : l ∈ [spread 20 (py"a) most, vagy"), spread 20 (py"b) máskor,"), spread 10 (py"ha kell.")] := by rw [hb]; simp
    simp only [List.mem_cons, List.not_mem_nil, or_false] at hl
    rcases hl with rfl | rfl | rfl <;> exact absurd hj (hno _ (by decide +kernel) j)
  · refine .last (.inr rfl) ?_ ?_ (i := py"2") ?_ ?_ ?_
    · exact ⟨py"1", [], py"2", [], by decide, by decide, ⟨by decide, by decide⟩, ⟨by decide, by decide⟩, by decide, .inl ⟨rfl, by decide⟩⟩
    · intro l hl
      cases hl
      decide +kernel
    · refine ⟨⟨.inl ⟨by decide, by decide⟩, py"Helyébe ez lép:", rfl⟩, spread 30 (py"Helyébe ez lép:"), by unfold CutLine; decide +kernel, ?_⟩
      refine .quotations (intro := [spread 30 (py"Helyébe ez lép:")]) (ls := [spread 10 (py"„2. § Új szöveg,"), spread 10 (py"a) vége”")]) (text := [])
        rfl (no_quotes (by decide +kernel)) ⟨_, _, rfl, rfl, ?_⟩ (no_list (by simp)) sample_quotation (no_quotes rfl) (by simp)
      rintro ⟨c, rest, hc, hx⟩
      have : c = 'H' := (List.cons.inj hx).1.symm
      subst this
      revert hc
      decide
    · exact (no_quotes (ls := [spread 10 (py"(2) Helyébe ez lép:")]) (by decide +kernel)).append (quotations_loop sample_quotation
        (fine_all (by decide +kernel)) .start (.inl rfl) [] []).1
    · intro before l after hb _ _ j hj
      have hl : l ∈ [spread 10 (py"„2. § Új szöveg,"), spread 10 (py"a) vége”")] := by rw [hb]; simp
      simp only [List.mem_cons, List.not_mem_nil, or_false] at hl
      rcases hl with rfl | rfl <;> exact absurd hj (hno _ (by decide +kernel) j)

theorem sample_article : ArticleWritten true
    [spread 0 (py"1. § [Cím]"), emptyLine, spread 10 (py"(1) Hatályos"), spread 20 (py"a) most, vagy"), spread 20 (py"b) máskor,"),
     spread 10 (py"ha kell."), spread 10 (py"(2) Helyébe ez lép:"), spread 10 (py"„2. § Új szöveg,"), spread 10 (py"a) vége”")]
    (.article (py"1") (some (py"Cím"))
      [.sae .paragraph { identifier := some (py"1"), intro := some (py"Hatályos"), wrapUp := some (py"ha kell.") }
        [.sae .alphabeticPoint { identifier := some (py"a"), text := some (py"most, vagy") } [],
         .sae .alphabeticPoint { identifier := some (py"b"), text := some (py"máskor,") } []],
       .sae .paragraph { identifier := some (py"2"), intro := some (py"Helyébe ez lép:") } [.quoted sampleQuotation]]) :=
  .article (first' := spread 25 (py"[Cím]")) (gap := py" ") (text := py"[Cím]") (.inl (.inl ⟨by decide, by decide⟩)) (.inr rfl) rfl (by decide)
    (by unfold CutLine; decide +kernel) (.line (t := py"Cím") rfl) (.inr ⟨emptyLine, rfl, rfl⟩) (by intro l hl; cases hl; rfl) (.list sample_paragraphs)

theorem sample_last_article : ArticleWritten true [spread 0 (py"2. § Vége.")]
    (.article (py"2") none [.sae .paragraph { identifier := none, text := some (py"Vége.") } []]) := by
  refine .article (first' := spread 25 (py"Vége.")) (gap := py" ") (text := py"Vége.") (.inl (.inl ⟨by decide, by decide⟩)) (.inr rfl) rfl (by decide)
    (by unfold CutLine; decide +kernel) (.none ⟨'V', py"ége.", rfl, by decide⟩) (.inl rfl) (by intro l hl; cases hl; rfl) (.one ?_ ?_)
  · intro j hj
    have := paragraph_looks.header.2 hj
    rw [show paragraphParser.header (spread 25 (py"Vége.")).content = none by decide +kernel] at this
    cases this
  · exact .text (no_quotes (by decide +kernel)) ⟨_, _, rfl, rfl⟩ (no_list (by simp))

/-- The lines of the sample are written in the usual way. -/
theorem sample_written : BodyWritten sampleLines (py"Az Országgyűlés ezt alkotja:") sampleNodes := by
  have hchapter : ∀ st previous,
      BeginsElement true st previous (spread 100 (py"I. FEJEZET")) (.structural .chapter (some (py"1"))) := by
    intro st previous
    refine ⟨⟨structHeading_iff.1 (by decide +kernel), fun _ => .inl rfl⟩, ?_⟩
    intro k i he
    cases he
    refine ⟨fun j hj => ?_, fun k' hk j hj => ?_⟩
    · have := matchArticle_iff.2 hj.1
      rw [show matchArticle (spread 100 (py"I. FEJEZET")).content = none by decide +kernel] at this
      cases this
    · have := structHeading_iff.2 hj
      cases k' with
      | chapter | subtitle => exact absurd hk (by decide)
      | book => rw [show StructKind.extractIdentifier .book (spread 100 (py"I. FEJEZET")) = .ok none by decide +kernel] at this; cases this
      | part => rw [show StructKind.extractIdentifier .part (spread 100 (py"I. FEJEZET")) = .ok none by decide +kernel] at this; cases this
      | title => rw [show StructKind.extractIdentifier .title (spread 100 (py"I. FEJEZET")) = .ok none by decide +kernel] at this; cases this
  have harticle : ∀ {st : BodyState} {previous line : Line} {i : Str}, matchArticle line.content = some i →
      (st.indent = none ∨ st.indent = some 0) → line.indent = 0 → BeginsElement true st previous line (.article i) := by
    intro st previous line i hm hst hi
    refine ⟨⟨matchArticle_iff.1 hm, fun x hx => ?_⟩, fun k i h => by cases h⟩
    rcases hst with h | h
    · rw [h] at hx; cases hx
    · rw [h] at hx
      cases hx
      rw [hi]
      decide +kernel
  refine .act (pre := [spread 0 (py"Az Országgyűlés ezt alkotja:"), emptyLine])
    (.line (no_element (by decide +kernel)) (.line (no_element_empty _ _) (.done _))) (hchapter _ _) ?_
  refine .element (more := [spread 100 (py"SZABÁLYOK"), emptyLine]) (hchapter _ _) (.header (by decide) (structHeading_iff.1 (by decide +kernel))
    (by decide)) (no_quotes (by decide +kernel))
    (.outside (by decide +kernel) (no_element (by decide +kernel)) (.outside (by decide +kernel) (no_element_empty _ _) (.done _ _))) ?_
  refine .element (o := .article (py"1")) (more := [emptyLine, spread 10 (py"(1) Hatályos"), spread 20 (py"a) most, vagy"), spread 20 (py"b) máskor,"),
     spread 10 (py"ha kell."), spread 10 (py"(2) Helyébe ez lép:"), spread 10 (py"„2. § Új szöveg,"), spread 10 (py"a) vége”")])
    (harticle (by decide +kernel) (.inl rfl) rfl) sample_article ?_
    (.outside (by decide +kernel) (no_element_empty _ _) <| .outside (by decide +kernel) (no_element (by decide +kernel)) <|
      .outside (by decide +kernel) (no_element (by decide +kernel)) <| .outside (by decide +kernel) (no_element (by decide +kernel)) <|
      .outside (by decide +kernel) (no_element (by decide +kernel)) <| .outside (by decide +kernel) (no_element (by decide +kernel)) <|
      .outside (by decide +kernel) (no_element (by decide +kernel)) <| .inside (by decide +kernel) <| .done _ _) ?_
  · exact (no_quotes (ls := [spread 0 (py"1. § [Cím]"), emptyLine, spread 10 (py"(1) Hatályos"), spread 20 (py"a) most, vagy"),
      spread 20 (py"b) máskor,"), spread 10 (py"ha kell."), spread 10 (py"(2) Helyébe ez lép:")]) (by decide +kernel)).append
      (quotations_loop sample_quotation (fine_all (by decide +kernel)) .start (.inl rfl) [] []).1
  exact .element (o := .article (py"2")) (more := []) (harticle (by decide +kernel) (.inr rfl) rfl) sample_last_article
    (no_quotes (by decide +kernel)) (.done _ _) (.done _ _)

example : parseSample sampleLines = .ok ⟨py"2020. évi I. törvény", ⟨2020, 1, 1⟩, py"Tárgy", py"Az Országgyűlés ezt alkotja:", sampleNodes⟩ :=
  act_as_written sample_written (fine_all (by decide +kernel)) _ _ _

end Verif.Props
