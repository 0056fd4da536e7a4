import Verif.Proofs.Style
import Verif.Model.Cli
import Verif.Props.Html
import Verif.Props.Printout

/-! # How the page of an act is laid out (C84), and its style sheet (C85) -/

namespace Verif.Props
open Spec

variable {s : Sources} {c : ExtractedClass}

/-! ## C84: the page -/

/-- C84. The page of an act is a box with its identifier and subject, its preamble, and the cells of its children, one after the other: the
numbers, texts, introductions and wrap-ups of all that is in it, each with the class of its kind, and with links where the references are.
What amendments put into the law is in boxes between quotation marks, and quoted lines keep their indentation. -/
theorem page_laid_out {a : Act} {page : Elem} (h : htmlBody a false = .ok page) : ShownBy (pageCell a) page := by
  unfold htmlBody at h
  obtain ⟨es, he, h⟩ := resBind_ok h
  simp only [Bool.false_eq_true, if_false, Except.ok.injEq] at h
  subst h
  refine .box (.cons .header (shownByAll_append ?_ (htmlNodes_shown _ he)))
  unfold textCell
  by_cases hp : a.preamble = []
  · rw [if_pos (by simpa using hp), if_pos (by simpa using hp)]
    exact .nil
  · rw [if_neg (by simpa using hp), if_neg (by simpa using hp)]
    have := shownBy_div (py"preamble") a.preamble
    exact .cons (by simpa using this) .nil

/-- C84. The indented page is the same, except for spaces where there is nothing else. -/
theorem indented_page {a : Act} {page : Elem} (h : htmlBody a true = .ok page) : ∃ plain, htmlBody a false = .ok plain ∧ SameElem plain page := by
  obtain ⟨plain, hp, rfl⟩ := htmlBody_indent h
  exact ⟨plain, hp, indentElem_same 0 plain⟩

/-- C84. The document has the identifier of the act for its title, says how it is encoded, names the style sheet, and has the page for its body. -/
theorem document_laid_out {a : Act} {document : Elem} (h : htmlDocument a = .ok document) :
    ∃ plain page, ShownBy (pageCell a) plain ∧ SameElem plain page ∧
      document = .mk (py"html") [] none
        [.mk (py"head") [] none
          [.mk (py"title") [] (some a.identifier) [] none,
           .mk (py"meta") [(py"http-equiv", py"Content-Type"), (py"content", py"text/html; charset=utf-8")] none [] none,
           .mk (py"link") [(py"rel", py"stylesheet"), (py"href", py"style.css")] none [] none] none,
         .mk (py"body") [] (some (py"\n")) [page] none] none := by
  unfold htmlDocument at h
  obtain ⟨page, hp, h⟩ := resBind_ok h
  cases h
  obtain ⟨plain, h1, h2⟩ := indented_page hp
  exact ⟨plain, page, page_laid_out h1, h2, rfl⟩

example : ∃ page, htmlBody samplePage false = .ok page ∧ ShownBy (pageCell samplePage) page := by
  have h : (htmlBody samplePage false).toOption.isSome = true := by decide +kernel
  cases hp : htmlBody samplePage false with
  | error e => rw [hp] at h; cases h
  | ok page => exact ⟨page, rfl, page_laid_out hp⟩

mutual
/-- The classes of cells with what they show. -/
def outline : Cell → List (Str × Str)
  | .text cls shown _ => [(cls, shown)]
  | .header cls number title => [(cls, number ++ (py"|") ++ title)]
  | .box cls cells => (cls, []) :: outlines cells
  | .quotation cls lines => [(cls, lines.flatMap Line.content)]

def outlines : List Cell → List (Str × Str)
  | [] => []
  | c :: cs => outline c ++ outlines cs
end

example : outline (pageCell samplePage) =
    [(py"act_container", []), (py"act_title", py"2020. évi I. törvény|samples"), (py"preamble", py"We say:"),
     (py"se_chapter", py"I. FEJEZET|General"), (py"article_id", py"1. §"), (py"paragraph_id", py"(1) "), (py"paragraph_text", py"see (2)"),
     (py"paragraph_id", py"(2) "), (py"paragraph_text", py"in"), (py"alphabeticpoint_id", py"a) "), (py"alphabeticpoint_text", py"first"),
     (py"alphabeticpoint_id", py"b) "), (py"alphabeticpoint_text", py"second"), (py"alphabeticsubpoint_id", py"ba) "),
     (py"alphabeticsubpoint_text", py"x"), (py"space_after_article", []), (py"article_id", py"1/A. §"), (py"paragraph_id", py"(1) "),
     (py"paragraph_text", py"new"), (py"blockamendment_quote", py"„"), (py"blockamendment_container", []), (py"article_id", py"1. §"),
     (py"paragraph_id", []), (py"paragraph_text", py"t"), (py"space_after_article", []), (py"blockamendment_quote", py"”"),
     (py"space_after_article", [])] := by decide +kernel

/-! ## C85: the style sheet -/

theorem placed_ruled : ∀ x ∈ columnClasses, ∃ rule ∈ styleRules, '.' :: x.1 ∈ rule.1 := by decide +kernel

theorem columnClasses_grid : ∀ x ∈ columnClasses, py"inline-grid" ∈ valuesFor x.1 (py"display") → x.1 = py"blockamendment_container" := by
  decide +kernel

theorem page_wellStyled {a : Act} {indent : Bool} {page : Elem} (hb : ∀ n ∈ a.children, Built n) (ha : ∀ n ∈ a.children, InAct n)
    (h : htmlBody a indent = .ok page) : WellStyled page := by
  cases indent with
  | false => exact wellStyled_of (page_laid_out h) (page_styled hb ha)
  | true =>
    obtain ⟨plain, h1, h2⟩ := indented_page h
    exact wellStyled_same h2 (wellStyled_of (page_laid_out h1) (page_styled hb ha))

/-- C85. The style sheet has a rule for every class that is in the page of an act, if its children are articles and structural elements and
everything in it was made through the constructors. -/
theorem classes_have_rules {a : Act} {indent : Bool} {page : Elem} (hb : ∀ n ∈ a.children, Built n) (ha : ∀ n ∈ a.children, InAct n)
    (h : htmlBody a indent = .ok page) {e : Elem} (he : PartOf e page) {cls : Str} (hc : classOf e = some cls) :
    ∃ rule ∈ styleRules, '.' :: cls ∈ rule.1 := by
  rcases (page_wellStyled hb ha h e he).1 cls hc with rfl | ⟨n, hn⟩
  · decide +kernel
  · exact placed_ruled _ hn

/-- C85. Everything that is directly in a grid of the page begins in one of its five columns. -/
theorem placed_in_grids {a : Act} {indent : Bool} {page : Elem} (hb : ∀ n ∈ a.children, Built n) (ha : ∀ n ∈ a.children, InAct n)
    (h : htmlBody a indent = .ok page) {e : Elem} (he : PartOf e page) {cls : Str} (hc : classOf e = some cls) (hg : IsGrid cls) :
    ∀ f ∈ partsOf e, ∃ c column, classOf f = some c ∧ BeginsIn c column ∧ 1 ≤ column ∧ column ≤ 5 := by
  have hw := page_wellStyled hb ha h e he
  have hcls : cls = py"act_container" ∨ cls = py"blockamendment_container" := by
    rcases hw.1 cls hc with h | ⟨n, hn⟩
    · exact .inl h
    · exact .inr (columnClasses_grid _ hn (sets_iff.1 hg.1))
  intro f hf
  obtain ⟨c, h1, n, hn⟩ := hw.2 cls hc hcls f hf
  exact ⟨c, n, h1, begins_in hn, columnClasses_range _ hn⟩

example : (∀ n ∈ samplePage.children, Built n) ∧ (∀ n ∈ samplePage.children, InAct n) ∧ ∃ page, htmlBody samplePage true = .ok page ∧
    WellStyled page := by
  have hb : ∀ n ∈ samplePage.children, Built n := built_of_testL (by decide +kernel)
  have ha : ∀ n ∈ samplePage.children, InAct n := by
    intro n hn
    simp only [samplePage, List.mem_cons, List.not_mem_nil, or_false] at hn
    rcases hn with rfl | rfl | rfl
    · exact .inr ⟨_, rfl⟩
    · exact .inl rfl
    · exact .inl rfl
  have h : (htmlBody samplePage true).toOption.isSome = true := by decide +kernel
  cases hp : htmlBody samplePage true with
  | error e => rw [hp] at h; cases h
  | ok page => exact ⟨hb, ha, page, rfl, page_wellStyled hb ha hp⟩

/-- C85. The page itself and the boxes of amendments are grids. -/
theorem containers_are_grids : IsGrid (py"act_container") ∧ IsGrid (py"blockamendment_container") := by
  unfold IsGrid
  simp only [sets_iff]
  decide +kernel

/-- C85. So it is for every act that is made, at each step. -/
theorem produced_styled {r : LawRawText} {o : Extracted} {a : Act} (h : Produces s c r o)
    (ho : o = .structureOnly a ∨ o = .blockOnly a ∨ o = .act a) {indent : Bool} {page : Elem} (hp : htmlBody a indent = .ok page)
    {e : Elem} (he : PartOf e page) {cls : Str} (hc : classOf e = some cls) :
    (∃ rule ∈ styleRules, '.' :: cls ∈ rule.1) ∧
    (IsGrid cls → ∀ f ∈ partsOf e, ∃ c column, classOf f = some c ∧ BeginsIn c column ∧ 1 ≤ column ∧ column ≤ 5) := by
  have hw := (produced_well_made h ho).2
  exact ⟨classes_have_rules (fun n hn => (hw n hn).2.1) (fun n hn => (hw n hn).1) hp he hc,
    placed_in_grids (fun n hn => (hw n hn).2.1) (fun n hn => (hw n hn).1) hp he hc⟩

/-- C85. The number of an article begins in the first column, its title and the numbers of its paragraphs in the second. The text of a paragraph
or a part of one begins in the column after its number, and so do the numbers of its parts, the quoted text and the amendment in it. -/
theorem columns_nested : BeginsIn (py"article_id") 1 ∧ BeginsIn (py"article_title") 2 ∧ BeginsIn (py"paragraph_id") 2 ∧
    ∀ k, k ≠ .blockAmendmentContainer → ∃ column, BeginsIn (kindName k ++ py"_id") column ∧ BeginsIn (kindName k ++ py"_text") (column + 1) ∧
      (∀ j, MayContain k (.sae j) → j ≠ .blockAmendmentContainer → BeginsIn (kindName j ++ py"_id") (column + 1)) ∧
      (MayContain k .quoted → BeginsIn ((py"quote_in_") ++ kindName k) (column + 1)) ∧
      (MayContain k (.sae .blockAmendmentContainer) → BeginsIn (py"blockamendment_quote") (column + 1) ∧
        BeginsIn (py"blockamendment_text") (column + 1) ∧ BeginsIn (py"blockamendment_container") (column + 1)) := by
  refine ⟨begins_in (by decide), begins_in (by decide), begins_in (by decide), fun k hk => ?_⟩
  cases k with
  | blockAmendmentContainer => exact absurd rfl hk
  | paragraph =>
    refine ⟨2, begins_in (by decide), begins_in (by decide), fun j hj hn => ?_, fun _ => begins_in (by decide), fun _ =>
      ⟨begins_in (by decide), begins_in (by decide), begins_in (by decide)⟩⟩
    cases hj <;> first | exact absurd rfl hn | exact begins_in (by decide)
  | numericPoint =>
    refine ⟨3, begins_in (by decide), begins_in (by decide), fun j hj hn => ?_, fun h => (by cases h), fun h => (by cases h)⟩
    cases hj <;> exact begins_in (by decide)
  | alphabeticPoint =>
    refine ⟨3, begins_in (by decide), begins_in (by decide), fun j hj hn => ?_, fun h => (by cases h), fun h => (by cases h)⟩
    cases hj <;> exact begins_in (by decide)
  | numericSubpoint =>
    exact ⟨4, begins_in (by decide), begins_in (by decide), fun j hj => (by cases hj), fun h => (by cases h), fun h => (by cases h)⟩
  | alphabeticSubpoint =>
    exact ⟨4, begins_in (by decide), begins_in (by decide), fun j hj => (by cases hj), fun h => (by cases h), fun h => (by cases h)⟩

end Verif.Props
