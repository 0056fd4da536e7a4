import Verif.Proofs.Showable
import Verif.Props.Recorded
import Verif.Props.Referable

/-! # Which acts can be shown (C80) -/

namespace Verif.Props
open Spec

variable {s : Sources} {c : ExtractedClass}

/-- C80. A page can be made of an act exactly if every element that has no children has a text, every amendment has children, every quoted
block has a line that is not empty, no two references recorded on an element have a character in common, and the number of every book,
part, title and chapter can be written. -/
theorem page_made_iff {a : Act} (hb : ∀ n ∈ a.children, Built n) (indent : Bool) : (∃ page, htmlBody a indent = .ok page) ↔
    ∀ n ∈ a.children, ∀ m, Inside m n → HasContent m ∧ LinksApart m ∧ HeaderWritable m := by
  unfold htmlBody
  rw [resBind_iff]
  simp only [Except.ok.injEq, exists_eq', and_true]
  exact htmlNodes_iff (fun n hn => htmlNode_iff n (hb n hn)) _ _

/-- C80. The text of an act can be written exactly if every element that has no children has a text, every amendment has children, every
quoted block has a line that is not empty, and the number of every book, part, title and chapter can be written; if lines are wide enough for
the numbers, and wrapping does not fail. -/
theorem text_made_iff {wrap : Wrap} (hw : WrapsAll wrap) {a : Act} (hb : ∀ n ∈ a.children, Built n) {indent : Str} {width : Int}
    (hwidth : width = 0 ∨ ((indent.length + farthest a.children : Nat) : Int) < width) :
    (writeTxt wrap (.act a) indent width).stop = none ↔
      ∀ n ∈ a.children, ∀ m, Inside m n → HasContent m ∧ HeaderWritable m := by
  have h0 : width = 0 ∨ (([] : Str).length : Int) < width := by
    simp only [List.length_nil]
    omega
  simp only [writeTxt, writeAct]
  rw [andThen_none, andThen_none, writeActChildren_iff hw hb indent hwidth]
  simp only [printTo, wrapped_none hw a.preamble [] h0, true_and]
  exact .rfl

/-! ## Acts that are made -/

/-- C80. The numbers of the books, parts, titles and chapters of acts that are made can always be written, also in amendments. -/
theorem produced_headed {r : LawRawText} {o : Extracted} {a : Act} (h : Produces s c r o)
    (ho : o = .structureOnly a ∨ o = .blockOnly a ∨ o = .act a) : ∀ n ∈ a.children, ∀ m, Inside m n → HeaderWritable m := by
  cases c with
  | raw => obtain rfl := h; simp at ho
  | structureOnly =>
    obtain ⟨body, a', h1, h2, rfl⟩ := h
    simp only [Extracted.structureOnly.injEq, reduceCtorEq, or_false] at ho
    exact ho ▸ fun n hn => (parseAct_has closed_headed h2 n hn).1
  | blockOnly =>
    obtain ⟨body, a', b, h1, h2, h3, rfl⟩ := h
    simp only [Extracted.blockOnly.injEq, reduceCtorEq, or_false, false_or] at ho
    exact ho ▸ parseBlockAmendments_headed h3 fun n hn => (parseAct_has closed_headed h2 n hn).1
  | act =>
    obtain ⟨body, a', b, c', h1, h2, h3, h4, rfl⟩ := h
    simp only [Extracted.act.injEq, reduceCtorEq, false_or] at ho
    exact ho ▸ addSemantics_headed h4 (parseBlockAmendments_headed h3 fun n hn => (parseAct_has closed_headed h2 n hn).1)
  | _ => cases h

/-- C80. So the text of an act that is made can be written exactly if there is something to show everywhere. -/
theorem produced_text_iff {wrap : Wrap} (hw : WrapsAll wrap) {r : LawRawText} {o : Extracted} {a : Act} (h : Produces s c r o)
    (ho : o = .structureOnly a ∨ o = .blockOnly a ∨ o = .act a) {indent : Str} {width : Int}
    (hwidth : width = 0 ∨ ((indent.length + farthest a.children : Nat) : Int) < width) :
    (writeTxt wrap (.act a) indent width).stop = none ↔ ∀ n ∈ a.children, ∀ m, Inside m n → HasContent m := by
  rw [text_made_iff hw (fun n hn => ((produced_well_made h ho).2 n hn).2.1) hwidth]
  exact ⟨fun hx n hn m hm => (hx n hn m hm).1, fun hx n hn m hm => ⟨hx n hn m hm, produced_headed h ho n hn m hm⟩⟩

/-- C80. A page can be made of an act that is made exactly if there is something to show everywhere and no two references recorded on an
element have a character in common. -/
theorem produced_page_iff {r : LawRawText} {o : Extracted} {a : Act} (h : Produces s c r o)
    (ho : o = .structureOnly a ∨ o = .blockOnly a ∨ o = .act a) (indent : Bool) :
    (∃ page, htmlBody a indent = .ok page) ↔ ∀ n ∈ a.children, ∀ m, Inside m n → HasContent m ∧ LinksApart m := by
  rw [page_made_iff (fun n hn => ((produced_well_made h ho).2 n hn).2.1) indent]
  exact ⟨fun hx n hn m hm => ⟨(hx n hn m hm).1, (hx n hn m hm).2.1⟩,
    fun hx n hn m hm => ⟨(hx n hn m hm).1, (hx n hn m hm).2, produced_headed h ho n hn m hm⟩⟩

/-- C80. Before the last step the references are no obstacle. -/
theorem produced_page_early {r : LawRawText} {o : Extracted} {a : Act} (h : Produces s c r o)
    (ho : o = .structureOnly a ∨ o = .blockOnly a) (indent : Bool) :
    (∃ page, htmlBody a indent = .ok page) ↔ ∀ n ∈ a.children, ∀ m, Inside m n → HasContent m := by
  rw [produced_page_iff h (by rcases ho with h | h <;> simp [h]) indent]
  refine ⟨fun hx n hn m hm => (hx n hn m hm).1, fun hx n hn m hm => ⟨hx n hn m hm, ?_⟩⟩
  cases m with
  | sae k d cs =>
    intro _ _
    rw [(produced_unanalysed h ho n hn k d cs hm).2.1]
    exact ⟨nofun, .nil⟩
  | _ => trivial

/-- The references that are recorded are also those said on the element as it is afterwards. -/
theorem references_said {analyze : Analyzer} {a a' : Act} (hb : ∀ c ∈ a.children, Built c)
    (hu : ∀ e ∈ actElements a, e.data.semantic = none) (h : addSemantics analyze a = .ok a') :
    Both (fun _ e' => ∃ r stop refs, Said analyze e' r stop ∧ e'.data.references = some refs ∧
      (refs.map fun x => (x.startPos, x.endPos)).Perm
        ((r.references.filter fun x => (e'.before.length : Int) < x.endPos ∧ x.endPos ≤ (stop : Int)).map fun x =>
          (max (x.startPos - e'.before.length) 0, x.endPos - e'.before.length))) (actElements a) (actElements a') := by
  refine ((addSemantics_ok h).2.2.1 hb).imp fun e hm e' _ he => ?_
  rcases he with ⟨rfl, hs⟩ | ⟨defs, x, stop, hsaid, refs, semantic, recorded, rfl, -, hr, hp, -⟩
  · rw [hu _ hm] at hs; cases hs
  · refine ⟨x, stop, refs, ?_, rfl, (hp.map _).trans (.of_eq ?_)⟩
    · cases hsaid with
      | text own hw hsaid => exact .text own hw hsaid
      | intro own own' hw hsaid => exact .intro own own' hw hsaid
      | bare own own' => exact .bare own own'
    · clear hp
      generalize (x.references.filter fun x => (e.before.length : Int) < x.endPos ∧ x.endPos ≤ (stop : Int)) = l at hr
      induction hr with
      | nil => rfl
      | cons h _ ih => rw [List.map_cons, List.map_cons, ih, h.1, h.2.1]

/-- C80. After it they are none if no two references that the analysis of a sentence of the act reports have a character in common. -/
theorem produced_page_late {r : LawRawText} {a : Act} (h : Produces s .act r (.act a))
    (hs : ∀ e ∈ actElements a, ∀ x stop, Said s.analyze e x stop → Spec.Apart x.references) (indent : Bool) :
    (∃ page, htmlBody a indent = .ok page) ↔ ∀ n ∈ a.children, ∀ m, Inside m n → HasContent m := by
  rw [produced_page_iff h (by simp) indent]
  refine ⟨fun hx n hn m hm => (hx n hn m hm).1, fun hx n hn m hm => ⟨hx n hn m hm, ?_⟩⟩
  have hw := (produced_well_made h (.inr (.inr rfl))).2
  obtain ⟨body, a', b, c', h1, h2, h3, h4, ho⟩ := h
  cases ho
  have hp : Produces s .blockOnly r (.blockOnly b) := ⟨body, a', b, h1, h2, h3, rfl⟩
  have hb : ∀ n ∈ b.children, Built n := fun n hn => ((produced_well_made hp (.inr (.inl rfl))).2 n hn).2.1
  have hu := produced_unanalysed hp (.inr rfl)
  have he : ∀ e ∈ actElements b, e.data.semantic = none := by
    intro e he
    obtain ⟨n, hn, he⟩ := List.mem_flatMap.1 he
    obtain ⟨k, cs, hi⟩ := articleElements_inside he
    exact (hu n hn k e.data cs hi).2.2
  have cut := references_said hb he h4
  cases m with
  | sae k d cs =>
    intro hk _
    have hin : (∃ e ∈ actElements a, e.data = d) ∨
        ∃ d' cs', Inside (.sae .blockAmendmentContainer d' cs') n ∧ Inside (.sae k d cs) (.sae .blockAmendmentContainer d' cs') := by
      cases n with
      | article i t ps =>
        cases hm with
        | deeper hc hi =>
          rename_i p
          have hpar := (built_article (hw _ hn).2.1).2.1 p hc
          have hna : p.isArticle = false := by cases p <;> first | rfl | cases hpar
          rcases inside_cases p [] [] ((built_article (hw _ hn).2.1).1 p hc) hna hi with ⟨x, hx, he⟩ | ⟨d', cs', h1, h2⟩
          · exact .inl ⟨x, List.mem_flatMap.2 ⟨_, hn, mem_elementsL hc hx⟩, he⟩
          · exact .inr ⟨d', cs', .deeper hc h1, h2⟩
      | sae => exact absurd (inAct_plain (hw _ hn).1) (by simp [Node.isSae])
      | quoted => cases hm with | deeper hc => cases hc
      | structural => cases hm with | deeper hc => cases hc
    rcases hin with ⟨e, he, rfl⟩ | ⟨d', cs', h5, h6⟩
    · obtain ⟨e0, -, x, stop, refs, hsaid, hr, hperm⟩ := cut.mem_right he
      rw [hr]
      refine apart_cut (fun y hy => ?_) hperm (hs e he x stop hsaid)
      simp only [decide_eq_true_eq] at hy
      exact hy.1
    · obtain ⟨n', hn', hi'⟩ := addSemantics_untouched h4 (m := .sae .blockAmendmentContainer d' cs')
        ⟨rfl, by rintro _ _ _ ⟨⟩; rfl⟩ hn h5
      have : Inside (.sae k d cs) n' := inside_trans h6 hi'
      rw [(hu n' hn' k d cs this).2.1]
      exact ⟨nofun, .nil⟩
  | _ => trivial

/-! ## Samples -/

/-- The text of an act with the given lines. -/
def rawOf (lines : List Line) : LawRawText :=
  { identifier := py"2020. évi I. törvény", publicationDate := ⟨2020, 1, 1⟩, subject := py"a mintákról", body := lines }

/-- What the three steps make of it with the parser of the grammar. -/
def madeOf (lines : List Line) : Option Act :=
  (do
    let a ← parseAct (py"2020. évi I. törvény") ⟨2020, 1, 1⟩ (py"a mintákról") lines
    let b ← parseBlockAmendments analyze a
    addSemantics analyze b).toOption

/-- Nothing is read or fixed. -/
def grammarOnly : Sources := { read := fun _ => .error .valueError, fixups := [], analyze := analyze }

theorem madeOf_produced {lines : List Line} {a : Act} (h : madeOf lines = some a) : Produces grammarOnly .act (rawOf lines) (.act a) := by
  unfold madeOf at h
  cases h1 : parseAct (py"2020. évi I. törvény") ⟨2020, 1, 1⟩ (py"a mintákról") lines with
  | error e => rw [h1] at h; cases h
  | ok x =>
    rw [h1] at h
    cases h2 : parseBlockAmendments analyze x with
    | error e => simp only [bind, Except.bind, h2] at h; cases h
    | ok b =>
      simp only [bind, Except.bind, h2] at h
      cases h3 : addSemantics analyze b with
      | error e => rw [h3] at h; cases h
      | ok y =>
        rw [h3] at h
        cases h
        exact ⟨lines, x, b, a, rfl, h1, h2, h3, rfl⟩

theorem noWrap_wraps : WrapsAll noWrap := fun _ _ _ => ⟨_, rfl⟩

/-- An act of which a page and a text can be made. -/
def shownLines : List Line :=
  [spread 0 (py"ELSŐ KÖNYV"), spread 0 (py"ALAPOK"), spread 0 (py"1. § (1) A 2. § (2) bekezdése szerint"), spread 10 (py"a) igen,"),
    spread 10 (py"b) nem."), spread 5 (py"(2) Akkor.")]

example : ∃ a, Produces grammarOnly .act (rawOf shownLines) (.act a) ∧ (∃ page, htmlBody a true = .ok page) ∧ WrapsAll noWrap ∧
    ((farthest a.children : Nat) : Int) < 90 ∧ (writeTxt noWrap (.act a) [] 90).stop = none ∧
    (actElements a).any (fun e => e.data.references.any (· ≠ [])) = true := by
  have h : (madeOf shownLines).any (fun a => decide ((htmlBody a true).toOption.isSome = true ∧ ((farthest a.children : Nat) : Int) < 90 ∧
      (writeTxt noWrap (.act a) [] 90).stop = none ∧ (actElements a).any (fun e => e.data.references.any (· ≠ [])) = true)) = true := by
    decide +kernel
  cases ha : madeOf shownLines with
  | none => rw [ha] at h; cases h
  | some a =>
    rw [ha] at h
    simp only [Option.any_some, decide_eq_true_eq] at h
    refine ⟨a, madeOf_produced ha, ?_, noWrap_wraps, h.2.1, h.2.2.1, h.2.2.2⟩
    cases hp : htmlBody a true with
    | error e => rw [hp] at h; exact absurd h.1 (by simp [Except.toOption])
    | ok page => exact ⟨page, rfl⟩

/-- The references that the parser reports in a sentence of two references are apart. -/
theorem two_apart {x : Analysis} (h : analyze (py"A 2. § (1) bekezdése és az 5. § szerint.") = .ok x) : Spec.Apart x.references := by
  have hd : (analyze (py"A 2. § (1) bekezdése és az 5. § szerint.")).toOption.all (fun x => decide
      ((∀ o ∈ x.references, 0 ≤ o.startPos ∧ o.startPos < o.endPos) ∧
        x.references.Pairwise fun o p => o.endPos ≤ p.startPos ∨ p.endPos ≤ o.startPos)) = true := by
    decide +kernel
  rw [h] at hd
  simp only [Except.toOption, Option.all_some, decide_eq_true_eq] at hd
  exact hd

example : ∃ a, Produces grammarOnly .act (rawOf [spread 0 (py"1. § A 2. § (1) bekezdése és az 5. § szerint.")]) (.act a) ∧
    (∀ e ∈ actElements a, ∀ x stop, Said grammarOnly.analyze e x stop → Spec.Apart x.references) ∧
    (actElements a).map (fun e => (e.data.references.getD []).length) = [2] := by
  have h : (madeOf [spread 0 (py"1. § A 2. § (1) bekezdése és az 5. § szerint.")]).any (fun a => decide
      ((actElements a).map (fun e => (e.before, e.data.text, e.after)) = [([], some (py"A 2. § (1) bekezdése és az 5. § szerint."), [])] ∧
        (actElements a).map (fun e => (e.data.references.getD []).length) = [2])) = true := by
    decide +kernel
  cases ha : madeOf [spread 0 (py"1. § A 2. § (1) bekezdése és az 5. § szerint.")] with
  | none => rw [ha] at h; cases h
  | some a =>
    rw [ha] at h
    simp only [Option.any_some, decide_eq_true_eq] at h
    refine ⟨a, madeOf_produced ha, fun e he x stop hx => ?_, h.2⟩
    have hm : (e.before, e.data.text, e.after) ∈ (actElements a).map (fun e => (e.before, e.data.text, e.after)) :=
      List.mem_map.2 ⟨e, he, rfl⟩
    rw [h.1, List.mem_singleton] at hm
    simp only [Prod.mk.injEq] at hm
    obtain ⟨h1, h2, h3⟩ := hm
    cases hx with
    | text own hw hsaid =>
      obtain rfl := Option.some.inj (own.symm.trans h2)
      obtain ⟨t, ht, -, hm⟩ := hw
      have hc : ∃ c ∈ py".:!?", (py"A 2. § (1) bekezdése és az 5. § szerint.").getLast? = some c := ⟨'.', by simp, by decide⟩
      obtain rfl := trimmed_complete ht hc
      rcases hm with ⟨rfl, -⟩ | ⟨-, -, hn⟩
      · rw [h1, h3, List.nil_append, List.append_nil] at hsaid
        cases hsaid with
        | said _ hsaid => exact two_apart hsaid
        | nothing => exact ⟨nofun, .nil⟩
      · obtain ⟨c, hc, hl⟩ := hc
        exact absurd hl (hn c hc)
    | intro own => rw [h2] at own; cases own
    | bare own => rw [h2] at own; cases own

/-- C80. The first condition is needed: a paragraph of which there is only the number is made when nothing is looked for in the texts, and
cannot be shown. -/
theorem empty_text_not_shown : ∃ a,
    Produces grammarOnly .structureOnly (rawOf [spread 0 (py"1. § (1) Igen."), spread 5 (py"(2) ")]) (.structureOnly a) ∧
    htmlBody a = .error .typeError ∧ (writeTxt noWrap (.act a)).stop = some .assertionError := by
  have h : (parseAct (py"2020. évi I. törvény") ⟨2020, 1, 1⟩ (py"a mintákról")
      [spread 0 (py"1. § (1) Igen."), spread 5 (py"(2) ")]).toOption.any (fun a => (match htmlBody a with
      | .error e => decide (e = .typeError)
      | .ok _ => false) && decide ((writeTxt noWrap (.act a)).stop = some .assertionError)) = true := by
    decide +kernel
  cases ha : parseAct (py"2020. évi I. törvény") ⟨2020, 1, 1⟩ (py"a mintákról") [spread 0 (py"1. § (1) Igen."), spread 5 (py"(2) ")] with
  | error e => rw [ha] at h; cases h
  | ok a =>
    rw [ha] at h
    simp only [Except.toOption, Option.any_some, Bool.and_eq_true, decide_eq_true_eq] at h
    refine ⟨a, ⟨_, a, rfl, ha, rfl⟩, ?_, h.2⟩
    cases hp : htmlBody a with
    | error e => rw [hp] at h; rw [of_decide_eq_true h.1]
    | ok page => rw [hp] at h; cases h.1

/-- C80. So does a paragraph that quotes nothing. -/
theorem empty_quotation_not_shown : ∃ a, Produces grammarOnly .act (rawOf [spread 0 (py"1. § A szöveg:"), spread 5 (py"„”")]) (.act a) ∧
    htmlBody a = .error .valueError ∧ (writeTxt noWrap (.act a)).stop = some .valueError := by
  have h : (madeOf [spread 0 (py"1. § A szöveg:"), spread 5 (py"„”")]).any (fun a => (match htmlBody a with
      | .error e => decide (e = .valueError)
      | .ok _ => false) && decide ((writeTxt noWrap (.act a)).stop = some .valueError)) = true := by
    decide +kernel
  cases ha : madeOf [spread 0 (py"1. § A szöveg:"), spread 5 (py"„”")] with
  | none => rw [ha] at h; cases h
  | some a =>
    rw [ha] at h
    simp only [Option.any_some, Bool.and_eq_true, decide_eq_true_eq] at h
    refine ⟨a, madeOf_produced ha, ?_, h.2⟩
    cases hp : htmlBody a with
    | error e => rw [hp] at h; rw [of_decide_eq_true h.1]
    | ok page => rw [hp] at h; cases h.1

/-- C80. The second condition is needed for pages: an act that mentions "1., 1/A–1/C. és 2. §" has references that overlap. Its text can be
written, but no page can be made of it. -/
theorem overlapping_not_shown : ∃ a,
    Produces grammarOnly .act (rawOf [spread 0 (py"1. § Az 1., 1/A–1/C. és 2. § szerint.")]) (.act a) ∧
    htmlBody a = .error .assertionError ∧ (writeTxt noWrap (.act a)).stop = none := by
  have h : (madeOf [spread 0 (py"1. § Az 1., 1/A–1/C. és 2. § szerint.")]).any (fun a => (match htmlBody a with
      | .error e => decide (e = .assertionError)
      | .ok _ => false) && decide ((writeTxt noWrap (.act a)).stop = none)) = true := by
    decide +kernel
  cases ha : madeOf [spread 0 (py"1. § Az 1., 1/A–1/C. és 2. § szerint.")] with
  | none => rw [ha] at h; cases h
  | some a =>
    rw [ha] at h
    simp only [Option.any_some, Bool.and_eq_true, decide_eq_true_eq] at h
    refine ⟨a, madeOf_produced ha, ?_, h.2⟩
    cases hp : htmlBody a with
    | error e => rw [hp] at h; rw [of_decide_eq_true h.1]
    | ok page => rw [hp] at h; cases h.1

end Verif.Props
