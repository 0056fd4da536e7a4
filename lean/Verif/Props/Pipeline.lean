import Verif.Proofs.Pipeline
import Verif.Proofs.Built
import Verif.Props.Extraction
import Verif.Props.Gazette
import Verif.Props.Parser
import Verif.Props.Semantics
import Verif.Props.Structure

/-! # From issues to acts (C63, C64) -/

namespace Verif.Props
open Spec

variable {s : Sources} {c : ExtractedClass} {issues : List Issue}

/-! ## C63: what is extracted -/

/-- C63. With any number of workers, if extraction ends without exception it has given what is to be made of each act of each issue,
each once and nothing else. -/
theorem pipeline_results (hc : IsStep c) {workers : Nat} {ys : List Extracted}
    (h : (s.pipeline c).Extracts (issues.map .issue) workers ⟨ys, none⟩) :
    ∃ outs, IssuesGive s c issues outs ∧ ys.Perm outs := by
  obtain ⟨zs, hz, hp⟩ := sequential_results h
  unfold Extraction.Extracts at hz
  rw [if_neg (by omega)] at hz
  obtain ⟨outs, ho, rfl⟩ := (issues_give hc issues zs).1 hz
  exact ⟨outs, ho, hp.trans (List.reverse_perm _)⟩

/-- C63. With one worker they come from the last act of the last issue to the first of the first. -/
theorem pipeline_in_order (hc : IsStep c) (ys : List Extracted) :
    (s.pipeline c).Extracts (issues.map .issue) 1 ⟨ys, none⟩ ↔ ∃ outs, IssuesGive s c issues outs ∧ ys = outs.reverse := by
  unfold Extraction.Extracts
  rw [if_neg (by omega)]
  exact issues_give hc issues ys

/-- C63. If every issue can be read, divided into acts and each act be made, extraction raises no exception, with any number of
workers, in any order in which they finish. -/
theorem pipeline_succeeds (hc : IsStep c) {outs : List Extracted} (h : IssuesGive s c issues outs) {workers : Nat}
    {g : Gen Extracted} (hg : (s.pipeline c).Extracts (issues.map .issue) workers g) :
    g.stop = none ∧ g.yields.Perm outs := by
  obtain ⟨h1, h2⟩ := parallel_results ((pipeline_in_order hc _).2 ⟨outs, h, rfl⟩) hg
  exact ⟨h1, h2.trans (List.reverse_perm _)⟩

/-- C63. Extraction always ends, with results or with an exception, whatever is asked for and however many workers there are. -/
theorem pipeline_ends (s : Sources) (c : ExtractedClass) (objects : List Extracted) (workers : Nat) :
    ∃ g, (s.pipeline c).Extracts objects workers g := by
  have ho : ∀ o ∈ objects, ∃ g, (s.pipeline c).Ends [o] g := fun o _ => object_ends c _ o (Nat.le_refl _)
  unfold Extraction.Extracts
  by_cases hw : workers > 1 ∧ objects.length > 1
  · simp only [if_pos hw]
    obtain ⟨n, t, h1, h2⟩ := pool_finishes (w := min workers objects.length) (by omega) ho _ ⟨objects, [], [], none⟩ (Nat.le_refl _)
      (pool_start objects)
    exact ⟨_, n, t, h1, h2, rfl⟩
  · simp only [if_neg hw]
    exact ends_of_parts ho

/-- A page of acts. -/
def lawPage : List Line :=
  [textLine (py"15202 MAGYAR KÖZLÖNY"), emptyLine, textLine (py"II. Törvények")] ++
    signedAct [spread 0 (py"1. § Elem.")] ++ signedAct [spread 0 (py"1. § (1) Elem."), spread 0 (py"(2) Elem.")]

/-- An issue with two acts is read whatever is asked for; nothing is fixed or recognised. -/
def sampleSources : Sources where
  read _ := .ok (sampleGazette.take 1 ++ [lawPage])
  fixups := []
  analyze _ := .ok {}

/-- What the sample gives. -/
def sampleGiven : Option (Gen Extracted) := (sampleSources.pipeline .act).doWork 20 [.issue ⟨2011, 71⟩]

theorem sampleGiven_ok : ∃ a b, sampleGiven = some ⟨[.act a, .act b], none⟩ ∧ a.identifier = (py"2010. évi CLVIII. törvény") ∧
    b.publicationDate = ⟨2011, 6, 28⟩ ∧ a.children.map (fun c => c.children.length) = [2] ∧ (actElements a).length = 2 := by
  have h : (match sampleGiven with
    | some ⟨[.act a, .act b], none⟩ => decide (a.identifier = (py"2010. évi CLVIII. törvény") ∧
        b.publicationDate = ⟨2011, 6, 28⟩ ∧ a.children.map (fun c => c.children.length) = [2] ∧ (actElements a).length = 2)
    | _ => false) = true := by decide +kernel
  generalize sampleGiven = g at h
  split at h
  · exact ⟨_, _, rfl, of_decide_eq_true h⟩
  · cases h

theorem sampleIssue_gives : ∃ a b, IssuesGive sampleSources .act [(2011, 71)] [.act b, .act a] ∧
    a.identifier = (py"2010. évi CLVIII. törvény") ∧ b.publicationDate = ⟨2011, 6, 28⟩ ∧
    a.children.map (fun c => c.children.length) = [2] ∧ (actElements a).length = 2 := by
  obtain ⟨a, b, h, h'⟩ := sampleGiven_ok
  obtain ⟨outs, ho, he⟩ := (issues_give (s := sampleSources) (c := .act) (.inr (.inr (.inr rfl))) [(2011, 71)] [.act a, .act b]).1
    ⟨20, h⟩
  refine ⟨a, b, ?_, h'⟩
  rw [← List.reverse_reverse outs, ← he] at ho
  exact ho

example : ∃ a b, (sampleSources.pipeline .act).Extracts ([(2011, 71)].map .issue) 1 ⟨[.act a, .act b], none⟩ := by
  obtain ⟨a, b, h, -⟩ := sampleIssue_gives
  exact ⟨a, b, (pipeline_in_order (.inr (.inr (.inr rfl))) _).2 ⟨_, h, rfl⟩⟩

/-- C63. The text of every act comes from its issue: the identifier is a line of it that looks like the title of an act, the date is
that of the fourth line of its first page, and every line of the body is one of its lines or empty. -/
theorem texts_of_issue {pdf : PdfOfLines} {laws : List LawRawText} (h : IssueLaws pdf laws) : ∀ r ∈ laws,
    (∃ page ∈ pdf, ∃ l ∈ page, ActTitle l.content ∧ r.identifier = l.content) ∧
    (∃ first line, pdf.head? = some first ∧ first[3]? = some line ∧
      Date.fromHungarianText line.content = .ok r.publicationDate) ∧
    ∀ l ∈ r.body, l = emptyLine ∨ ∃ page ∈ pdf, l ∈ page := by
  cases h with
  | other => simp
  | @gazette k sections laws hk hs hl =>
    intro r hr
    obtain ⟨rs, hrs, hr⟩ := List.mem_flatten.1 hr
    obtain ⟨sec, hsec, hx⟩ := hl.mem_right hrs
    obtain ⟨first, more, line, rfl, hfirst, hdate, hpages⟩ := headerExtractor_some hk
    have hlines := sectionLoop_lines k.publicationDate (fun l => l = emptyLine ∨ ∃ page ∈ first :: more, l ∈ page) (.inl rfl)
      k.pages none [] (by simp) (by
        rw [hpages]
        intro p hp l hlp
        rcases List.mem_cons.1 hp with rfl | hp
        · exact .inr ⟨first, by simp, List.mem_of_mem_drop hlp⟩
        · obtain ⟨page, hpage, rfl⟩ := List.mem_map.1 hp
          exact .inr ⟨page, hpage, List.mem_of_mem_drop hlp⟩) sec (by
        show sec ∈ (sectionExtractor k).yields
        rw [hs]; exact hsec)
    have hcut := acts_cut_partial sec
    rw [hx] at hcut
    obtain ⟨seg, ⟨⟨title, subject, raw, blank, names, signature, rfl, h1, h2, h3, -, -, -, -, -, h9⟩, -⟩, hseg⟩ :=
      cutOut_mem hcut r hr
    refine ⟨?_, ⟨first, line, rfl, hfirst, by rw [h3, hlines.1]; exact hdate⟩, ?_⟩
    · rcases hlines.2 title (hseg title (by simp)) with he | ⟨page, hp, hl⟩
      · obtain ⟨a, b, c, d, e, f, roman, rest, -, -, -, -, -, -, -, -, h1⟩ := h1
        rw [he] at h1
        cases h1
      · exact ⟨page, hp, title, hl, h1, h2⟩
    · intro l hlb
      have hl' : l ∈ r.body ++ [blank, names, signature] := by simp [hlb]
      have : l = emptyLine ∨ l ∈ raw := by
        generalize r.body ++ [blank, names, signature] = body at h9 hl'
        cases h9 with
        | same => exact .inr hl'
        | removed =>
          simp only [List.mem_append, List.mem_singleton] at hl' ⊢
          rcases hl' with (h | h) | h
          · exact .inr (.inl (.inl h))
          · exact .inl h
          · exact .inr (.inr h)
      rcases this with h | h
      · exact .inl h
      · exact hlines.2 l (hseg l (by simp [h]))

/-- C63. The titles and bodies of all acts of an issue have its lines in their order: after the title of an act come the lines of its
body that are not empty, then the title of the next act. The first page is read twice. -/
theorem texts_in_order {pdf : PdfOfLines} {laws : List LawRawText} (h : IssueLaws pdf laws) :
    ∃ titles, Both (fun r t => ActTitle t.content ∧ r.identifier = t.content) laws titles ∧
      (filledLines ((laws.zip titles).flatMap fun q => q.2 :: q.1.body)).Sublist (filledLines (pdf.head?.toList ++ pdf).flatten) := by
  cases h with
  | other => exact ⟨[], .nil, List.nil_sublist _⟩
  | @gazette k sections laws hk hs hl =>
    obtain ⟨first, more, line, rfl, -, -, hpages⟩ := headerExtractor_some hk
    have hsec := sectionLoop_order k.publicationDate k.pages none []
    change (filledLines ((sectionExtractor k).yields.flatMap _)).Sublist _ at hsec
    rw [hs] at hsec
    have hdrop : ∀ pages : PdfOfLines, ((pages.map fun page => page.drop 2).flatten).Sublist pages.flatten := by
      intro pages
      induction pages with
      | nil => exact .refl _
      | cons p ps ih => exact (List.drop_sublist ..).append ih
    have hp : (k.pages.flatMap (·.lines)).Sublist ((first :: more).head?.toList ++ (first :: more)).flatten := by
      rw [hpages, List.flatMap_cons]
      refine (List.drop_sublist ..).append ?_
      simpa [List.flatMap_map, List.flatMap_def, Function.comp_def] using hdrop (first :: more)
    suffices hx : ∃ titles, Both (fun r t => ActTitle t.content ∧ r.identifier = t.content) laws.flatten titles ∧
        (filledLines ((laws.flatten.zip titles).flatMap fun q => q.2 :: q.1.body)).Sublist (filledLines (sections.flatMap (·.lines))) by
      obtain ⟨titles, g1, g2⟩ := hx
      exact ⟨titles, g1, g2.trans (hsec.trans (filled_sublist hp))⟩
    clear hs hsec hpages hk
    induction hl with
    | nil => exact ⟨[], .nil, List.nil_sublist _⟩
    | @cons sec ls _ _ h1 _ ih =>
      obtain ⟨titles, g1, g2⟩ := ih
      have hcut := acts_cut_partial sec
      rw [h1] at hcut
      obtain ⟨ts, k1, k2⟩ := cutOut_order hcut fun _ _ h => h.1
      refine ⟨ts ++ titles, ?_, ?_⟩
      · rw [List.flatten_cons]; exact k1.append g1
      · rw [List.flatten_cons, List.zip_append k1.length, List.flatMap_append, filled_append, List.flatMap_cons, filled_append]
        exact k2.append g2

example : ∃ pdf laws, IssueLaws pdf laws ∧ laws.length = 2 := by
  obtain ⟨a, b, ⟨pdfs, laws, h1, h2, h3⟩, -⟩ := sampleIssue_gives
  have hp := h1.length
  have hl := h3.length
  cases h2 with
  | nil => cases hp
  | cons h t =>
    cases t with
    | nil => exact ⟨_, _, h, by simpa using hl⟩
    | cons => simp at hp

/-! ## C64: the acts that are made -/

/-- C64. Every act that is made has the identifier, the date and the subject of its text; its children are articles and structural
elements, everything in it is well formed and was made through the constructors. -/
theorem produced_well_made {r : LawRawText} {o : Extracted} {a : Act} (h : Produces s c r o)
    (ho : o = .structureOnly a ∨ o = .blockOnly a ∨ o = .act a) :
    (a.identifier = r.identifier ∧ a.publicationDate = r.publicationDate ∧ a.subject = r.subject) ∧
    ∀ n ∈ a.children, InAct n ∧ Built n ∧ ∀ m, Inside m n → WellFormed m := by
  have key : (a.identifier = r.identifier ∧ a.publicationDate = r.publicationDate ∧ a.subject = r.subject) ∧
      ∀ n ∈ a.children, InAct n ∧ Built n := by
    have first : ∀ {body : List Line} {a : Act}, parseAct r.identifier r.publicationDate r.subject body = .ok a →
        (a.identifier = r.identifier ∧ a.publicationDate = r.publicationDate ∧ a.subject = r.subject) ∧
        ∀ n ∈ a.children, InAct n ∧ Built n := by
      intro body a hp
      exact ⟨parseAct_attributes hp, fun n hn => (parseAct_has closed_built hp n hn).symm⟩
    have second : ∀ {a b : Act}, parseBlockAmendments s.analyze a = .ok b →
        (a.identifier = r.identifier ∧ a.publicationDate = r.publicationDate ∧ a.subject = r.subject) ∧
          (∀ n ∈ a.children, InAct n ∧ Built n) →
        (b.identifier = r.identifier ∧ b.publicationDate = r.publicationDate ∧ b.subject = r.subject) ∧
          ∀ n ∈ b.children, InAct n ∧ Built n := by
      rintro a b hb ⟨h1, h2⟩
      obtain ⟨i1, -, i3⟩ := parseBlockAmendments_has hb
      refine ⟨?_, fun n hn => ⟨i3 (fun n hn => (h2 n hn).1) n hn, i1 (fun n hn => (h2 n hn).2) n hn⟩⟩
      unfold parseBlockAmendments at hb
      obtain ⟨cs, -, hb⟩ := resBind_ok hb
      cases hb
      exact h1
    cases c with
    | raw => obtain rfl := h; simp at ho
    | structureOnly =>
      obtain ⟨body, a', h1, h2, rfl⟩ := h
      simp only [Extracted.structureOnly.injEq, reduceCtorEq, or_false] at ho
      exact ho ▸ first h2
    | blockOnly =>
      obtain ⟨body, a', b, h1, h2, h3, rfl⟩ := h
      simp only [Extracted.blockOnly.injEq, reduceCtorEq, or_false, false_or] at ho
      exact ho ▸ second h3 (first h2)
    | act =>
      obtain ⟨body, a', b, c', h1, h2, h3, h4, rfl⟩ := h
      simp only [Extracted.act.injEq, reduceCtorEq, false_or] at ho
      subst ho
      obtain ⟨i1, i2⟩ := second h3 (first h2)
      obtain ⟨j1, j2⟩ := addSemantics_built h4 fun n hn => (i2 n hn).2
      refine ⟨?_, fun n hn => ⟨j2 (fun n hn => (i2 n hn).1) n hn, j1 n hn⟩⟩
      have := (addSemantics_ok h4).2.1
      rw [← this] at i1
      exact i1
    | _ => cases h
  exact ⟨key.1, fun n hn => ⟨(key.2 n hn).1, (key.2 n hn).2, fun m hm => built_wellFormed n m (key.2 n hn).2 hm⟩⟩

/-- C64. Before the last step no element has references, abbreviations or semantic data. -/
theorem produced_unanalysed {r : LawRawText} {o : Extracted} {a : Act} (h : Produces s c r o)
    (ho : o = .structureOnly a ∨ o = .blockOnly a) : ∀ n ∈ a.children, ∀ k d cs, Inside (.sae k d cs) n →
      d.abbreviations = none ∧ d.references = none ∧ d.semantic = none := by
  have key : ∀ n ∈ a.children, Unanalysed n := by
    cases c with
    | raw => obtain rfl := h; simp at ho
    | structureOnly =>
      obtain ⟨body, a', h1, h2, rfl⟩ := h
      simp only [Extracted.structureOnly.injEq, reduceCtorEq, or_false] at ho
      exact ho ▸ fun n hn => (parseAct_has closed_unanalysed h2 n hn).1
    | blockOnly =>
      obtain ⟨body, a', b, h1, h2, h3, rfl⟩ := h
      simp only [Extracted.blockOnly.injEq, reduceCtorEq, false_or] at ho
      exact ho ▸ (parseBlockAmendments_has h3).2.1 fun n hn => (parseAct_has closed_unanalysed h2 n hn).1
    | act =>
      obtain ⟨body, a', b, c', h1, h2, h3, h4, rfl⟩ := h
      simp at ho
    | _ => cases h
  intro n hn k d cs hi
  exact unanalysed_inside hi (key n hn)

/-- C64. After the last step every element that can have them has references, abbreviations and semantic data, and the act says
that it is parsed. -/
theorem produced_analysed {r : LawRawText} {a : Act} (h : Produces s .act r (.act a)) :
    a.isSemanticParsed = true ∧
    ∀ e ∈ actElements a, e.data.semantic ≠ none ∧ e.data.references ≠ none ∧ e.data.abbreviations ≠ none := by
  obtain ⟨body, a', b, c', h1, h2, h3, h4, ho⟩ := h
  cases ho
  have hp : Produces s .blockOnly r (.blockOnly b) := ⟨body, a', b, h1, h2, h3, rfl⟩
  have hb : ∀ n ∈ b.children, Built n := fun n hn => ((produced_well_made hp (.inr (.inl rfl))).2 n hn).2.1
  have hu := produced_unanalysed hp (.inr rfl)
  refine ⟨semantics_parsed hb h4, semantics_complete_all hb (fun e he hs => ?_) h4⟩
  obtain ⟨n, hn, he⟩ := List.mem_flatMap.1 he
  obtain ⟨k, cs, hi⟩ := articleElements_inside he
  exact absurd (hu n hn k e.data cs hi).2.2 hs

example : ∃ pdf laws a r, IssueLaws pdf laws ∧ r ∈ laws ∧ Produces sampleSources .act r (.act a) ∧ (actElements a).length = 2 := by
  obtain ⟨a, b, ⟨pdfs, laws, -, h2, h3⟩, -, -, -, h4⟩ := sampleIssue_gives
  obtain ⟨r, hr, hp⟩ := h3.mem_right (show Extracted.act a ∈ _ by simp)
  obtain ⟨l, hl, hr⟩ := List.mem_flatten.1 hr
  obtain ⟨pdf, -, hi⟩ := h2.mem_right hl
  exact ⟨pdf, l, a, r, hi, hr, hp, h4⟩

end Verif.Props
