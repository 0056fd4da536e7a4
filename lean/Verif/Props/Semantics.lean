import Verif.Proofs.Semantics

/-! # Properties of adding semantic data (C32-C36) -/

namespace Verif.Props

open Verif Verif.Spec

/-! ## Samples -/

/-- An analyser that knows some sentences. -/
def knowing (known : List (Str × Analysis)) : Analyzer := fun s => .ok ((known.lookup s).getD {})

/-- A paragraph with text only. -/
def plainParagraph (text : Str) (identifier : Option Str := none) : Node :=
  .sae .paragraph { identifier := identifier, text := some text } []

/-- An article with one paragraph. -/
def plainArticle (identifier text : Str) : Node := .article identifier none [plainParagraph text]

/-- An act with these children. -/
def actOf (children : List Node) : Act :=
  { identifier := py"2020. évi I. törvény", publicationDate := ⟨2020, 1, 2⟩, subject := py"minta", preamble := [],
    children := children }

/-- A text that defines an abbreviation. -/
def definingText : Str := py"A törvény (a továbbiakban: Tv.) ez."

/-- A text that uses it. -/
def usingText : Str := py"A Tv. 1. § szerint"

/-- A reference to the first article of some act. -/
def firstArticleOf (act : Str) (startPos endPos : Int) : OutgoingReference :=
  { startPos := startPos, endPos := endPos, reference := { act := some act, article := some (.one (py"1")) } }

/-- The analyser that knows both. -/
def sampleAnalyzer : Analyzer := knowing [
  (definingText, { abbreviations := [⟨py"Tv.", py"2010. évi C. törvény"⟩] }),
  (usingText ++ py".", { references := [firstArticleOf (py"Tv.") 2 10] })]

/-- The act that defines and uses the abbreviation. -/
def definingAct : Act := actOf [plainArticle (py"1") definingText, plainArticle (py"2") usingText]

/-- The semantic data of an element: the references with their acts, and the definitions. -/
structure Found where
  references : List (Int × Int × Option Str) := []
  definitions : List (Str × Str) := []
  deriving DecidableEq

/-- What is found in an act, `none` for an error. -/
def foundBy (analyze : Analyzer) (a : Act) : Option (List Found) :=
  match addSemantics analyze a with
  | .ok a' => some ((actElements a').map fun e => {
      references := (e.data.references.getD []).map fun r => (r.startPos, r.endPos, r.reference.act)
      definitions := (e.data.abbreviations.getD []).map fun d => (d.abbreviation, d.act) })
  | .error _ => none

theorem definingAct_found : foundBy sampleAnalyzer definingAct = some [
    { definitions := [(py"Tv.", py"2010. évi C. törvény")] },
    { references := [(2, 10, some (py"2010. évi C. törvény"))] }] := by
  decide +kernel

theorem definingAct_built : ∀ c ∈ definingAct.children, Built c := built_of_testL (by decide +kernel)

/-! ## C32 -/

/-- C32. Nothing but semantic data is changed, whatever the analyser says: without it the result equals the input. -/
theorem semantics_keep_act {analyze : Analyzer} {a a' : Act} (h : addSemantics analyze a = .ok a') :
    stripAct a' = stripAct a :=
  (addSemantics_ok h).1

/-- C32. The same seen from the elements: each stays where it was with its texts and its identifier. -/
theorem semantics_keep_elements {analyze : Analyzer} {a a' : Act} (hb : ∀ c ∈ a.children, Built c)
    (h : addSemantics analyze a = .ok a') :
    Both (fun e e' => e'.before = e.before ∧ e'.after = e.after ∧ e'.data.identifier = e.data.identifier ∧
      e'.data.text = e.data.text ∧ e'.data.intro = e.data.intro ∧ e'.data.wrapUp = e.data.wrapUp)
      (actElements a) (actElements a') := by
  refine ((addSemantics_ok h).2.2.1 hb).imp fun e _ e' _ he => ?_
  rcases he with ⟨rfl, -⟩ | ⟨_, _, _, -, _, _, _, rfl, -⟩
  · exact ⟨rfl, rfl, rfl, rfl, rfl, rfl⟩
  · exact ⟨rfl, rfl, rfl, rfl, rfl, rfl⟩

example : (foundBy sampleAnalyzer definingAct).isSome = true := by rw [definingAct_found]; rfl

/-! ## C33 -/

/-- C33. Afterwards every element that can have semantic data has it. -/
theorem semantics_complete {analyze : Analyzer} {a a' : Act} (hb : ∀ c ∈ a.children, Built c)
    (h : addSemantics analyze a = .ok a') : ∀ e ∈ actElements a', e.data.semantic ≠ none := by
  intro e' he'
  obtain ⟨e, -, he⟩ := ((addSemantics_ok h).2.2.1 hb).mem_right he'
  rcases he with ⟨rfl, hs⟩ | ⟨_, _, _, -, _, _, _, rfl, -⟩
  · intro hn; rw [hn] at hs; cases hs
  · exact nofun

/-- C33. If what had semantic data had references and abbreviations too, all have all of them. -/
theorem semantics_complete_all {analyze : Analyzer} {a a' : Act} (hb : ∀ c ∈ a.children, Built c)
    (ho : ∀ e ∈ actElements a, e.data.semantic ≠ none → e.data.references ≠ none ∧ e.data.abbreviations ≠ none)
    (h : addSemantics analyze a = .ok a') :
    ∀ e ∈ actElements a', e.data.semantic ≠ none ∧ e.data.references ≠ none ∧ e.data.abbreviations ≠ none := by
  intro e' he'
  obtain ⟨e, hm, he⟩ := ((addSemantics_ok h).2.2.1 hb).mem_right he'
  rcases he with ⟨rfl, hs⟩ | ⟨_, _, _, -, _, _, _, rfl, -⟩
  · have : e'.data.semantic ≠ none := by intro hn; rw [hn] at hs; cases hs
    exact ⟨this, ho e' hm this⟩
  · exact ⟨nofun, nofun, nofun⟩

/-- C33. Afterwards the act says that it has been parsed. -/
theorem semantics_parsed {analyze : Analyzer} {a a' : Act} (hb : ∀ c ∈ a.children, Built c)
    (h : addSemantics analyze a = .ok a') : a'.isSemanticParsed = true := by
  refine act_parsed_of_elements ((addSemantics_ok h).2.2.2 fun c hc => typedArticle_of_built (hb c hc)) fun e he => ?_
  have := semantics_complete hb h e he
  cases hs : e.data.semantic with
  | none => exact absurd hs this
  | some l => rfl

/-- C33. Parsing again returns the same act, even if the analyser has changed its mind. -/
theorem semantics_idempotent {analyze analyze' : Analyzer} {a a' : Act} (hb : ∀ c ∈ a.children, Built c)
    (h : addSemantics analyze a = .ok a') : addSemantics analyze' a' = .ok a' := by
  unfold addSemantics
  rw [if_pos (semantics_parsed hb h)]

example : (∀ c ∈ definingAct.children, Built c) ∧ (foundBy sampleAnalyzer definingAct).isSome = true :=
  ⟨definingAct_built, by rw [definingAct_found]; rfl⟩

/-! ## C34 -/

/-- The element gets no additional full stop in its sentence. -/
def Complete (e : Entry) : Prop :=
  (e.data.text ≠ none ∧ e.after ≠ []) ∨ ∃ c ∈ py".:!?", (ownText e.data).getLast? = some c

/-- The references are in order, not empty and in the own text of the element, or one character longer. -/
def InText (e : Entry) : Prop :=
  ∃ refs, e.data.references = some refs ∧ refs.Pairwise InOrder ∧ ∀ x ∈ refs,
    0 ≤ x.startPos ∧ x.startPos < x.endPos ∧ x.endPos ≤ (ownText e.data).length + 1 ∧
      (Complete e → x.endPos ≤ (ownText e.data).length)

theorem trimmed_length {s t : Str} (h : Trimmed s t) : t.length ≤ s.length := by
  induction h with
  | same => exact Nat.le_refl _
  | shorter junk hj h ih => rw [List.length_append] at ih; omega

theorem trimmed_complete {s t : Str} (h : Trimmed s t) (hc : ∃ c ∈ py".:!?", s.getLast? = some c) : t = s := by
  induction h with
  | same => rfl
  | @shorter t junk hj h ih =>
    exfalso
    obtain ⟨c, hc, hl⟩ := hc
    rw [← ih] at hl
    have hc : c = '.' ∨ c = ':' ∨ c = '!' ∨ c = '?' := by simpa using hc
    simp only [listEnds, List.mem_cons, List.not_mem_nil, or_false] at hj
    rcases hj with rfl | rfl | rfl | rfl | rfl | rfl <;> rw [List.getLast?_append] at hl <;>
      simp at hl <;> subst hl <;> simp at hc

theorem written_length {own after m : Str} (h : Written own after m) :
    m.length ≤ own.length + 1 ∧
      ((after ≠ [] ∨ ∃ c ∈ py".:!?", own.getLast? = some c) → m.length ≤ own.length) := by
  obtain ⟨t, ht, -, ⟨rfl, hc⟩ | ⟨ha, rfl, hc⟩⟩ := h
  · have := trimmed_length ht
    exact ⟨by omega, fun _ => this⟩
  · have := trimmed_length ht
    refine ⟨by simp; omega, ?_⟩
    rintro (h | h)
    · exact absurd ha h
    · have := trimmed_complete ht h
      subst this
      obtain ⟨c, hm, hl⟩ := h
      exact absurd hl (hc c hm)

theorem said_span {analyze : Analyzer} {s : Str} {x : Analysis}
    (spans : ∀ s r, analyze s = .ok r → ∀ x ∈ r.references, x.startPos < x.endPos) (h : SaidIn analyze s x) :
    ∀ z ∈ x.references, z.startPos < z.endPos := by
  cases h with
  | said _ h => exact spans _ _ h
  | nothing _ => exact fun z hz => by cases hz

theorem said_in_text {analyze : Analyzer} {e e' : Entry} {x : Analysis} {stop : Nat} {defs : List ActIdAbbreviation}
    (spans : ∀ s r, analyze s = .ok r → ∀ x ∈ r.references, x.startPos < x.endPos)
    (hs : Said analyze e x stop) (ha : Annotated defs x stop e e') : InText e' := by
  obtain ⟨refs, semantic, recorded, rfl, -, hr, hp, ho⟩ := ha
  refine ⟨refs, rfl, ho, fun y hy => ?_⟩
  obtain ⟨z, hz, h1, h2, -⟩ := hr.mem_right (hp.mem_iff.mp hy)
  obtain ⟨hzr, hin⟩ := List.mem_filter.mp hz
  simp only [decide_eq_true_eq] at hin
  have stop_le : z.startPos < z.endPos ∧ stop ≤ e.before.length + (ownText e.data).length + 1 ∧
      (Complete e → stop ≤ e.before.length + (ownText e.data).length) := by
    cases hs with
    | text own h said =>
      have hl := written_length h
      rename_i t _
      have ho : ownText e.data = t := by unfold ownText; rw [own]; rfl
      rw [ho]
      refine ⟨said_span spans said z hzr, by omega, fun hc => ?_⟩
      have := hl.2 (hc.imp (·.2) (by rw [ho]; exact id))
      omega
    | intro own own' h said =>
      have hl := written_length h
      rename_i t _
      have ho : ownText e.data = t := by unfold ownText; rw [own, own']; rfl
      rw [ho]
      refine ⟨said_span spans said z hzr, by omega, fun hc => ?_⟩
      have := hl.2 (hc.imp (fun h => absurd own h.1) (by rw [ho]; exact id))
      omega
    | bare => cases hzr
  obtain ⟨k1, k2, k3⟩ := stop_le
  show 0 ≤ y.startPos ∧ y.startPos < y.endPos ∧ y.endPos ≤ (ownText e.data).length + 1 ∧
    (Complete e → y.endPos ≤ (ownText e.data).length)
  refine ⟨by omega, by omega, by omega, fun hc => ?_⟩
  have := k3 hc
  omega

/-- C34. If the analyser reports intervals that are not empty, then every recorded reference is a non-empty interval in
the own text or intro of its element, and they are in the order of position. What is missing: if the element should end
its sentence and has no such mark, the reference may be one character longer. -/
theorem references_in_text_partial {analyze : Analyzer} {a a' : Act} (hb : ∀ c ∈ a.children, Built c)
    (spans : ∀ s r, analyze s = .ok r → ∀ x ∈ r.references, x.startPos < x.endPos)
    (ho : ∀ e ∈ actElements a, e.data.semantic ≠ none → InText e)
    (h : addSemantics analyze a = .ok a') : ∀ e ∈ actElements a', InText e := by
  intro e' he'
  obtain ⟨e, hm, he⟩ := ((addSemantics_ok h).2.2.1 hb).mem_right he'
  rcases he with ⟨rfl, hs⟩ | ⟨defs, x, stop, hsaid, han⟩
  · exact ho e' hm (by intro hn; rw [hn] at hs; cases hs)
  · exact said_in_text spans hsaid han

/-- C34. Which references are recorded: those that end in the element, cut at its beginning. The start of what is recorded is where
the reference starts in the own text, or 0 if it starts before it. -/
theorem references_cut {analyze : Analyzer} {a a' : Act} (hb : ∀ c ∈ a.children, Built c)
    (hu : ∀ e ∈ actElements a, e.data.semantic = none) (h : addSemantics analyze a = .ok a') :
    Both (fun e e' => ∃ r stop refs, Said analyze e r stop ∧ e'.data.references = some refs ∧
      (refs.map fun x => (x.startPos, x.endPos)).Perm
        ((r.references.filter fun x => (e.before.length : Int) < x.endPos ∧ x.endPos ≤ (stop : Int)).map fun x =>
          (max (x.startPos - e.before.length) 0, x.endPos - e.before.length))) (actElements a) (actElements a') := by
  refine ((addSemantics_ok h).2.2.1 hb).imp fun e hm e' _ he => ?_
  rcases he with ⟨rfl, hs⟩ | ⟨defs, x, stop, hsaid, refs, semantic, recorded, rfl, -, hr, hp, -⟩
  · rw [hu _ hm] at hs; cases hs
  · refine ⟨x, stop, refs, hsaid, rfl, (hp.map _).trans (.of_eq ?_)⟩
    clear hp
    generalize (x.references.filter fun x => (e.before.length : Int) < x.endPos ∧ x.endPos ≤ (stop : Int)) = l at hr
    induction hr with
    | nil => rfl
    | cons h _ ih => rw [List.map_cons, List.map_cons, ih, h.1, h.2.1]

/-- An analyser that reports the last characters of the sentence. -/
def lastWord : Analyzer := fun s => .ok { references := [firstArticleOf (py"Ptk.") (s.length - 4) s.length] }

/-- C34. The code violates the claim: an abbreviation at the end of an element without a full stop is reported one character
longer than the text. -/
theorem reference_beyond_text :
    foundBy lastWord (actOf [plainArticle (py"1") (py"Hatályos a Ptk")]) = some [{ references := [(11, 15, some (py"Ptk."))] }] ∧
      (py"Hatályos a Ptk").length = 14 := by
  decide +kernel

example : (∀ s r, lastWord s = .ok r → ∀ x ∈ r.references, x.startPos < x.endPos) ∧
    (∀ e ∈ actElements definingAct, e.data.semantic ≠ none → InText e) := by
  constructor
  · intro s r h x hx
    cases h
    simp only [List.mem_singleton] at hx
    subst hx
    simp only [firstArticleOf]
    omega
  · intro e he hs
    have : e.data.semantic = none := by
      simp only [actElements, definingAct, actOf, List.flatMap_cons, List.flatMap_nil, List.append_nil, articleElements,
        plainArticle, plainParagraph, elementsL, elements, List.mem_append] at he
      simp at he
      rcases he with rfl | rfl <;> rfl
    exact absurd this hs

/-! ## C35 -/

/-- C35. In an act without semantic data, each element gets what the analyser says on it. An abbreviated act name is replaced by the
act of its latest definition recorded on the element itself or on one before it in the document, and is left alone if
there is none. What is missing: a definition is recorded where its sentence is read, and the sentence of a point has the
intro and the wrap-up of its paragraph too. -/
theorem latest_definition_partial {analyze : Analyzer} {a a' : Act} (hb : ∀ c ∈ a.children, Built c)
    (hu : ∀ e ∈ actElements a, e.data.semantic = none) (h : addSemantics analyze a = .ok a')
    {before after : List Entry} {e' : Entry} (he : actElements a' = before ++ e' :: after) :
    ∃ e r stop, (actElements a)[before.length]? = some e ∧ Said analyze e r stop ∧
      e'.data.abbreviations = some r.abbreviations ∧ Annotated (definitions (before ++ [e'])) r stop e e' := by
  obtain ⟨x, hx, rfl⟩ := (addSemantics_fresh (fun c hc => typedArticle_of_built (hb c hc)) hu).mp h
  have hread := scratchArticles_ok (show _ = Except.ok (x.1, x.2) from hx)
  have key : ∀ {defs : List ActIdAbbreviation} {es es' : List Entry}, Read analyze defs es es' →
      ∀ before, es' = before ++ e' :: after → ∃ e r stop, es[before.length]? = some e ∧ Said analyze e r stop ∧
        e'.data.abbreviations = some r.abbreviations ∧ Annotated (defs ++ definitions (before ++ [e'])) r stop e e' := by
    intro defs es es' hr
    induction hr with
    | nil => intro before hh; simp at hh
    | @cons defs e e'' es es' r stop said han _ ih =>
      intro before hh
      have hab : e''.data.abbreviations = some r.abbreviations := by obtain ⟨_, _, _, rfl, -⟩ := han; rfl
      cases before with
      | nil =>
        obtain ⟨rfl, -⟩ := List.cons.inj hh
        exact ⟨e, r, stop, rfl, said, hab, by simpa [definitions, hab] using han⟩
      | cons b before =>
        obtain ⟨rfl, hh'⟩ := List.cons.inj (show e'' :: es' = b :: (before ++ e' :: after) from hh)
        obtain ⟨e, r', stop, h1, h2, h3, h4⟩ := ih before hh'
        exact ⟨e, r', stop, by simpa using h1, h2, h3, by simpa [definitions, hab] using h4⟩
  exact key hread before he

/-- C35. The latest definition is unique, so there is one way to resolve a name. -/
theorem resolved_unique {defs : List ActIdAbbreviation} {x y z : Option Str} (hy : ActResolved defs x y)
    (hz : ActResolved defs x z) : y = z := by
  have no : ∀ {name act : Str}, Latest defs name act → ¬ ∀ d ∈ defs, d.abbreviation ≠ name := by
    rintro name act ⟨p, d, q, rfl, hn, -, -⟩ h
    exact h d (by simp) hn
  cases hy with
  | relative => cases hz; rfl
  | defined h => cases hz with
    | defined h' => rw [latest_unique h h']
    | other h' => exact absurd h' (no h)
  | other h => cases hz with
    | defined h' => exact absurd h (no h')
    | other _ => rfl

/-- C35. Articles after an article have no influence on it: if two acts begin in the same way, so do the results. -/
theorem later_articles_no_influence {analyze : Analyzer} {a b a' b' : Act} (ha : ∀ c ∈ a.children, Built c)
    (hb : ∀ c ∈ b.children, Built c) (ua : ∀ e ∈ actElements a, e.data.semantic = none)
    (ub : ∀ e ∈ actElements b, e.data.semantic = none) (h : addSemantics analyze a = .ok a')
    (h' : addSemantics analyze b = .ok b') {common resta restb : List Node} (hca : a.children = common ++ resta)
    (hcb : b.children = common ++ restb) :
    ∃ common' resta' restb', common'.length = common.length ∧ a'.children = common' ++ resta' ∧
      b'.children = common' ++ restb' := by
  obtain ⟨x, hx, rfl⟩ := (addSemantics_fresh (fun c hc => typedArticle_of_built (ha c hc)) ua).mp h
  obtain ⟨y, hy, rfl⟩ := (addSemantics_fresh (fun c hc => typedArticle_of_built (hb c hc)) ub).mp h'
  rw [hca] at hx
  rw [hcb] at hy
  simp only
  clear h h' hca hcb ha hb ua ub
  generalize ([] : List ActIdAbbreviation) = defs at hx hy
  induction common generalizing defs x y with
  | nil => exact ⟨[], x.1, y.1, rfl, rfl, rfl⟩
  | cons c cs ih =>
    rw [List.cons_append, scratchArticles] at hx hy
    obtain ⟨p, hp, hx⟩ := resBind_ok hx
    obtain ⟨p', hp', hy⟩ := resBind_ok hy
    rw [hp] at hp'
    cases hp'
    obtain ⟨q, hq, hx⟩ := resBind_ok hx
    obtain ⟨q', hq', hy⟩ := resBind_ok hy
    cases hx
    cases hy
    obtain ⟨l, r, r', hl, h1, h2⟩ := ih q q' _ hq hq'
    exact ⟨p.1 :: l, r, r', by simp [hl], by simp [h1], by simp [h2]⟩

example : (∀ c ∈ definingAct.children, Built c) ∧ (∀ e ∈ actElements definingAct, e.data.semantic = none) ∧
    (foundBy sampleAnalyzer definingAct).isSome = true := by
  refine ⟨definingAct_built, fun e he => ?_, by rw [definingAct_found]; rfl⟩
  simp only [actElements, definingAct, actOf, List.flatMap_cons, List.flatMap_nil, List.append_nil, articleElements,
    plainArticle, plainParagraph, elementsL, elements, List.mem_append] at he
  simp at he
  rcases he with rfl | rfl <;> rfl

/-- A point with text only. -/
def plainPoint (identifier text : Str) : Node := .sae .alphabeticPoint { identifier := some identifier, text := some text } []

/-- An act with a list. -/
def listAct (intro : Str) (wrapUp : Option Str) (points : List Node) : Act :=
  actOf [.article (py"1") none [.sae .paragraph { intro := some intro, wrapUp := wrapUp } points]]

/-- An analyser that finds the same reference in two sentences, and a definition at the end of one. -/
def wrapUpAnalyzer : Analyzer := knowing [
  (py"A törvény a Tv. szerint és a (Tv.)",
    { references := [firstArticleOf (py"Tv.") 12 15], abbreviations := [⟨py"Tv.", py"2010. évi C. törvény"⟩] }),
  (py"A törvény a Tv. szerint és más", { references := [firstArticleOf (py"Tv.") 12 15] })]

/-- C35. The code violates the claim: a definition in the wrap-up of a paragraph, which is after its points, has an influence on
them. -/
theorem later_text_influences :
    foundBy wrapUpAnalyzer (listAct (py"A törvény") (some (py"és a (Tv.)")) [plainPoint (py"a") (py"a Tv. szerint,")]) =
      some [{}, { references := [(2, 5, some (py"2010. évi C. törvény"))]
                  definitions := [(py"Tv.", py"2010. évi C. törvény")] }] ∧
    foundBy wrapUpAnalyzer (listAct (py"A törvény") (some (py"és más")) [plainPoint (py"a") (py"a Tv. szerint,")]) =
      some [{}, { references := [(2, 5, some (py"Tv."))] }] := by
  decide +kernel

/-- C35. The code violates the claim: a definition in an intro is read again with each point, and hides the later definition in
a point before. -/
theorem later_definition_hidden :
    foundBy (knowing [
        (py"A törvény (Tv.):", { abbreviations := [⟨py"Tv.", py"első"⟩] }),
        (py"A törvény (Tv.): másik törvény (Tv.).", { abbreviations := [⟨py"Tv.", py"első"⟩, ⟨py"Tv.", py"második"⟩] }),
        (py"A törvény (Tv.): a Tv.", {
          references := [firstArticleOf (py"Tv.") 19 22], abbreviations := [⟨py"Tv.", py"első"⟩] })])
        (listAct (py"A törvény (Tv.):") none
          [plainPoint (py"a") (py"másik törvény (Tv.),"), plainPoint (py"b") (py"a Tv.")]) =
      some [{ definitions := [(py"Tv.", py"első")] }, { definitions := [(py"Tv.", py"első"), (py"Tv.", py"második")] },
        { references := [(2, 5, some (py"első"))], definitions := [(py"Tv.", py"első")] }] := by
  decide +kernel

/-! ## C36 -/

/-- C36. An act was read, and then some of its articles were replaced by ones without semantic data. Reading it again gives
what reading it without semantic data gives, if this succeeds. What is missing: for each replaced article that defined
something, this article or a replaced one before it must define something now. -/
theorem incremental_partial {analyze : Analyzer} {a read scratch : Act} {edits : List (Node × Option Node)}
    (ha : ∀ c ∈ a.children, Built c) (ua : ∀ e ∈ actElements a, e.data.semantic = none)
    (h : addSemantics analyze a = .ok read) (he : read.children = edits.map Prod.fst)
    (hr : ∀ o n, (o, some n) ∈ edits → Built n ∧ ∀ x ∈ articleElements n, x.data.semantic = none)
    (hs : addSemantics analyze (stripAct { read with children := edits.map fun e => e.2.getD e.1 }) = .ok scratch)
    (cond : ∀ (i : Nat) (o n : Node), edits[i]? = some (o, some n) → definitions (articleElements o) ≠ [] →
      ∃ (j : Nat) (o' n' b : Node), j ≤ i ∧ edits[j]? = some (o', some n') ∧ scratch.children[j]? = some b ∧
        definitions (articleElements b) ≠ []) :
    addSemantics analyze { read with children := edits.map fun e => e.2.getD e.1 } = .ok scratch := by
  have typedA : ∀ c ∈ a.children, typedArticle c := fun c hc => typedArticle_of_built (ha c hc)
  have typedR : ∀ c ∈ read.children, typedArticle c := (addSemantics_ok h).2.2.2 typedA
  have hu : ∀ e ∈ edits, ∀ n, e.2 = some n → typedArticle n ∧ ∀ x ∈ articleElements n, x.data.semantic = none := by
    rintro ⟨o, r⟩ hm n rfl
    exact ⟨typedArticle_of_built (hr o n hm).1, (hr o n hm).2⟩
  have typed1 : ∀ e ∈ edits, typedArticle e.1 := fun e hm => typedR e.1 (by rw [he]; exact List.mem_map_of_mem hm)
  have typedE : ∀ c ∈ edits.map fun e => e.2.getD e.1, typedArticle c := by
    intro c hc
    obtain ⟨e, hm, rfl⟩ := List.mem_map.mp hc
    cases h2 : e.2 with
    | none => simpa [h2] using typed1 e hm
    | some n => simpa [h2] using (hu e hm n h2).1
  have typedS : ∀ c ∈ (stripAct { read with children := edits.map fun e => e.2.getD e.1 }).children, typedArticle c := by
    intro c hc
    obtain ⟨n, hn, rfl⟩ := List.mem_map.mp hc
    exact typedArticle_strip (typedE n hn)
  obtain ⟨y, hy, rfl⟩ := (addSemantics_fresh typedS (stripAct_unparsed _)).mp hs
  have hy' : scratchArticles analyze (edits.map fun e => e.2.getD e.1) [] = .ok y := by
    refine scratchArticles_strip ?_ hy
    simp only [stripAct, List.map_map]
    exact List.map_congr_left fun e _ => (stripArticle_stripArticle _).symm
  obtain ⟨x, hx, rfl⟩ := (addSemantics_fresh typedA ua).mp h
  simp only at he
  obtain ⟨s', hs'⟩ := edits_spec edits a.children [] {} typedA hu typed1 (new := x.2) (new' := y.2) (bs := y.1)
    (by rw [hx, ← he]) hy' (.inr ⟨rfl, rfl, cond⟩)
  have hread := read_all (scratchArticles_ok (show _ = Except.ok (x.1, x.2) from hx))
  unfold addSemantics
  split
  · rename_i hp
    obtain ⟨s'', hs''⟩ := semanticsArticles_parsed (analyze := analyze) (s := {}) (cs := edited edits) rfl (by
      intro c hc
      refine ⟨typedE c hc, ?_⟩
      obtain ⟨⟨o, rep⟩, hm, rfl⟩ := List.mem_map.mp hc
      cases rep with
      | none =>
        intro e hel
        have := hread e (List.mem_flatMap.mpr ⟨o, by rw [he]; exact List.mem_map_of_mem hm, hel⟩)
        exact ⟨this.1, this.2.2⟩
      | some n =>
        obtain ⟨h1, h2⟩ := hu _ hm n rfl
        show ∀ e ∈ articleElements n, _
        cases n with
        | article i t ps =>
          have hpa := (semanticAll_iff _).mp hp (.article i t ps) (List.mem_filter.mpr ⟨hc, rfl⟩)
          obtain rfl := article_nothing h1 h2 hpa
          simp [articleElements, elementsL]
        | _ => simp [articleElements])
    rw [hs'] at hs''
    simp only [Except.ok.injEq, Prod.mk.injEq] at hs''
    rw [hs''.1]
    rfl
  · simp only
    rw [show (edits.map fun e => e.2.getD e.1) = edited edits from rfl, hs']
    rfl

/-- The replacement of the first article. -/
def withoutDefinition : Node := plainArticle (py"1") (py"Semmi törvény.")

/-- Reading, replacing the first article and reading again. -/
def readAgain (analyze : Analyzer) (a : Act) (first : Node) : Option (List Found) :=
  match addSemantics analyze a with
  | .ok a' => foundBy analyze { a' with children := first :: a'.children.drop 1 }
  | .error _ => none

/-- C36. The code violates the claim: if the article with the definition is replaced by one without, the other article keeps
the act that the abbreviation meant before. -/
theorem stale_definition :
    readAgain sampleAnalyzer definingAct withoutDefinition =
      some [{}, { references := [(2, 10, some (py"2010. évi C. törvény"))] }] ∧
    foundBy sampleAnalyzer { definingAct with children := withoutDefinition :: definingAct.children.drop 1 } =
      some [{}, { references := [(2, 10, some (py"Tv."))] }] := by
  decide +kernel

example : readAgain sampleAnalyzer definingAct (plainArticle (py"1") definingText) = foundBy sampleAnalyzer definingAct ∧
    Built (plainArticle (py"1") definingText) ∧
    ∀ x ∈ articleElements (plainArticle (py"1") definingText), x.data.semantic = none := by
  refine ⟨by decide +kernel, built_of_test _ (by decide +kernel), fun x hx => ?_⟩
  simp only [articleElements, plainArticle, plainParagraph, elementsL, elements, List.mem_append] at hx
  simp at hx
  subst hx
  rfl

end Verif.Props
