import Verif.Proofs.Recorded
import Verif.Props.Changes
import Verif.Props.Divisions
import Verif.Props.Pipeline
import Verif.Props.Semantics

/-! # What is recorded in an act (C76) -/

namespace Verif.Props

open Verif Verif.Spec

set_option maxRecDepth 100000

/-! ## Samples -/

/-- A text that defines an abbreviation. -/
def codeText : Str := py"A polgári törvénykönyvről szóló 2013. évi V. törvény (a továbbiakban: Ptk.) szerint jár el."

/-- A text that amends what it means. -/
def codeAmendingText : Str := py"A Ptk. 5. § (3) bekezdésében az „x” szövegrész helyébe az „y” szöveg lép."

/-- An act that defines the abbreviation and then amends what it means. -/
def codeAmendingAct : Act := actOf [plainArticle (py"1") codeText,
  plainArticle (py"2") codeAmendingText]

/-- What it amends. -/
def codePlace : Reference :=
  { act := some (py"2013. évi V. törvény"), article := some (.one (py"5")), paragraph := some (.one (py"3")) }

theorem codeAmendingAct_fresh : (∀ c ∈ codeAmendingAct.children, Built c) ∧ ∀ e ∈ actElements codeAmendingAct, e.data.semantic = none := by
  refine ⟨built_of_testL (by decide +kernel), fun e he => ?_⟩
  simp only [actElements, codeAmendingAct, actOf, List.flatMap_cons, List.flatMap_nil, List.append_nil, articleElements,
    plainArticle, plainParagraph, elementsL, elements, List.mem_append] at he
  simp at he
  rcases he with rfl | rfl <;> rfl

/-! ## Sentences of elements -/

/-- C76. A paragraph whose text ends as sentences do is its own sentence, all of it. -/
theorem own_sentence {d : SaeData} {t : Str} (h : d.text = some t) (he : EndsSentence t) : SentenceOf ⟨[], d, []⟩ t t.length := by
  have hl : ListItem t t := by
    refine ⟨fun j hj hs => ?_, [], by simp, [], by simp, by simp⟩
    obtain ⟨c, hc, e⟩ := he
    obtain ⟨u, rfl⟩ := hs
    simp only [listEnds, List.mem_cons, List.not_mem_nil, or_false] at hj
    rcases hj with rfl | rfl | rfl | rfl | rfl | rfl <;> rw [List.getLast?_append] at e <;> simp at e <;> subst e <;> simp at hc
  have := SentenceOf.text (e := ⟨[], d, []⟩) h hl (.asIs fun _ => he)
  simpa using this

/-- C76. An element has one sentence at most. -/
theorem sentence_unique {e : Entry} {s s' : Str} {stop stop' : Nat} (h : SentenceOf e s stop) (h' : SentenceOf e s' stop') :
    s = s' ∧ stop = stop' := by
  have item : ∀ {t c c' : Str}, ListItem t c → ListItem t c' → c = c' := fun h h' => (stripJunk_item h).symm.trans (stripJunk_item h')
  have at' : ∀ {c after m m' : Str}, InSentence c after m → InSentence c after m' → m = m' := by
    intro c after m m' h h'
    cases h with
    | asIs h => cases h' with
      | asIs => rfl
      | stopped ha hn => exact absurd (h ha) hn
    | stopped ha hn => cases h' with
      | asIs h => exact absurd (h ha) hn
      | stopped => rfl
  cases h with
  | text own hl hm => cases h' with
    | text own' hl' hm' =>
      rw [own] at own'
      cases own'
      obtain rfl := item hl hl'
      obtain rfl := at' hm hm'
      exact ⟨rfl, rfl⟩
    | intro own' => rw [own] at own'; cases own'
  | intro own own2 hl hm => cases h' with
    | text own' => rw [own] at own'; cases own'
    | intro own' own3 hl' hm' =>
      rw [own2] at own3
      cases own3
      obtain rfl := item hl hl'
      obtain rfl := at' hm hm'
      exact ⟨rfl, rfl⟩

theorem single_fresh (t : Str) : (∀ c ∈ (actOf [plainArticle (py"1") t]).children, Built c) ∧
    ∀ e ∈ actElements (actOf [plainArticle (py"1") t]), e.data.semantic = none := by
  refine ⟨?_, fun e he => ?_⟩
  · exact built_of_testL (by simp [actOf, plainArticle, plainParagraph, builtTestL, builtTest]; exact ⟨⟨rfl, rfl⟩, rfl⟩)
  · simp only [actElements, actOf, List.flatMap_cons, List.flatMap_nil, List.append_nil, articleElements, plainArticle, plainParagraph,
      elementsL, elements] at he
    simp at he
    rw [he]

/-- An act of one sentence. -/
theorem single_sentence {t : Str} (he : EndsSentence t) (h : (addSemantics analyze (actOf [plainArticle (py"1") t])).toOption.isSome = true) :
    ∃ a' e, addSemantics analyze (actOf [plainArticle (py"1") t]) = .ok a' ∧ actElements a' = [] ++ e :: [] ∧ SentenceOf e t t.length := by
  cases ha : addSemantics analyze (actOf [plainArticle (py"1") t]) with
  | error e => rw [ha] at h; cases h
  | ok a' =>
    have hk := semantics_keep_elements (single_fresh t).1 ha
    have e1 : actElements (actOf [plainArticle (py"1") t]) = [⟨[], { text := some t }, []⟩] := rfl
    rw [e1] at hk
    generalize hes : actElements a' = es at hk
    cases hk with
    | cons hk hn =>
      cases hn
      rename_i e'
      obtain ⟨h1, h2, -, h3, h4, -⟩ := hk
      exact ⟨a', e', rfl, hes, sentenceOf_congr h1.symm h2.symm h3.symm h4.symm (own_sentence (d := { text := some t }) rfl he)⟩

/-! ## What is recorded -/

/-- C76. On each element of an act exactly that is recorded what is taken to be said in its sentence and ends in the element. -/
theorem sentences_recorded {an : Analyzer} {a a' : Act} (hb : ∀ c ∈ a.children, Built c) (hu : ∀ e ∈ actElements a, e.data.semantic = none)
    (h : addSemantics an a = .ok a') {before after : List Entry} {e : Entry} (he : actElements a' = before ++ e :: after) {s : Str}
    {stop : Nat} (hs : SentenceOf e s stop) : ∃ r, SaidIn an s r ∧ Records (definitions (before ++ [e])) r stop e := by
  obtain ⟨e₀, r, stop', -, hsaid, -, han⟩ := latest_definition_partial hb hu h he
  have hr := records_of_annotated han
  have hs' : SentenceOf e₀ s stop := by
    obtain ⟨_, _, _, rfl, -⟩ := han
    refine sentenceOf_congr ?_ ?_ ?_ ?_ hs <;> rfl
  obtain ⟨rfl, hsaid⟩ := said_in_sentence hs' hsaid
  exact ⟨r, hsaid, hr⟩

/-- C76. If the sentence of an element states a change of the law in one of the usual ways, this change is recorded on the element, with
the abbreviations of the act resolved. What is missing: the sentence must not be longer than 10000 characters. -/
theorem changes_recorded_partial {a a' : Act} (hb : ∀ c ∈ a.children, Built c) (hu : ∀ e ∈ actElements a, e.data.semantic = none)
    (h : addSemantics analyze a = .ok a') {before after : List Entry} {e : Entry} (he : actElements a' = before ++ e :: after) {s : Str}
    {stop : Nat} (hs : SentenceOf e s stop) (hl : s.length ≤ 10000) {c : Change} (hc : States s c) :
    ∃ r, Reports Listed c r ∧ Records (definitions (before ++ [e])) r stop e := by
  obtain ⟨r, hr, h1⟩ := sentences_recorded hb hu h he hs
  cases hr with
  | said _ hr => exact ⟨r, change_reported hc hr, h1⟩
  | nothing hn => exact absurd ⟨hl, telling_states hc⟩ hn

set_option synthInstance.maxSize 1000 in
example : ∃ a' before e, addSemantics analyze codeAmendingAct = .ok a' ∧ actElements a' = before ++ [e] ∧
    SentenceOf e codeAmendingText 73 ∧
    (∃ c, States codeAmendingText c) ∧
    definitions (before ++ [e]) = [⟨py"Ptk.", py"2013. évi V. törvény"⟩] ∧
    e.data.semantic = some [.textAmendment codePlace (py"x") (py"y")] := by
  have h : ((addSemantics analyze codeAmendingAct).toOption.map fun a' => (actElements a').map fun e =>
      (e.before, e.after, e.data.text, e.data.abbreviations, e.data.semantic)) = some [
        ([], [], some codeText, some [⟨py"Ptk.", py"2013. évi V. törvény"⟩], some []),
        ([], [], some codeAmendingText, some [],
          some [.textAmendment codePlace (py"x") (py"y")])] := by decide +kernel
  cases ha : addSemantics analyze codeAmendingAct with
  | error e => rw [ha] at h; cases h
  | ok a' =>
    rw [ha] at h
    simp only [Except.toOption, Option.map_some, Option.some.injEq] at h
    obtain ⟨e1, es, he, h1, h2⟩ := List.map_eq_cons_iff.mp h
    obtain ⟨e2, es, rfl, h3, h4⟩ := List.map_eq_cons_iff.mp h2
    obtain rfl := List.map_eq_nil_iff.mp h4
    obtain ⟨b1, d1, c1⟩ := e1
    obtain ⟨b2, d2, c2⟩ := e2
    simp only [Prod.mk.injEq] at h1 h3
    obtain ⟨rfl, rfl, h5, h6, h7⟩ := h1
    obtain ⟨rfl, rfl, h8, h9, h10⟩ := h3
    refine ⟨a', [⟨[], d1, []⟩], ⟨[], d2, []⟩, rfl, he, own_sentence h8 ⟨'.', by simp, by decide +kernel⟩, ⟨_, texts_stated⟩, ?_, h10⟩
    simp [definitions, h6, h9]

/-- C76. If the sentence of an element is an ordinary one, what it mentions is recorded, and nothing else. What is missing: the sentence must
be one of those that are looked at. -/
theorem mentions_recorded_partial {a a' : Act} (hb : ∀ c ∈ a.children, Built c) (hu : ∀ e ∈ actElements a, e.data.semantic = none)
    (h : addSemantics analyze a = .ok a') {before after : List Entry} {e : Entry} (he : actElements a' = before ++ e :: after) {s : Str}
    {stop : Nat} (hs : SentenceOf e s stop) (hl : LookedAt s) {ms : List Mention} (ho : Ordinary 0 s ms) (hc : MakesNoChange s) :
    ∃ r xss ass, Both Mentioned ms xss ∧ Both Defined ms ass ∧ r = ⟨xss.flatten, [], ass.flatten⟩ ∧
      Records (definitions (before ++ [e])) r stop e := by
  obtain ⟨r, hr, h1⟩ := sentences_recorded hb hu h he hs
  cases hr with
  | said _ hr =>
    obtain ⟨⟨xss, h2, h3⟩, ⟨ass, h4, h5⟩, h6⟩ := mentions_reported ho hc hr
    refine ⟨r, xss, ass, h2, h4, ?_, h1⟩
    cases r
    simp only at h3 h5 h6
    rw [h3, h5, h6]
  | nothing hn => exact absurd hl hn

example : (∃ a' e, addSemantics analyze (actOf [plainArticle (py"1") (py"A bíróság a Ptk. 5. § (1) bekezdése szerint dönt.")]) = .ok a' ∧
      actElements a' = [] ++ e :: [] ∧ SentenceOf e (py"A bíróság a Ptk. 5. § (1) bekezdése szerint dönt.") 49) ∧
    LookedAt (py"A bíróság a Ptk. 5. § (1) bekezdése szerint dönt.") ∧
    Ordinary 0 (py"A bíróság a Ptk. 5. § (1) bekezdése szerint dönt.") [courtMention] ∧
    MakesNoChange (py"A bíróság a Ptk. 5. § (1) bekezdése szerint dönt.") := by
  refine ⟨single_sentence ⟨'.', by simp, by decide +kernel⟩ (by decide +kernel), ⟨by decide, py"§", by simp [tellingWords], by decide +kernel⟩,
    court_ordinary, by unfold MakesNoChange EndsIn BeginsWith; decide +kernel⟩

/-- C76. Nothing is recorded of a sentence that is not looked at. -/
theorem nothing_recorded {an : Analyzer} {a a' : Act} (hb : ∀ c ∈ a.children, Built c) (hu : ∀ e ∈ actElements a, e.data.semantic = none)
    (h : addSemantics an a = .ok a') {e : Entry} (he : e ∈ actElements a') {s : Str} {stop : Nat} (hs : SentenceOf e s stop)
    (hl : ¬ LookedAt s) : e.data.references = some [] ∧ e.data.semantic = some [] ∧ e.data.abbreviations = some [] := by
  obtain ⟨before, after, he⟩ := List.append_of_mem he
  obtain ⟨r, hr, refs, semantic, recorded, h1, h2, h3, h4, h5, h6, -⟩ := sentences_recorded hb hu h he hs
  cases hr with
  | said h _ => exact absurd h hl
  | nothing =>
    cases h4
    cases h5
    rw [h1, h2, h3, List.perm_nil.mp h6]
    exact ⟨rfl, rfl, rfl⟩

example : (∃ a' e, addSemantics analyze (actOf [plainArticle (py"1") (py"A Ptk. szerint jár el.")]) = .ok a' ∧
      actElements a' = [] ++ e :: [] ∧ SentenceOf e (py"A Ptk. szerint jár el.") 22) ∧ ¬ LookedAt (py"A Ptk. szerint jár el.") := by
  refine ⟨single_sentence ⟨'.', by simp, by decide +kernel⟩ (by decide +kernel), fun h => absurd h.2 (by decide +kernel)⟩

/-- C76. If the sentence of an element states a change of the divisions of an act in one of the usual ways, this change is recorded on the
element. What is missing: the sentence must not be longer than 10000 characters, and if it adds a division or a subtitle and nothing else,
it must have a telling word. -/
theorem divisions_recorded_partial {a a' : Act} (hb : ∀ c ∈ a.children, Built c) (hu : ∀ e ∈ actElements a, e.data.semantic = none)
    (h : addSemantics analyze a = .ok a') {before after : List Entry} {e : Entry} (he : actElements a' = before ++ e :: after) {s : Str}
    {stop : Nat} (hs : SentenceOf e s stop) (hl : s.length ≤ 10000) {c : StructuralChange} (hc : StatesStructural s c)
    (ht : ((∃ x d, c = .add x d) ∨ ∃ x p, c = .addSubtitle x p) → ∃ w ∈ tellingWords, w <:+: s) :
    ∃ r, ReportsStructural c r ∧ Records (definitions (before ++ [e])) r stop e := by
  obtain ⟨r, hr, h1⟩ := sentences_recorded hb hu h he hs
  cases hr with
  | said _ hr => exact ⟨r, division_reported hc hr, h1⟩
  | nothing hn =>
    refine absurd ⟨hl, ?_⟩ hn
    by_cases hx : (∃ x d, c = .add x d) ∨ ∃ x p, c = .addSubtitle x p
    · exact ht hx
    · exact telling_structural hc (fun x d e => hx (.inl ⟨x, d, e⟩)) fun x p e => hx (.inr ⟨x, p, e⟩)

example : (∃ a' e, addSemantics analyze (actOf [plainArticle (py"1") (py"A Ptk. II. Fejezete helyébe a következő fejezet lép:")]) = .ok a' ∧
      actElements a' = [] ++ e :: [] ∧ SentenceOf e (py"A Ptk. II. Fejezete helyébe a következő fejezet lép:") 52) ∧
    StatesStructural (py"A Ptk. II. Fejezete helyébe a következő fejezet lép:") (.replace (codeAct 2) (.chapter (py"II"))) :=
  ⟨single_sentence ⟨':', by simp, by decide +kernel⟩ (by decide +kernel), replace_stated⟩

/-! ## Acts that are made -/

/-- What the last step was made of. -/
theorem produced_from {src : Sources} {r : LawRawText} {a : Act} (h : Produces src .act r (.act a)) :
    ∃ b, (∀ c ∈ b.children, Built c) ∧ (∀ e ∈ actElements b, e.data.semantic = none) ∧ addSemantics src.analyze b = .ok a := by
  obtain ⟨body, a', b, c', h1, h2, h3, h4, ho⟩ := h
  cases ho
  have hp : Produces src .blockOnly r (.blockOnly b) := ⟨body, a', b, h1, h2, h3, rfl⟩
  refine ⟨b, fun n hn => ((produced_well_made hp (.inr (.inl rfl))).2 n hn).2.1, fun e he => ?_, h4⟩
  obtain ⟨n, hn, he⟩ := List.mem_flatMap.1 he
  obtain ⟨k, cs, hi⟩ := articleElements_inside he
  exact (produced_unanalysed hp (.inr rfl) n hn k e.data cs hi).2.2

/-- C76. In an act that is made, what the sentence of an element changes is recorded on it. What is missing: the sentence must not be longer
than 10000 characters. -/
theorem produced_changes_recorded_partial {src : Sources} (ha : src.analyze = analyze) {t : LawRawText} {a : Act}
    (h : Produces src .act t (.act a)) {before after : List Entry} {e : Entry} (he : actElements a = before ++ e :: after) {s : Str}
    {stop : Nat} (hs : SentenceOf e s stop) (hl : s.length ≤ 10000) {c : Change} (hc : States s c) :
    ∃ r, Reports Listed c r ∧ Records (definitions (before ++ [e])) r stop e := by
  obtain ⟨b, hb, hu, h⟩ := produced_from h
  exact changes_recorded_partial hb hu (ha ▸ h) he hs hl hc

/-- C76. In an act that is made, what the sentence of an element changes about the divisions of an act is recorded on it. What is missing:
the sentence must not be longer than 10000 characters, and if it adds a division or a subtitle and nothing else, it must have a telling
word. -/
theorem produced_divisions_recorded_partial {src : Sources} (ha : src.analyze = analyze) {t : LawRawText} {a : Act}
    (h : Produces src .act t (.act a)) {before after : List Entry} {e : Entry} (he : actElements a = before ++ e :: after) {s : Str}
    {stop : Nat} (hs : SentenceOf e s stop) (hl : s.length ≤ 10000) {c : StructuralChange} (hc : StatesStructural s c)
    (ht : ((∃ x d, c = .add x d) ∨ ∃ x p, c = .addSubtitle x p) → ∃ w ∈ tellingWords, w <:+: s) :
    ∃ r, ReportsStructural c r ∧ Records (definitions (before ++ [e])) r stop e := by
  obtain ⟨b, hb, hu, h⟩ := produced_from h
  exact divisions_recorded_partial hb hu (ha ▸ h) he hs hl hc ht

/-- C76. In an act that is made, what an ordinary sentence mentions is recorded on its element. What is missing: the sentence must be one of
those that are looked at. -/
theorem produced_mentions_recorded_partial {src : Sources} (ha : src.analyze = analyze) {t : LawRawText} {a : Act}
    (h : Produces src .act t (.act a)) {before after : List Entry} {e : Entry} (he : actElements a = before ++ e :: after) {s : Str}
    {stop : Nat} (hs : SentenceOf e s stop) (hl : LookedAt s) {ms : List Mention} (ho : Ordinary 0 s ms) (hc : MakesNoChange s) :
    ∃ r xss ass, Both Mentioned ms xss ∧ Both Defined ms ass ∧ r = ⟨xss.flatten, [], ass.flatten⟩ ∧
      Records (definitions (before ++ [e])) r stop e := by
  obtain ⟨b, hb, hu, h⟩ := produced_from h
  exact mentions_recorded_partial hb hu (ha ▸ h) he hs hl ho hc

/-- C34. In an act that is made, every recorded reference is a non-empty interval in the own text or intro of its element, in the order of
position. What is missing: if the element should end its sentence and has no such mark, the reference may be one character longer. -/
theorem produced_references_in_text_partial {src : Sources} (ha : src.analyze = analyze) {t : LawRawText} {a : Act}
    (h : Produces src .act t (.act a)) : ∀ e ∈ actElements a, InText e := by
  obtain ⟨b, hb, hu, h⟩ := produced_from h
  exact program_references_in_text_partial hb (fun e he hs => absurd (hu e he) hs) (ha ▸ h)

/-! ## What is not looked at -/

/-- C76. What can be lost with a sentence that has no telling word, even if its spaces are dropped: no definition, no article, no
paragraph and nothing with a letter, and no change but block amendments. What is missing: it can say that something named by a number or
an abbreviation is new in an act. -/
theorem silent_partial {s : Str} {r : Analysis} (ht : ∀ w ∈ tellingWords, ¬ w <:+: squeeze s) (h : analyze s = .ok r) :
    r.abbreviations = [] ∧
      (∀ x ∈ r.references, x.reference.article = none ∧ x.reference.paragraph = none ∧
        (∀ p, x.reference.point = some p ∨ x.reference.subpoint = some p → Numbered s p)) ∧
      ∀ d ∈ r.semantic, ∃ p i, d = .blockAmendment p i := by
  have hb : ')' ∉ squeeze s := fun h => ht (py")") (by simp [tellingWords]) (char_infix h)
  have ha : '§' ∉ squeeze s := fun h => ht (py"§") (by simp [tellingWords]) (char_infix h)
  refine ⟨?_, ?_, fun d hd => data_block ht (semantic_data_written h d hd)⟩
  · refine List.eq_nil_iff_forall_not_mem.mpr fun x hx => ?_
    exact hb (abbreviation_bracket (abbreviations_defined h x hx))
  · intro x hx
    have hc : ∀ l p, component x.reference l = some p → (l = .points ∨ l = .subpoints) ∧ Numbered s p :=
      fun l p hp => component_numbered hb ha ((references_written h x hx).2.2.2.components l p hp)
    refine ⟨?_, ?_, ?_⟩
    · cases hp : x.reference.article with
      | none => rfl
      | some p => rcases (hc .articles p hp).1 with h | h <;> cases h
    · cases hp : x.reference.paragraph with
      | none => rfl
      | some p => rcases (hc .paragraphs p hp).1 with h | h <;> cases h
    · rintro p (hp | hp)
      · exact (hc .points p hp).2
      · exact (hc .subpoints p hp).2

example : ∃ r, analyze (py"A Ptk. szerint jár el.") = .ok r ∧ ∀ w ∈ tellingWords, ¬ w <:+: squeeze (py"A Ptk. szerint jár el.") :=
  (analysed_of (by decide +kernel)).imp fun _ h => ⟨h, by decide +kernel⟩

/-- What is recorded on the elements of an act: the references and the semantic data. -/
def recordedBy (an : Analyzer) (a : Act) : Option (List (List OutgoingReference × List SemanticData)) :=
  (addSemantics an a).toOption.map fun a' => (actElements a').map fun e => (e.data.references.getD [], e.data.semantic.getD [])

/-- C76. The code violates the claim: what is said in a sentence without telling words is lost, be it a reference to an act by its
abbreviation, to a point by its number, to an act by its number with `tv.`, or that there is a new chapter, a new subtitle or a new point
in an act. -/
theorem sentences_lost :
    (((analyze (py"A Ptk. szerint jár el.")).toOption.map fun r => r.references) = some [⟨2, 6, { act := some (py"Ptk.") }⟩] ∧
      recordedBy analyze (actOf [plainArticle (py"1") (py"A Ptk. szerint jár el.")]) = some [([], [])]) ∧
    (((analyze (py"Az 5. pont szerint jár el.")).toOption.map fun r => r.references) = some [⟨3, 10, { point := some (.one (py"5")) }⟩] ∧
      recordedBy analyze (actOf [plainArticle (py"1") (py"Az 5. pont szerint jár el.")]) = some [([], [])]) ∧
    (((analyze (py"A 2013. évi V. tv. szerint jár el.")).toOption.map fun r => r.references) =
        some [⟨2, 18, { act := some (py"2013. évi V. törvény") }⟩] ∧
      recordedBy analyze (actOf [plainArticle (py"1") (py"A 2013. évi V. tv. szerint jár el.")]) = some [([], [])]) ∧
    (((analyze (py"A Ptk. a következő II. Fejezettel egészül ki:")).toOption.map fun r => r.semantic) =
        some [.blockAmendment (.struct { act := some (py"Ptk."), chapter := some (py"2") }) true] ∧
      recordedBy analyze (actOf [plainArticle (py"1") (py"A Ptk. a következő II. Fejezettel egészül ki:")]) = some [([], [])]) ∧
    (((analyze (py"A Ptk. a következő 6. ponttal egészül ki:")).toOption.map fun r => r.semantic) =
        some [.blockAmendment (.ref { act := some (py"Ptk."), point := some (.one (py"6")) }) true] ∧
      recordedBy analyze (actOf [plainArticle (py"1") (py"A Ptk. a következő 6. ponttal egészül ki:")]) = some [([], [])]) := by
  refine ⟨⟨?_, ?_⟩, ⟨?_, ?_⟩, ⟨?_, ?_⟩, ⟨?_, ?_⟩, ?_, ?_⟩ <;> decide +kernel

/-! ## The same with the grammar of the program -/

/-- C34. With the parser of the program too, an abbreviation at the end of an element without a full stop is one character longer than the
text. -/
theorem program_reference_beyond_text :
    foundBy analyze (actOf [plainArticle (py"1") (py"Hatályos a Ptk")]) = some [{ references := [(11, 15, some (py"Ptk."))] }] ∧
      (py"Hatályos a Ptk").length = 14 := by
  refine ⟨?_, ?_⟩ <;> decide +kernel

/-- C35. With the parser of the program too, a definition in the wrap-up of a paragraph has an influence on the points before it. -/
theorem program_later_text_influences :
    foundBy analyze (listAct (py"Az eljárás") (some (py"és a 2010. évi C. törvény (a továbbiakban: Tv.) alapján."))
        [plainPoint (py"a") (py"a Tv. szerint,")]) =
      some [{}, { references := [(2, 5, some (py"2010. évi C. törvény"))]
                  definitions := [(py"Tv.", py"2010. évi C. törvény")] }] ∧
    foundBy analyze (listAct (py"Az eljárás") (some (py"és más (módon) folyik.")) [plainPoint (py"a") (py"a Tv. szerint,")]) =
      some [{}, { references := [(2, 5, some (py"Tv."))] }] := by
  refine ⟨?_, ?_⟩ <;> decide +kernel

/-- C35. With the parser of the program too, a definition in an intro is read again with each point, and hides the later definition in a
point before. -/
theorem program_later_definition_hidden :
    foundBy analyze (listAct (py"A 2010. évi C. törvény (a továbbiakban: Tv.) és") none
        [plainPoint (py"a") (py"a 2011. évi I. törvény (a továbbiakban: Tv.),"), plainPoint (py"b") (py"a Tv. 5. §-a.")]) =
      some [{ references := [(2, 22, some (py"2010. évi C. törvény"))], definitions := [(py"Tv.", py"2010. évi C. törvény")] },
        { references := [(2, 22, some (py"2011. évi I. törvény"))]
          definitions := [(py"Tv.", py"2010. évi C. törvény"), (py"Tv.", py"2011. évi I. törvény")] },
        { references := [(2, 5, some (py"2010. évi C. törvény")), (6, 12, some (py"2010. évi C. törvény"))]
          definitions := [(py"Tv.", py"2010. évi C. törvény")] }] := by
  decide +kernel

/-- C36. With the parser of the program too, if the article with the definition is replaced by one without, the other article keeps the act
that the abbreviation meant before. -/
theorem program_stale_definition :
    readAgain analyze (actOf [plainArticle (py"1") codeText, plainArticle (py"2") (py"A Ptk. 5. §-a.")])
        (plainArticle (py"1") (py"Üres törvény.")) =
      some [{}, { references := [(2, 6, some (py"2013. évi V. törvény")), (7, 13, some (py"2013. évi V. törvény"))] }] ∧
    foundBy analyze (actOf [plainArticle (py"1") (py"Üres törvény."), plainArticle (py"2") (py"A Ptk. 5. §-a.")]) =
      some [{}, { references := [(2, 6, some (py"Ptk.")), (7, 13, some (py"Ptk."))] }] := by
  refine ⟨?_, ?_⟩ <;> decide +kernel

end Verif.Props
