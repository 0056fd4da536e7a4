import Verif.Proofs.Stopped
import Verif.Props.Understood
import Verif.Props.Printout

/-! # What stops the making of an act (C88) -/

namespace Verif.Props
open Spec

/-- C88. The amendments of an act are not made exactly if something stops one of its paragraphs, and the exception is that of the first such
paragraph. -/
theorem amendments_stopped {an : Analyzer} {a : Act} (hb : ∀ n ∈ a.children, Built n) (e : Err) :
    parseBlockAmendments an a = .error e ↔ FirstStop (AmendmentStopped an) (actParagraphs a) e :=
  (stopsAt_exact (stops := AmendmentStopped an) (fun _ _ _ => amendmentStopped_unique) (parseBlockAmendments_stops hb)).1 e

/-- C88. They are made exactly if nothing stops any paragraph. -/
theorem amendments_made_exactly {an : Analyzer} {a : Act} (hb : ∀ n ∈ a.children, Built n) :
    (∃ b, parseBlockAmendments an a = .ok b) ↔ ∀ p ∈ actParagraphs a, ∀ e, ¬ AmendmentStopped an p e :=
  (stopsAt_exact (stops := AmendmentStopped an) (fun _ _ _ => amendmentStopped_unique) (parseBlockAmendments_stops hb)).2

/-- C88. With the analyser of the program, an act whose texts end as texts in lists do gets no semantic data exactly if something stops one of
its elements, and the exception is that of the first such element. -/
theorem semantics_stopped {a : Act} (hb : ∀ n ∈ a.children, Built n) (hn : ∀ e ∈ actElements a, e.data.semantic = none)
    (hw : ∀ n ∈ a.children, Whole n) (ht : ∀ e ∈ actElements a, ∀ t, HasOwn e.data t → ∃ core, ListItem t core) (e : Err) :
    addSemantics analyze a = .error e ↔ FirstStop (SentenceStopped analyze) (actElements a) e :=
  (stopsAt_exact (stops := SentenceStopped analyze) (fun _ _ _ => sentenceStopped_unique) (addSemantics_stops hb hn hw
    fun x hx defs y => own_error (fun _ _ h => analysis_endApart h) (ht x hx) defs y)).1 e

/-- C88. The first step on the text of an act raises a ValueError exactly if its fix-ups fail, and otherwise it raises the error of the act
parser or nothing. -/
theorem first_step_exceptions (s : Sources) (r : LawRawText) :
    ((s.extractor (.raw r)).stop = some .valueError ↔ ∃ e, doAllFixups s.fixups r.identifier r.body = .error e) ∧
      ∀ e, (s.extractor (.raw r)).stop = some e → e = .valueError ∨ e = .actParsing := by
  have fix : ∀ {body e}, doAllFixups s.fixups r.identifier body = .error e → e = .valueError := by
    intro body e h
    unfold doAllFixups at h
    split at h
    · cases h
    · rename_i fixes hx
      clear hx
      induction fixes generalizing body with
      | nil => cases h
      | cons f fs ih =>
        rw [fixupLoop] at h
        split at h
        · exact ih h
        · exact (Except.error.inj h).symm
  simp only [Sources.extractor, structureOnlyAct]
  cases hf : doAllFixups s.fixups r.identifier r.body with
  | error e =>
    obtain rfl := fix hf
    exact ⟨⟨fun _ => ⟨_, rfl⟩, fun _ => rfl⟩, fun e h => .inl (Option.some.inj h).symm⟩
  | ok body =>
    rcases act_or_error r.identifier r.subject r.publicationDate body with ⟨a, ha⟩ | ha
    · simp [ha, genOf, bind, Except.bind, Except.map]
    · simp [ha, genOf, bind, Except.bind, Except.map]

/-- C88. With the analyser of the program, these are the exceptions of the later steps on what the steps before them have made: AssertionError,
GrammaticalParsingError and BlockAmendmentStructureParsingError while amendments are made, IndexError and GrammaticalParsingError after that. -/
theorem later_step_exceptions {s : Sources} (hs : s.analyze = analyze) {r : LawRawText} :
    (∀ a e, Produces s .structureOnly r (.structureOnly a) → (s.extractor (.structureOnly a)).stop = some e →
      e = .assertionError ∨ e = .grammaticalParsing ∨ e = .blockAmendmentParsing) ∧
    ∀ b e, Produces s .blockOnly r (.blockOnly b) → (s.extractor (.blockOnly b)).stop = some e → e = .indexError ∨ e = .grammaticalParsing := by
  constructor
  · intro a e h he
    have hb : ∀ n ∈ a.children, Built n := fun n hn => ((produced_well_made h (.inl rfl)).2 n hn).2.1
    cases hp : parseBlockAmendments s.analyze a with
    | ok b => simp [Sources.extractor, genOf, hp, Except.map] at he
    | error x =>
      obtain rfl : x = e := by simpa [Sources.extractor, genOf, hp, Except.map] using he
      obtain ⟨_, p, _, -, -, hx⟩ := (amendments_stopped hb x).1 hp
      cases hx with
      | noIntroduction => exact .inl rfl
      | notAnalysed _ _ _ _ _ hx => exact .inr (.inl (analysis_failure (hs ▸ hx)))
      | several => exact .inl rfl
      | notRead => exact .inr (.inr rfl)
  · intro b e h he
    have hb : ∀ n ∈ b.children, Built n := fun n hn => ((produced_well_made h (.inr (.inl rfl))).2 n hn).2.1
    have hn : ∀ e ∈ actElements b, e.data.semantic = none := by
      intro e he
      obtain ⟨n, hn, he⟩ := List.mem_flatMap.1 he
      obtain ⟨k, cs, hi⟩ := articleElements_inside he
      exact (produced_unanalysed h (.inr rfl) n hn k e.data cs hi).2.2
    have hap : ∀ s r, analyze s = .ok r → EndApart r := fun _ _ h => analysis_endApart h
    cases hp : addSemantics s.analyze b with
    | ok b => simp [Sources.extractor, genOf, hp, Except.map] at he
    | error x =>
      obtain rfl : x = e := by simpa [Sources.extractor, genOf, hp, Except.map] using he
      rw [hs] at hp
      obtain ⟨_, _, _, -, -, hx⟩ := (addSemantics_stops hb hn (produced_whole h (.inr rfl)) (own_stoppedBy hap _)).2 x hp
      exact (own_error_class hap hx).imp_right fun ⟨_, h⟩ => analysis_failure h

/-- C88. In an act that is parsed every quotation has an introduction, so an AssertionError is raised only for several quotations after an
announcement. -/
theorem quotations_introduced {s : Sources} {r : LawRawText} {a : Act} (h : Produces s .structureOnly r (.structureOnly a)) :
    (∀ p ∈ actParagraphs a, ∀ k d cs, p = .sae k d cs → (∃ c ∈ cs, c.type = .quoted) → d.intro ≠ none) ∧
      (s.analyze = analyze → (s.extractor (.structureOnly a)).stop = some .assertionError →
        ∃ p ∈ actParagraphs a, ∃ position, Announces analyze p position ∧ ∀ lines, p.children ≠ [.quoted lines]) := by
  have h1 : ∀ p ∈ actParagraphs a, ∀ k d cs, p = .sae k d cs → (∃ c ∈ cs, c.type = .quoted) → d.intro ≠ none := by
    obtain ⟨body, a', -, hp, ho⟩ := id h
    cases ho
    rintro p hpm k d cs rfl ⟨c, hc, -⟩
    obtain ⟨n, hn, hpm⟩ := List.mem_flatMap.1 hpm
    rcases parseAct_proper hp n hn with ⟨e, rfl⟩ | ⟨⟨i, t, ps, rfl⟩, hpr⟩
    · cases hpm
    · obtain ⟨-, -, hx, -⟩ := properL_iff.1 (show ProperL ps from hpr) _ hpm
      rcases hx with rfl | hx
      · cases hc
      · exact hx
  refine ⟨h1, fun hs he => ?_⟩
  have hb : ∀ n ∈ a.children, Built n := fun n hn => ((produced_well_made h (.inl rfl)).2 n hn).2.1
  cases hp : parseBlockAmendments s.analyze a with
  | ok b => simp [Sources.extractor, genOf, hp, Except.map] at he
  | error x =>
    obtain rfl : x = .assertionError := by simpa [Sources.extractor, genOf, hp, Except.map] using he
    obtain ⟨before, p, after, e, -, hx⟩ := (amendments_stopped hb _).1 hp
    have hm : p ∈ actParagraphs a := by rw [e]; simp
    cases hx with
    | noIntroduction hne hq hi =>
      obtain ⟨c, hc⟩ := List.exists_mem_of_ne_nil _ hne
      exact absurd hi (h1 _ hm _ _ _ rfl ⟨c, hc, hq c hc⟩)
    | notAnalysed _ _ _ _ _ hx => cases analysis_failure (hs ▸ hx)
    | several hx hc => exact ⟨p, hm, _, hs ▸ hx, hc⟩

/-! ## They all happen -/

/-- What the steps make of lines. -/
def stepsOf (lines : List Line) : Res Act := do
  let a ← parseAct (py"2020. évi I. törvény") ⟨2020, 1, 1⟩ (py"minta") lines
  let b ← parseBlockAmendments analyze a
  addSemantics analyze b

/-- C88. All of these exceptions happen: without articles, with two quotations after an announcement, with a quotation that is not the article
that is announced, with an announcement or a text that cannot be analysed, and with a text that is only the end of a list. -/
theorem exceptions_happen :
    stepsOf [] = .error .actParsing ∧
    stepsOf [spread 0 (py"1. § A Ptk. 5. §-a helyébe a következő rendelkezés lép:"), spread 10 (py"„5. § Igen.”"),
      spread 10 (py"„6. § Nem.”")] = .error .assertionError ∧
    stepsOf [spread 0 (py"1. § A Ptk. 5. §-a helyébe a következő rendelkezés lép:"), spread 10 (py"„Igen.”")] =
      .error .blockAmendmentParsing ∧
    stepsOf [spread 0 (py"1. § Az a) pont aa) és a) alpontja szerint:"), spread 10 (py"„5. § Igen.”")] = .error .grammaticalParsing ∧
    stepsOf [spread 0 (py"1. § Ez a törvény 2013. február 30-án lép hatályba.")] = .error .grammaticalParsing ∧
    stepsOf [spread 0 (py"1. § ;")] = .error .indexError := by
  refine ⟨?_, ?_, ?_, ?_, ?_, ?_⟩ <;> decide +kernel

/-- The act with a quotation that is not the article that is announced is stopped at its paragraph. -/
example : ∃ a, parseAct (py"2020. évi I. törvény") ⟨2020, 1, 1⟩ (py"minta")
      [spread 0 (py"1. § A Ptk. 5. §-a helyébe a következő rendelkezés lép:"), spread 10 (py"„Igen.”")] = .ok a ∧
    (∀ n ∈ a.children, Built n) ∧ FirstStop (AmendmentStopped analyze) (actParagraphs a) .blockAmendmentParsing := by
  have h := exceptions_happen.2.2.1
  unfold stepsOf at h
  cases ha : parseAct (py"2020. évi I. törvény") ⟨2020, 1, 1⟩ (py"minta")
      [spread 0 (py"1. § A Ptk. 5. §-a helyébe a következő rendelkezés lép:"), spread 10 (py"„Igen.”")] with
  | error e =>
    rcases act_or_error (py"2020. évi I. törvény") (py"minta") ⟨2020, 1, 1⟩
      [spread 0 (py"1. § A Ptk. 5. §-a helyébe a következő rendelkezés lép:"), spread 10 (py"„Igen.”")] with ⟨a, hx⟩ | hx
    · rw [ha] at hx; cases hx
    · rw [hx] at h; cases h
  | ok a =>
    have hb : ∀ n ∈ a.children, Built n := fun n hn => (parseAct_has closed_built ha n hn).1
    refine ⟨a, rfl, hb, (amendments_stopped hb _).1 ?_⟩
    rw [ha] at h
    cases hp : parseBlockAmendments analyze a with
    | error e => simpa [hp, bind, Except.bind] using h
    | ok b =>
      have hd : (parseAct (py"2020. évi I. törvény") ⟨2020, 1, 1⟩ (py"minta")
          [spread 0 (py"1. § A Ptk. 5. §-a helyébe a következő rendelkezés lép:"), spread 10 (py"„Igen.”")]).bind
            (parseBlockAmendments analyze) = .error .blockAmendmentParsing := by decide +kernel
      rw [ha] at hd
      simp [hp, Except.bind] at hd

end Verif.Props
