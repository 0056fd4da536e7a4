import Verif.Proofs.Understood
import Verif.Proofs.EndApart
import Verif.Props.Recorded
import Verif.Props.WrittenAmendments
import Verif.Props.Ordinary

/-! # Which acts get semantic data (C86), and the order of references (C87) -/

namespace Verif.Props
open Spec

/-- C86. An act gets its semantic data if every element has a text or parts, no text is only the end of a list, and every sentence that is
looked at can be analysed, without two references that end at the same place. -/
theorem semantics_added {an : Analyzer} {a : Act} (hb : ∀ n ∈ a.children, Built n) (hn : ∀ e ∈ actElements a, e.data.semantic = none)
    (hw : ∀ n ∈ a.children, Whole n) (hu : ∀ e ∈ actElements a, Understood an e) : ∃ a', addSemantics an a = .ok a' := by
  obtain ⟨x, hx⟩ := scratchArticles_total [] hb hw hu
  exact ⟨_, (addSemantics_fresh (fun c hc => typedArticle_of_built (hb c hc)) hn).2 ⟨x, hx, rfl⟩⟩

/-- C86. Conversely, in an act that gets semantic data no text that ends its sentence is only the end of a list, and every sentence that is
looked at can be analysed. -/
theorem semantics_need {an : Analyzer} {a a' : Act} (hb : ∀ n ∈ a.children, Built n) (hn : ∀ e ∈ actElements a, e.data.semantic = none)
    (h : addSemantics an a = .ok a') {e : Entry} (he : e ∈ actElements a) :
    (∀ t, HasOwn e.data t → Last e → ¬ ListItem t []) ∧ ∀ s stop, SentenceOf e s stop → LookedAt s → ∃ r, an s = .ok r := by
  obtain ⟨x, hx, -⟩ := (addSemantics_fresh (fun c hc => typedArticle_of_built (hb c hc)) hn).1 h
  obtain ⟨defs, r, hr⟩ := scratchArticles_owns hx e he
  refine ⟨own_not_nothing hr, fun s stop hs hl => ?_⟩
  obtain ⟨y, stop', hsaid, -⟩ := own_ok hr
  obtain ⟨-, hy⟩ := said_in_sentence hs hsaid
  cases hy with
  | said _ h => exact ⟨y, h⟩
  | nothing h => exact absurd hl h

/-- C86. In an act that is parsed every element has a text or parts, before and after its amendments are made. -/
theorem produced_whole {s : Sources} {c : ExtractedClass} {r : LawRawText} {o : Extracted} {a : Act} (h : Produces s c r o)
    (ho : o = .structureOnly a ∨ o = .blockOnly a) : ∀ n ∈ a.children, Whole n := by
  cases c with
  | raw => obtain rfl := h; simp at ho
  | structureOnly =>
    obtain ⟨body, a', h1, h2, rfl⟩ := h
    simp only [Extracted.structureOnly.injEq, reduceCtorEq, or_false] at ho
    exact ho ▸ fun n hn => (parseAct_has closed_whole h2 n hn).1
  | blockOnly =>
    obtain ⟨body, a', b, h1, h2, h3, rfl⟩ := h
    simp only [Extracted.blockOnly.injEq, reduceCtorEq, false_or] at ho
    exact ho ▸ parseBlockAmendments_whole h3 fun n hn => (parseAct_has closed_whole h2 n hn).1
  | act =>
    obtain ⟨body, a', b, c', h1, h2, h3, h4, rfl⟩ := h
    simp at ho
  | _ => cases h

/-- C86. So the last step makes an act of what the step before it has made if the elements can be understood. It only adds the semantic
data, and this is what the sentences say. -/
theorem produced_act {s : Sources} {r : LawRawText} {b : Act} (h : Produces s .blockOnly r (.blockOnly b))
    (hu : ∀ e ∈ actElements b, Understood s.analyze e) :
    ∃ a, Produces s .act r (.act a) ∧ stripAct a = b ∧
      ∀ before e after, actElements a = before ++ e :: after → ∀ t stop, SentenceOf e t stop →
        ∃ x, SaidIn s.analyze t x ∧ Records (definitions (before ++ [e])) x stop e := by
  have hb : ∀ n ∈ b.children, Built n := fun n hn => ((produced_well_made h (.inr (.inl rfl))).2 n hn).2.1
  have hn : ∀ e ∈ actElements b, e.data.semantic = none := by
    intro e he
    obtain ⟨n, hn, he⟩ := List.mem_flatMap.1 he
    obtain ⟨k, cs, hi⟩ := articleElements_inside he
    exact (produced_unanalysed h (.inr rfl) n hn k e.data cs hi).2.2
  have hw := produced_whole h (.inr rfl)
  obtain ⟨a, ha⟩ := semantics_added hb hn hw hu
  obtain ⟨body, a', b', h1, h2, h3, ho⟩ := h
  cases ho
  refine ⟨a, ⟨body, a', b, a, h1, h2, h3, ha, rfl⟩, ?_, fun before e after he t stop hs => sentences_recorded hb hn ha he hs⟩
  rw [(addSemantics_ok ha).1]
  exact stripAct_unanalysed ((parseBlockAmendments_has h3).2.1 fun n hn => (parseAct_has closed_unanalysed h2 n hn).1)

/-- C86. An act that is written in the usual way, with its amendments, and whose sentences can be understood goes through all steps. What comes
out has the elements that are written there, with the semantic data that their sentences say. -/
theorem usual_act_made {s : Sources} {r : LawRawText} {lines : List Line} {preamble : Str} {ns ns' : List Node}
    (hf : doAllFixups s.fixups r.identifier r.body = .ok lines) (h : BodyWritten lines preamble ns) (hl : ∀ l ∈ lines, Fine l)
    (ha : Both (ElementAfterAmendments s.analyze) ns ns') (hu : ∀ e ∈ ns'.flatMap articleElements, Understood s.analyze e) :
    ∃ a, Produces s .act r (.act a) ∧ stripAct a = ⟨r.identifier, r.publicationDate, r.subject, preamble, ns'⟩ ∧
      ∀ before e after, actElements a = before ++ e :: after → ∀ t stop, SentenceOf e t stop →
        ∃ x, SaidIn s.analyze t x ∧ Records (definitions (before ++ [e])) x stop e := by
  obtain ⟨a, h1, h2⟩ := amended_act_as_written h hl ha r.identifier r.subject r.publicationDate
  exact produced_act ⟨lines, a, _, hf, h1, h2, rfl⟩ hu

/-! ## With the analyser of the program -/

/-- C87. No two of the references that are found in a sentence end at the same place, and they all end in the sentence. -/
theorem references_end_apart {s : Str} {r : Analysis} (h : analyze s = .ok r) :
    EndApart r ∧ ∀ x ∈ r.references, 0 < x.endPos ∧ x.endPos ≤ s.length := by
  obtain ⟨h1, h2⟩ := analysis_ends h
  exact ⟨analysis_endApart h, fun x hx => by have := h2 x hx; omega⟩

/-- C87. So the references of an element, cut from those of its sentence, can always be put in order, and no two of them are at the same
place. -/
theorem references_sorted {s : Str} {r : Analysis} (h : analyze s = .ok r) (prefixLen textLen : Int) (ab : Str → Option Str) :
    ∃ refs, convertReferences r.references prefixLen textLen ab = .ok refs ∧
      refs.Pairwise fun x y => x.startPos < y.startPos ∨ (x.startPos = y.startPos ∧ x.endPos < y.endPos) := by
  have hc := (cut_endApart (n := prefixLen) (m := textLen) (ab := ab) (analysis_endApart h)).1
  obtain ⟨refs, hr⟩ := sortRefs_total (s := []) hc (fun _ _ _ h => by cases h)
  obtain ⟨hp, ho⟩ := sortRefs_ok hr
  refine ⟨refs, hr, (ho .nil).imp₂ ?_ ((hp.pairwise_iff (fun h => Ne.symm h)).2 hc)⟩
  intro x y h h'
  unfold InOrder at h
  omega

/-- C86. An element is understood by the analyser of the program if its text ends as texts in lists do, and its sentence can be analysed if
it is looked at. -/
theorem analysed_understood {e : Entry} (ht : ∀ t, HasOwn e.data t → (∃ core, ListItem t core) ∧ (Last e → ¬ ListItem t []))
    (h : ∀ s stop, SentenceOf e s stop → LookedAt s → ∃ r, analyze s = .ok r) : Understood analyze e :=
  ⟨ht, fun s stop hs hl => (h s stop hs hl).imp fun _ hr => ⟨hr, (references_end_apart hr).1⟩⟩

/-- C86. So it is understood if its sentence is not blank, has no clash of subpoints, no day that is not in the calendar, and does not end as
amendments do (C70). -/
theorem sentences_understood {e : Entry} (ht : ∀ t, HasOwn e.data t → (∃ core, ListItem t core) ∧ (Last e → ¬ ListItem t []))
    (h : ∀ s stop, SentenceOf e s stop → LookedAt s → ¬ Blank s ∧ ¬ SubpointClash s ∧ ¬ NoSuchDate s ∧
      ¬ EndsIn s (amendmentEnds ++ subtitleEnds ++ insertionEnds)) : Understood analyze e :=
  analysed_understood ht fun s stop hs hl =>
    let ⟨h1, h2, h3, h4⟩ := h s stop hs hl
    sentences_analysed h1 h2 h3 h4

/-- C86. With the analyser of the program, an act whose texts end as texts in lists do goes through the last step exactly if no text that ends
its sentence is only the end of a list, and every sentence that is looked at can be analysed. -/
theorem act_made_exactly {s : Sources} {r : LawRawText} {b : Act} (hs : s.analyze = analyze) (h : Produces s .blockOnly r (.blockOnly b))
    (ht : ∀ e ∈ actElements b, ∀ t, HasOwn e.data t → ∃ core, ListItem t core) :
    (∃ a, Produces s .act r (.act a)) ↔
      ∀ e ∈ actElements b, (∀ t, HasOwn e.data t → Last e → ¬ ListItem t []) ∧
        ∀ t stop, SentenceOf e t stop → LookedAt t → ∃ x, analyze t = .ok x := by
  constructor
  · rintro ⟨a, body, a', b', c, h1, h2, h3, h4, ho⟩ e he
    cases ho
    obtain ⟨body', a'', b'', k1, k2, k3, ko⟩ := id h
    cases ko
    obtain rfl := Except.ok.inj (h1.symm.trans k1)
    obtain rfl := Except.ok.inj (h2.symm.trans k2)
    obtain rfl := Except.ok.inj (h3.symm.trans k3)
    have hb : ∀ n ∈ b'.children, Built n := fun n hn => ((produced_well_made h (.inr (.inl rfl))).2 n hn).2.1
    have hn : ∀ e ∈ actElements b', e.data.semantic = none := by
      intro e he
      obtain ⟨n, hn, he⟩ := List.mem_flatMap.1 he
      obtain ⟨k, cs, hi⟩ := articleElements_inside he
      exact (produced_unanalysed h (.inr rfl) n hn k e.data cs hi).2.2
    exact hs ▸ semantics_need hb hn h4 he
  · intro hu
    obtain ⟨a, ha, -⟩ := produced_act h fun e he => by
      rw [hs]
      exact analysed_understood (fun t h' => ⟨ht e he t h', (hu e he).1 t h'⟩) (hu e he).2
    exact ⟨a, ha⟩

/-! ## An act that goes through all steps -/

/-- An element whose text is a whole sentence. -/
theorem whole_sentence {e : Entry} {t : Str} (hown : ∀ u, HasOwn e.data u → u = t) (hb : e.before = []) (ha : e.after = [])
    (he : EndsSentence t) (h : LookedAt t → ∃ r, analyze t = .ok r ∧ EndApart r) : Understood analyze e := by
  have hj : ∀ j ∈ listEnds, ¬ j <:+ t := by
    intro j hj hs
    obtain ⟨c, hc, e⟩ := he
    obtain ⟨u, rfl⟩ := hs
    simp only [listEnds, List.mem_cons, List.not_mem_nil, or_false] at hj
    rcases hj with rfl | rfl | rfl | rfl | rfl | rfl <;> rw [List.getLast?_append] at e <;> simp at e <;> subst e <;> simp at hc
  have hl : ListItem t t := ⟨hj, [], by simp, [], by simp, by simp⟩
  have item : ∀ {c}, ListItem t c → c = t := fun h => (stripJunk_item h).symm.trans (stripJunk_item hl)
  have same : ∀ {m}, InSentence t [] m → m = t := by
    intro m h
    cases h with
    | asIs => rfl
    | stopped _ hn => exact absurd he hn
  refine ⟨fun u hu => ?_, fun s stop hs hlook => ?_⟩
  · obtain rfl := hown u hu
    refine ⟨⟨_, hl⟩, fun _ hn => ?_⟩
    obtain rfl := item hn
    obtain ⟨_, _, e⟩ := he
    cases e
  · have key : s = t := by
      cases hs with
      | text own hl' hm =>
        obtain rfl := hown _ (.inl own)
        rw [item hl', ha] at hm
        rw [hb, ha, same hm]
        simp
      | intro own own' hl' hm =>
        obtain rfl := hown _ (.inr ⟨own, own'⟩)
        rw [item hl'] at hm
        rw [hb, same hm]
        simp
    subst key
    exact h hlook

theorem sample_understood : ∀ e ∈ amendedNodes.flatMap articleElements, Understood analyze e := by
  intro e he
  have : e = ⟨[], { identifier := none, intro := some sampleAnnouncement, wrapUp := some [] }, []⟩ ∨
      e = ⟨[], { identifier := none, text := some (py"Ennyi.") }, []⟩ := by
    simpa [amendedNodes, articleElements, elementsL, elements] using he
  rcases this with rfl | rfl
  · refine whole_sentence (t := sampleAnnouncement) ?_ rfl rfl ⟨':', by simp, by decide +kernel⟩ fun _ => ?_
    · rintro u (h | ⟨_, h⟩)
      · cases h
      · exact (Option.some.inj h).symm
    · exact (analysed_of (by decide +kernel)).imp fun _ hr => ⟨hr, (references_end_apart hr).1⟩
  · refine whole_sentence (t := py"Ennyi.") ?_ rfl rfl ⟨'.', by simp, by decide⟩ fun h => ?_
    · rintro u (h | ⟨h, _⟩)
      · exact (Option.some.inj h).symm
      · cases h
    · obtain ⟨w, hw, hi⟩ := h.2
      exact absurd ((isInfix_iff w _).2 hi) (by revert w; decide)

theorem list_understood : Understood analyze ⟨[], { text := some (py"Az 1., 3. és 5–7. § nem alkalmazható.") }, []⟩ := by
  have ho : ∀ u, HasOwn ({ text := some (py"Az 1., 3. és 5–7. § nem alkalmazható.") } : SaeData) u → u = py"Az 1., 3. és 5–7. § nem alkalmazható." := by
    rintro u (h | ⟨h, _⟩)
    · exact (Option.some.inj h).symm
    · cases h
  have hs := own_sentence (d := { text := some (py"Az 1., 3. és 5–7. § nem alkalmazható.") }) rfl ⟨'.', by simp, by decide⟩
  have hi : ∀ u, HasOwn ({ text := some (py"Az 1., 3. és 5–7. § nem alkalmazható.") } : SaeData) u → (∃ core, ListItem u core) ∧ ¬ ListItem u [] := by
    intro u hu
    obtain rfl := ho u hu
    have hl : ListItem (py"Az 1., 3. és 5–7. § nem alkalmazható.") (py"Az 1., 3. és 5–7. § nem alkalmazható.") :=
      ⟨by decide, [], by simp, [], by simp, by simp⟩
    exact ⟨⟨_, hl⟩, fun h => by cases (stripJunk_item h).symm.trans (stripJunk_item hl)⟩
  refine sentences_understood (fun u hu => ⟨(hi u hu).1, fun _ => (hi u hu).2⟩) fun s stop h _ => ?_
  obtain ⟨rfl, -⟩ := sentence_unique h hs
  obtain ⟨h1, h2⟩ := no_clash_or_date (s := py"Az 1., 3. és 5–7. § nem alkalmazható.") (by decide) (by unfold Month; decide +kernel)
  exact ⟨by unfold Blank; decide, h1, h2, by unfold EndsIn; decide +kernel⟩

example (s : Sources) (hs : s.analyze = analyze) (hf : s.fixups = []) (r : LawRawText) (hr : r.body = amendingLines) :
    ∃ a, Produces s .act r (.act a) ∧ stripAct a = ⟨r.identifier, r.publicationDate, r.subject, [], amendedNodes⟩ := by
  obtain ⟨a, h1, h2, -⟩ := usual_act_made (s := s) (r := r) (lines := amendingLines) (by rw [hf, hr]; rfl) amending_written
    (fine_all (by decide +kernel)) (by rw [hs]; exact sample_amended) (by rw [hs]; exact sample_understood)
  exact ⟨a, h1, h2⟩

/-- The references of a sentence with a list. -/
example : ∃ r, analyze (py"A Ptk. 5. § (1) és (2) bekezdése, valamint 7. §-a szerint.") = .ok r ∧
    r.references.map (fun x => (x.startPos, x.endPos)) = [(2, 6), (7, 32), (43, 49)] := by
  refine (analysed_of (by decide +kernel)).imp fun r hr => ⟨hr, ?_⟩
  have h : ((analyze (py"A Ptk. 5. § (1) és (2) bekezdése, valamint 7. §-a szerint.")).toOption.map fun r =>
      r.references.map fun x => (x.startPos, x.endPos)) = some [(2, 6), (7, 32), (43, 49)] := by decide +kernel
  rw [hr] at h
  exact Option.some.inj h

/-- C87. This matters: two references at the same place cannot be compared if one of them is a range. -/
theorem same_place_incomparable :
    OutgoingReference.lt ⟨0, 1, { article := some (.one (py"1")) }⟩ ⟨0, 1, { article := some (.range (py"1") (py"2")) }⟩ =
      .error .valueError := by decide +kernel

/-- C86. A text that ends its sentence and is only the end of a list does stop the program. -/
theorem nothing_said : addSemantics analyze (actOf [plainArticle (py"1") (py";")]) = .error .indexError ∧ ListItem (py";") [] := by
  exact ⟨by decide +kernel, by decide, py";", by simp, [], by simp, rfl⟩

end Verif.Props
