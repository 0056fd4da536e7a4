import Verif.Proofs.Divided
import Verif.Props.Changes

/-! # What sentences say about the divisions of acts is reported (C77) -/

namespace Verif.Props

open Verif.Spec Verif.ActGrammar

set_option maxRecDepth 100000

/-! ## Examples of such sentences -/

theorem roman_two : Lettered RomanDigits (py"II") := ⟨py"II", [], rfl, ⟨by simp, by decide⟩, .inl rfl⟩

theorem roman_two_a : Lettered RomanDigits (py"II/A") := ⟨py"II", py"/A", rfl, ⟨by simp, by decide⟩, .inr ⟨'A', by decide, .inr rfl⟩⟩

theorem chapter_text : DivisionText (.chapter (py"II")) (py"II. Fejezete") :=
  .chapter roman_two ⟨py"e", rfl, by unfold hunLower; decide +kernel⟩

theorem before_text : SpotText (.before (py"5")) (py"5. §-t megelőző") :=
  .before (u := py"5. §-t") ⟨[], [], py"§-t", rfl, by simp [Noun], ⟨[], py"5", [], rfl, .inl rfl, one_digit rfl, .inl rfl⟩,
    .inr ⟨py"t", rfl, by simp, by unfold hunLower; decide +kernel⟩, .inl rfl⟩ (by simp)

/-- `A Ptk. II. Fejezete helyébe a következő fejezet lép:` -/
theorem replace_stated : StatesStructural (py"A Ptk. II. Fejezete helyébe a következő fejezet lép:") (.replace (codeAct 2) (.chapter (py"II"))) :=
  .replace (o := py"A ") (p := py"Ptk.") (v := py"II. Fejezete") (e := py" helyébe a következő fejezet lép") (by simp) (code_phrase 2 (by decide +kernel))
    chapter_text (.inr (by simp)) (.inr (no_title_of (by decide +kernel)))

/-- `A Ptk. „x” című alcíme helyébe a következő rendelkezés lép:` -/
theorem replaceTitled_stated : StatesStructural (py"A Ptk. „x” című alcíme helyébe a következő rendelkezés lép:") (.replace (codeAct 2) (.titled (py"x"))) :=
  .replace (o := py"A ") (p := py"Ptk.") (v := py"„x” című alcíme") (e := py" helyébe a következő rendelkezés lép") (by simp)
    (code_phrase 2 (by decide +kernel)) (.titled (q := py"„x”") (c := py" című") (quote_text (by decide) (by decide)) (by simp)) (.inl (by simp [Replacing]))
    (.inl trivial)

/-- `A Ptk. a következő II/A. Fejezettel egészül ki:` -/
theorem add_stated : StatesStructural (py"A Ptk. a következő II/A. Fejezettel egészül ki:") (.add (codeAct 2) (.chapter (py"II/A"))) :=
  .add (o := py"A ") (p := py"Ptk.") (v := py"II/A. Fejezettel") (e := py" egészül ki") (by simp) (code_phrase 2 (by decide +kernel))
    (.chapter roman_two_a ⟨py"tel", rfl, by unfold hunLower; decide +kernel⟩) (by simp [Adding]) (no_title_of (by decide +kernel))

/-- `A Ptk. Második Könyv Első Része helyébe a következő rész lép:` -/
theorem replacePart_stated : StatesStructural (py"A Ptk. Második Könyv Első Része helyébe a következő rész lép:")
    (.replace (codeAct 2) (.part (some (py"Második")) (py"Első"))) :=
  .replace (o := py"A ") (p := py"Ptk.") (v := py"Második Könyv Első Része") (e := py" helyébe a következő rész lép") (by simp)
    (code_phrase 2 (by decide +kernel)) (.part (u := py"Második Könyv ") (e := py"Része") ⟨by simp [CapitalOrdinal], rfl⟩ (by simp [CapitalOrdinal])
      ⟨py"e", rfl, by unfold hunLower; decide +kernel⟩) (.inr (by simp)) (.inr (no_title_of (by decide +kernel)))

/-- `A Ptk. Második Könyve a következő II/A. Címmel egészül ki:` -/
theorem addToBook_stated : StatesStructural (py"A Ptk. Második Könyve a következő II/A. Címmel egészül ki:")
    (.add (codeAct 2) (.title (some (py"Második")) (py"II/A"))) :=
  .addToBook (o := py"A ") (p := py"Ptk.") (b := py"Második") (x := py"II/A") (c := py"Címmel") (e := py" egészül ki") (by simp)
    (code_phrase 2 (by decide +kernel)) (by simp [CapitalOrdinal]) roman_two_a ⟨py"mel", rfl, by unfold hunLower; decide +kernel⟩ (by simp [Adding])
    (no_title_of (by decide +kernel))

/-- `Hatályát veszti a Ptk. 5. §-t megelőző alcím.` -/
theorem repealSpot_stated : StatesStructural (py"Hatályát veszti a Ptk. 5. §-t megelőző alcím.") (.repeal (codeAct 18) (.before (py"5"))) :=
  .repeal (o := py"Hatályát veszti ") (b := py"a ") (p := py"Ptk.") (v := py"5. §-t megelőző") (t := py" alcím") (by simp) (by simp)
    (code_phrase 18 (by decide +kernel)) before_text (.inr ⟨py"alcím", .inl (by simp), rfl⟩) (.inl trivial)

/-- `A Ptk. 5. §-a és az azt megelőző alcím helyébe a következő rendelkezés lép:` -/
theorem replaceSubtitled_stated : StatesStructural (py"A Ptk. 5. §-a és az azt megelőző alcím helyébe a következő rendelkezés lép:")
    (.replaceSubtitled (codeAct 2) ⟨.article, [(py"5", 7, 9)], []⟩) :=
  .replaceSubtitled (o := py"A ") (p := py"Ptk.") (v := py"5. §-a és az azt megelőző alcím") (e := py" helyébe a következő rendelkezés lép") (by simp)
    (code_phrase 2 (by decide +kernel)) (.last (v := py"5. §-a") (b := py"az ") (a := py"azt ") (z := py"alcím") rfl (code_article 7) (by simp) (by simp)
      (.inl (by simp))) (.inl (by simp [Replacing])) (no_title_of (by decide +kernel))

/-- `A Ptk. a következő alcímmel és 5. §-a egészül ki:` -/
theorem addSubtitled_stated : StatesStructural (py"A Ptk. a következő alcímmel és 5. §-a egészül ki:")
    (.addSubtitled (codeAct 2) ⟨.article, [(py"5", 31, 33)], []⟩) :=
  .addSubtitled (o := py"A ") (p := py"Ptk.") (v := py"alcímmel és 5. §-a") (e := py" egészül ki") (by simp) (code_phrase 2 (by decide +kernel))
    (.first (z := py"alcímmel") (v := py"5. §-a") (.inl (by simp)) rfl (code_article 31)) (by simp [Adding]) (no_title_of (by decide +kernel))

/-- `A Ptk. 5. §-t megelőző alcím helyébe a következő alcím lép:` -/
theorem replaceSubtitle_stated : StatesStructural (py"A Ptk. 5. §-t megelőző alcím helyébe a következő alcím lép:")
    (.replaceSubtitle (codeAct 2) (.before (py"5"))) :=
  .replaceSubtitle (o := py"A ") (p := py"Ptk.") (v := py"5. §-t megelőző") (z := py"alcím") (e := py" helyébe a következő alcím lép") (by simp)
    (code_phrase 2 (by decide +kernel)) before_text (.inl (by simp)) (.inr ⟨[], [], py" lép", rfl, by simp, by simp, by simp⟩) (.inl trivial)

/-- `A Ptk. II. Fejezete a következő alcímmel egészül ki:` -/
theorem addSubtitleAt_stated : StatesStructural (py"A Ptk. II. Fejezete a következő alcímmel egészül ki:")
    (.addSubtitle (codeAct 2) (some (.division (.chapter (py"II"))))) :=
  .addSubtitleAt (o := py"A ") (p := py"Ptk.") (v := py"II. Fejezete") (z := py"alcímmel") (e := py" egészül ki") (by simp)
    (code_phrase 2 (by decide +kernel)) (.division chapter_text) (.inl (by simp)) (by simp [Adding]) (.inr (no_title_of (by decide +kernel)))

/-- `A Ptk. a következő alcímmel egészül ki:` -/
theorem addSubtitle_stated : StatesStructural (py"A Ptk. a következő alcímmel egészül ki:") (.addSubtitle (codeAct 2) none) :=
  .addSubtitle (o := py"A ") (p := py"Ptk.") (z := py"alcímmel") (e := py" egészül ki") (by simp) (code_phrase 2 (by decide +kernel)) (.inl (by simp))
    (by simp [Adding]) (no_title_of (by decide +kernel))

/-! ## The properties -/

/-- C77. If a sentence states a change of the divisions of an act in one of the usual ways and is analysed, then exactly this change is reported,
of the division with the number or the title that is written or at the place that is written, and the abbreviation that is defined. -/
theorem division_reported {s : Str} {c : StructuralChange} {r : Analysis} (h : StatesStructural s c) (ha : analyze s = .ok r) : ReportsStructural c r :=
  structural_reported h ha

example : ∃ r, StatesStructural (py"A Ptk. II. Fejezete helyébe a következő fejezet lép:") (.replace (codeAct 2) (.chapter (py"II"))) ∧
    analyze (py"A Ptk. II. Fejezete helyébe a következő fejezet lép:") = .ok r :=
  (analysed_of (by decide +kernel)).imp fun _ h => ⟨replace_stated, h⟩

example : ∃ r, StatesStructural (py"Hatályát veszti a Ptk. 5. §-t megelőző alcím.") (.repeal (codeAct 18) (.before (py"5"))) ∧
    analyze (py"Hatályát veszti a Ptk. 5. §-t megelőző alcím.") = .ok r :=
  (analysed_of (by decide +kernel)).imp fun _ h => ⟨repealSpot_stated, h⟩

/-- C77. Such a sentence is analysed unless it changes articles together with the subtitle before them, and these are not one article, one range or
two articles with consecutive numbers. -/
theorem division_analysed {s : Str} {c : StructuralChange} (h : StatesStructural s c) :
    (∃ r, analyze s = .ok r) ↔ ∀ a q, c = .replaceSubtitled a q ∨ c = .addSubtitled a q → ∃ x, FirstArticle q x := by
  refine ⟨?_, structural_analysed h⟩
  rintro ⟨r, ha⟩ a q (rfl | rfl)
  · cases structural_reported h ha with
    | replaceSubtitled _ _ hx => exact ⟨_, hx⟩
  · cases structural_reported h ha with
    | addSubtitled _ _ hx => exact ⟨_, hx⟩

example : StatesStructural (py"A Ptk. 5. §-a és az azt megelőző alcím helyébe a következő rendelkezés lép:")
      (.replaceSubtitled (codeAct 2) ⟨.article, [(py"5", 7, 9)], []⟩) ∧ FirstArticle ⟨.article, [(py"5", 7, 9)], []⟩ (py"5") :=
  ⟨replaceSubtitled_stated, .inl (.inl ⟨_, _, rfl, rfl, rfl⟩)⟩

/-- C77. The word for a part is known only with endings that are added to it: a new part named in the usual way is not reported. -/
theorem new_part_missed : ∃ r, analyze (py"A Ptk. a következő Második Könyv Első Résszel egészül ki:") = .ok r ∧ r.semantic = [] := by
  have hr : ((analyze (py"A Ptk. a következő Második Könyv Első Résszel egészül ki:")).toOption.map (·.semantic.length)) = some 0 := by decide +kernel
  obtain ⟨r, ha⟩ := analysed_of (s := py"A Ptk. a következő Második Könyv Első Résszel egészül ki:") (by decide +kernel)
  rw [ha] at hr
  exact ⟨r, ha, List.length_eq_zero_iff.mp (Option.some.inj hr)⟩

/-- C77. The word for a subtitle with the usual ending is taken for a subtitle without a title if articles come after it: this is not
reported. -/
theorem subtitle_before_articles_missed :
    ∃ r, analyze (py"A Ptk. alcíme és 5. §-a helyébe a következő rendelkezés lép:") = .ok r ∧ r.semantic = [] := by
  have hr : ((analyze (py"A Ptk. alcíme és 5. §-a helyébe a következő rendelkezés lép:")).toOption.map (·.semantic.length)) = some 0 := by
    decide +kernel
  obtain ⟨r, ha⟩ := analysed_of (s := py"A Ptk. alcíme és 5. §-a helyébe a következő rendelkezés lép:") (by decide +kernel)
  rw [ha] at hr
  exact ⟨r, ha, List.length_eq_zero_iff.mp (Option.some.inj hr)⟩

end Verif.Props
