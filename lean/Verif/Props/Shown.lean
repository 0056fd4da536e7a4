import Verif.Props.Numerals
import Verif.Props.Recognition

/-! # C61: headers are shown as they would be read -/

namespace Verif.Props

open Spec

theorem ordinals_shown : ∀ w ∈ ordinals, lower (upper w) = w ∧ '\n' ∉ upper w ∧ upper w ++ py" RÉSZ" ∉ namedParts := by
  decide +kernel

theorem ordinal_shown {n : Nat} (h1 : 1 ≤ n) (h2 : n ≤ 100) :
    ∃ w, intToTextHun n = .ok w ∧ textToIntHun (upper w) = .ok n ∧ '\n' ∉ upper w ∧ upper w ++ py" RÉSZ" ∉ namedParts := by
  obtain ⟨w, hw⟩ := (ordinal_text_exists_iff n).2 ⟨by omega, by omega⟩
  obtain ⟨_, hm⟩ := (ordinal_written n w).1 hw
  obtain ⟨a, b, c⟩ := ordinals_shown w (List.mem_of_getElem? hm)
  refine ⟨w, hw, (ordinal_read_iff _ _).2 ?_, b, c⟩
  rw [a]; exact hw

theorem romanDigit_upper (a b c : Char) (ha : upperChar a = a) (hb : upperChar b = b) (hc : upperChar c = c) (n : Nat) :
    upper (romanDigit a b c n) = romanDigit a b c n := by
  unfold romanDigit
  split <;> simp [upper, ha, hb, hc]

theorem roman_upper (n : Nat) : upper (roman n) = roman n := by
  unfold roman
  have h : ∀ (x y : Str), upper (x ++ y) = upper x ++ upper y := fun x y => List.map_append ..
  rw [h, h, h, romanDigit_upper _ _ _ (by decide) (by decide) (by decide),
    romanDigit_upper _ _ _ (by decide) (by decide) (by decide),
    romanDigit_upper _ _ _ (by decide) (by decide) (by decide)]
  simp [upper, show upperChar 'M' = 'M' by decide]

theorem romanDigit_no_lf (a b c : Char) (ha : a ≠ '\n') (hb : b ≠ '\n') (hc : c ≠ '\n') (n : Nat) :
    '\n' ∉ romanDigit a b c n := by
  unfold romanDigit
  split <;> simp [ha.symm, hb.symm, hc.symm]

theorem roman_no_lf (n : Nat) : '\n' ∉ roman n := by
  unfold roman
  simp only [List.mem_append, List.mem_replicate, not_or]
  exact ⟨⟨⟨by simp, romanDigit_no_lf _ _ _ (by decide) (by decide) (by decide) _⟩,
    romanDigit_no_lf _ _ _ (by decide) (by decide) (by decide) _⟩,
    romanDigit_no_lf _ _ _ (by decide) (by decide) (by decide) _⟩

theorem roman_shown {n : Nat} (hn : 0 < n) {p : Str} (hp : CleanPostfix p) (hu : upper p = p) :
    ∃ t, arabicToRomanWithPostfix (natStr n ++ p) = .ok t ∧ romanToArabicWithPostfix (upper t) = .ok (natStr n ++ p) ∧
      '\n' ∉ upper t := by
  have h := structural_number_roundtrip n hn p hp
  rw [arabic_to_roman_form n p hp] at h
  refine ⟨_, arabic_to_roman_form n p hp, ?_, ?_⟩ <;>
    rw [show upper (roman n ++ p) = roman n ++ p by
      rw [show upper (roman n ++ p) = upper (roman n) ++ upper p from List.map_append .., roman_upper, hu]]
  · exact h
  · simp only [List.mem_append, not_or]; exact ⟨roman_no_lf n, hp.2⟩

/-- C61. The header shown for a book or a numbered part exists exactly for the numbers from 1 to 100, and the parser
reads the same number from it. -/
theorem shown_ordinal_reads_back (k : StructKind) (hk : k = .book ∨ k = .part) (n : Nat) (title : Str) :
    ((∃ s, (StructuralElement.mk k (natStr n) title false).formattedIdentifier = .ok s) ↔ 1 ≤ n ∧ n ≤ 100) ∧
    ∀ s, (StructuralElement.mk k (natStr n) title false).formattedIdentifier = .ok s → StructHeading k s (natStr n) := by
  have hf : (StructuralElement.mk k (natStr n) title false).formattedIdentifier =
      (intToTextHun n).map fun t => upper t ++ (if k = .book then py" KÖNYV" else py" RÉSZ") := by
    rcases hk with rfl | rfl <;> simp only [StructuralElement.formattedIdentifier, pyInt_natStr] <;>
      cases h : intToTextHun n <;> simp [h, Except.map, bind, Except.bind]
  rw [hf]
  have hex : (∃ s, (intToTextHun n).map (fun t => upper t ++ (if k = .book then py" KÖNYV" else py" RÉSZ")) = .ok s) ↔
      1 ≤ n ∧ n ≤ 100 := by
    have := ordinal_text_exists_iff n
    constructor
    · rintro ⟨s, hs⟩
      cases h : intToTextHun n with
      | error e => rw [h] at hs; cases hs
      | ok w => have := this.1 ⟨w, h⟩; omega
    · intro hn
      obtain ⟨w, hw⟩ := this.2 (by omega)
      exact ⟨_, by rw [hw]; rfl⟩
  refine ⟨hex, fun s hs => ?_⟩
  obtain ⟨h1, h2⟩ := hex.1 ⟨s, hs⟩
  obtain ⟨w, hw, hr, hl, hp⟩ := ordinal_shown h1 h2
  rw [hw] at hs
  obtain rfl := Except.ok.inj hs
  rcases hk with rfl | rfl
  · exact ⟨upper w, [], n, hl, .inl rfl, by simp, (textToIntHun_ok _ _).mp hr, rfl⟩
  · exact .inr ⟨hp, upper w, [], n, hl, .inl rfl, by simp, (textToIntHun_ok _ _).mp hr, rfl⟩

example : (StructuralElement.mk .book (natStr 22) (py"Cím") false).formattedIdentifier =
    .ok (py"HUSZONKETTEDIK KÖNYV") := by decide +kernel

/-- C61. The header shown for a named part is its name, so the parser reads the same part from it; there is one for the
numbers 1 to 3. -/
theorem shown_named_reads_back (n : Nat) (title : Str) (hn : 1 ≤ n) :
    ((∃ s, (StructuralElement.mk .part (natStr n) title true).formattedIdentifier = .ok s) ↔ n ≤ 3) ∧
    ∀ s, (StructuralElement.mk .part (natStr n) title true).formattedIdentifier = .ok s →
      namedParts[n - 1]? = some s ∧ StructHeading .part s (natStr n) := by
  have hf : (StructuralElement.mk .part (natStr n) title true).formattedIdentifier =
      (match pyIndex 4 ((n : Int) - 1) with
        | none => .error .indexError
        | some k => match specialParts[k]? with
          | some s => .ok s
          | none => .error .assertionError) := by
    simp only [StructuralElement.formattedIdentifier, pyInt_natStr, if_true]
    rfl
  rw [hf]
  by_cases h3 : n ≤ 3
  · have : n = 1 ∨ n = 2 ∨ n = 3 := by omega
    rcases this with rfl | rfl | rfl <;> refine ⟨⟨fun _ => by omega, fun _ => ⟨_, rfl⟩⟩, fun s hs => ?_⟩ <;>
      obtain rfl := Except.ok.inj hs
    · exact ⟨rfl, .inl ⟨0, rfl, rfl⟩⟩
    · exact ⟨rfl, .inl ⟨1, rfl, rfl⟩⟩
    · exact ⟨rfl, .inl ⟨2, rfl, rfl⟩⟩
  · have hno : ∀ s, (match pyIndex 4 ((n : Int) - 1) with
        | none => .error .indexError
        | some k => match specialParts[k]? with
          | some s => .ok s
          | none => .error .assertionError : Res Str) ≠ .ok s := by
      intro s
      by_cases h4 : n = 4
      · subst h4; exact nofun
      · have : pyIndex 4 ((n : Int) - 1) = none := by
          unfold pyIndex
          rw [if_pos (by omega), if_neg (by omega)]
        rw [this]; exact nofun
    exact ⟨⟨fun ⟨s, hs⟩ => absurd hs (hno s), fun h => absurd h h3⟩, fun s hs => absurd hs (hno s)⟩

example : (StructuralElement.mk .part (natStr 2) [] true).formattedIdentifier = .ok (py"KÜLÖNÖS RÉSZ") := by
  decide +kernel

/-- C61. The parser reads the same number from the header shown for a title or chapter, if its postfix is in capitals
and begins neither with a Roman letter nor with a digit. -/
theorem shown_roman_reads_back_partial (k : StructKind) (hk : k = .title ∨ k = .chapter) (n : Nat) (hn : 0 < n) (p title : Str)
    (hp : CleanPostfix p) (hu : upper p = p) (b : Bool) :
    ∃ s, (StructuralElement.mk k (natStr n ++ p) title b).formattedIdentifier = .ok s ∧
      StructHeading k s (natStr n ++ p) := by
  obtain ⟨t, ht, hr, hl⟩ := roman_shown hn hp hu
  rcases hk with rfl | rfl
  · refine ⟨upper t ++ py". CÍM", ?_, upper t, [], hl, .inl rfl, by simp, romanToArabic_iff.mp hr⟩
    simp [StructuralElement.formattedIdentifier, ht, bind, Except.bind]
  · refine ⟨upper t ++ py". FEJEZET", ?_, upper t, py". FEJEZET", [], hl, .inl rfl, by simp, ?_, romanToArabic_iff.mp hr⟩
    · simp [StructuralElement.formattedIdentifier, ht, bind, Except.bind]
    · repeat' first | exact .nil | refine .cons (by decide) ?_

example : (StructuralElement.mk .chapter (natStr 14 ++ py"/A") [] false).formattedIdentifier = .ok (py"XIV/A. FEJEZET") ∧
    CleanPostfix (py"/A") ∧ upper (py"/A") = py"/A" := by
  refine ⟨by decide +kernel, ⟨?_, by decide⟩, by decide⟩
  intro c hc; cases hc; decide

/-- C61. The condition is needed: a postfix in small letters is shown in capitals, and one that begins with a Roman
letter is read as part of the number. -/
theorem shown_roman_reads_back_fails :
    (StructuralElement.mk .title (py"1/a") [] false).formattedIdentifier = .ok (py"I/A. CÍM") ∧
    StructHeading .title (py"I/a. CÍM") (py"1/a") ∧ ¬ StructHeading .title (py"I/A. CÍM") (py"1/a") ∧
    (StructuralElement.mk .title (py"1i") [] false).formattedIdentifier = .ok (py"II. CÍM") := by
  refine ⟨by decide +kernel, ⟨py"I/a", [], by decide, .inl rfl, by decide, romanToArabic_iff.mp (by decide +kernel)⟩, ?_,
    by decide +kernel⟩
  intro h
  have := (struct_header_read .title ⟨[⟨0, py"I/A. CÍM", false⟩], 0⟩ (py"1/a")).2 h
  revert this
  decide +kernel

end Verif.Props
