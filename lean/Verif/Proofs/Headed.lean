import Verif.Proofs.ParsedAct
import Verif.Proofs.Canonical
import Verif.Props.Numerals

/-! # The headers of structural elements that are parsed can be shown -/

namespace Verif

open Spec

theorem arabic_to_roman_ok (n : Nat) (t : Str) : ∃ s, arabicToRomanWithPostfix (natStr n ++ t) = .ok s := by
  unfold arabicToRomanWithPostfix
  have h0 : (natStr n ++ t).takeWhile isAsciiDigit ≠ [] := by
    cases hn : natStr n with
    | nil => exact absurd hn (natStr_ne_nil n)
    | cons c cs =>
      have hc : isAsciiDigit c = true := natStr_ascii n c (by rw [hn]; simp)
      rw [List.cons_append, List.takeWhile_cons_of_pos hc]
      simp
  have h1 : IsNumber ((natStr n ++ t).takeWhile isAsciiDigit) := ⟨h0, fun c hc => (List.all_eq_true.1 List.all_takeWhile) c hc⟩
  obtain ⟨m, hm⟩ := isNumber_int h1
  simp only [List.isEmpty_iff, h0, if_false, hm]
  exact ⟨_, rfl⟩

theorem struct_headed {k : StructKind} {lines : List Line} {e : StructuralElement} (h : k.parse lines = .ok (.structural e)) :
    ∃ s, e.formattedIdentifier = .ok s := by
  cases lines with
  | nil => cases h
  | cons first rest =>
    simp only [StructKind.parse] at h
    by_cases hk : k = .subtitle
    · rw [if_pos hk] at h
      subst hk
      obtain ⟨r, hr, h⟩ := resBind_ok h
      cases r with
      | none => cases h; exact ⟨_, rfl⟩
      | some i =>
        simp only at h
        cases hf : strFind (py". ") (joinLines (first :: rest)) with
        | none => rw [hf] at h; cases h
        | some n => rw [hf] at h; cases h; exact ⟨_, rfl⟩
    · rw [if_neg hk] at h
      cases hs : (if k = .part then specialPartId first.content else none) with
      | some i =>
        rw [hs] at h
        cases h
        by_cases hp : k = .part
        · subst hp
          simp only [if_true, specialPartId, Option.map_eq_some_iff] at hs
          obtain ⟨n, hn, rfl⟩ := hs
          have hl := (List.findIdx?_eq_some_iff_findIdx_eq.1 hn).1
          simp only [StructuralElement.formattedIdentifier, pyInt_natStr, if_true]
          have : n = 0 ∨ n = 1 ∨ n = 2 := by simp only [specialParts, List.length_cons, List.length_nil] at hl; omega
          rcases this with rfl | rfl | rfl <;> exact ⟨_, rfl⟩
        · rw [if_neg hp] at hs; cases hs
      | none =>
        rw [hs] at h
        simp only at h
        obtain ⟨r, hr, h⟩ := resBind_ok h
        cases r with
        | none => cases h
        | some i =>
          cases h
          obtain ⟨g, hg, hi⟩ := StructKind.extract_cases hr hs
          have roman : ∀ i, romanToArabicWithPostfix g = .ok i → ∃ s, arabicToRomanWithPostfix i = .ok s := by
            intro i hi
            unfold romanToArabicWithPostfix at hi
            obtain ⟨⟨n, t⟩, -, hi⟩ := resBind_ok hi
            cases hi
            exact arabic_to_roman_ok n t
          have ordinal : ∀ i, (do let n ← textToIntHun g; .ok (natStr n) : Res Str) = .ok i →
              ∃ t, (do let n ← pyInt i; intToTextHun n : Res Str) = .ok t := by
            intro i hi
            obtain ⟨n, hn, hi⟩ := resBind_ok hi
            cases hi
            exact ⟨_, by rw [pyInt_natStr]; exact (Props.ordinal_read_iff g n).1 hn⟩
          cases k with
          | book =>
            obtain ⟨t, ht⟩ := ordinal i hi
            obtain ⟨n, hn, ht⟩ := resBind_ok ht
            exact ⟨upper t ++ py" KÖNYV", by simp [StructuralElement.formattedIdentifier, hn, ht, bind, Except.bind]⟩
          | part =>
            obtain ⟨t, ht⟩ := ordinal i hi
            obtain ⟨n, hn, ht⟩ := resBind_ok ht
            exact ⟨upper t ++ py" RÉSZ", by simp [StructuralElement.formattedIdentifier, hn, ht, bind, Except.bind]⟩
          | title =>
            obtain ⟨t, ht⟩ := roman i hi
            exact ⟨upper t ++ py". CÍM", by simp [StructuralElement.formattedIdentifier, ht, bind, Except.bind]⟩
          | chapter =>
            obtain ⟨t, ht⟩ := roman i hi
            exact ⟨upper t ++ py". FEJEZET", by simp [StructuralElement.formattedIdentifier, ht, bind, Except.bind]⟩
          | subtitle => exact absurd rfl hk

/-- Only parts have special titles. -/
theorem struct_special {k : StructKind} {lines : List Line} {e : StructuralElement} (h : k.parse lines = .ok (.structural e)) :
    e.special = true → e.kind = .part := by
  intro he
  cases lines with
  | nil => cases h
  | cons first rest =>
    simp only [StructKind.parse] at h
    by_cases hk : k = .subtitle
    · rw [if_pos hk] at h
      obtain ⟨r, hr, h⟩ := resBind_ok h
      cases r with
      | none => cases h; cases he
      | some i =>
        simp only at h
        cases hf : strFind (py". ") (joinLines (first :: rest)) with
        | none => rw [hf] at h; cases h
        | some n => rw [hf] at h; cases h; cases he
    · rw [if_neg hk] at h
      cases hs : (if k = .part then specialPartId first.content else none) with
      | some i =>
        rw [hs] at h
        cases h
        by_cases hp : k = .part
        · exact hp
        · rw [if_neg hp] at hs; cases hs
      | none =>
        rw [hs] at h
        simp only at h
        obtain ⟨r, hr, h⟩ := resBind_ok h
        cases r with
        | none => cases h
        | some i => cases h; cases he

end Verif
