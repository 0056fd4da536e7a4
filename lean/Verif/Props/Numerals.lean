import Verif.Proofs.Roman
import Verif.Proofs.Ordinals

/-! # Properties C01, C02, C03: numerals -/

namespace Verif.Props

open Verif

/-! ## C01: Roman numerals -/

/-- C01. The text written for a natural number is its standard Roman numeral. -/
theorem roman_written_is_standard (n : Nat) : intToTextRoman n = Spec.roman n := intToTextRoman_eq n

example : intToTextRoman 1994 = py"MCMXCIV" := by decide

/-- C01. Reading back the numeral of any positive integer gives that integer. -/
theorem roman_roundtrip (i : Int) (hi : 0 < i) : textToIntRoman (intToTextRoman i) = .ok i.toNat := by
  obtain ⟨n, rfl⟩ := Int.eq_ofNat_of_zero_le (Int.le_of_lt hi)
  have h := textToIntRomanWithPostfix_roman n (by omega) [] (by intro c hc; simp at hc)
  rw [List.append_nil] at h
  unfold textToIntRoman
  rw [intToTextRoman_eq, h]
  rfl

example : textToIntRoman (intToTextRoman 3888) = .ok 3888 := roman_roundtrip 3888 (by decide)

/-- C01. Different positive integers have different numerals. -/
theorem roman_injective (i j : Int) (hi : 0 < i) (hj : 0 < j) (h : intToTextRoman i = intToTextRoman j) : i = j := by
  have h1 := roman_roundtrip i hi
  rw [h, roman_roundtrip j hj] at h1
  have : j.toNat = i.toNat := by simpa using h1
  omega

example : (4 : Int) > 0 ∧ (6 : Int) > 0 ∧ intToTextRoman 4 ≠ intToTextRoman 6 := by decide

/-- C01. Non-positive integers are written as the empty text, and reading the empty text is refused. -/
theorem roman_nonpositive (i : Int) (hi : i ≤ 0) :
    intToTextRoman i = [] ∧ textToIntRoman (intToTextRoman i) = .error .valueError := by
  have : intToTextRoman i = [] := by
    unfold intToTextRoman
    rw [show i.toNat = 0 by omega]
    rfl
  rw [this]
  exact ⟨rfl, rfl⟩

example : (-3 : Int) ≤ 0 := by decide

/-- C01. Exactly the texts made of Roman letters, at least one, are read; everything else is refused. -/
theorem roman_reading_accepts (s : Str) :
    (∃ n, textToIntRoman s = .ok n) ↔ s ≠ [] ∧ ∀ c ∈ s, c ∈ Spec.romanLetters := by
  obtain ⟨h1, _, h3⟩ := readRomanLoop_rest s.length s 0 (Nat.le_refl _)
  unfold textToIntRoman textToIntRomanWithPostfix
  by_cases hs : s = []
  · subst hs; simp [readRomanLoop, Bind.bind, Except.bind]
  · by_cases hr : (readRomanLoop s.length s 0).2 = []
    · have := h3 hs hr
      refine ⟨fun _ => ⟨hs, h1.mp hr⟩, fun _ => ⟨(readRomanLoop s.length s 0).1, ?_⟩⟩
      simp only []
      rw [if_neg (by omega)]
      simp [Bind.bind, Except.bind, hr]
    · refine ⟨fun ⟨n, hn⟩ => ?_, fun h => absurd (h1.mpr h.2) hr⟩
      simp only [] at hn
      split at hn
      · cases hn
      · simp [Bind.bind, Except.bind, hr] at hn

example : (∃ n, textToIntRoman (py"XIX") = .ok n) ∧ ¬∃ n, textToIntRoman (py"XIX.") = .ok n := by
  rw [roman_reading_accepts, roman_reading_accepts]
  decide

/-- C01. Every other text is refused with a ValueError. -/
theorem roman_reading_refuses (s : Str) :
    textToIntRoman s = .error .valueError ↔ s = [] ∨ ∃ c ∈ s, c ∉ Spec.romanLetters := by
  have he : ∀ e, textToIntRoman s = .error e → e = .valueError := by
    intro e h
    unfold textToIntRoman textToIntRomanWithPostfix at h
    simp only [] at h
    split at h
    · exact (Except.error.inj h).symm
    · simp only [Bind.bind, Except.bind] at h
      split at h
      · exact (Except.error.inj h).symm
      · cases h
  have ha := roman_reading_accepts s
  constructor
  · intro h
    by_cases hs : s = []
    · exact .inl hs
    · refine .inr (Classical.byContradiction fun hc => ?_)
      obtain ⟨n, hn⟩ := ha.2 ⟨hs, fun c hm => Classical.byContradiction fun h => hc ⟨c, hm, h⟩⟩
      rw [h] at hn
      cases hn
  · intro h
    cases hn : textToIntRoman s with
    | error e => rw [he e hn]
    | ok n =>
      obtain ⟨h1, h2⟩ := ha.1 ⟨n, hn⟩
      rcases h with h | ⟨c, hc, h⟩
      · exact absurd h h1
      · exact absurd (h2 c hc) h

example : textToIntRoman (py"XIX.") = .error .valueError := (roman_reading_refuses _).2 (.inr ⟨'.', by decide, by decide⟩)

/-- C01. What is read is the value of the letters, also if the numeral is not a standard one. -/
theorem roman_value_read (s : Str) (n : Nat) : textToIntRoman s = .ok n ↔ s ≠ [] ∧ Spec.RomanValue s n := by
  obtain ⟨letters, m, h1, h2, h3, h4⟩ := readRomanLoop_value s.length s 0 (Nat.le_refl _)
  rw [Nat.zero_add] at h4
  unfold textToIntRoman textToIntRomanWithPostfix
  dsimp only
  constructor
  · intro h
    by_cases hr : (readRomanLoop s.length s 0).1 = 0
    · rw [if_pos hr] at h
      cases h
    · rw [if_neg hr] at h
      simp only [bind, Except.bind] at h
      split at h
      · cases h
      · rename_i hrest
        injection h with h
        have hnil : (readRomanLoop s.length s 0).2 = [] := by simpa using hrest
        rw [hnil, List.append_nil] at h1
        refine ⟨?_, by rw [← h, h4, h1]; exact h3⟩
        intro hs
        subst hs
        exact hr (by simp [readRomanLoop])
  · rintro ⟨hs, hv⟩
    obtain ⟨e1, e2⟩ := roman_split (romanValue_letters h3) (romanValue_letters hv) h2 (d := []) (fun _ h => by cases h)
      (h1.symm.trans (List.append_nil s).symm)
    subst e1
    have := romanValue_functional h3 hv
    subst this
    have hpos := romanValue_pos h3 hs
    rw [if_neg (by omega)]
    simp only [bind, Except.bind, e2]
    rw [h4]
    rfl

/-- The value of a numeral that is not a standard one. -/
example : textToIntRoman (py"IIXC") = .ok 110 := by
  have h : Spec.RomanValue (py"IIXC") (1 + (9 + (100 + 0))) :=
    .unit (by decide) (by intro b w h; cases h; simp [Spec.romanPairs]) (.pair (by decide) (.unit (by decide) (by simp) .nil))
  exact (roman_value_read _ _).2 ⟨by decide, h⟩

/-! ## C02: numbers with a postfix -/

/-- C02. A number with a postfix is read exactly if the text begins with a Roman letter: all the Roman letters at its beginning are
the number, in decimal digits it is followed by the rest of the text. -/
theorem roman_postfix_read (s i : Str) : romanToArabicWithPostfix s = .ok i ↔ Spec.RomanNumber s i := romanToArabic_iff

/-- C02. Every other text is refused with a ValueError. -/
theorem roman_postfix_refused (s : Str) :
    romanToArabicWithPostfix s = .error .valueError ↔ ∀ c, s.head? = some c → c ∉ Spec.romanLetters := by
  constructor
  · intro h c hc hm
    obtain ⟨letters, n, h1, h2, h3, h4⟩ := readRomanLoop_value s.length s 0 (Nat.le_refl _)
    have hl : letters ≠ [] := by
      intro hl
      subst hl
      exact h2 c (by rw [← List.nil_append (readRomanLoop _ _ _).2, ← h1]; exact hc) hm
    have : romanToArabicWithPostfix s = .ok (natStr n ++ _) := (roman_postfix_read s _).2 ⟨letters, _, n, h1, hl, h2, h3, rfl⟩
    rw [h] at this
    cases this
  · intro h
    cases hr : romanToArabicWithPostfix s with
    | ok i =>
      obtain ⟨letters, rest, n, rfl, h2, -, h4, -⟩ := (roman_postfix_read s i).1 hr
      cases letters with
      | nil => exact absurd rfl h2
      | cons c letters => exact absurd (romanValue_letters h4 c List.mem_cons_self) (h c rfl)
    | error e =>
      unfold romanToArabicWithPostfix textToIntRomanWithPostfix at hr
      dsimp only at hr
      split at hr
      · cases hr
        rfl
      · cases hr

example : romanToArabicWithPostfix (py"XIV/A") = .ok (py"14/A") ∧ romanToArabicWithPostfix (py"/A") = .error .valueError := by
  have h : Spec.RomanValue (py"XIV") (10 + (4 + 0)) :=
    .unit (by decide) (by intro b w h; cases h; simp [Spec.romanPairs]) (.pair (by decide) .nil)
  exact ⟨(roman_postfix_read _ _).2 ⟨py"XIV", py"/A", _, rfl, by decide, by simp [Spec.romanLetters], h, by decide +kernel⟩,
    (roman_postfix_refused _).2 (by simp [Spec.romanLetters])⟩

/-- The postfix begins neither with a Roman letter nor with a digit, and has no line feed. -/
def CleanPostfix (p : Str) : Prop :=
  (∀ c, p.head? = some c → c ∉ Spec.romanLetters ∧ isAsciiDigit c = false) ∧ '\n' ∉ p

theorem takeWhile_natStr_append (n : Nat) (p : Str) (hp : CleanPostfix p) :
    (natStr n ++ p).takeWhile isAsciiDigit = natStr n ∧ (natStr n ++ p).dropWhile isAsciiDigit = p := by
  have hall := natStr_ascii n
  have hpt : p.takeWhile isAsciiDigit = [] ∧ p.dropWhile isAsciiDigit = p := by
    cases p with
    | nil => simp
    | cons c cs => have := (hp.1 c rfl).2; simp [this]
  constructor
  · rw [List.takeWhile_append_of_pos hall, hpt.1, List.append_nil]
  · rw [List.dropWhile_append_of_pos hall, hpt.2]

theorem takeWhile_no_lf (p : Str) (h : '\n' ∉ p) : p.takeWhile (· ≠ '\n') = p := by
  induction p with
  | nil => rfl
  | cons c cs ih =>
    simp only [List.mem_cons, not_or] at h
    simp only [List.takeWhile, ne_eq, Ne.symm h.1, not_false_eq_true, decide_true]
    rw [ih h.2]

/-- C02. The Roman form of a number with a postfix is its standard numeral followed by the postfix. -/
theorem arabic_to_roman_form (n : Nat) (p : Str) (hp : CleanPostfix p) :
    arabicToRomanWithPostfix (natStr n ++ p) = .ok (Spec.roman n ++ p) := by
  unfold arabicToRomanWithPostfix
  have h := takeWhile_natStr_append n p hp
  simp only [h.1, h.2]
  rw [if_neg (by simpa using natStr_ne_nil n), pyInt_natStr, takeWhile_no_lf p hp.2, ← intToTextRoman_eq]
  rfl

/-- C02. From arabic to Roman and back. -/
theorem structural_number_roundtrip (n : Nat) (hn : 0 < n) (p : Str) (hp : CleanPostfix p) :
    (arabicToRomanWithPostfix (natStr n ++ p) >>= romanToArabicWithPostfix) = .ok (natStr n ++ p) := by
  rw [arabic_to_roman_form n p hp]
  show romanToArabicWithPostfix (Spec.roman n ++ p) = _
  unfold romanToArabicWithPostfix
  rw [textToIntRomanWithPostfix_roman n hn p (fun c hc => (hp.1 c hc).1)]
  rfl

/-- C02. From a standard Roman numeral with a postfix to arabic and back. -/
theorem roman_number_roundtrip (n : Nat) (hn : 0 < n) (p : Str) (hp : CleanPostfix p) :
    (romanToArabicWithPostfix (Spec.roman n ++ p) >>= arabicToRomanWithPostfix) = .ok (Spec.roman n ++ p) := by
  unfold romanToArabicWithPostfix
  rw [textToIntRomanWithPostfix_roman n hn p (fun c hc => (hp.1 c hc).1)]
  exact arabic_to_roman_form n p hp

example : CleanPostfix (py"/A") := by
  refine ⟨?_, by decide⟩
  intro c hc
  have : c = '/' := by simpa using hc.symm
  subst this
  decide

/-- C02. The conditions on the postfix and on the number are needed: the postfixes `C` and `\nA`, the number 0 and a
leading zero do not survive. -/
theorem structural_number_roundtrip_fails :
    (arabicToRomanWithPostfix (py"10C") >>= romanToArabicWithPostfix) = .ok (py"90") ∧
    (arabicToRomanWithPostfix (py"1\nA") >>= romanToArabicWithPostfix) = .ok (py"1") ∧
    (arabicToRomanWithPostfix (py"0/A") >>= romanToArabicWithPostfix) = .error .valueError ∧
    (arabicToRomanWithPostfix (py"07") >>= romanToArabicWithPostfix) = .ok (py"7") := by decide

/-- C02. Reading is not injective: a numeral that is not standard is accepted and written back differently. -/
theorem roman_reading_accepts_nonstandard :
    (romanToArabicWithPostfix (py"IIII") >>= arabicToRomanWithPostfix) = .ok (py"IV") := by decide

/-! ## C03: Hungarian ordinals -/

/-- C03. Exactly the integers from 1 to 100 have a text, and it is the Hungarian ordinal. -/
theorem ordinal_text_exists_iff (i : Int) :
    (∃ w, intToTextHun i = .ok w) ↔ 1 ≤ i ∧ i ≤ 100 := by
  constructor
  · rintro ⟨w, hw⟩
    have := (intToTextHun_ok i w).mp hw
    have hl := (List.getElem?_eq_some_iff.mp this.2).1
    rw [ordinals_length] at hl
    omega
  · rintro ⟨h1, h2⟩
    have hl : (i - 1).toNat < Spec.ordinals.length := by rw [ordinals_length]; omega
    exact ⟨_, (intToTextHun_ok i _).mpr ⟨h1, List.getElem?_eq_getElem hl⟩⟩

/-- C03. Other integers are refused with ValueError. -/
theorem ordinal_out_of_range (i : Int) (h : i < 1 ∨ 100 < i) : intToTextHun i = .error .valueError := by
  cases hi : intToTextHun i with
  | ok w =>
    have := (ordinal_text_exists_iff i).mp ⟨w, hi⟩
    omega
  | error e =>
    unfold intToTextHun at hi
    split at hi <;> simp_all

example : intToTextHun 57 = .ok (py"ötvenhetedik") := by decide +kernel

/-- C03. A text is read as `n` exactly if in lower case it is the text written for `n`. -/
theorem ordinal_read_iff (s : Str) (n : Nat) :
    textToIntHun s = .ok n ↔ intToTextHun n = .ok (lower s) := by
  rw [textToIntHun_ok, intToTextHun_ok]
  constructor
  · rintro ⟨h1, h2⟩
    exact ⟨by omega, by rw [show ((n : Int) - 1).toNat = n - 1 by omega]; exact h2⟩
  · rintro ⟨h1, h2⟩
    exact ⟨by omega, by rw [show ((n : Int) - 1).toNat = n - 1 by omega] at h2; exact h2⟩

/-- C03. A number is read exactly from its ordinal, in small or capital letters. -/
theorem ordinal_named (s : Str) (n : Nat) : textToIntHun s = .ok n ↔ Spec.OrdinalOf s n := textToIntHun_ok s n

/-- C03. Every text that is not an ordinal up to the hundredth is refused with a ValueError. -/
theorem ordinal_reading_refuses (s : Str) : textToIntHun s = .error .valueError ↔ lower s ∉ Spec.ordinals := by
  constructor
  · intro h hm
    obtain ⟨i, hi⟩ := List.mem_iff_getElem?.1 hm
    have := (textToIntHun_ok s (i + 1)).2 ⟨by omega, by simpa using hi⟩
    rw [h] at this
    cases this
  · intro h
    cases hn : textToIntHun s with
    | ok n => exact absurd (List.mem_of_getElem? ((textToIntHun_ok s n).1 hn).2) h
    | error e =>
      unfold textToIntHun at hn
      split at hn
      · cases hn
      · rw [← Except.error.inj hn]

example : textToIntHun (py"századegyedik") = .error .valueError := (ordinal_reading_refuses _).2 (by decide +kernel)

/-- C03. Writing and reading back, in the letter case of the table. -/
theorem ordinal_roundtrip (i : Int) (w : Str) (h : intToTextHun i = .ok w) : textToIntHun w = .ok i.toNat := by
  rw [ordinal_read_iff]
  have hi := (ordinal_text_exists_iff i).mp ⟨w, h⟩
  rw [show ((i.toNat : Nat) : Int) = i by omega]
  have hl : ∀ w ∈ Spec.ordinals, lower w = w := by decide +kernel
  have hw := ((intToTextHun_ok i w).mp h).2
  rw [hl w (List.mem_of_getElem? hw), h]

/-- C03. The text written for `i` is the `i`-th entry of the list of Hungarian ordinals. -/
theorem ordinal_written (i : Int) (w : Str) :
    intToTextHun i = .ok w ↔ 1 ≤ i ∧ Spec.ordinals[(i - 1).toNat]? = some w := intToTextHun_ok i w

example : textToIntHun (py"HARMINCNEGYEDIK") = .ok 34 := by decide +kernel

end Verif.Props
