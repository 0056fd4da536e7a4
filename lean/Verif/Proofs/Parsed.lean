import Verif.Proofs.ParseChildren
import Verif.Proofs.Structure

/-! # How the elements of an article come from its lines -/

namespace Verif

open Verif.Spec

/-! ## What the header expressions accept -/

theorem takeWhile_number {s : Str} (h : (s.takeWhile isAsciiDigit).isEmpty = false) :
    IsNumber (s.takeWhile isAsciiDigit) :=
  ⟨fun e => by rw [e] at h; simp at h, fun c hc => List.all_eq_true.mp List.all_takeWhile c hc⟩

theorem takeWhile_append_dropWhile' (p : Char → Bool) (s : Str) : s.takeWhile p ++ s.dropWhile p = s :=
  List.takeWhile_append_dropWhile

theorem matchNumbered_shape {s i : Str} (h : matchNumbered s = some i) : IsNumericPointId i := by
  unfold matchNumbered at h
  simp only at h
  cases he : (s.takeWhile isAsciiDigit).isEmpty with
  | true => simp [he] at h
  | false =>
    simp only [he, Bool.false_eq_true, if_false] at h
    have hn := takeWhile_number he
    split at h
    · obtain rfl := Option.some.inj h
      exact .inl (.inl hn)
    · split at h
      · rename_i c _ _ hc
        obtain rfl := Option.some.inj h
        exact .inr ⟨_, _, hn, hc, rfl⟩
      · cases h
    · split at h
      · rename_i c _ _ _ hc
        obtain rfl := Option.some.inj h
        exact .inl (.inr ⟨_, _, hn, hc, rfl⟩)
      · cases h
    · cases h

theorem matchParagraph_shape {s i : Str} (h : matchParagraph s = some i) : IsParagraphId i := by
  unfold matchParagraph at h
  split at h
  · rename_i t
    simp only at h
    cases he : (t.takeWhile isAsciiDigit).isEmpty with
    | true => simp [he] at h
    | false =>
      simp only [he, Bool.false_eq_true, if_false] at h
      have hn := takeWhile_number he
      split at h
      · obtain rfl := Option.some.inj h
        exact .inl hn
      · split at h
        · rename_i c _ _ _ hc
          obtain rfl := Option.some.inj h
          exact .inr ⟨_, _, hn, hc, rfl⟩
        · cases h
      · cases h
  · cases h

/-- All letters are lower case. -/
def Letters (s : Str) : Prop := ∀ c ∈ s, isLowerAz c = true

theorem matchLettered_shape {p s i : Str} (h : matchLettered p s = some i) :
    (∃ c, isLowerAz c = true ∧ i = p ++ [c]) ∨ i = py"ny" ∨ i = py"sz" := by
  unfold matchLettered at h
  split at h
  · split at h
    · rename_i c _ _ hc
      obtain rfl := Option.some.inj h
      exact .inl ⟨_, hc, rfl⟩
    · cases h
  · split at h
    · exact .inr (.inl (Option.some.inj h).symm)
    · split at h
      · exact .inr (.inr (Option.some.inj h).symm)
      · cases h

theorem matchLettered_letters {p s i : Str} (hp : Letters p) (h : matchLettered p s = some i) : Letters i := by
  rcases matchLettered_shape h with ⟨c, hc, rfl⟩ | rfl | rfl
  · intro x hx
    rcases List.mem_append.mp hx with hx | hx
    · exact hp x hx
    · rw [List.mem_singleton.mp hx]; exact hc
  · unfold Letters; decide
  · unfold Letters; decide

theorem matchLettered_full {p s : Str} : matchLettered p s ≠ some [] := by
  intro h
  rcases matchLettered_shape h with ⟨c, -, h⟩ | h | h
  · simp at h
  · cases h
  · cases h

theorem matchParagraph_full {s : Str} : matchParagraph s ≠ some [] := by
  intro h
  rcases matchParagraph_shape h with h | ⟨n, c, -, -, h⟩
  · exact h.1 rfl
  · simp at h

theorem matchNumbered_full {s : Str} : matchNumbered s ≠ some [] := by
  intro h
  rcases matchNumbered_shape h with (h | ⟨n, c, -, -, h⟩) | ⟨n, c, -, -, h⟩
  · exact h.1 rfl
  · simp at h
  · simp at h

theorem Letters.alphabetic {s : Str} (h : Letters s) : IsAlphabetic s := fun c hc => lower_not_digit (h c hc)

theorem lower_plain {c : Char} (h : isLowerAz c = true) : quoteDelta c = 0 := by
  unfold quoteDelta
  have h1 : c ≠ '„' := by rintro rfl; revert h; decide
  have h2 : c ≠ '“' := by rintro rfl; revert h; decide
  have h3 : c ≠ '”' := by rintro rfl; revert h; decide
  simp [h1, h2, h3]

theorem digit_plain {c : Char} (h : isAsciiDigit c = true) : quoteDelta c = 0 := by
  unfold quoteDelta
  have h1 : c ≠ '„' := by rintro rfl; revert h; decide
  have h2 : c ≠ '“' := by rintro rfl; revert h; decide
  have h3 : c ≠ '”' := by rintro rfl; revert h; decide
  simp [h1, h2, h3]

theorem upper_plain {c : Char} (h : isUpperAz c = true) : quoteDelta c = 0 := by
  unfold quoteDelta
  have h1 : c ≠ '„' := by rintro rfl; revert h; decide
  have h2 : c ≠ '“' := by rintro rfl; revert h; decide
  have h3 : c ≠ '”' := by rintro rfl; revert h; decide
  simp [h1, h2, h3]

theorem paragraphId_plain {i : Str} (h : IsParagraphId i) : ∀ c ∈ i, quoteDelta c = 0 := by
  intro c hc
  rcases h with h | ⟨n, x, hn, hx, rfl⟩
  · exact digit_plain (h.2 c hc)
  · rcases List.mem_append.mp hc with hc | hc
    · exact digit_plain (hn.2 c hc)
    · rw [List.mem_singleton.mp hc]; exact lower_plain hx

theorem numericId_plain {i : Str} (h : IsNumericPointId i) : ∀ c ∈ i, quoteDelta c = 0 := by
  rcases h with h | ⟨n, x, hn, hx, rfl⟩
  · exact paragraphId_plain h
  · intro c hc
    rcases List.mem_append.mp hc with hc | hc
    · exact digit_plain (hn.2 c hc)
    · simp only [List.mem_cons, List.not_mem_nil, or_false] at hc
      rcases hc with rfl | rfl
      · decide
      · exact lower_plain hx

/-! ## Identifiers that come after each other -/

theorem asciiDigit_value {c : Char} (h : isAsciiDigit c = true) : decimalValue c = some (c.toNat - '0'.toNat) := by
  obtain ⟨d, hd, rfl⟩ := ascii_digit_exists c h
  have key : ∀ d, d < 10 → decimalValue (digitChar d) = some ((digitChar d).toNat - '0'.toNat) := by decide +kernel
  exact key d hd

theorem pyIntDigits_value (s : Str) : ∀ a, (∀ c ∈ s, isAsciiDigit c = true) →
    pyIntDigits (some a) false s = some (s.foldl (fun n c => n * 10 + (c.toNat - '0'.toNat)) a) := by
  induction s with
  | nil => intro a _; rfl
  | cons c cs ih =>
    intro a h
    simp only [pyIntDigits, asciiDigit_value (h c (by simp)), Option.getD_some, List.foldl_cons]
    exact ih _ fun x hx => h x (by simp [hx])

theorem pyInt_value {s : Str} (h : IsNumber s) : pyInt s = .ok (numberValue s : Int) := by
  rw [pyInt_of_decimals s fun c hc => ascii_decimal (h.2 c hc)]
  cases s with
  | nil => exact absurd rfl h.1
  | cons c cs =>
    simp only [pyIntDigits, asciiDigit_value (h.2 c (by simp)), Option.getD_none]
    rw [pyIntDigits_value cs _ fun x hx => h.2 x (by simp [hx])]
    rfl

theorem lower_range {c : Char} (h : isLowerAz c = true) : ∃ d, d < 26 ∧ c = Char.ofNat (97 + d) := by
  have hc := (isLowerAz_iff c).mp h
  refine ⟨c.toNat - 97, by omega, ?_⟩
  rw [show 97 + (c.toNat - 97) = c.toNat by omega, Char.ofNat_toNat]

theorem letterAfter_iff {a b : Str} : LetterAfter a b ↔
    (List.range 30).any (fun i => (plainAlphabet[i]? == some a && plainAlphabet[i + 1]? == some b) ||
      (hungarianAlphabet[i]? == some a && hungarianAlphabet[i + 1]? == some b)) = true := by
  rw [List.any_eq_true]
  constructor
  · rintro ⟨i, hi⟩
    refine ⟨i, ?_, by simpa using hi⟩
    rw [List.mem_range]
    have h1 : plainAlphabet.length = 26 := rfl
    have h2 : hungarianAlphabet.length = 30 := rfl
    rcases hi with ⟨hi, _⟩ | ⟨hi, _⟩ <;> obtain ⟨hi, _⟩ := List.getElem?_eq_some_iff.mp hi <;> omega
  · rintro ⟨i, _, hi⟩
    exact ⟨i, by simpa using hi⟩

theorem special_after : ∀ p ∈ specialNextLetterPairs, (p.1 ++ p.2).all isLowerAz = true →
    (List.range 30).any (fun i => (plainAlphabet[i]? == some p.1 && plainAlphabet[i + 1]? == some p.2) ||
      (hungarianAlphabet[i]? == some p.1 && hungarianAlphabet[i + 1]? == some p.2)) = true := by decide +kernel

theorem single_after : ∀ d, d < 25 → (List.range 30).any (fun i => (plainAlphabet[i]? == some [Char.ofNat (97 + d)] &&
      plainAlphabet[i + 1]? == some [Char.ofNat (97 + (d + 1))]) ||
      (hungarianAlphabet[i]? == some [Char.ofNat (97 + d)] && hungarianAlphabet[i + 1]? == some [Char.ofNat (97 + (d + 1))])) =
    true := by decide +kernel

theorem letter_after {a b : Str} (ha : Letters a) (hb : Letters b) (h : isNextLetterHun a b = true) : LetterAfter a b := by
  unfold isNextLetterHun at h
  rw [Bool.or_eq_true] at h
  rcases h with h | h
  · refine letterAfter_iff.mpr (special_after (a, b) (by simpa using h) ?_)
    rw [List.all_append, Bool.and_eq_true]
    exact ⟨List.all_eq_true.mpr ha, List.all_eq_true.mpr hb⟩
  · split at h
    · rename_i x y
      obtain ⟨d, hd, rfl⟩ := lower_range (ha x (by simp))
      obtain ⟨e, he, rfl⟩ := lower_range (hb y (by simp))
      have key : ∀ d, d < 26 → (Char.ofNat (97 + d)).toNat = 97 + d := by decide +kernel
      have : 97 + d + 1 = 97 + e := by
        have := h
        rw [key d hd, key e he] at this
        simpa using this
      obtain rfl : e = d + 1 := by omega
      exact letterAfter_iff.mpr (single_after d (by omega))
    · cases h

theorem after_letter {a b : Str} (h : LetterAfter a b) : isNextLetterHun a b = true := by
  obtain ⟨i, h⟩ := h
  have table1 : ∀ i, i < 26 → ∀ a b, plainAlphabet[i]? = some a → plainAlphabet[i + 1]? = some b →
      isNextLetterHun a b = true := by
    have : ∀ i, i < 26 → (match plainAlphabet[i]?, plainAlphabet[i + 1]? with
      | some a, some b => isNextLetterHun a b
      | _, _ => true) = true := by decide +kernel
    intro i hi a b ha hb
    have := this i hi
    rwa [ha, hb] at this
  have table2 : ∀ i, i < 30 → ∀ a b, hungarianAlphabet[i]? = some a → hungarianAlphabet[i + 1]? = some b →
      isNextLetterHun a b = true := by
    have : ∀ i, i < 30 → (match hungarianAlphabet[i]?, hungarianAlphabet[i + 1]? with
      | some a, some b => isNextLetterHun a b
      | _, _ => true) = true := by decide +kernel
    intro i hi a b ha hb
    have := this i hi
    rwa [ha, hb] at this
  rcases h with ⟨h1, h2⟩ | ⟨h1, h2⟩
  · obtain ⟨hi, _⟩ := List.getElem?_eq_some_iff.mp h1
    exact table1 i hi a b h1 h2
  · obtain ⟨hi, _⟩ := List.getElem?_eq_some_iff.mp h1
    exact table2 i hi a b h1 h2

theorem letter_after_iff {a b : Str} (ha : Letters a) (hb : Letters b) : isNextLetterHun a b = true ↔ LetterAfter a b :=
  ⟨letter_after ha hb, after_letter⟩

theorem not_isDigitStr' {D : Str} {c : Char} (hc : isDigit c = false) : isDigitStr (D ++ [c]) = false := by
  simp [isDigitStr, hc]

/-- `is_next_numeric_identifier` for numbers with at most one letter. -/
theorem numericNext_iff {a b D1 r1 D2 r2 : Str} (h1 : IsNumber D1) (h2 : IsNumber D2)
    (f1 : a.filter (· ≠ '/') = D1 ++ r1) (f2 : b.filter (· ≠ '/') = D2 ++ r2)
    (s1 : r1 = [] ∨ ∃ c, isDigit c = false ∧ r1 = [c]) (s2 : r2 = [] ∨ ∃ c, isDigit c = false ∧ r2 = [c]) :
    isNextNumericIdentifier a b = .ok true ↔
      (r2 = [] ∧ numberValue D2 = numberValue D1 + 1) ∨ (D1 = D2 ∧ r1 = [] ∧ (r2 = py"a" ∨ r2 = py"A")) ∨
        (D1 = D2 ∧ ∃ c d, r1 = [c] ∧ r2 = [d] ∧ isNextLetterHun [c] [d] = true) := by
  unfold isNextNumericIdentifier
  simp only [f1, f2]
  rcases s1 with rfl | ⟨c1, hc1, rfl⟩ <;> rcases s2 with rfl | ⟨c2, hc2, rfl⟩
  · simp only [List.append_nil, number_isDigitStr h1, number_isDigitStr h2, if_true, pyInt_value h1, pyInt_value h2, bind,
      Except.bind]
    simp
    omega
  · simp only [List.append_nil, number_isDigitStr h1, not_isDigitStr' hc2, if_true]
    simp
    constructor
    · rintro (⟨h, e⟩ | ⟨h, e⟩)
      · exact ⟨h.symm, .inl e⟩
      · exact ⟨h.symm, .inr e⟩
    · rintro ⟨h, e | e⟩
      · exact .inl ⟨h.symm, e⟩
      · exact .inr ⟨h.symm, e⟩
  · simp only [List.append_nil, not_isDigitStr' hc1, number_isDigitStr h2, if_true, List.dropLast_concat, pyInt_value h1,
      pyInt_value h2, bind, Except.bind]
    simp
    omega
  · simp only [not_isDigitStr' hc1, not_isDigitStr' hc2, List.dropLast_concat, List.getLast?_concat]
    by_cases hD : D1 = D2
    · subst hD
      simp
    · simp [hD]

theorem number_letters_unique {D D' r r' : Str} (h : IsNumber D) (h' : IsNumber D') (hr : ∀ c ∈ r, isAsciiDigit c = false)
    (hr' : ∀ c ∈ r', isAsciiDigit c = false) (e : D ++ r = D' ++ r') : D = D' ∧ r = r' := by
  have take : ∀ {D r : Str}, IsNumber D → (∀ c ∈ r, isAsciiDigit c = false) → (D ++ r).takeWhile isAsciiDigit = D := by
    intro D r h hr
    rw [List.takeWhile_append_of_pos h.2]
    cases r with
    | nil => simp
    | cons c r => simp [hr c (by simp)]
  have : D = D' := by
    rw [← take h hr, e, take h' hr']
  subst this
  exact ⟨rfl, List.append_cancel_left e⟩

theorem lower_not_ascii {c : Char} (h : isLowerAz c = true) : isAsciiDigit c = false := by
  cases hd : isAsciiDigit c with
  | false => rfl
  | true =>
    have := lower_not_digit h
    obtain ⟨d, hd', rfl⟩ := ascii_digit_exists c hd
    have key : ∀ d, d < 10 → isDigit (digitChar d) = true := by decide +kernel
    rw [key d hd'] at this
    cases this

theorem numeric_after_iff {a b : Str} (ha : IsNumericPointId a) (hb : IsNumericPointId b) :
    isNextNumericIdentifier a b = .ok true ↔ NumberAfter a b := by
  obtain ⟨D1, r1, _, h1, _, rfl, t1⟩ := numeric_shape ha
  obtain ⟨D2, r2, _, h2, _, rfl, t2⟩ := numeric_shape hb
  have f1 : (D1 ++ r1).filter (· ≠ '/') = D1 ++ r1.filter (· ≠ '/') := by
    rw [List.filter_append, filter_slash_number h1]
  have f2 : (D2 ++ r2).filter (· ≠ '/') = D2 ++ r2.filter (· ≠ '/') := by
    rw [List.filter_append, filter_slash_number h2]
  have one : ∀ c, isLowerAz c = true → Letters [c] := fun c hc x hx => by rw [List.mem_singleton.mp hx]; exact hc
  have shape : ∀ {r : Str}, NumericTail r → (r.filter (· ≠ '/') = [] ∨
      ∃ c, isDigit c = false ∧ r.filter (· ≠ '/') = [c]) ∧ ∀ c ∈ r.filter (· ≠ '/'), isLowerAz c = true := by
    intro r t
    rcases numericTail_filter t with s | ⟨c, hc, s⟩
    · exact ⟨.inl s, by rw [s]; simp⟩
    · refine ⟨.inr ⟨c, lower_not_digit hc, s⟩, ?_⟩
      rw [s]
      exact one c hc
  obtain ⟨s1, l1⟩ := shape t1
  obtain ⟨s2, l2⟩ := shape t2
  rw [numericNext_iff h1 h2 f1 f2 s1 s2]
  have small : ∀ {r : Str}, (∀ c ∈ r, isLowerAz c = true) → ∀ c ∈ r, isAsciiDigit c = false :=
    fun h c hc => lower_not_ascii (h c hc)
  constructor
  · intro h
    refine ⟨D1, _, D2, _, f1, f2, h1, h2, ?_, ?_⟩
    · intro c hc
      rcases List.mem_append.mp hc with hc | hc
      · exact l1 c hc
      · exact l2 c hc
    · rcases h with ⟨e1, e2⟩ | ⟨e1, e2, e3 | e3⟩ | ⟨e1, c, d, e2, e3, e4⟩
      · exact .inl ⟨e1, e2⟩
      · exact .inr (.inl ⟨e1, e2, e3⟩)
      · exact absurd (l2 'A' (by rw [e3]; simp)) (by decide)
      · refine .inr (.inr ⟨e1, c, d, e2, e3, ?_⟩)
        exact letter_after (one c (l1 c (by rw [e2]; simp))) (one d (l2 d (by rw [e3]; simp))) e4
  · rintro ⟨m, x, n, y, e1, e2, h3, h4, hl, h⟩
    obtain ⟨rfl, rfl⟩ := number_letters_unique h1 h3 (small l1) (small fun c hc => hl c (by simp [hc])) (f1.symm.trans e1)
    obtain ⟨rfl, rfl⟩ := number_letters_unique h2 h4 (small l2) (small fun c hc => hl c (by simp [hc])) (f2.symm.trans e2)
    rcases h with h | ⟨e1, e2, e3⟩ | ⟨e1, c, d, e2, e3, e4⟩
    · exact .inl h
    · exact .inr (.inl ⟨e1, e2, .inl e3⟩)
    · exact .inr (.inr ⟨e1, c, d, e2, e3, after_letter e4⟩)

theorem numeric_after {a b : Str} (ha : IsNumericPointId a) (hb : IsNumericPointId b)
    (h : isNextNumericIdentifier a b = .ok true) : NumberAfter a b := (numeric_after_iff ha hb).mp h

theorem capitals_next : ∀ d, d < 26 → ∀ e, e < 26 → (isNextLetterHun [Char.ofNat (65 + d)] [Char.ofNat (65 + e)] = true ↔
    d + 1 = e) := by decide +kernel

theorem capitals_at : ∀ d, d < 26 → (py"ABCDEFGHIJKLMNOPQRSTUVWXYZ")[d]? = some (Char.ofNat (65 + d)) := by decide +kernel

theorem upper_range {c : Char} (hu : isUpperAz c = true) : ∃ d, d < 26 ∧ c = Char.ofNat (65 + d) := by
  have hc : 65 ≤ c.toNat ∧ c.toNat < 91 := by
    simp only [isUpperAz, Bool.and_eq_true, decide_eq_true_eq] at hu
    have h1 : 'A'.val ≤ c.val := hu.1
    have h2 : c.val ≤ 'Z'.val := hu.2
    have h1 : 65 ≤ c.toNat := UInt32.le_iff_toNat_le.mp h1
    have h2 : c.toNat ≤ 90 := UInt32.le_iff_toNat_le.mp h2
    omega
  refine ⟨c.toNat - 65, by omega, ?_⟩
  rw [show 65 + (c.toNat - 65) = c.toNat by omega, Char.ofNat_toNat]

theorem capital_next_iff {c d : Char} (hc : isUpperAz c = true) (hd : isUpperAz d = true) :
    isNextLetterHun [c] [d] = true ↔ ∃ i, (py"ABCDEFGHIJKLMNOPQRSTUVWXYZ")[i]? = some c ∧
      (py"ABCDEFGHIJKLMNOPQRSTUVWXYZ")[i + 1]? = some d := by
  obtain ⟨x, hx, rfl⟩ := upper_range hc
  obtain ⟨y, hy, rfl⟩ := upper_range hd
  rw [capitals_next x hx y hy]
  have inj : ∀ a, a < 26 → ∀ b, b < 26 → Char.ofNat (65 + a) = Char.ofNat (65 + b) → a = b := by decide +kernel
  have lt : ∀ {i : Nat} {c : Char}, (py"ABCDEFGHIJKLMNOPQRSTUVWXYZ")[i]? = some c → i < 26 := by
    intro i c h
    obtain ⟨h, _⟩ := List.getElem?_eq_some_iff.mp h
    exact h
  constructor
  · rintro rfl
    exact ⟨x, capitals_at x hx, capitals_at (x + 1) hy⟩
  · rintro ⟨i, h1, h2⟩
    have i1 := lt h1
    have i2 := lt h2
    rw [capitals_at i i1] at h1
    rw [capitals_at (i + 1) i2] at h2
    have := inj _ i1 _ hx (Option.some.inj h1)
    have := inj _ i2 _ hy (Option.some.inj h2)
    omega

/-- The same for the numbers of structural elements. -/
theorem capital_after_iff {a b : Str} (ha : IsArticleTail a) (hb : IsArticleTail b) :
    isNextNumericIdentifier a b = .ok true ↔ CapitalNumberAfter a b := by
  have shape : ∀ {a : Str}, IsArticleTail a → ∃ D r, IsNumber D ∧ a.filter (· ≠ '/') = D ++ r ∧
      (r = [] ∨ ∃ c, isDigit c = false ∧ r = [c]) ∧ ∀ c ∈ r, isUpperAz c = true := by
    intro a ha
    rcases ha with h | ⟨n, c, hn, hc, rfl⟩
    · exact ⟨a, [], h, by rw [filter_slash_number h]; simp, .inl rfl, by simp⟩
    · refine ⟨n, [c], hn, ?_, .inr ⟨c, upper_not_digit hc, rfl⟩, by simpa using hc⟩
      have : c ≠ '/' := by rintro rfl; revert hc; decide
      rw [List.filter_append, filter_slash_number hn]
      simp [this]
  obtain ⟨D1, r1, h1, f1, s1, l1⟩ := shape ha
  obtain ⟨D2, r2, h2, f2, s2, l2⟩ := shape hb
  rw [numericNext_iff h1 h2 f1 f2 s1 s2]
  have small : ∀ {r : Str}, (∀ c ∈ r, isUpperAz c = true) → ∀ c ∈ r, isAsciiDigit c = false := by
    intro r h c hc
    obtain ⟨d, hd, rfl⟩ := upper_range (h c hc)
    have key : ∀ d, d < 26 → isAsciiDigit (Char.ofNat (65 + d)) = false := by decide +kernel
    exact key d hd
  constructor
  · intro h
    refine ⟨D1, _, D2, _, f1, f2, h1, h2, ?_, ?_⟩
    · intro c hc
      rcases List.mem_append.mp hc with hc | hc
      · exact l1 c hc
      · exact l2 c hc
    · rcases h with ⟨e1, e2⟩ | ⟨e1, e2, e3 | e3⟩ | ⟨e1, c, d, e2, e3, e4⟩
      · exact .inl ⟨e1, e2⟩
      · exact absurd (l2 'a' (by rw [e3]; simp)) (by decide)
      · exact .inr (.inl ⟨e1, e2, e3⟩)
      · obtain ⟨i, hi⟩ := (capital_next_iff (l1 c (by rw [e2]; simp)) (l2 d (by rw [e3]; simp))).mp e4
        exact .inr (.inr ⟨e1, c, d, i, e2, e3, hi⟩)
  · rintro ⟨m, x, n, y, e1, e2, h3, h4, hl, h⟩
    obtain ⟨rfl, rfl⟩ := number_letters_unique h1 h3 (small l1) (small fun c hc => hl c (by simp [hc])) (f1.symm.trans e1)
    obtain ⟨rfl, rfl⟩ := number_letters_unique h2 h4 (small l2) (small fun c hc => hl c (by simp [hc])) (f2.symm.trans e2)
    rcases h with h | ⟨e1, e2, e3⟩ | ⟨e1, c, d, i, e2, e3, e4⟩
    · exact .inl h
    · exact .inr (.inl ⟨e1, e2, .inr e3⟩)
    · exact .inr (.inr ⟨e1, c, d, e2, e3, (capital_next_iff (l1 c (by rw [e2]; simp)) (l2 d (by rw [e3]; simp))).mpr ⟨i, e4⟩⟩)

/-- The beginnings of the identifiers of alphabetic subpoints. -/
def SubPrefix (p : Str) : Prop := p = [] ∨ (∃ c, isLowerAz c = true ∧ p = [c]) ∨ p = py"ny" ∨ p = py"sz"

theorem SubPrefix.letters {p : Str} (h : SubPrefix p) : Letters p := by
  rcases h with rfl | ⟨c, hc, rfl⟩ | rfl | rfl
  · simp [Letters]
  · intro x hx; rw [List.mem_singleton.mp hx]; exact hc
  · unfold Letters; decide
  · unfold Letters; decide

theorem point_prefix {s i : Str} (h : matchLettered [] s = some i) : SubPrefix i := by
  rcases matchLettered_shape h with ⟨c, hc, rfl⟩ | h | h
  · exact .inr (.inl ⟨c, hc, rfl⟩)
  · exact .inr (.inr (.inl h))
  · exact .inr (.inr (.inr h))

theorem subpoint_after {p s t a b : Str} (hp : SubPrefix p) (ha : matchLettered p s = some a)
    (hb : matchLettered p t = some b) (h : alphabeticSubpointIsNext a b = .ok true) :
    ∃ p x y, a = p ++ x ∧ b = p ++ y ∧ LetterAfter x y := by
  have la := matchLettered_letters hp.letters ha
  have lb := matchLettered_letters hp.letters hb
  unfold alphabeticSubpointIsNext at h
  split at h
  · exact ⟨[], _, _, rfl, rfl, letter_after la lb (by simpa using h)⟩
  · rename_i u v
    split at h
    · cases h
    · rename_i c rest
      by_cases hc : u = c
      · subst hc
        rw [if_pos rfl] at h
        cases rest with
        | nil => cases h
        | cons d more =>
          simp only [Except.ok.injEq] at h
          have la' : Letters [v] := fun x hx => la x (by simp at hx; simp [hx])
          have lb' : Letters [d] := fun x hx => lb x (by simp at hx; simp [hx])
          have hm : more = [] := by
            rcases matchLettered_shape hb with ⟨x, hx, e⟩ | e | e
            · rcases hp with rfl | ⟨y, hy, rfl⟩ | rfl | rfl
              · simp at e
              · simpa using (List.cons.inj (List.cons.inj e).2).2
              · exfalso
                have e1 := (List.cons.inj e).1
                have e2 := (List.cons.inj (List.cons.inj e).2).1
                subst e1; subst e2
                rcases matchLettered_shape ha with ⟨z, hz, e⟩ | e | e
                · simp at e
                · obtain rfl := (List.cons.inj (List.cons.inj e).2).1
                  revert h; decide
                · exact absurd (List.cons.inj e).1 (by decide)
              · exfalso
                have e1 := (List.cons.inj e).1
                have e2 := (List.cons.inj (List.cons.inj e).2).1
                subst e1; subst e2
                rcases matchLettered_shape ha with ⟨z, hz, e⟩ | e | e
                · simp at e
                · exact absurd (List.cons.inj e).1 (by decide)
                · obtain rfl := (List.cons.inj (List.cons.inj e).2).1
                  revert h; decide
            · exact (List.cons.inj (List.cons.inj e).2).2
            · exact (List.cons.inj (List.cons.inj e).2).2
          subst hm
          exact ⟨[u], [v], [d], rfl, rfl, letter_after la' lb' h⟩
      · rw [if_neg hc] at h; cases h
  · cases h

/-- What is needed of a parser class. -/
structure ElementParser.Sound (P : ElementParser) : Prop where
  visible : P.Visible
  kind : P.kind ≠ .blockAmendmentContainer
  plain : ∀ s i, P.header s = some i → ∀ c ∈ i, quoteDelta c = 0
  full : ∀ s, P.header s ≠ some []
  nodup : ∀ ids : List Str, (∀ i ∈ ids, ∃ s, P.header s = some i) →
    Consecutive (fun a b => P.kind.isNextIdentifier a b = .ok true) ids → ids.Nodup
  shape : ∀ s i, P.header s = some i → IdentifierOf P.kind i
  after : ∀ s t a b, P.header s = some a → P.header t = some b → P.kind.isNextIdentifier a b = .ok true →
    IdentifierAfter P.kind a b

theorem ElementParser.Sound.consecutive {P : ElementParser} (hP : P.Sound) {ids : List Str}
    (hi : ∀ i ∈ ids, ∃ s, P.header s = some i)
    (h : Consecutive (fun a b => P.kind.isNextIdentifier a b = .ok true) ids) : Consecutive (IdentifierAfter P.kind) ids :=
  Props.consecutive_imp ids (fun a ha b hb h => by
    obtain ⟨s, hs⟩ := hi a ha
    obtain ⟨t, ht⟩ := hi b hb
    exact hP.after s t a b hs ht h) h

theorem alphabeticSubpoint_sound {p : Str} (hp : SubPrefix p) : (alphabeticSubpointParser p).Sound where
  visible := by
    show matchLettered p [] = none
    cases p <;> rfl
  kind := by show SaeKind.alphabeticSubpoint ≠ _; decide
  plain := fun s i h c hc => lower_plain (matchLettered_letters hp.letters h c hc)
  full := fun s h => matchLettered_full h
  nodup := fun ids hi hc => (Props.alphabetic_subpoints_never_repeat ids
    (fun i hm => by obtain ⟨s, hs⟩ := hi i hm; exact (matchLettered_letters hp.letters hs).alphabetic) hc).2
  after := fun s t a b ha hb h => subpoint_after hp ha hb h
  shape := fun s i h => by
    rcases matchLettered_shape h with ⟨c, hc, rfl⟩ | e | e
    · rcases hp with rfl | ⟨d, hd, rfl⟩ | rfl | rfl
      · exact .inl (.inl ⟨c, hc, rfl⟩)
      · exact .inr ⟨_, c, .inl ⟨d, hd, rfl⟩, hc, rfl⟩
      · exact .inr ⟨_, c, .inr (.inl rfl), hc, rfl⟩
      · exact .inr ⟨_, c, .inr (.inr rfl), hc, rfl⟩
    · exact .inl (.inr (.inl e))
    · exact .inl (.inr (.inr e))

theorem alphabeticPoint_sound : alphabeticPointParser.Sound where
  visible := rfl
  kind := by decide
  plain := fun s i h c hc => lower_plain (matchLettered_letters (by simp [Letters]) h c hc)
  full := fun s h => matchLettered_full h
  nodup := fun ids hi hc => (Props.alphabetic_points_never_repeat ids
    (fun i hm => by obtain ⟨s, hs⟩ := hi i hm; exact (matchLettered_letters (by simp [Letters]) hs).alphabetic)
    (Props.consecutive_imp ids (fun a _ b _ h => by simpa [alphabeticPointParser, SaeKind.isNextIdentifier] using h) hc)).2
  after := fun s t a b ha hb h => letter_after (matchLettered_letters (by simp [Letters]) ha)
    (matchLettered_letters (by simp [Letters]) hb) (by simpa [alphabeticPointParser, SaeKind.isNextIdentifier] using h)
  shape := fun s i h => matchLettered_shape (p := []) h

theorem numericPoint_sound : numericPointParser.Sound where
  visible := rfl
  kind := by decide
  plain := fun s i h => numericId_plain (matchNumbered_shape h)
  full := fun s h => matchNumbered_full h
  nodup := fun ids hi hc => (Props.numeric_points_never_repeat ids
    (fun i hm => by obtain ⟨s, hs⟩ := hi i hm; exact matchNumbered_shape hs) hc).1
  after := fun s t a b ha hb h => numeric_after (matchNumbered_shape ha) (matchNumbered_shape hb) h
  shape := fun s i h => matchNumbered_shape h

theorem numericSubpoint_sound : numericSubpointParser.Sound where
  visible := rfl
  kind := by decide
  plain := fun s i h => numericId_plain (matchNumbered_shape h)
  full := fun s h => matchNumbered_full h
  nodup := fun ids hi hc => (Props.numeric_points_never_repeat ids
    (fun i hm => by obtain ⟨s, hs⟩ := hi i hm; exact matchNumbered_shape hs) hc).1
  after := fun s t a b ha hb h => numeric_after (matchNumbered_shape ha) (matchNumbered_shape hb) h
  shape := fun s i h => matchNumbered_shape h

theorem paragraph_sound : paragraphParser.Sound where
  visible := rfl
  kind := by decide
  plain := fun s i h => paragraphId_plain (matchParagraph_shape h)
  full := fun s h => matchParagraph_full h
  nodup := fun ids hi hc => (Props.paragraphs_never_repeat ids
    (fun i hm => by obtain ⟨s, hs⟩ := hi i hm; exact matchParagraph_shape hs) hc).2
  after := fun s t a b ha hb h => numeric_after (.inl (matchParagraph_shape ha)) (.inl (matchParagraph_shape hb)) h
  shape := fun s i h => matchParagraph_shape h

/-! ## The tree of lines -/

/-- The header of an element was cut off its first line. -/
structure Header (k : SaeKind) (i : Option Str) (first first' : Line) : Prop where
  cut : ∃ p, k.headerPrefix i = .ok p ∧ startsWith first.content p = true ∧ first.slice p.length = .ok first'
  named : i = none → k = .paragraph
  plain : ∀ j, i = some j → ∀ c ∈ j, quoteDelta c = 0
  full : i ≠ some []
  kind : k ≠ .blockAmendmentContainer
  shape : ∀ j, i = some j → IdentifierOf k j

mutual
/-- How an element of an article was made from its lines. -/
inductive Parsed : List Line → Node → Prop
  | text {first first' rest k i} (header : Header k i first first') :
      Parsed (first :: rest) (.sae k { identifier := i, text := some (joinLines (first' :: rest)) } [])
  | parent {first first' rest more blocks wl k i w cs} (header : Header k i first first')
      (same : SameLines rest (more ++ blocks.flatten ++ wl)) (outside : openQuotes (first' :: more) = 0)
      (levels : Levels 0 blocks) (wrapUp : WrapUp w wl) (children : ParsedL blocks cs) (nonempty : cs ≠ [])
      (numbered : ChildrenNumbered (.sae k { identifier := i } cs)) :
      Parsed (first :: rest)
        (.sae k { identifier := i, intro := some (joinLines (first' :: more)), wrapUp := w } cs)
  | quoted {ls n} (raw : QuotedRaw ls n) : Parsed ls n

/-- The same for siblings. -/
inductive ParsedL : List (List Line) → List Node → Prop
  | nil : ParsedL [] []
  | cons {b c bs cs} (head : Parsed b c) (tail : ParsedL bs cs) : ParsedL (b :: bs) (c :: cs)
end

theorem parsedL_of_both {bs : List (List Line)} {cs : List Node} (h : Both Parsed bs cs) : ParsedL bs cs := by
  induction h with
  | nil => exact .nil
  | cons h _ ih => exact .cons h ih

theorem Headed.heads {P : ElementParser} {level : Int} {last : Option Str} {bs : List (List Line)}
    (h : Headed P level last bs) : ∀ b ∈ bs, ∃ l i, b.head? = some l ∧ P.header l.content = some i := by
  induction h with
  | nil => simp
  | cons _ hh _ _ _ ih =>
    intro b hb
    rcases List.mem_cons.mp hb with rfl | hb
    · exact ⟨_, _, rfl, hh⟩
    · exact ih b hb

/-- The identifier in the header of a block. -/
def blockId (P : ElementParser) (b : List Line) : Option Str := b.head?.bind fun l => P.header l.content

theorem Headed.ids {P : ElementParser} {level : Int} {last : Option Str} {bs : List (List Line)}
    (h : Headed P level last bs) : ∃ ids : List Str, bs.map (blockId P) = ids.map some ∧
      Consecutive (fun a b => P.kind.isNextIdentifier a b = .ok true) ids ∧
      (last = none → bs ≠ [] → ids.head? = some P.first) ∧
      (∀ j, last = some j → ∀ i, ids.head? = some i → P.kind.isNextIdentifier j i = .ok true) ∧
      (∀ i ∈ ids, ∃ s, P.header s = some i) := by
  induction h with
  | nil => exact ⟨[], rfl, trivial, by simp, by simp, by simp⟩
  | @cons level last l ls bs i h0 hh hf hn hr ih =>
    obtain ⟨ids, e1, e2, e3, e4, e5⟩ := ih
    refine ⟨i :: ids, ?_, ?_, ?_, ?_, ?_⟩
    · simp [e1, blockId, hh]
    · cases ids with
      | nil => trivial
      | cons j ids => exact ⟨e4 i rfl j rfl, e2⟩
    · intro hl _; rw [hf hl]; rfl
    · intro j hj k hk
      obtain rfl : i = k := by simpa using hk
      exact hn j hj
    · intro k hk
      rcases List.mem_cons.mp hk with rfl | hk
      · exact ⟨_, hh⟩
      · exact e5 k hk

theorem both_map_eq {α β γ : Type} {R : α → β → Prop} {f : α → γ} {g : β → γ} {as : List α} {bs : List β}
    (h : Both R as bs) (hr : ∀ a b, R a b → g b = f a) : bs.map g = as.map f := by
  induction h with
  | nil => rfl
  | cons hab _ ih => simp [hr _ _ hab, ih]

/-- What `parse_children_and_wrapup` of a class has to give. -/
def KidsSound (P : ElementParser) (kids : ChildReader) : Prop :=
  ∀ (lines : List Line) (i : Option Str) (pi : Bool) (intro : Option Str) (cs : List Node) (w : Option Str),
    kids lines i pi = .ok (intro, cs, w) → (∀ j, i = some j → ∃ s, P.header s = some j) → lines ≠ [] →
    ∃ n blocks wl, 0 < n ∧ intro = some (joinLines (lines.take n)) ∧ openQuotes (lines.take n) = 0 ∧
      SameLines (lines.drop n) (blocks.flatten ++ wl) ∧ ParsedL blocks cs ∧ Levels 0 blocks ∧ WrapUp w wl ∧
      ChildrenNumbered (.sae P.kind { identifier := i } cs)

theorem parseElement_parsed {P : ElementParser} {kids : ChildReader} (hP : P.Sound) (hk : KidsSound P kids)
    {ls : List Line} {pi : Bool} {n : Node} (h : parseElement P kids ls pi = .ok n)
    (hname : blockId P ls = none → P.kind = .paragraph) :
    Parsed ls n ∧ n.type = .sae P.kind ∧ n.identifier = blockId P ls := by
  cases ls with
  | nil => simp [parseElement] at h
  | cons first rest =>
    simp only [parseElement] at h
    obtain ⟨p, hp, h⟩ := resBind_ok h
    cases hs : startsWith first.content p with
    | false => simp [hs] at h
    | true =>
      simp only [hs, Bool.not_true, Bool.false_eq_true, if_false] at h
      obtain ⟨first', hf, h⟩ := resBind_ok h
      have hid : blockId P (first :: rest) = P.header first.content := rfl
      rw [hid] at hname ⊢
      have header : Header P.kind (P.header first.content) first first' :=
        ⟨⟨p, hp, hs, hf⟩, hname, fun j hj => hP.plain _ _ hj, hP.full _, hP.kind, fun j hj => hP.shape _ _ hj⟩
      cases hr : kids (first' :: rest) (P.header first.content) pi with
      | ok r =>
        obtain ⟨intro, cs, w⟩ := r
        simp only [hr] at h
        obtain ⟨rfl, _, _, t, ht⟩ := mkSae_ok h
        have e6 : cs ≠ [] := by rintro rfl; simp [childrenType] at ht
        obtain ⟨n, blocks, wl, e1, rfl, e3, e4, e5, e7, e8, e9⟩ :=
          hk _ _ _ _ _ _ hr (fun j hj => ⟨_, hj⟩) (by simp)
        refine ⟨?_, rfl, rfl⟩
        obtain ⟨m, rfl⟩ : ∃ m, n = m + 1 := ⟨n - 1, by omega⟩
        rw [List.take_succ_cons] at e3 ⊢
        rw [List.drop_succ_cons] at e4
        refine .parent header ?_ e3 e7 e8 e5 e6 e9
        have := SameLines.append (SameLines.rfl' (rest.take m)) e4
        rw [List.take_append_drop] at this
        simpa using this
      | error e =>
        have : mkSae P.kind { identifier := P.header first.content, text := some (joinLines (first' :: rest)) } none =
            .ok n := by
          simp only [hr] at h
          cases e <;> first | exact h | cases h
        obtain ⟨rfl, _⟩ := mkSae_ok this
        exact ⟨.text header, rfl, rfl⟩

/-- A parser class with sound children, as one of the subparsers of its parent. -/
theorem asSub_children {Q : ElementParser} {kids : ChildReader} (hQ : Q.Sound) (hk : KidsSound Q kids)
    (hi : Q.mustHaveMultiple = true) {lines : List Line} {pi : Bool} {n : Nat}
    {cs : List Node} {w : Option Str} (hf : (Q.asSub kids).firstHeader lines = .ok (some n))
    (hx : (Q.asSub kids).extract (lines.drop n) pi = .ok (cs, w)) :
    openQuotes (lines.take n) = 0 ∧ ∃ blocks wl, SameLines (lines.drop n) (blocks.flatten ++ wl) ∧ ParsedL blocks cs ∧
      Levels 0 blocks ∧ WrapUp w wl ∧ NumberedFrom Q.kind Q.first cs ∧ 2 ≤ cs.length := by
  obtain ⟨pre, l, post, e1, rfl, e3, e4⟩ := findFirstHeader_spec hf
  refine ⟨by rw [e1, List.take_left]; exact e3, ?_⟩
  obtain ⟨_, blocks, wl, x1, x2, x3, x4, _, x6⟩ := extractMultiple_spec hQ.visible hx
  have heads := x3.heads
  have hparse : Both (fun b c => Parsed b c ∧ c.type = .sae Q.kind ∧ c.identifier = blockId Q b) blocks cs :=
    x2.imp fun b hb c _ hbc => parseElement_parsed hQ hk hbc fun hn => by
      obtain ⟨l, i, h1, h2⟩ := heads b hb
      rw [blockId, h1, Option.bind_some, h2] at hn
      cases hn
  have h2 := x6 hi
  have hlen := x2.length
  refine ⟨blocks, wl, x1, parsedL_of_both (hparse.imp fun _ _ _ _ h => h.1), x3.levels, x4, ⟨?_, ?_⟩, h2⟩
  · intro c hc
    obtain ⟨b, _, h⟩ := hparse.mem_right hc
    exact h.2.1
  · obtain ⟨ids, i1, i2, i3, _, i5⟩ := x3.ids
    refine ⟨ids, ?_, ?_, hQ.consecutive i5 i2, hQ.nodup ids i5 i2⟩
    · rw [← i1]; exact both_map_eq hparse fun a b h => h.2.2
    · exact i3 rfl (by rintro rfl; simp at hlen; omega)

theorem subpointKids_sound (P : ElementParser) : KidsSound P subpointKids := by
  intro lines i pi intro cs w h
  simp [subpointKids, childrenBy, firstHeaders, sortHeaders, tryParsers, bind, Except.bind] at h

/-- The way from the result of `parse_children_and_wrapup` with one of the subparsers to `KidsSound`. -/
theorem kids_of_sub {P Q : ElementParser} {kids : ChildReader} (hQ : Q.Sound) (hk : KidsSound Q kids)
    (hm : Q.mustHaveMultiple = true) {lines : List Line} {i : Option Str} {pi : Bool} {n : Nat} {intro : Option Str}
    {cs : List Node} {w : Option Str} (hf : (Q.asSub kids).firstHeader lines = .ok (some n)) (hn : 0 < n)
    (hi : intro = if n = 0 then none else some (joinLines (lines.take n)))
    (hx : (Q.asSub kids).extract (lines.drop n) pi = .ok (cs, w)) (first : FirstOf P.kind i Q.kind Q.first) :
    ∃ n blocks wl, 0 < n ∧ intro = some (joinLines (lines.take n)) ∧ openQuotes (lines.take n) = 0 ∧
      SameLines (lines.drop n) (blocks.flatten ++ wl) ∧ ParsedL blocks cs ∧ Levels 0 blocks ∧ WrapUp w wl ∧
      ChildrenNumbered (.sae P.kind { identifier := i } cs) := by
  obtain ⟨h0, blocks, wl, e1, e2, e4, e5, e6, e7⟩ := asSub_children hQ hk hm hf hx
  rw [if_neg (by omega)] at hi
  exact ⟨n, blocks, wl, hn, hi, h0, e1, e2, e4, e5, .inr ⟨_, _, first, e6, e7⟩⟩

theorem numericPointKids_sound : KidsSound numericPointParser numericPointKids := by
  intro lines i pi intro cs w h _ _
  obtain ⟨p, hp, n, h1, h2, h3, h4⟩ := childrenBy_spec h
  obtain rfl := List.mem_singleton.mp hp
  exact kids_of_sub (alphabeticSubpoint_sound (.inl rfl)) (subpointKids_sound _) rfl h1 (h2 rfl) h3 h4
    (.lettersInNumbered i)

theorem alphabeticPointKids_sound : KidsSound alphabeticPointParser alphabeticPointKids := by
  intro lines i pi intro cs w h hi _
  cases i with
  | none => simp [alphabeticPointKids] at h
  | some j =>
    simp only [alphabeticPointKids] at h
    obtain ⟨p, hp, n, h1, h2, h3, h4⟩ := childrenBy_spec h
    simp only [List.mem_cons, List.not_mem_nil, or_false] at hp
    rcases hp with rfl | rfl
    · exact kids_of_sub numericSubpoint_sound (subpointKids_sound _) rfl h1 (h2 rfl) h3 h4 (.numbersInLettered _)
    · obtain ⟨s, hs⟩ := hi j rfl
      exact kids_of_sub (alphabeticSubpoint_sound (point_prefix hs))
        (subpointKids_sound _) rfl h1 (h2 rfl) h3 h4 (.lettersInLettered j)

theorem paragraphKids_sound : KidsSound paragraphParser paragraphKids := by
  intro lines i pi intro cs w h _ _
  obtain ⟨p, hp, n, h1, h2, h3, h4⟩ := childrenBy_spec h
  simp only [List.mem_cons, List.not_mem_nil, or_false] at hp
  rcases hp with rfl | rfl | rfl
  · obtain ⟨pre, l, post, e1, e2, e3, e4⟩ := quotedFirstLoop_spec lines 0 0 n _ h1
    have e2' : n = pre.length := by omega
    subst e2'
    obtain ⟨x0, blocks, wl, x1, x2, x3, x4⟩ := quotedExtract_spec h4
    have hn : 0 < pre.length := h2 rfl
    rw [if_neg (by omega)] at h3
    have hq : Both Parsed blocks cs := x2.imp fun _ _ _ _ h => .quoted h
    refine ⟨pre.length, blocks, wl, hn, h3, ?_, x1, parsedL_of_both hq, x3, x4, .inl ?_⟩
    · rw [e1, List.take_left]; omega
    · intro c hc
      obtain ⟨b, _, hb⟩ := x2.mem_right hc
      cases hb <;> rfl
  · exact kids_of_sub alphabeticPoint_sound alphabeticPointKids_sound rfl h1 (h2 rfl) h3 h4 (.letteredPoint i)
  · exact kids_of_sub numericPoint_sound numericPointKids_sound rfl h1 (h2 rfl) h3 h4 (.numberedPoint i)

end Verif
