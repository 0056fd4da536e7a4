import Verif.Proofs.NextIdentifier

/-! # Properties C04, C05, C06, C07: identifiers -/

namespace Verif.Props

open Verif

/-! ## C04: comparison of identifiers -/

/-- C04. The comparison gives an answer exactly for readable identifiers, and ValueError otherwise; in particular
it never raises TypeError. -/
theorem identifierLess_answers (a b : Str) :
    (Spec.Readable a ∧ Spec.Readable b → ∃ r, identifierLess a b = .ok r) ∧
    (¬ (Spec.Readable a ∧ Spec.Readable b) → identifierLess a b = .error .valueError) := by
  unfold identifierLess
  constructor
  · rintro ⟨ha, hb⟩
    obtain ⟨x, hx⟩ := (splitIdentifier_result a).1 ha
    obtain ⟨y, hy⟩ := (splitIdentifier_result b).1 hb
    rw [hx, hy]
    exact partsLt_ok false x y (splitIdentifier_alt hx) (splitIdentifier_alt hy)
  · intro h
    by_cases ha : Spec.Readable a
    · obtain ⟨x, hx⟩ := (splitIdentifier_result a).1 ha
      rw [hx, (splitIdentifier_result b).2 (fun hb => h ⟨ha, hb⟩)]
      rfl
    · rw [(splitIdentifier_result a).2 ha]
      rfl

example : Spec.Readable (py"12/A") ∧ ¬ Spec.Readable (py"5²") := by
  constructor
  · intro c hc h
    simp at hc
    rcases hc with rfl | rfl | rfl | rfl <;> revert h <;> decide +kernel
  · intro h
    have := h '²' (by simp) (by decide +kernel)
    revert this
    decide +kernel

theorem identifierLess_parts {a b : Str} {r : Bool} (h : identifierLess a b = .ok r) :
    ∃ x y, splitIdentifier a = .ok x ∧ splitIdentifier b = .ok y ∧ partsLt x y = .ok r := by
  unfold identifierLess at h
  cases hx : splitIdentifier a with
  | error e => rw [hx] at h; simp [bind, Except.bind] at h
  | ok x =>
    cases hy : splitIdentifier b with
    | error e => rw [hx, hy] at h; simp [bind, Except.bind] at h
    | ok y => rw [hx, hy] at h; exact ⟨x, y, rfl, rfl, h⟩

/-- C04. No identifier is less than itself. -/
theorem identifierLess_irrefl (a : Str) : identifierLess a a ≠ .ok true := by
  intro h
  obtain ⟨x, y, hx, hy, hl⟩ := identifierLess_parts h
  rw [hx] at hy
  obtain rfl : x = y := by simpa using hy
  rw [partsLt_irrefl] at hl
  cases hl

/-- C04. The comparison is asymmetric. -/
theorem identifierLess_asymm (a b : Str) (h : identifierLess a b = .ok true) : identifierLess b a = .ok false := by
  obtain ⟨x, y, hx, hy, hl⟩ := identifierLess_parts h
  rw [identifierLess_of_split hy hx]
  exact partsLt_asymm x y hl

/-- C04. The comparison is transitive. -/
theorem identifierLess_trans (a b c : Str) (h1 : identifierLess a b = .ok true) (h2 : identifierLess b c = .ok true) :
    identifierLess a c = .ok true := by
  obtain ⟨x, y, hx, hy, hl⟩ := identifierLess_parts h1
  obtain ⟨y', z, hy', hz, hl'⟩ := identifierLess_parts h2
  rw [hy] at hy'
  obtain rfl : y = y' := by simpa using hy'
  rw [identifierLess_of_split hx hz]
  exact partsLt_trans x y z hl hl'

example : identifierLess (py"1:2") (py"1:2/A") = .ok true ∧ identifierLess (py"1:2/A") (py"1:10") = .ok true := by
  decide +kernel

/-- C04. Being not less is transitive, so being neither less nor greater is an equivalence. -/
theorem identifierLess_neg_trans (a b c : Str) (h1 : identifierLess a b = .ok false)
    (h2 : identifierLess b c = .ok false) : identifierLess a c = .ok false := by
  obtain ⟨x, y, hx, hy, hl⟩ := identifierLess_parts h1
  obtain ⟨y', z, hy', hz, hl'⟩ := identifierLess_parts h2
  rw [hy] at hy'
  obtain rfl : y = y' := by simpa using hy'
  rw [identifierLess_of_split hx hz]
  obtain ⟨r, hr⟩ := partsLt_ok false x z (splitIdentifier_alt hx) (splitIdentifier_alt hz)
  cases r with
  | false => exact hr
  | true =>
    exfalso
    -- if `x < z` then `y` cannot be at most both
    obtain ⟨s, hs⟩ := partsLt_ok false y x (splitIdentifier_alt hy) (splitIdentifier_alt hx)
    cases s with
    | true =>
      have := partsLt_trans y x z hs hr
      rw [hl'] at this; cases this
    | false =>
      have := partsLt_total x y hl hs
      subst this
      rw [hl'] at hr; cases hr

example : identifierLess (py"2/B") (py"2/A") = .ok false ∧ identifierLess (py"2/A") (py"02/A") = .ok false := by
  decide +kernel

/-! ## C05: numbers compare as numbers -/

/-- C05. After a common start that does not end in a digit, the identifier with the smaller number is less, however the
identifiers go on after the number. -/
theorem numbers_compare_by_value (p q r : Str) (m n : Nat) (hmn : m < n)
    (hp : ∀ c, p.getLast? = some c → isDigit c = false) (hq : ∀ c, q.head? = some c → isDigit c = false)
    (hr : ∀ c, r.head? = some c → isDigit c = false)
    (hread : Spec.Readable p ∧ Spec.Readable q ∧ Spec.Readable r) :
    identifierLess (p ++ natStr m ++ q) (p ++ natStr n ++ r) = .ok true := by
  obtain ⟨ps, hps⟩ := toks_prefix p [] false (by simp) hread.1 (by simp) hp
  have num : ∀ k, Spec.IsNumber (natStr k) := fun k => ⟨natStr_ne_nil k, natStr_ascii k⟩
  obtain ⟨tq, htq⟩ := stopToks_ok q hq hread.2.1
  obtain ⟨tr, htr⟩ := stopToks_ok r hr hread.2.2
  have e1 := hps (natStr m) q m (num m) hq (pyInt_natStr m)
  have e2 := hps (natStr n) r n (num n) hr (pyInt_natStr n)
  rw [← splitIdentifier_eq, ← List.append_assoc] at e1 e2
  rw [htq] at e1
  rw [htr] at e2
  rw [identifierLess_of_split e1 e2, partsLt_append]
  have := partsLt_num (show (m : Int) < (n : Int) by omega) tq tr
  rwa [partsLt_cons] at this

example : identifierLess (py"6:" ++ natStr 99 ++ py"/B") (py"6:" ++ natStr 120 ++ py"") = .ok true := by decide +kernel

/-- C05. Of two different identifiers without leading zeros exactly one is less than the other. -/
theorem canonical_total (a b : Str) (ha : Spec.Canonical a) (hb : Spec.Canonical b) (hne : a ≠ b) :
    (identifierLess a b = .ok true ∧ identifierLess b a = .ok false) ∨
    (identifierLess b a = .ok true ∧ identifierLess a b = .ok false) := by
  obtain ⟨r, hr⟩ := (identifierLess_answers a b).1 ⟨canonicalFrom_readable a _ ha, canonicalFrom_readable b _ hb⟩
  obtain ⟨s, hs⟩ := (identifierLess_answers b a).1 ⟨canonicalFrom_readable b _ hb, canonicalFrom_readable a _ ha⟩
  cases r with
  | true => exact .inl ⟨hr, identifierLess_asymm a b hr⟩
  | false =>
    cases s with
    | true => exact .inr ⟨hs, hr⟩
    | false =>
      exfalso
      obtain ⟨x, y, hx, hy, hl⟩ := identifierLess_parts hr
      obtain ⟨y', x', hy', hx', hl'⟩ := identifierLess_parts hs
      rw [hx] at hx'; rw [hy] at hy'
      obtain rfl : x = x' := by simpa using hx'
      obtain rfl : y = y' := by simpa using hy'
      have := partsLt_total x y hl hl'
      subst this
      exact hne (splitIdentifier_canonical_inj ha hb hx hy)

example : Spec.Canonical (py"3:108/B") ∧ Spec.Canonical (py"10a") := by
  unfold Spec.Canonical
  decide +kernel

/-- C05. Leading zeros must be excluded: `01` and `1` differ and neither is less. -/
theorem leading_zero_incomparable :
    identifierLess (py"01") (py"1") = .ok false ∧ identifierLess (py"1") (py"01") = .ok false := by decide +kernel

/-! ## C06: numbering increases -/

/-- C06. The next article is greater. -/
theorem next_article_greater (a b : Str) (ha : Spec.IsArticleId a) (hb : Spec.IsArticleId b)
    (h : articleIsNext a b = .ok true) : identifierLess a b = .ok true := articleIsNext_less ha hb h

example : articleIsNext (py"5:23/C") (py"5:24") = .ok true ∧ articleIsNext (py"5:99") (py"6:1") = .ok true := by
  decide +kernel

/-- C06. The next numeric point or subpoint is greater, slashes aside. -/
theorem next_numeric_greater_without_slash (a b : Str) (ha : Spec.IsNumericPointId a) (hb : Spec.IsNumericPointId b)
    (h : isNextNumericIdentifier a b = .ok true) :
    identifierLess (a.filter (· ≠ '/')) (b.filter (· ≠ '/')) = .ok true := by
  obtain ⟨D1, r1, n1, h1, e1, rfl, s1⟩ := numeric_shape ha
  obtain ⟨D2, r2, n2, h2, e2, rfl, s2⟩ := numeric_shape hb
  have f1 : (D1 ++ r1).filter (· ≠ '/') = D1 ++ r1.filter (· ≠ '/') := by
    rw [List.filter_append, filter_slash_number h1]
  have f2 : (D2 ++ r2).filter (· ≠ '/') = D2 ++ r2.filter (· ≠ '/') := by
    rw [List.filter_append, filter_slash_number h2]
  rw [f1, f2]
  have nd : ∀ r, NumericTail r → ∀ c ∈ r.filter (· ≠ '/'), isDigit c = false := fun r hr c hc =>
    numericTail_nondigit hr c (List.mem_filter.mp hc).1
  exact letter_less h1 h2 e1 e2 (nd _ s1) (nd _ s2)
    (isNextNumeric_parts h1 h2 e1 e2 (numericTail_filter s1) (numericTail_filter s2) _ _ f1 f2 h)

/-- C06. The next numeric point is greater as it is written, unless a letter without slash is followed by one with. -/
theorem next_numeric_greater_partial (a b : Str) (ha : Spec.IsNumericPointId a) (hb : Spec.IsNumericPointId b)
    (hs : Spec.IsNumber a ∨ '/' ∈ a ∨ '/' ∉ b) (h : isNextNumericIdentifier a b = .ok true) :
    identifierLess a b = .ok true := by
  obtain ⟨D1, r1, n1, h1, e1, rfl, s1⟩ := numeric_shape ha
  obtain ⟨D2, r2, n2, h2, e2, rfl, s2⟩ := numeric_shape hb
  have f1 : (D1 ++ r1).filter (· ≠ '/') = D1 ++ r1.filter (· ≠ '/') := by
    rw [List.filter_append, filter_slash_number h1]
  have f2 : (D2 ++ r2).filter (· ≠ '/') = D2 ++ r2.filter (· ≠ '/') := by
    rw [List.filter_append, filter_slash_number h2]
  have key := isNextNumeric_parts h1 h2 e1 e2 (numericTail_filter s1) (numericTail_filter s2) _ _ f1 f2 h
  apply letter_less h1 h2 e1 e2 (numericTail_nondigit s1) (numericTail_nondigit s2)
  rcases key with key | ⟨e, key⟩
  · exact .inl key
  · refine .inr ⟨e, ?_⟩
    have ne : ∀ c, isLowerAz c = true → c ≠ '/' := fun c hc => (lower_ne hc (by decide)).symm
    rcases s1 with rfl | ⟨c1, hc1, rfl⟩ | ⟨c1, hc1, rfl⟩ <;> rcases s2 with rfl | ⟨c2, hc2, rfl⟩ | ⟨c2, hc2, rfl⟩
    · cases key
    · rfl
    · rfl
    · simp [strLt] at key
    · simpa [ne _ hc1, ne _ hc2] using key
    · exfalso
      rcases hs with hs | hs | hs
      · have := lower_not_digit hc1
        rw [isNumber_digit hs c1 (by simp)] at this
        cases this
      · simp only [List.mem_append, List.mem_singleton] at hs
        rcases hs with hs | hs
        · exact isNumber_no_slash h1 hs
        · exact ne c1 hc1 hs.symm
      · exact hs (by simp)
    · simp [strLt] at key
    · rw [isLowerAz_iff] at hc2
      exact strLt_head (by show (47 : Nat) < _; omega) _ _
    · rw [strLt_cons]
      simpa [ne _ hc1, ne _ hc2] using key

example : Spec.IsNumericPointId (py"12/b") ∧ isNextNumericIdentifier (py"12/b") (py"12/c") = .ok true := by
  refine ⟨.inr ⟨py"12", 'b', ⟨by simp, by decide⟩, by decide, rfl⟩, by decide +kernel⟩

/-- C06. The exception is real: `2a` is followed by `2/b`, which is less. -/
theorem next_numeric_not_greater :
    isNextNumericIdentifier (py"2a") (py"2/b") = .ok true ∧ identifierLess (py"2a") (py"2/b") = .ok false := by
  decide +kernel

/-- C06. The next paragraph is greater. -/
theorem next_paragraph_greater (a b : Str) (ha : Spec.IsParagraphId a) (hb : Spec.IsParagraphId b)
    (h : isNextNumericIdentifier a b = .ok true) : identifierLess a b = .ok true := by
  refine next_numeric_greater_partial a b (.inl ha) (.inl hb) (.inr (.inr ?_)) h
  rcases hb with hb | ⟨D, c, hD, hc, rfl⟩
  · exact isNumber_no_slash hb
  · intro hm
    simp only [List.mem_append, List.mem_singleton] at hm
    rcases hm with hm | hm
    · exact isNumber_no_slash hD hm
    · exact lower_ne hc (by decide) hm

example : isNextNumericIdentifier (py"9a") (py"10") = .ok true := by decide +kernel

/-- C06. The next alphabetic point is greater. -/
theorem next_letter_greater (a b : Str) (ha : Spec.IsAlphabetic a) (hb : Spec.IsAlphabetic b)
    (h : isNextLetterHun a b = true) : identifierLess a b = .ok true := by
  have := isNextLetterHun_lt h
  exact alphabetic_less ha hb this.2.1 this.2.2 this.1

example : isNextLetterHun (py"n") (py"ny") = true ∧ isNextLetterHun (py"ny") (py"o") = true := by decide

/-- C06. The next alphabetic subpoint is greater. -/
theorem next_subpoint_greater (a b : Str) (ha : Spec.IsAlphabetic a) (hb : Spec.IsAlphabetic b)
    (h : alphabeticSubpointIsNext a b = .ok true) : identifierLess a b = .ok true := by
  unfold alphabeticSubpointIsNext at h
  split at h
  · exact next_letter_greater _ _ ha hb (by simpa using h)
  · rename_i x y
    cases b with
    | nil => simp at h
    | cons c rest =>
      simp only [] at h
      by_cases hxc : x = c
      · subst hxc
        cases rest with
        | nil => simp at h
        | cons d ds =>
          have h : isNextLetterHun [y] [d] = true := by simpa using h
          refine alphabetic_less ha hb (by simp) (by simp) ?_
          rw [strLt_cons]
          exact strLt_head (by have := isNextLetterHun_single h; omega) _ _
      · simp [hxc] at h
  · cases h

example : alphabeticSubpointIsNext (py"ab") (py"ac") = .ok true := by decide +kernel

theorem consecutive_pairwise {α : Type} (next : α → α → Prop) (trans : ∀ a b c, next a b → next b c → next a c) :
    ∀ l : List α, Spec.Consecutive next l → l.Pairwise next
  | [], _ => .nil
  | [a], _ => by simp
  | a :: b :: rest, h => by
    have ih := consecutive_pairwise next trans (b :: rest) h.2
    rw [List.pairwise_cons] at ih ⊢
    refine ⟨?_, by rw [List.pairwise_cons]; exact ih⟩
    intro x hx
    rw [List.mem_cons] at hx
    rcases hx with rfl | hx
    · exact h.1
    · exact trans _ _ _ h.1 (ih.1 x hx)

/-- C06. A list in which each identifier is less than the one after it is sorted and has no repetition. -/
theorem consecutive_increasing_nodup (l : List Str)
    (h : Spec.Consecutive (fun a b => identifierLess a b = .ok true) l) :
    l.Pairwise (fun a b => identifierLess a b = .ok true) ∧ l.Nodup := by
  have := consecutive_pairwise _ identifierLess_trans l h
  refine ⟨this, List.Pairwise.imp ?_ this⟩
  intro a b hab e
  subst e
  exact identifierLess_irrefl a hab

theorem consecutive_imp {α : Type} {P Q : α → α → Prop} : ∀ l : List α,
    (∀ a ∈ l, ∀ b ∈ l, P a b → Q a b) → Spec.Consecutive P l → Spec.Consecutive Q l
  | [], _, _ => trivial
  | [_], _, _ => trivial
  | a :: b :: rest, h, hc =>
    ⟨h a (by simp) b (by simp) hc.1,
      consecutive_imp (b :: rest) (fun x hx y hy => h x (by simp [hx]) y (by simp [hy])) hc.2⟩

/-- C06. Articles accepted one after the other never repeat an identifier and are sorted. -/
theorem articles_never_repeat (l : List Str) (hs : ∀ a ∈ l, Spec.IsArticleId a)
    (h : Spec.Consecutive (fun a b => articleIsNext a b = .ok true) l) :
    l.Pairwise (fun a b => identifierLess a b = .ok true) ∧ l.Nodup :=
  consecutive_increasing_nodup l (consecutive_imp l (fun a ha b hb => next_article_greater a b (hs a ha) (hs b hb)) h)

/-- C06. Paragraphs accepted one after the other never repeat an identifier and are sorted. -/
theorem paragraphs_never_repeat (l : List Str) (hs : ∀ a ∈ l, Spec.IsParagraphId a)
    (h : Spec.Consecutive (fun a b => isNextNumericIdentifier a b = .ok true) l) :
    l.Pairwise (fun a b => identifierLess a b = .ok true) ∧ l.Nodup :=
  consecutive_increasing_nodup l
    (consecutive_imp l (fun a ha b hb => next_paragraph_greater a b (hs a ha) (hs b hb)) h)

/-- C06. Numeric points accepted one after the other never repeat an identifier, even up to slashes. -/
theorem numeric_points_never_repeat (l : List Str) (hs : ∀ a ∈ l, Spec.IsNumericPointId a)
    (h : Spec.Consecutive (fun a b => isNextNumericIdentifier a b = .ok true) l) :
    l.Nodup ∧ (l.map fun a => a.filter (· ≠ '/')).Nodup := by
  have hl := consecutive_pairwise
    (fun a b : Str => identifierLess (a.filter (· ≠ '/')) (b.filter (· ≠ '/')) = .ok true)
    (fun a b c => identifierLess_trans _ _ _) l
    (consecutive_imp l (fun a ha b hb => next_numeric_greater_without_slash a b (hs a ha) (hs b hb)) h)
  constructor
  · refine List.Pairwise.imp ?_ hl
    intro a b hab e
    subst e
    exact identifierLess_irrefl _ hab
  · refine List.pairwise_map.mpr (List.Pairwise.imp ?_ hl)
    intro a b hab e
    rw [e] at hab
    exact identifierLess_irrefl _ hab

/-- C06. Alphabetic points accepted one after the other never repeat an identifier and are sorted. -/
theorem alphabetic_points_never_repeat (l : List Str) (hs : ∀ a ∈ l, Spec.IsAlphabetic a)
    (h : Spec.Consecutive (fun a b => isNextLetterHun a b = true) l) :
    l.Pairwise (fun a b => identifierLess a b = .ok true) ∧ l.Nodup :=
  consecutive_increasing_nodup l (consecutive_imp l (fun a ha b hb => next_letter_greater a b (hs a ha) (hs b hb)) h)

/-- C06. Alphabetic subpoints accepted one after the other never repeat an identifier and are sorted. -/
theorem alphabetic_subpoints_never_repeat (l : List Str) (hs : ∀ a ∈ l, Spec.IsAlphabetic a)
    (h : Spec.Consecutive (fun a b => alphabeticSubpointIsNext a b = .ok true) l) :
    l.Pairwise (fun a b => identifierLess a b = .ok true) ∧ l.Nodup :=
  consecutive_increasing_nodup l (consecutive_imp l (fun a ha b hb => next_subpoint_greater a b (hs a ha) (hs b hb)) h)

example : Spec.Consecutive (fun a b => articleIsNext a b = .ok true) [py"1:9", py"1:9/A", py"1:9/B", py"1:10", py"2:1"] := by
  simp only [Spec.Consecutive]
  decide +kernel

/-! ## C07: cutting by identifiers -/

/-- C07. A successful cut is exactly the elements that have an identifier which is neither before the first nor after
the last one, in their original order. (No sortedness is needed.) -/
theorem cut_selects {α : Type} (ident : α → Option Str) (f t : Str) (es r : List α)
    (h : cutByIdentifier ident f t es = .ok r) :
    r = es.filter fun e => (ident e).any fun i =>
      decide (identifierLess i f = .ok false) && decide (identifierLess t i = .ok false) := by
  induction es generalizing r with
  | nil => simp [cutByIdentifier] at h; simp [h]
  | cons e es ih =>
    simp only [cutByIdentifier] at h
    cases he : ident e with
    | none => simp only [he] at h; simp [he, ih r h]
    | some i =>
      simp only [he] at h
      cases h1 : identifierLess i f with
      | error x => simp [h1, bind, Except.bind] at h
      | ok b1 =>
        cases b1 with
        | true =>
          simp only [h1, bind, Except.bind, if_true] at h
          simp [he, h1, ih r h]
        | false =>
          cases h2 : identifierLess t i with
          | error x => simp [h1, h2, bind, Except.bind] at h
          | ok b2 =>
            cases b2 with
            | true =>
              simp only [h1, h2, bind, Except.bind, if_true, Bool.false_eq_true, if_false] at h
              simp [he, h2, ih r h]
            | false =>
              simp only [h1, h2, bind, Except.bind, Bool.false_eq_true, if_false] at h
              cases h3 : cutByIdentifier ident f t es with
              | error x => simp [h3] at h
              | ok r' =>
                simp only [h3] at h
                have : r = e :: r' := by simpa using h.symm
                subst this
                simp [he, h1, h2, ih r' h3]

/-- C07. The cut succeeds whenever all identifiers and both bounds are readable. -/
theorem cut_succeeds {α : Type} (ident : α → Option Str) (f t : Str) (es : List α) (hf : Spec.Readable f)
    (ht : Spec.Readable t) (hes : ∀ e ∈ es, ∀ i, ident e = some i → Spec.Readable i) :
    ∃ r, cutByIdentifier ident f t es = .ok r := by
  induction es with
  | nil => exact ⟨[], rfl⟩
  | cons e es ih =>
    obtain ⟨r, hr⟩ := ih (fun x hx => hes x (by simp [hx]))
    simp only [cutByIdentifier]
    cases he : ident e with
    | none => exact ⟨r, by simp [hr]⟩
    | some i =>
      obtain ⟨b1, h1⟩ := (identifierLess_answers i f).1 ⟨hes e (by simp) i he, hf⟩
      obtain ⟨b2, h2⟩ := (identifierLess_answers t i).1 ⟨ht, hes e (by simp) i he⟩
      cases b1 <;> cases b2 <;> simp [h1, h2, hr, bind, Except.bind]

/-- C07. In a sorted list the selected elements are consecutive: those before are less than the first, those after are
greater than the last. -/
theorem cut_is_contiguous {α : Type} (ident : α → Option Str) (f t : Str) (es r : List α)
    (hsome : ∀ e ∈ es, (ident e).isSome)
    (hsorted : es.Pairwise fun a b => ∀ i j, ident a = some i → ident b = some j → identifierLess i j = .ok true)
    (h : cutByIdentifier ident f t es = .ok r) :
    ∃ pre post, es = pre ++ r ++ post ∧ (∀ e ∈ pre, ∀ i, ident e = some i → identifierLess i f = .ok true) ∧
      (∀ e ∈ post, ∀ i, ident e = some i → identifierLess t i = .ok true) := by
  induction es generalizing r with
  | nil =>
    simp [cutByIdentifier] at h
    exact ⟨[], [], by simp [h], by simp, by simp⟩
  | cons e es ih =>
    rw [List.pairwise_cons] at hsorted
    obtain ⟨i, hi⟩ := Option.isSome_iff_exists.mp (hsome e (by simp))
    have hsome' : ∀ x ∈ es, (ident x).isSome := fun x hx => hsome x (by simp [hx])
    simp only [cutByIdentifier, hi] at h
    cases h1 : identifierLess i f with
    | error x => simp [h1, bind, Except.bind] at h
    | ok b1 =>
      cases b1 with
      | true =>
        simp only [h1, bind, Except.bind, if_true] at h
        obtain ⟨pre, post, he, hpre, hpost⟩ := ih r hsome' hsorted.2 h
        refine ⟨e :: pre, post, by simp [he], ?_, hpost⟩
        intro x hx j hj
        rw [List.mem_cons] at hx
        rcases hx with rfl | hx
        · rw [hi] at hj; cases hj; exact h1
        · exact hpre x hx j hj
      | false =>
        cases h2 : identifierLess t i with
        | error x => simp [h1, h2, bind, Except.bind] at h
        | ok b2 =>
          cases b2 with
          | true =>
            simp only [h1, h2, bind, Except.bind, if_true, Bool.false_eq_true, if_false] at h
            -- everything from here on is after the last one
            have hall : ∀ x ∈ e :: es, ∀ j, ident x = some j → identifierLess t j = .ok true := by
              intro x hx j hj
              rw [List.mem_cons] at hx
              rcases hx with rfl | hx
              · rw [hi] at hj; cases hj; exact h2
              · exact identifierLess_trans _ _ _ h2 (hsorted.1 x hx i j hi hj)
            have hr := cut_selects ident f t es r h
            have : r = [] := by
              rw [hr, List.filter_eq_nil_iff]
              intro x hx
              cases hj : ident x with
              | none => simp
              | some j => simp [hall x (by simp [hx]) j hj]
            subst this
            exact ⟨[], e :: es, by simp, by simp, hall⟩
          | false =>
            simp only [h1, h2, bind, Except.bind, Bool.false_eq_true, if_false] at h
            cases h3 : cutByIdentifier ident f t es with
            | error x => simp [h3] at h
            | ok r' =>
              simp only [h3] at h
              have : r = e :: r' := by simpa using h.symm
              subst this
              obtain ⟨pre, post, he, hpre, hpost⟩ := ih r' hsome' hsorted.2 h3
              cases pre with
              | nil => exact ⟨[], post, by simp [he], by simp, hpost⟩
              | cons x xs =>
                -- an element before the first one cannot follow `e`
                exfalso
                have hx : x ∈ es := by rw [he]; simp
                obtain ⟨j, hj⟩ := Option.isSome_iff_exists.mp (hsome' x hx)
                have := identifierLess_trans _ _ _ (hsorted.1 x hx i j hi hj) (hpre x (by simp) j hj)
                rw [h1] at this
                cases this

example : cutByIdentifier (fun s : Str => some s) (py"2") (py"10") [py"1", py"2", py"2/A", py"9", py"10", py"10/A"]
    = .ok [py"2", py"2/A", py"9", py"10"] := by decide +kernel

end Verif.Props
