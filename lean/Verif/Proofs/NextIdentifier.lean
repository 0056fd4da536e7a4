import Verif.Proofs.Canonical

/-! # Lemmas: an accepted next identifier is greater -/

namespace Verif

theorem identifierLess_of_split {a b : Str} {x y : List IdPart} (ha : splitIdentifier a = .ok x)
    (hb : splitIdentifier b = .ok y) : identifierLess a b = partsLt x y := by
  unfold identifierLess; rw [ha, hb]; rfl

/-! ## A common start followed by numbers -/

theorem piece_ok_of_readable {d : Bool} {cur : Str} (h : d = true → cur ≠ [] ∧ ∀ c ∈ cur, (decimalValue c).isSome) :
    ∃ p, piece d cur = .ok p := by
  cases d with
  | false => exact ⟨.str cur, rfl⟩
  | true =>
    obtain ⟨n, hn⟩ := pyInt_decimals_ok cur (h rfl).1 (h rfl).2
    exact ⟨.num n, by simp [piece, hn, Except.map]⟩

theorem toks_prefix (p : Str) : ∀ cur d, (d = true → cur ≠ [] ∧ ∀ c ∈ cur, (decimalValue c).isSome) →
    Spec.Readable p → (p = [] → d = false) → (∀ c, p.getLast? = some c → isDigit c = false) →
    ∃ ps, ∀ D r n, Spec.IsNumber D → StopsNumber r → pyInt D = .ok n →
      toks cur d (p ++ (D ++ r)) = (stopToks r).map fun ts => ps ++ .num n :: ts := by
  induction p with
  | nil =>
    intro cur d _ _ hd _
    have hd := hd rfl
    subst hd
    exact ⟨[.str cur], fun D r n hD hr hn => by
      simpa using toks_begin_number cur D r n hD.1 (isNumber_digit hD) hr hn⟩
  | cons c cs ih =>
    intro cur d hcur hread _ hlast
    have hreads : Spec.Readable cs := fun x hx => hread x (by simp [hx])
    have hlast' : ∀ x, cs.getLast? = some x → isDigit x = false := by
      intro x hx
      apply hlast
      rw [List.getLast?_cons, hx]; rfl
    have hnil : cs = [] → isDigit c = false := by
      intro h; subst h; exact hlast c rfl
    by_cases hd : (isDigit c != d) = true
    · obtain ⟨x, hx⟩ := piece_ok_of_readable hcur
      obtain ⟨ps, hps⟩ := ih [c] (isDigit c) (fun hdc => ⟨by simp, by
        intro y hy; simp at hy; subst hy; exact hread y (by simp) hdc⟩) hreads hnil hlast'
      refine ⟨x :: ps, fun D r n hD hr hn => ?_⟩
      simp only [List.cons_append, toks, hd, if_true, hx, hps D r n hD hr hn]
      cases stopToks r <;> simp [Except.map]
    · have hdc : isDigit c = d := by simpa using hd
      obtain ⟨ps, hps⟩ := ih (cur ++ [c]) d (fun hdt => ⟨by simp, by
        intro y hy
        rw [List.mem_append] at hy
        rcases hy with hy | hy
        · exact (hcur hdt).2 y hy
        · simp at hy; subst hy; exact hread y (by simp) (hdc.trans hdt)⟩) hreads
        (fun h => hdc ▸ hnil h) hlast'
      refine ⟨ps, fun D r n hD hr hn => ?_⟩
      simp only [List.cons_append, toks, hd]
      exact hps D r n hD hr hn

theorem partsLt_append (ps : List IdPart) (X Y : List IdPart) : partsLt (ps ++ X) (ps ++ Y) = partsLt X Y := by
  induction ps with
  | nil => rfl
  | cons p ps ih => rw [List.cons_append, List.cons_append, partsLt_cons, ih]

theorem stopToks_ok (r : Str) (hr : StopsNumber r) (hread : Spec.Readable r) : ∃ ts, stopToks r = .ok ts := by
  cases r with
  | nil => exact ⟨[], rfl⟩
  | cons c cs =>
    have hc := hr c rfl
    have h := (splitIdentifier_result (c :: cs)).1 hread
    obtain ⟨ts, hts⟩ := h
    rw [splitIdentifier_eq] at hts
    simp [toks, hc] at hts
    exact ⟨ts, hts⟩

/-! ## Splitting at a separator -/

theorem splitOn_not_mem (c : Char) (s : Str) (h : c ∉ s) : splitOn c s = [s] := by
  induction s with
  | nil => rfl
  | cons x xs ih =>
    simp only [List.mem_cons, not_or] at h
    simp only [splitOn, Ne.symm h.1, if_false, ih h.2]

theorem splitOn_append (c : Char) (s r : Str) (h : c ∉ s) : splitOn c (s ++ c :: r) = s :: splitOn c r := by
  induction s with
  | nil => simp [splitOn]
  | cons x xs ih =>
    simp only [List.mem_cons, not_or] at h
    simp only [List.cons_append, splitOn, Ne.symm h.1, if_false, ih h.2]

theorem isNumber_not_mem {D : Str} (h : Spec.IsNumber D) {c : Char} (hc : isAsciiDigit c = false) : c ∉ D := by
  intro hm
  have := h.2 c hm
  rw [hc] at this; cases this

theorem isNumber_no_slash {D : Str} (h : Spec.IsNumber D) : '/' ∉ D := isNumber_not_mem h (by decide)
theorem isNumber_no_colon {D : Str} (h : Spec.IsNumber D) : ':' ∉ D := isNumber_not_mem h (by decide)

theorem upper_ne {c x : Char} (h : isUpperAz c = true) (hx : isUpperAz x = false) : x ≠ c := by
  intro e; subst e; rw [h] at hx; cases hx

theorem lower_ne {c x : Char} (h : isLowerAz c = true) (hx : isLowerAz x = false) : x ≠ c := by
  intro e; subst e; rw [h] at hx; cases hx

/-! ## Letters -/

theorem special_strLt : ∀ p ∈ specialNextLetterPairs, strLt p.1 p.2 = true ∧
    (∀ c ∈ p.1, isDigit c = false) ∧ (∀ c ∈ p.2, isDigit c = false) ∧ p.1 ≠ [] ∧ p.2 ≠ [] ∧
    (p.1.length + p.2.length = 3) := by decide +kernel

theorem isNextLetterHun_lt {a b : Str} (h : isNextLetterHun a b = true) : strLt a b = true ∧ a ≠ [] ∧ b ≠ [] := by
  unfold isNextLetterHun at h
  rw [Bool.or_eq_true] at h
  rcases h with h | h
  · have := special_strLt (a, b) (by simpa using h)
    exact ⟨this.1, this.2.2.2.1, this.2.2.2.2.1⟩
  · split at h
    · rename_i x y
      have : x.toNat + 1 = y.toNat := by simpa using h
      refine ⟨?_, by simp, by simp⟩
      have hne : x ≠ y := by intro e; subst e; omega
      simp [strLt, hne]; omega
    · cases h

theorem isNextLetterHun_single {x y : Char} (h : isNextLetterHun [x] [y] = true) : x.toNat + 1 = y.toNat := by
  unfold isNextLetterHun at h
  rw [Bool.or_eq_true] at h
  rcases h with h | h
  · have := (special_strLt ([x], [y]) (by simpa using h)).2.2.2.2.2
    simp at this
  · simpa using h

theorem alphabetic_less {a b : Str} (ha : Spec.IsAlphabetic a) (hb : Spec.IsAlphabetic b) (hane : a ≠ []) (hbne : b ≠ [])
    (h : strLt a b = true) : identifierLess a b = .ok true := by
  rw [identifierLess_of_split (splitIdentifier_alphabetic a hane ha) (splitIdentifier_alphabetic b hbne hb)]
  have hne : a ≠ b := by intro e; subst e; rw [strLt_irrefl] at h; cases h
  simp [partsLt, hne, IdPart.lt, h]

theorem strLt_cons (c : Char) (a b : Str) : strLt (c :: a) (c :: b) = strLt a b := by simp [strLt]

theorem strLt_head {x y : Char} (h : x.toNat < y.toNat) (a b : Str) : strLt (x :: a) (y :: b) = true := by
  have hne : x ≠ y := by intro e; subst e; omega
  simp [strLt, hne, h]

/-! ## Articles -/

/-- The parts of what may follow the number of an article. -/
def tailParts (r : Str) : List IdPart := if r = [] then [] else [.str r]

theorem article_tail_shape {s : Str} (h : Spec.IsArticleTail s) : ∃ D r n, Spec.IsNumber D ∧ pyInt D = .ok (n : Int) ∧
    s = D ++ r ∧ (r = [] ∨ ∃ c, isUpperAz c = true ∧ r = ['/', c]) ∧ StopsNumber r ∧ stopToks r = .ok (tailParts r) := by
  rcases h with h | ⟨D, c, hD, hc, rfl⟩
  · obtain ⟨n, hn⟩ := isNumber_int h
    exact ⟨s, [], n, h, hn, by simp, .inl rfl, by intro c hc; simp at hc, by simp [stopToks, tailParts]⟩
  · obtain ⟨n, hn⟩ := isNumber_int hD
    have hnd : ∀ x ∈ ['/', c], isDigit x = false := by
      intro x hx
      simp at hx
      rcases hx with rfl | rfl
      · exact slash_not_digit
      · exact upper_not_digit hc
    refine ⟨D, ['/', c], n, hD, hn, rfl, .inr ⟨c, hc, rfl⟩, ?_, ?_⟩
    · intro x hx; simp at hx; subst hx; exact slash_not_digit
    · rw [stopToks_text _ (by simp) hnd]; simp [tailParts]

theorem split_number_tail {D r : Str} {n : Int} (hD : Spec.IsNumber D) (hn : pyInt D = .ok n) (hr : StopsNumber r)
    (hp : stopToks r = .ok (tailParts r)) : splitIdentifier (D ++ r) = .ok (.str [] :: .num n :: tailParts r) := by
  rw [splitIdentifier_number D r n hD hr hn, hp]; rfl

theorem contains_false_of_not_mem {c : Char} {s : Str} (h : c ∉ s) : s.contains c = false := by simpa using h

/-- The number and the rest of the tail determine the comparison of two tails. -/
theorem articleIsNextTail_parts {D1 r1 D2 r2 : Str} {n1 n2 : Int} (h1 : Spec.IsNumber D1) (h2 : Spec.IsNumber D2)
    (e1 : pyInt D1 = .ok n1) (e2 : pyInt D2 = .ok n2)
    (s1 : r1 = [] ∨ ∃ c, isUpperAz c = true ∧ r1 = ['/', c]) (s2 : r2 = [] ∨ ∃ c, isUpperAz c = true ∧ r2 = ['/', c])
    (h : articleIsNextTail (D1 ++ r1) (D2 ++ r2) = .ok true) (X Y : List IdPart) (hX : X = tailParts r1) (hY : Y = tailParts r2) :
    partsLt (.num n1 :: X) (.num n2 :: Y) = .ok true := by
  have lt_case : ∀ X Y, n1 + 1 = n2 → partsLt (.num n1 :: X) (.num n2 :: Y) = .ok true := by
    intro X Y hlt
    have := partsLt_num (show n1 < n2 by omega) X Y
    rwa [partsLt_cons] at this
  have ns1 := isNumber_no_slash h1
  have ns2 := isNumber_no_slash h2
  have sp : ∀ D c, Spec.IsNumber D → isUpperAz c = true → splitTwo '/' (D ++ ['/', c]) = .ok (D, [c]) := by
    intro D c hD hc
    have hne : '/' ∉ [c] := by simpa using upper_ne hc (by decide)
    unfold splitTwo
    rw [splitOn_append '/' D [c] (isNumber_no_slash hD), splitOn_not_mem '/' [c] hne]
  unfold articleIsNextTail at h
  rcases s1 with rfl | ⟨c1, hc1, rfl⟩ <;> rcases s2 with rfl | ⟨c2, hc2, rfl⟩
  · simp only [List.append_nil, contains_false_of_not_mem ns1, contains_false_of_not_mem ns2, e1, e2, bind, Except.bind] at h
    exact lt_case _ _ (by simpa using h)
  · have hc : (D2 ++ ['/', c2]).contains '/' = true := by simp
    simp only [List.append_nil, contains_false_of_not_mem ns1, hc] at h
    have h : D1 ++ ['/', 'A'] = D2 ++ ['/', c2] := by simpa using h
    have hD : D1 = D2 := by
      have := congrArg (List.take D1.length) h
      have hl : D1.length = D2.length := by have := congrArg List.length h; simp at this; omega
      simpa [hl] using this
    subst hD
    rw [e1] at e2
    have : n1 = n2 := by simpa using e2
    subst this hX hY
    simp [partsLt, tailParts]
  · have hc : (D1 ++ ['/', c1]).contains '/' = true := by simp
    simp only [List.append_nil, hc, contains_false_of_not_mem ns2, sp D1 c1 h1 hc1, e1, e2, bind, Except.bind] at h
    exact lt_case _ _ (by simpa using h)
  · have hca : (D1 ++ ['/', c1]).contains '/' = true := by simp
    have hcb : (D2 ++ ['/', c2]).contains '/' = true := by simp
    simp only [hca, hcb, sp D1 c1 h1 hc1, sp D2 c2 h2 hc2, bind, Except.bind] at h
    have h : D1 = D2 ∧ isNextLetterHun [c1] [c2] = true := by simpa using h
    obtain ⟨rfl, hl⟩ := h
    have := isNextLetterHun_single hl
    rw [e1] at e2
    have en : n1 = n2 := by simpa using e2
    subst en hX hY
    rw [partsLt_cons]
    have hne : c1 ≠ c2 := by intro e; subst e; omega
    have hlt : strLt ['/', c1] ['/', c2] = true := by
      rw [strLt_cons]; exact strLt_head (by omega) _ _
    simp [tailParts, partsLt, IdPart.lt, hlt, hne]

theorem article_tail_no_colon {s : Str} (h : Spec.IsArticleTail s) : ':' ∉ s := by
  rcases h with h | ⟨D, c, hD, hc, rfl⟩
  · exact isNumber_no_colon h
  · intro hm
    rw [List.mem_append] at hm
    rcases hm with hm | hm
    · exact isNumber_no_colon hD hm
    · simp at hm
      exact upper_ne hc (by decide) hm

theorem split_book {B t : Str} {n : Int} {ps : List IdPart} (hB : Spec.IsNumber B) (hn : pyInt B = .ok n)
    (ht : splitIdentifier t = .ok (.str [] :: ps)) (hd : ∃ c cs, t = c :: cs ∧ isDigit c = true) :
    splitIdentifier (B ++ ':' :: t) = .ok (.str [] :: .num n :: .str [':'] :: ps) := by
  obtain ⟨c, cs, rfl, hc⟩ := hd
  rw [splitIdentifier_number B (':' :: c :: cs) n hB (by intro x hx; simp at hx; subst hx; exact colon_not_digit) hn]
  rw [splitIdentifier_eq] at ht
  simp only [toks, hc, Bool.bne_false, if_true, piece] at ht
  simp only [stopToks, toks, hc, Bool.bne_false, if_true, piece]
  cases h : toks [c] true cs with
  | error e => rw [h] at ht; simp at ht
  | ok ts => rw [h] at ht; simp at ht; subst ht; simp [Except.map]

theorem article_tail_begins {D r : Str} (h : Spec.IsNumber D) : ∃ c cs, D ++ r = c :: cs ∧ isDigit c = true := by
  cases hD : D with
  | nil => exact absurd hD h.1
  | cons c cs => exact ⟨c, cs ++ r, by simp, isNumber_digit h c (by simp [hD])⟩

theorem articleIsNext_less {a b : Str} (ha : Spec.IsArticleId a) (hb : Spec.IsArticleId b)
    (h : articleIsNext a b = .ok true) : identifierLess a b = .ok true := by
  unfold articleIsNext at h
  rcases ha with ha | ⟨B1, t1, hB1, ht1, rfl⟩ <;> rcases hb with hb | ⟨B2, t2, hB2, ht2, rfl⟩
  · simp only [contains_false_of_not_mem (article_tail_no_colon ha),
      contains_false_of_not_mem (article_tail_no_colon hb)] at h
    obtain ⟨D1, r1, n1, hD1, e1, rfl, s1, st1, p1⟩ := article_tail_shape ha
    obtain ⟨D2, r2, n2, hD2, e2, rfl, s2, st2, p2⟩ := article_tail_shape hb
    rw [identifierLess_of_split (split_number_tail hD1 e1 st1 p1) (split_number_tail hD2 e2 st2 p2), partsLt_cons]
    exact articleIsNextTail_parts hD1 hD2 e1 e2 s1 s2 h _ _ rfl rfl
  · have : (B2 ++ ':' :: t2).contains ':' = true := by simp
    simp [article_tail_no_colon ha] at h
  · have : (B1 ++ ':' :: t1).contains ':' = true := by simp
    simp [article_tail_no_colon hb] at h
  · have hc1 : (B1 ++ ':' :: t1).contains ':' = true := by simp
    have hc2 : (B2 ++ ':' :: t2).contains ':' = true := by simp
    have sp : ∀ B t, Spec.IsNumber B → Spec.IsArticleTail t → splitTwo ':' (B ++ ':' :: t) = .ok (B, t) := by
      intro B t hB ht
      unfold splitTwo
      rw [splitOn_append ':' B t (isNumber_no_colon hB), splitOn_not_mem ':' t (article_tail_no_colon ht)]
    simp only [hc1, hc2, sp B1 t1 hB1 ht1, sp B2 t2 hB2 ht2, bind, Except.bind, bne_self_eq_false, Bool.false_eq_true,
      if_false, if_true] at h
    obtain ⟨m1, f1⟩ := isNumber_int hB1
    obtain ⟨m2, f2⟩ := isNumber_int hB2
    obtain ⟨D1, r1, n1, hD1, e1, rfl, s1, st1, p1⟩ := article_tail_shape ht1
    obtain ⟨D2, r2, n2, hD2, e2, rfl, s2, st2, p2⟩ := article_tail_shape ht2
    rw [identifierLess_of_split
      (split_book hB1 f1 (split_number_tail hD1 e1 st1 p1) (article_tail_begins hD1))
      (split_book hB2 f2 (split_number_tail hD2 e2 st2 p2) (article_tail_begins hD2))]
    by_cases hB : B1 = B2
    · subst hB
      simp only [ne_eq, not_true, if_false] at h
      rw [f1] at f2
      have : (m1 : Int) = m2 := by simpa using f2
      rw [this, partsLt_cons, partsLt_cons, partsLt_cons]
      exact articleIsNextTail_parts hD1 hD2 e1 e2 s1 s2 h _ _ rfl rfl
    · simp only [ne_eq, hB, not_false_eq_true, if_true, f1, f2] at h
      have : (m1 : Int) + 1 = m2 := by
        have h' : ((m1 : Int) + 1 == m2 && D2 ++ r2 == ['1']) = true := by simpa using h
        simp at h'; omega
      exact partsLt_num (by omega) _ _

/-! ## Paragraphs and numeric points -/

theorem paragraph_shape {s : Str} (h : Spec.IsParagraphId s) : ∃ D r n, Spec.IsNumber D ∧ pyInt D = .ok (n : Int) ∧
    s = D ++ r ∧ (r = [] ∨ ∃ c, isLowerAz c = true ∧ r = [c]) := by
  rcases h with h | ⟨D, c, hD, hc, rfl⟩
  · obtain ⟨n, hn⟩ := isNumber_int h
    exact ⟨s, [], n, h, hn, by simp, .inl rfl⟩
  · obtain ⟨n, hn⟩ := isNumber_int hD
    exact ⟨D, [c], n, hD, hn, rfl, .inr ⟨c, hc, rfl⟩⟩

theorem filter_slash_number {D : Str} (h : Spec.IsNumber D) : D.filter (· ≠ '/') = D := by
  rw [List.filter_eq_self]
  intro c hc
  have : c ≠ '/' := fun e => isNumber_no_slash h (e ▸ hc)
  simpa using this

theorem number_isDigitStr {D : Str} (h : Spec.IsNumber D) : isDigitStr D = true := by
  have he : D.isEmpty = false := by simpa using h.1
  simp only [isDigitStr, he, Bool.not_false, Bool.true_and, List.all_eq_true]
  exact isNumber_digit h

theorem not_isDigitStr {D : Str} {c : Char} (hc : isLowerAz c = true) : isDigitStr (D ++ [c]) = false := by
  have := lower_not_digit hc
  simp [isDigitStr, this]

/-- Number and optional letter of the two identifiers, as compared by `is_next_numeric_identifier`: either the number
grows by one, or it stays the same and the letter goes on. -/
theorem isNextNumeric_parts {D1 r1 D2 r2 : Str} {n1 n2 : Int} (h1 : Spec.IsNumber D1) (h2 : Spec.IsNumber D2)
    (e1 : pyInt D1 = .ok n1) (e2 : pyInt D2 = .ok n2)
    (s1 : r1 = [] ∨ ∃ c, isLowerAz c = true ∧ r1 = [c]) (s2 : r2 = [] ∨ ∃ c, isLowerAz c = true ∧ r2 = [c])
    (a b : Str) (ha : a.filter (· ≠ '/') = D1 ++ r1) (hb : b.filter (· ≠ '/') = D2 ++ r2)
    (h : isNextNumericIdentifier a b = .ok true) :
    n1 < n2 ∨ (n1 = n2 ∧ strLt r1 r2 = true) := by
  unfold isNextNumericIdentifier at h
  simp only [ha, hb] at h
  rcases s1 with rfl | ⟨c1, hc1, rfl⟩ <;> rcases s2 with rfl | ⟨c2, hc2, rfl⟩
  · simp only [List.append_nil, number_isDigitStr h1, number_isDigitStr h2, if_true, e1, e2, bind, Except.bind] at h
    left
    have : n1 + 1 = n2 := by simpa using h
    omega
  · simp only [List.append_nil, number_isDigitStr h1, not_isDigitStr hc2, if_true] at h
    have h : D2 ++ [c2] = D1 ++ ['a'] ∨ D2 ++ [c2] = D1 ++ ['A'] := by simpa using h
    have hD : D2 = D1 := by
      rcases h with h | h <;> exact (List.append_inj' h rfl).1
    subst hD
    rw [e1] at e2
    exact .inr ⟨by simpa using e2, rfl⟩
  · simp only [List.append_nil, not_isDigitStr hc1, number_isDigitStr h2, if_true, List.dropLast_concat, e1, e2, bind,
      Except.bind] at h
    left
    have : n1 + 1 = n2 := by simpa using h
    omega
  · simp only [not_isDigitStr hc1, not_isDigitStr hc2, List.dropLast_concat, List.getLast?_concat] at h
    by_cases hD : D1 = D2
    · subst hD
      simp at h
      rw [e1] at e2
      exact .inr ⟨by simpa using e2, (isNextLetterHun_lt h).1⟩
    · simp [hD] at h

theorem letter_less {D1 D2 r1 r2 : Str} {n1 n2 : Int} (h1 : Spec.IsNumber D1) (h2 : Spec.IsNumber D2)
    (e1 : pyInt D1 = .ok n1) (e2 : pyInt D2 = .ok n2) (hr1 : ∀ c ∈ r1, isDigit c = false) (hr2 : ∀ c ∈ r2, isDigit c = false)
    (h : n1 < n2 ∨ (n1 = n2 ∧ strLt r1 r2 = true)) : identifierLess (D1 ++ r1) (D2 ++ r2) = .ok true := by
  have st : ∀ r : Str, (∀ c ∈ r, isDigit c = false) → StopsNumber r ∧ stopToks r = .ok (tailParts r) := by
    intro r hr
    cases r with
    | nil => exact ⟨by intro c hc; simp at hc, by simp [stopToks, tailParts]⟩
    | cons c cs =>
      refine ⟨by intro x hx; simp at hx; subst hx; exact hr _ (by simp), ?_⟩
      rw [stopToks_text _ (by simp) hr]; simp [tailParts]
  rw [identifierLess_of_split (split_number_tail h1 e1 (st r1 hr1).1 (st r1 hr1).2)
    (split_number_tail h2 e2 (st r2 hr2).1 (st r2 hr2).2)]
  rcases h with h | ⟨rfl, h⟩
  · exact partsLt_num h _ _
  · rw [partsLt_cons, partsLt_cons]
    cases r2 with
    | nil => simp [strLt] at h
    | cons y ys =>
      cases r1 with
      | nil => simp [tailParts, partsLt]
      | cons x xs =>
        have hne : x :: xs ≠ y :: ys := by intro e; rw [e, strLt_irrefl] at h; cases h
        have : (IdPart.str (x :: xs) = IdPart.str (y :: ys)) = False := by
          apply eq_false; intro e; exact hne (IdPart.str.inj e)
        simp only [tailParts, partsLt, this, IdPart.lt, h, reduceCtorEq, if_false]

/-- The letter of a numeric point, with or without slash. -/
def NumericTail (r : Str) : Prop := r = [] ∨ (∃ c, isLowerAz c = true ∧ r = [c]) ∨ ∃ c, isLowerAz c = true ∧ r = ['/', c]

theorem numeric_shape {s : Str} (h : Spec.IsNumericPointId s) : ∃ D r n, Spec.IsNumber D ∧ pyInt D = .ok (n : Int) ∧
    s = D ++ r ∧ NumericTail r := by
  rcases h with h | ⟨D, c, hD, hc, rfl⟩
  · obtain ⟨D, r, n, h1, h2, h3, h4⟩ := paragraph_shape h
    exact ⟨D, r, n, h1, h2, h3, by rcases h4 with h | h <;> simp [NumericTail, h]⟩
  · obtain ⟨n, hn⟩ := isNumber_int hD
    exact ⟨D, _, n, hD, hn, rfl, .inr (.inr ⟨c, hc, rfl⟩)⟩

theorem numericTail_filter {r : Str} (h : NumericTail r) :
    r.filter (· ≠ '/') = [] ∨ ∃ c, isLowerAz c = true ∧ r.filter (· ≠ '/') = [c] := by
  have one : ∀ c, isLowerAz c = true → c ≠ '/' := fun c hc => (lower_ne hc (by decide)).symm
  rcases h with rfl | ⟨c, hc, rfl⟩ | ⟨c, hc, rfl⟩
  · exact .inl rfl
  · exact .inr ⟨c, hc, by simp [one c hc]⟩
  · exact .inr ⟨c, hc, by simp [one c hc]⟩

theorem numericTail_nondigit {r : Str} (h : NumericTail r) : ∀ c ∈ r, isDigit c = false := by
  rcases h with rfl | ⟨c, hc, rfl⟩ | ⟨c, hc, rfl⟩ <;> intro x hx <;> simp at hx
  · subst hx; exact lower_not_digit hc
  · rcases hx with rfl | rfl
    · exact slash_not_digit
    · exact lower_not_digit hc

end Verif
