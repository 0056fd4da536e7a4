import Verif.Proofs.InForce

/-! # What comes before the colon of an amendment (grammar.ebnf:120-231) -/

namespace Verif.ActGrammar

open Peg Spec

/-! ## What is before the name of what a number is of -/

/-- What an identifier is written with, and the full stop after it. -/
def isOfNumber (c : Char) : Bool := isSpace c || isAsciiDigit c || isUpperAz c || (py":/.").contains c

/-- Without the number. -/
def afterNumber (s : Str) : Str := s.dropWhile isOfNumber

theorem afterNumber_append {w s : Str} (h : ∀ c ∈ w, isOfNumber c = true) : afterNumber (w ++ s) = afterNumber s := by
  unfold afterNumber
  induction w with
  | nil => rfl
  | cons c w ih =>
    rw [List.cons_append, List.dropWhile_cons_of_pos (h c (List.mem_cons_self ..))]
    exact ih fun d hd => h d (List.mem_cons_of_mem _ hd)

theorem afterNumber_cons {c : Char} {s : Str} (h : isOfNumber c = false) : afterNumber (c :: s) = c :: s := by
  unfold afterNumber
  rw [List.dropWhile_cons_of_neg (by simp [h])]

theorem afterNumber_spaces (s : Str) : afterNumber (s.dropWhile isSpace) = afterNumber s := by
  induction s with
  | nil => rfl
  | cons c s ih =>
    by_cases h : isSpace c = true
    · rw [List.dropWhile_cons_of_pos h, ih]
      exact (afterNumber_append (w := [c]) (by simp [isOfNumber, h])).symm
    · rw [List.dropWhile_cons_of_neg h]

/-- Only a part of a number is read. -/
def InNumber {α : Type} (p : Peg α) : Prop := ∀ i a j, p i = some (a, j) → afterNumber j.rest = afterNumber i.rest

theorem skip_rest (i : At) : i.skip.rest = i.rest.dropWhile isSpace := by
  show i.rest.drop (i.rest.takeWhile isSpace).length = _
  induction i.rest with
  | nil => rfl
  | cons c s ih => by_cases h : isSpace c = true <;> simp [h, ih]

theorem InNumber.bind {α β : Type} {p : Peg α} {f : α → Peg β} (hp : InNumber p) (hf : ∀ a, InNumber (f a)) : InNumber (p >>= f) := by
  intro i b k h
  replace h : (match p i with | none => none | some (a, j) => f a j) = some (b, k) := h
  cases hpi : p i with
  | none => simp [hpi] at h
  | some x =>
    obtain ⟨a, j⟩ := x
    simp only [hpi] at h
    exact (hf a j b k h).trans (hp i a j hpi)

theorem inNumber_pure {α : Type} (a : α) : InNumber (pure a : Peg α) := by
  intro i x j h
  cases h
  rfl

theorem InNumber.opt {α : Type} {p : Peg α} (h : InNumber p) : InNumber (Peg.opt p) := by
  intro i x j hi
  unfold Peg.opt at hi
  cases hp : p i with
  | none => rw [hp] at hi; cases hi; rfl
  | some y => rw [hp] at hi; cases hi; exact h _ _ _ hp

theorem InNumber.rule {α : Type} {p : Peg α} (h : InNumber p) : InNumber (Peg.rule p) := by
  intro i x j hi
  have := h _ _ _ hi
  rw [skip_rest, afterNumber_spaces] at this
  exact this

theorem inNumber_token {t : Str} (h : ∀ c ∈ t, isOfNumber c = true) : InNumber (token t) := by
  intro i x j hi
  unfold token at hi
  simp only at hi
  split at hi
  · rename_i hc
    cases hi
    rw [Bool.and_eq_true] at hc
    obtain ⟨r, hr⟩ := List.isPrefixOf_iff_prefix.mp hc.1
    have e : (i.skip.move t.length).rest = r := by
      show i.skip.rest.drop t.length = r
      rw [← hr, List.drop_left]
    rw [e, ← afterNumber_spaces i.rest, ← skip_rest, ← hr, afterNumber_append h]
  · cases hi

theorem inNumber_pattern {r : Regex} (h : ∀ w, Matches r w → ∀ c ∈ w, isOfNumber c = true) : InNumber (pattern r) := by
  intro i x j hi
  rcases pattern_cases r i.pos i.rest with hn | ⟨k, _, hm, he⟩
  · exact absurd (hn.symm.trans hi) (by simp)
  · have he' : pattern r i = some (i.rest.take k, ⟨i.pos + k, i.rest.drop k⟩) := he
    rw [he'] at hi
    cases hi
    show afterNumber (i.rest.drop k) = _
    rw [← afterNumber_append (s := i.rest.drop k) (h _ hm), List.take_append_drop]

theorem inNumber_number : InNumber number :=
  (inNumber_pattern fun w hw c hc => by
    have := (matches_plus hw).2 c hc
    simp [isOfNumber, this]).rule

theorem inNumber_upper : InNumber (pattern (.set isUpperAz)) := inNumber_pattern fun w hw c hc => by
  obtain ⟨d, hd, rfl⟩ := matches_set hw
  rw [List.mem_singleton.mp hc]
  simp [isOfNumber, hd]

theorem inNumber_pieces : InNumber articleIdPieces := by
  unfold articleIdPieces
  refine InNumber.bind (InNumber.opt (.bind inNumber_number fun _ => .bind (inNumber_token (by decide +kernel)) fun _ => inNumber_pure _)) fun _ =>
    .bind inNumber_number fun _ => .bind (.opt (.bind (inNumber_token (by decide +kernel)) fun _ => .bind inNumber_upper fun _ => inNumber_pure _))
    fun _ => inNumber_pure _

theorem inNumber_lettered : InNumber (lettered number) := by
  unfold lettered
  exact .bind inNumber_number fun _ => .bind (.opt (.bind (.opt (inNumber_token (by decide +kernel))) fun _ => .bind inNumber_upper fun _ => inNumber_pure _))
    fun _ => inNumber_pure _

theorem bind_fails {α β : Type} {p : Peg α} {f : α → Peg β} {i : At} (h : ∀ a j, p i = some (a, j) → f a j = none) : (p >>= f) i = none := by
  cases hp : p i with
  | none => exact bind_none hp
  | some x => rw [bind_some (a := x.1) (j := x.2) hp]; exact h _ _ hp

/-- What begins with no space after a number. -/
theorem afterNumber_first {s : Str} {c : Char} {t : Str} (h : s.dropWhile isSpace = c :: t) (hc : isOfNumber c = false) : afterNumber s = c :: t := by
  rw [← afterNumber_spaces, h, afterNumber_cons hc]

theorem no_subtitleNumber {s : Str} (h : ¬ (py"alcím") <+: afterNumber s) : Fails subtitleNumber s := by
  refine Fails.rule fun n => ?_
  refine bind_fails fun a j h1 => bind_fails fun b k h2 => bind_none ?_
  have e := (inNumber_token (by decide +kernel) _ _ _ h2).trans (inNumber_lettered _ _ _ h1)
  rw [afterNumber_spaces] at e
  refine fails_suffix (t := py"alcím") (by decide) ?_ k.pos
  rw [Bool.eq_false_iff]
  intro hp
  obtain ⟨r, hr⟩ := List.isPrefixOf_iff_prefix.mp hp
  rw [← e, afterNumber_first hr.symm (by decide +kernel)] at h
  exact h ⟨r, rfl⟩

theorem no_besideArticle {s : Str} {words : List Str} (ha : Fails az s) (h : (afterNumber s).head? ≠ some '§') : Fails (besideArticle words) s := by
  intro n
  show (opt az >>= _) (At.skip _) = none
  have ha' : az (At.skip ⟨n, s⟩) = none := by rw [az_skip]; exact ha n
  rw [bind_some (opt_none ha')]
  refine bind_fails fun a j h1 => bind_fails fun b k h2 => bind_none ?_
  have e := (inNumber_token (by decide +kernel) _ _ _ h2).trans (inNumber_pieces _ _ _ h1)
  rw [skip_rest, afterNumber_spaces] at e
  refine articleSuffix_none ?_ k.pos
  intro c hc hm
  rw [List.mem_singleton] at hm
  subst hm
  unfold first at hc
  cases hd : k.rest.dropWhile isSpace with
  | nil => rw [hd] at hc; cases hc
  | cons d t =>
    rw [hd] at hc
    cases hc
    rw [← e, afterNumber_first hd (by decide +kernel)] at h
    exact h rfl

/-! ## Titles of subtitles -/

theorem goes_not {α : Type} {s : Str} {p : Peg α} : Goes s (Peg.not p) := .of reads_not

/-- A word that is read is there, and no letter comes after it. -/
theorem name_there {s t : Str} (ht : isName t = true) :
    Scans s (token t) fun _ _ _ => ∃ u v, s = u ++ t ++ v ∧ ∀ c ∈ v.head?, isNameChar c = false := by
  intro i a j hi h
  obtain ⟨h1, h2, _⟩ := reads_token t i a j hi h
  refine ⟨h1, h2, ?_⟩
  unfold token at h
  simp only at h
  split at h
  · rename_i hc
    rw [Bool.and_eq_true] at hc
    obtain ⟨v, hv⟩ := List.isPrefixOf_iff_prefix.mp hc.1
    have hr := hi.skip.rest
    refine ⟨s.take i.skip.pos, v, ?_, ?_⟩
    · rw [List.append_assoc, hv, hr, List.take_append_drop]
    · have h3 := hc.2
      rw [← hv, List.drop_left, ht] at h3
      intro c hc
      cases hn : isNameChar c with
      | false => rfl
      | true =>
        rw [hc] at h3
        simp [hn] at h3
  · cases h

theorem subtitleTitle_word {s : Str} : Scans s subtitleTitle fun _ _ _ => ¬ NoTitle s := by
  unfold subtitleTitle
  refine (reads_rule (reads_bind (Goes.or (Goes.bind (.of tells_quote) fun _ => goes_pure _)
    (Goes.bind (Goes.many (Goes.bind goes_not fun _ => Goes.bind goes_not fun _ => .of tells_anyToken)) fun _ => goes_pure _)) fun r =>
    reads_bind (Goes.opt (goes_token _)) fun _ => reads_bind (name_there (by decide +kernel)) fun _ => goes_pure _)).mono ?_
  rintro a i j _ _ ⟨n, _, _, _, _, m, _, _, _, _, l, _, _, _, _, k, _, _, ⟨u, v, e, hv⟩, _⟩ hs
  obtain ⟨c, hc, hl⟩ := hs u v e
  have h1 := hv c hc
  rw [letter_name hl] at h1
  cases h1

theorem no_subtitleTitle {s : Str} {i : At} (hi : i.In s) (h : NoTitle s) : subtitleTitle i = none := by
  cases hs : subtitleTitle i with
  | none => rfl
  | some x => exact absurd h (subtitleTitle_word i x.1 x.2 hi hs).2.2

theorem no_title_of {s : Str} (h : ¬ (py"alcíme") <:+: s) : NoTitle s := fun u t e => absurd ⟨u, t, e.symm⟩ h

/-! ## References -/

/-- Neither the sign of articles nor the word for subtitles comes next. -/
def Clear (u : Str) : Prop := u.head? ≠ some '§' ∧ ¬ (py"alcím") <+: u

theorem clear_cons {c : Char} {t : Str} (h : c ≠ '§') (ha : c ≠ 'a') : Clear (c :: t) := by
  refine ⟨by simpa using h, ?_⟩
  rintro ⟨r, hr⟩
  cases hr
  exact ha rfl

theorem clear_second {c d : Char} {t : Str} (h : c ≠ '§') (hd : d ≠ 'l') : Clear (c :: d :: t) := by
  refine ⟨by simpa using h, ?_⟩
  rintro ⟨r, hr⟩
  cases hr
  exact hd rfl

theorem clear_third {c d e : Char} {t : Str} (h : c ≠ '§') (he : e ≠ 'c') : Clear (c :: d :: e :: t) := by
  refine ⟨by simpa using h, ?_⟩
  rintro ⟨r, hr⟩
  cases hr
  exact he rfl

theorem ofNumber_digits {d : Str} (h : Digits d) : ∀ c ∈ d, isOfNumber c = true := fun c hc => by simp [isOfNumber, h.2 c hc]

theorem lower_clear {c : Char} (h : isLowerAz c = true) : isOfNumber c = false ∧ c ≠ '§' := by
  refine ⟨?_, ne_of_class h⟩
  have hu : isUpperAz c = false := by
    rw [Bool.eq_false_iff]
    intro hu
    have := (isUpperAz_iff c).mp hu
    have := lower_bounds h
    omega
  simp only [isOfNumber, lower_not_space h, lower_not_ascii h, hu, Bool.false_or]
  rw [Bool.eq_false_iff]
  intro hc
  have hm : ∀ d ∈ py":/.", isLowerAz d = false := by decide +kernel
  exact absurd ((hm c (by simpa using hc)).symm.trans h) (by decide)

theorem article_ofNumber {x : Str} (h : ArticleNumber x) : ∀ c ∈ x, isOfNumber c = true := by
  obtain ⟨b, n, l, rfl, hb, hn, hl⟩ := h
  intro c hc
  simp only [List.mem_append] at hc
  rcases hc with (hc | hc) | hc
  · rcases hb with rfl | ⟨d, hd, rfl⟩
    · cases hc
    · rcases List.mem_append.mp hc with hc | hc
      · exact ofNumber_digits hd c hc
      · rw [List.mem_singleton.mp hc]; decide +kernel
  · exact ofNumber_digits hn c hc
  · rcases hl with rfl | ⟨d, hd, rfl⟩
    · cases hc
    · simp only [List.mem_cons, List.not_mem_nil, or_false] at hc
      rcases hc with rfl | rfl
      · decide +kernel
      · simp [isOfNumber, hd]

theorem start_clear {s : Str} (h : ItemStart s) (hd : ∀ c ∈ s.head?, isAsciiDigit c = false) : Clear (afterNumber s) := by
  obtain ⟨c, t, rfl, hc⟩ := h
  have stops : ∀ d ∈ py")-–−", d ≠ 'l' ∧ d ≠ 'c' := by decide
  rcases hc with h | rfl | ⟨h, d, u, rfl, hx⟩
  · exact absurd ((hd c rfl).symm.trans h) (by decide)
  · rw [afterNumber_cons (by decide +kernel)]
    exact clear_cons (by decide) (by decide)
  · obtain ⟨h1, h2⟩ := lower_clear h
    rw [afterNumber_cons h1]
    rcases hx with hx | ⟨_, e, v, rfl, he⟩
    · exact clear_second h2 (stops d hx).1
    · exact clear_third h2 (stops e he).2

theorem dash_clear {d s : Str} (h : Dash d) : Clear (afterNumber (d ++ s)) := by
  obtain ⟨c, rfl, hc⟩ := dash_cases h
  have : ∀ c ∈ py"−–-", isOfNumber c = false ∧ c ≠ '§' ∧ c ≠ 'a' := by decide +kernel
  obtain ⟨h1, h2, h3⟩ := this c hc
  rw [List.cons_append, afterNumber_cons h1]
  exact clear_cons h2 h3

/-- The identifier of a point that is a number: it is passed over, or a letter comes. -/
theorem numeric_after {k : PartKind} {x s : Str} (hk : k = .numericPoint ∨ k = .numericSubpoint) (h : Identifies k x) {d : Char} (hd : d ≠ 'l') :
    afterNumber (x ++ d :: s) = afterNumber (d :: s) ∨ Clear (afterNumber (x ++ d :: s)) := by
  rcases hk with rfl | rfl
  · obtain ⟨n, l, rfl, hn, hl⟩ := h
    rcases hl with rfl | ⟨c, hc, rfl | rfl⟩
    · rw [List.append_nil]
      exact .inl (afterNumber_append (ofNumber_digits hn))
    · right
      obtain ⟨h1, h2⟩ := lower_clear hc
      rw [List.append_assoc, afterNumber_append (ofNumber_digits hn), List.cons_append, afterNumber_cons h1]
      exact clear_second h2 hd
    · right
      obtain ⟨h1, h2⟩ := lower_clear hc
      rw [List.append_assoc, afterNumber_append (ofNumber_digits hn)]
      rw [show ['/', c] ++ d :: s = ['/'] ++ (c :: d :: s) by simp, afterNumber_append (by decide +kernel), afterNumber_cons h1]
      exact clear_second h2 hd
  · exact .inl (afterNumber_append (ofNumber_digits h))

theorem item_after {k : PartKind} {n : Nat} {i : Item} {w : Str} (h : ItemText k n i w) (s : Str) : Clear (afterNumber (w ++ s)) ∨
    (afterNumber (w ++ s) = afterNumber s ∧ (k = .numericPoint ∨ k = .numericSubpoint ∨ k = .article ∧ ∃ x, ArticleNumber x ∧ w = x ++ py".")) := by
  have hst := itemStart h s
  have hbeg : (∀ c, Begins k c → isAsciiDigit c = false) → ∀ c ∈ (w ++ s).head?, isAsciiDigit c = false := by
    obtain ⟨c, t, rfl, hb⟩ := items_start (.one h)
    rintro hk _ ⟨⟩
    exact hk _ hb
  have dot : ∀ s, afterNumber ('.' :: s) = afterNumber s := fun s => afterNumber_append (w := ['.']) (by decide +kernel)
  obtain ⟨-, h⟩ := h
  have numeric : (k = .numericPoint ∨ k = .numericSubpoint) → Clear (afterNumber (w ++ s)) ∨ afterNumber (w ++ s) = afterNumber s := by
    intro hk
    cases i with
    | inl r =>
      obtain ⟨h1, _, d, hd, h3⟩ := h
      obtain ⟨c, rfl, hc⟩ := dash_cases hd
      have nl : ∀ c ∈ py"−–-", c ≠ 'l' := by decide
      have e : w = r.1.1 ++ (c :: (r.1.2 ++ py".")) := by
        rcases hk with rfl | rfl <;> simpa using h3
      left
      rw [e, List.append_assoc, List.cons_append]
      rcases numeric_after (s := r.1.2 ++ (py".") ++ s) hk h1 (nl c hc) with h | h
      · rw [h]
        exact dash_clear (d := [c]) hd
      · exact h
    | inr r =>
      obtain ⟨h1, h2⟩ := h
      have e : w = r.1 ++ py"." := by rcases hk with rfl | rfl <;> exact h2
      rw [e, List.append_assoc]
      rcases numeric_after (s := s) (d := '.') hk h1 (by decide) with h | h
      · right
        exact h.trans (dot s)
      · exact .inl h
  cases k with
  | article =>
    cases i with
    | inl r =>
      obtain ⟨h1, _, d, hd, rfl⟩ := h
      left
      rw [List.append_assoc, List.append_assoc, List.append_assoc, afterNumber_append (article_ofNumber h1)]
      exact dash_clear hd
    | inr r =>
      obtain ⟨h1, rfl⟩ := h
      right
      refine ⟨?_, .inr (.inr ⟨rfl, _, h1, rfl⟩)⟩
      rw [List.append_assoc, afterNumber_append (article_ofNumber h1)]
      exact dot s
  | numericPoint => exact (numeric (.inl rfl)).imp_right fun h => ⟨h, .inl rfl⟩
  | numericSubpoint => exact (numeric (.inr rfl)).imp_right fun h => ⟨h, .inr (.inl rfl)⟩
  | paragraph => exact .inl (start_clear hst (hbeg (by rintro _ ⟨⟩; decide)))
  | alphabeticPoint => exact .inl (start_clear hst (hbeg fun c hc => lower_not_ascii hc))
  | alphabeticSubpoint => exact .inl (start_clear hst (hbeg fun c hc => lower_not_ascii hc))

theorem separator_clear {g s : Str} (hg : SeparatorText g) : Clear (afterNumber (g ++ s)) := by
  obtain ⟨c, o, a, rfl, hc, ho, ha, hn⟩ := hg
  simp only [List.mem_cons, List.not_mem_nil, or_false] at hc ho
  have sp : ∀ s, afterNumber (' ' :: s) = afterNumber s := fun s => afterNumber_append (w := [' ']) (by decide +kernel)
  rcases hc with rfl | rfl | rfl
  · rcases ho with rfl | rfl | rfl | rfl | rfl
    · exact absurd rfl (hn rfl)
    all_goals
      simp only [List.nil_append, List.append_assoc, List.cons_append]
      rw [sp, afterNumber_cons (by decide +kernel)]
      exact clear_cons (by decide) (by decide)
  all_goals
    simp only [List.nil_append, List.append_assoc, List.cons_append]
    rw [afterNumber_cons (by decide +kernel)]
    exact clear_cons (by decide) (by decide)

theorem end_clear {k : PartKind} {e s : Str} (hk : k ≠ .article) (h : EndText k e) : Clear (afterNumber (' ' :: (e ++ s))) := by
  have sp : ∀ s, afterNumber (' ' :: s) = afterNumber s := fun s => afterNumber_append (w := [' ']) (by decide +kernel)
  rw [sp]
  cases k with
  | article => exact absurd rfl hk
  | paragraph =>
    obtain ⟨f, rfl, _⟩ := h
    rw [List.append_assoc, List.cons_append, afterNumber_cons (by decide +kernel)]
    exact clear_cons (by decide) (by decide)
  | alphabeticPoint | numericPoint =>
    obtain ⟨f, rfl, _⟩ := h
    rw [List.append_assoc, List.cons_append, afterNumber_cons (by decide +kernel)]
    exact clear_cons (by decide) (by decide)
  | alphabeticSubpoint | numericSubpoint =>
    obtain ⟨f, rfl, _⟩ := h
    rw [List.append_assoc, List.cons_append, afterNumber_cons (by decide +kernel)]
    exact clear_third (by decide) (by decide)

/-- A reference begins with one article, or the number it begins with is not one of an article. -/
theorem part_after {n : Nat} {p : ParsedPart} {w : Str} (h : PartText n p w) (s : Str) : Clear (afterNumber (w ++ s)) ∨
    ∃ x g, p.kind = .article ∧ ArticleNumber x ∧ EndText .article g ∧ w = x ++ '.' :: ' ' :: g := by
  obtain ⟨items, u, e, hi, he, rfl, _⟩ := h
  cases hi with
  | one h =>
    rw [List.append_assoc]
    by_cases hk : p.kind = .article
    · rcases item_after h (' ' :: e ++ s) with h | ⟨_, h | h | ⟨_, x, hx, rfl⟩⟩
      · exact .inl h
      · rw [hk] at h; cases h
      · rw [hk] at h; cases h
      · rw [hk] at he
        exact .inr ⟨x, e, hk, hx, he, by simp⟩
    · left
      rcases item_after h (' ' :: e ++ s) with h | ⟨h, _⟩
      · exact h
      · rw [h]
        exact end_clear hk he
  | @cons _ _ w g _ v h hg _ =>
    left
    rw [show w ++ g ++ v ++ ' ' :: e ++ s = w ++ (g ++ (v ++ (' ' :: e ++ s))) by simp]
    rcases item_after h (g ++ (v ++ (' ' :: e ++ s))) with h | ⟨h, _⟩
    · exact h
    · rw [h]
      exact separator_clear hg

/-! ## No position -/

/-- What numbers of parts, titles and chapters begin with. -/
def capitals : Str := capitalOrdinals.filterMap List.head? ++ py"IVXLCDM"

theorem fails_capitalOrdinal {s : Str} (h : NotFirst capitals s) : Fails hungarianOrdinalCapital s := by
  refine Fails.rule (fails_tokens fun t ht => ?_)
  have hne : ∀ t ∈ capitalOrdinals, t ≠ [] := by decide +kernel
  obtain ⟨a, u, rfl⟩ := List.exists_cons_of_ne_nil (hne t ht)
  refine fails_token (a := a) rfl fun c hc he => ?_
  subst he
  rw [first_dropWhile] at hc
  exact h c hc (List.mem_append_left _ (List.mem_filterMap.mpr ⟨_, ht, rfl⟩))

theorem fails_roman {s : Str} (h : NotFirst capitals s) : Fails roman s := by
  refine Fails.rule (fails_pattern (plus_none fun c hc => ?_))
  rw [Bool.eq_false_iff]
  intro hm
  exact h c hc (List.mem_append_right _ (by simpa using hm))

theorem fails_lettered {p : Peg Str} {s : Str} (h : Fails p s) : Fails (lettered p) s := h.bind

theorem no_structure_of {s : Str} {i : At} (hi : i.rest = s) (hc : NotFirst capitals s) (hn : subtitleNumber i = none)
    (ht : subtitleTitle i = none) (h1 : afterArticle i = none) (h2 : beforeArticle i = none) :
    structuralPosition i = none ∧ structuralAlternatives i = none := by
  subst hi
  have hc' : NotFirst capitals (i.rest.dropWhile isSpace) := by intro c hm; rw [first_dropWhile] at hm; exact hc c hm
  have n1 : chapterNumber i = none := Fails.rule (s := i.rest) (fails_lettered (fails_roman hc')).bind i.pos
  have n2 : partNumber i = none := by
    refine Fails.rule (s := i.rest) (fun n => ?_) i.pos
    have : ofBook ⟨n, i.rest.dropWhile isSpace⟩ = some (none, ⟨n, i.rest.dropWhile isSpace⟩) := opt_none (bind_none (fails_capitalOrdinal hc' n))
    rw [bind_some this]
    exact bind_none (fails_capitalOrdinal hc' n)
  have n3 : titleNumber i = none := by
    refine Fails.rule (s := i.rest) (fun n => ?_) i.pos
    have : ofBook ⟨n, i.rest.dropWhile isSpace⟩ = some (none, ⟨n, i.rest.dropWhile isSpace⟩) := opt_none (bind_none (fails_capitalOrdinal hc' n))
    rw [bind_some this]
    exact bind_none (fails_lettered (fails_roman hc') n)
  have n4 : structuralAlternatives i = none := by
    unfold structuralAlternatives
    rw [or_right hn, or_right ht, or_right n1, or_right n2]
    exact n3
  refine ⟨?_, n4⟩
  unfold structuralPosition
  rw [or_right, or_right]
  · exact n4
  · rw [bind_some (opt_none n1)]
    exact h2
  · rw [bind_some (opt_none n1)]
    exact h1

theorem no_structure {s : Str} {i : At} (hi : i.rest = s) (hc : NotFirst capitals s) (ha : ¬ (py"alcím") <+: afterNumber s)
    (ht : subtitleTitle i = none) (h1 : afterArticle i = none) (h2 : beforeArticle i = none) :
    structuralPosition i = none ∧ structuralAlternatives i = none := by
  subst hi
  exact no_structure_of rfl hc (no_subtitleNumber ha i.pos) ht h1 h2

/-- The words after the name of an article that is next to something. -/
def besideWords : List Str := [py"követően", py"követő", py"megelőzően", py"megelőző"]

theorem ItemStart.no_second {s t : Str} (h : ItemStart s) {a b : Char} {u : Str} (ht : t = a :: b :: u) (ha : isLowerAz a = true)
    (hb : isLowerAz b = false) (hc : b ∉ py")-–−") : Fails (token t) s := by
  intro n
  refine token_not_prefix ?_
  rw [h.dropWhile]
  obtain ⟨x, v, rfl, hx⟩ := h
  subst ht
  rw [Bool.eq_false_iff]
  intro hp
  obtain ⟨r, hr⟩ := List.isPrefixOf_iff_prefix.mp hp
  cases hr
  rcases hx with h | h | ⟨_, d, w, hd, hx⟩
  · exact absurd ((digit_not_lower' h).symm.trans ha) (by decide)
  · subst h; exact absurd ha (by decide)
  · cases hd
    rcases hx with hx | ⟨hx, _⟩
    · exact hc hx
    · exact absurd (hb.symm.trans hx) (by decide)

theorem start_no_beside {s : Str} (h : ItemStart s) : ∀ t ∈ besideWords, Fails (token t) (' ' :: s) := by
  simp only [besideWords, List.mem_cons, List.not_mem_nil, or_false]
  rintro t (rfl | rfl | rfl | rfl)
  · exact fails_space (h.no_second rfl (by decide +kernel) (by decide +kernel) (by decide +kernel))
  · exact fails_space (h.no_second rfl (by decide +kernel) (by decide +kernel) (by decide +kernel))
  · exact fails_space (h.no_word rfl (by decide +kernel) (by decide +kernel) (by decide +kernel))
  · exact fails_space (h.no_word rfl (by decide +kernel) (by decide +kernel) (by decide +kernel))

theorem start_not_capital {s : Str} (h : ItemStart s) : NotFirst capitals s := by
  obtain ⟨c, t, rfl, hc⟩ := h
  have hs : isSpace c = false := itemStart_not_space ⟨c, t, rfl, hc⟩
  refine notFirst_cons hs fun hm => ?_
  have : ∀ x ∈ capitals, isAsciiDigit x = false ∧ x ≠ '(' ∧ isLowerAz x = false := by decide +kernel
  obtain ⟨h1, h2, h3⟩ := this c hm
  rcases hc with h | h | ⟨h, _⟩
  · exact absurd (h1.symm.trans h) (by decide)
  · exact h2 h
  · exact absurd (h3.symm.trans h) (by decide)

theorem start_no_az {s : Str} (h : ItemStart s) : Fails az s := by
  obtain ⟨c, t, rfl, hc⟩ := h
  have hs : isSpace c = false := itemStart_not_space ⟨c, t, rfl, hc⟩
  by_cases ha : c = 'a'
  · subst ha
    refine Fails.rule ?_
    rw [dropWhile_cons_of hs]
    rcases hc with h | h | ⟨_, d, u, rfl, hx⟩
    · exact absurd h (by decide)
    · exact absurd h (by decide)
    · have stops : ∀ d ∈ py")-–−", d ≠ 'z' ∧ d ≠ ' ' := by decide
      refine fails_pattern ?_
      rcases hx with hx | ⟨hx, e, v, rfl, he⟩
      · simp [Regex.ends, Regex.char, stops d hx]
      · have : d ≠ ' ' := ne_of_class hx
        by_cases hz : d = 'z' <;> simp [Regex.ends, Regex.char, hz, this, (stops e he).2]
  · exact fails_az hs ha

/-- There is no position before a reference. -/
theorem no_position {n m : Nat} {ps : List ParsedPart} {v s : Str} (h : ReferenceText n ps v) (hs : WordEnds s)
    (hw : ∀ t ∈ besideWords, Fails (token t) s) (ht : subtitleTitle ⟨m, ' ' :: (v ++ s)⟩ = none) :
    structuralPosition ⟨m, ' ' :: (v ++ s)⟩ = none ∧ structuralAlternatives ⟨m, ' ' :: (v ++ s)⟩ = none := by
  have hst := reference_start h s
  have sp : ∀ s, afterNumber (' ' :: s) = afterNumber s := fun s => afterNumber_append (w := [' ']) (by decide +kernel)
  have hcap : NotFirst capitals (' ' :: (v ++ s)) := by
    intro c hc
    rw [first_space] at hc
    exact start_not_capital hst c hc
  have haz : Fails az (' ' :: (v ++ s)) := by
    intro k
    obtain ⟨c, t, hc, hsp⟩ := hst.head
    rw [← az_skip, hc, space_skip hsp, ← hc]
    exact start_no_az hst _
  obtain ⟨p, ps, rfl⟩ : ∃ p ps', ps = p :: ps' := by cases h <;> exact ⟨_, _, rfl⟩
  -- what is after the first part
  obtain ⟨u, t, rfl, hp, ht1, ht2⟩ : ∃ u t, v = u ++ t ∧ PartText n p u ∧ WordEnds (t ++ s) ∧ ∀ w ∈ besideWords, Fails (token w) (t ++ s) := by
    cases h with
    | one h => exact ⟨v, [], by simp, h, by simpa using hs, by simpa using hw⟩
    | @cons _ _ w q qs z h _ hq =>
      refine ⟨w, ' ' :: z, rfl, h, ?_, ?_⟩
      · rintro _ ⟨⟩
        decide
      · exact start_no_beside (reference_start hq s)
  rw [List.append_assoc] at *
  rcases part_after hp (t ++ s) with hcl | ⟨x, g, hk, hx, hg, rfl⟩
  · refine no_structure rfl hcap (by rw [sp]; exact hcl.2) ht (bind_none ?_) (bind_none ?_)
    · exact no_besideArticle haz (by rw [sp]; exact hcl.1) _
    · exact no_besideArticle haz (by rw [sp]; exact hcl.1) _
  · have hb : ∀ words, (∀ w ∈ words, w ∈ besideWords) → besideArticle words ⟨m, ' ' :: (x ++ '.' :: ' ' :: g ++ (t ++ s))⟩ = none := by
      intro words hws
      obtain ⟨c, z, hc, hd⟩ := article_head hx
      have hsk : (⟨m, ' ' :: (x ++ '.' :: ' ' :: g ++ (t ++ s))⟩ : At).skip = ⟨m + 1, x ++ '.' :: ' ' :: (g ++ (t ++ s))⟩ := by
        rw [hc]
        simp only [List.append_assoc, List.cons_append]
        exact space_skip (digit_not_space hd) m
      obtain ⟨pieces, _, h2⟩ := pieces_read hx (stop_dot (' ' :: (g ++ (t ++ s)))) (m + 1)
      obtain ⟨y, h3⟩ := reads_suffixOf (k := .article) hg ht1
      have ha' : az ⟨m + 1, x ++ '.' :: ' ' :: (g ++ (t ++ s))⟩ = none := by
        rw [← hsk, az_skip]
        exact haz m
      unfold besideArticle rule
      rw [hsk]
      exact (bind_some (opt_none ha')).trans ((bind_some h2).trans ((bind_some (reads_dot (' ' :: (g ++ (t ++ s))) _)).trans
        ((bind_some (h3 _)).trans (bind_none (fails_tokens (fun w hw => ht2 w (hws w hw)) _)))))
    have hal : ¬ (py"alcím") <+: afterNumber (' ' :: (x ++ '.' :: ' ' :: g ++ (t ++ s))) := by
      have e : ' ' :: (x ++ '.' :: ' ' :: g ++ (t ++ s)) = [' '] ++ (x ++ (['.', ' '] ++ (g ++ (t ++ s)))) := by simp
      rw [e, afterNumber_append (by decide +kernel), afterNumber_append (article_ofNumber hx), afterNumber_append (by decide +kernel)]
      obtain ⟨z, hz⟩ : ∃ z, g = '§' :: z := by
        rcases hg with rfl | ⟨f, rfl, _⟩
        · exact ⟨_, rfl⟩
        · exact ⟨_, rfl⟩
      rw [hz, List.cons_append, afterNumber_cons (by decide +kernel)]
      rintro ⟨r, hr⟩
      cases hr
    exact no_structure rfl hcap hal ht (bind_none (hb _ (by decide))) (bind_none (hb _ (by decide)))

/-! ## The words -/

theorem replacing_reads {e rest : Str} (he : Replacing e) : Reads amendmentSuffix e rest () := by
  simp only [Replacing, List.mem_cons, List.not_mem_nil, or_false] at he
  have done : ∀ {α β : Type} {p : Peg α} {u r : Str} {a : α} (b : β), Reads p u r a → Reads (do let _ ← p; pure b) u r b :=
    fun b h => h.to (reads_nil b _)
  rcases he with rfl | rfl | rfl
  · refine Reads.rule_space (c := 'h') (w := py"helyébe a következő rendelkezés lép") (.left ?_) rfl (by decide +kernel)
    exact Reads.bind (u := py"helyébe a következő") (v := py" rendelkezés lép") (reads_text (by decide +kernel))
      (done () (.left ((reads_text (t := py"rendelkezés lép") (by decide +kernel)).space fun _ => token_skip _ _)))
  · refine Reads.rule_space (c := 'h') (w := py"helyébe a következő rendelkezések lépnek") (.left ?_) rfl (by decide +kernel)
    exact Reads.bind (u := py"helyébe a következő") (v := py" rendelkezések lépnek") (reads_text (by decide +kernel))
      (done () (.right (fails_text rfl) (.left ((reads_text (t := py"rendelkezések lépnek") (by decide +kernel)).space fun _ => token_skip _ _))))
  · refine Reads.rule_space (c := 'a') (w := py"a következő szöveggel lép hatályba") (.right (fails_text rfl).bind ?_) rfl (by decide +kernel)
    exact done () (reads_text (by decide +kernel))

theorem adding_reads {e rest : Str} (he : Adding e) : ∃ x, Reads insertionSuffix e rest x := by
  simp only [Adding, List.mem_cons, List.not_mem_nil, or_false] at he
  rcases he with rfl | rfl
  · exact ⟨_, Reads.rule_space (c := 'e') (w := py"egészül ki") (.left (reads_text (by decide +kernel))) rfl (by decide +kernel)⟩
  · exact ⟨_, Reads.rule_space (c := 'k') (w := py"kiegészülve lép hatályba") (.right (fails_text rfl) (.left (reads_text (by decide +kernel)))) rfl
      (by decide +kernel)⟩

theorem colon_reads : Reads (token (py":")) (py":") [] (py":") := reads_text (rest := []) (by decide +kernel)

theorem andColon_reads {α : Type} {p : Peg α} {e : Str} {x : α} (h : Reads p e (py":") x) : Reads (andColon p) (e ++ py":") [] () :=
  Reads.bind (f := fun _ => do let _ ← token (py":"); pure ()) h (colon_reads.to (reads_nil () _))

theorem insertionToken_reads (s : Str) : Reads insertionToken (py" a következő") s (py"a következő") :=
  Reads.rule_space (c := 'a') (w := py"a következő") (reads_text (by decide +kernel)) rfl (by decide +kernel)

theorem insertionToken_here (s : Str) : Reads insertionToken (py"a következő") s (py"a következő") :=
  Reads.rule (c := 'a') (w := py"a következő") (reads_text (by decide +kernel)) rfl (by decide +kernel)

theorem start_no_insertion {s : Str} (h : ItemStart s) : Fails insertionToken s ∧ Fails insertionToken (' ' :: s) := by
  have h1 : Fails (token (py"a következő")) s := h.no_second rfl (by decide +kernel) (by decide +kernel) (by decide +kernel)
  have h2 : Fails insertionToken s := by
    refine Fails.rule ?_
    rw [h.dropWhile]
    exact h1
  refine ⟨h2, Fails.rule ?_⟩
  rw [dropWhile_space, h.dropWhile]
  exact h1

theorem replacing_quiet {e : Str} (he : Replacing e) (s : Str) : Quiet (e ++ s) := by
  simp only [Replacing, List.mem_cons, List.not_mem_nil, or_false] at he
  rcases he with rfl | rfl | rfl
  · exact quiet_word (w := py"helyébe") (s := (py" a következő rendelkezés lép") ++ s) (plain_word rfl) (by rintro _ ⟨⟩; decide)
  · exact quiet_word (w := py"helyébe") (s := (py" a következő rendelkezések lépnek") ++ s) (plain_word rfl) (by rintro _ ⟨⟩; decide)
  · exact quiet_word (w := py"a") (s := (py" következő szöveggel lép hatályba") ++ s) (plain_word rfl) (by rintro _ ⟨⟩; decide)

theorem adding_quiet {e : Str} (he : Adding e) (s : Str) : Quiet (e ++ s) := by
  simp only [Adding, List.mem_cons, List.not_mem_nil, or_false] at he
  rcases he with rfl | rfl
  · exact quiet_word (w := py"egészül") (s := (py" ki") ++ s) (plain_word rfl) (by rintro _ ⟨⟩; decide)
  · exact quiet_word (w := py"kiegészülve") (s := (py" lép hatályba") ++ s) (plain_word rfl) (by rintro _ ⟨⟩; decide)

theorem following_quiet (s : Str) : Quiet ((py" a következő") ++ s) :=
  quiet_word (w := py"a") (s := (py" következő") ++ s) (plain_word rfl) (by rintro _ ⟨⟩; decide)

/-! ## What is new -/

theorem starts_nonspace {s : Str} (h : ItemStart s) (n : Nat) : (⟨n, ' ' :: s⟩ : At).skip = ⟨n + 1, s⟩ := by
  obtain ⟨c, t, rfl, hc⟩ := h.head
  exact space_skip hc n

/-- An article and a paragraph at the beginning of a reference. -/
theorem pair_read {n : Nat} {p : ParsedPart} {ps : List ParsedPart} {u R : Str} (h : ReferenceText n (p :: ps) u) (hk : p.kind = .article)
    (hR : Quiet R) {j : At} (hj : j.skip = ⟨n, u ++ R⟩) :
    (articleAndParagraph j = some (p :: ps, ⟨n + u.length, R⟩) ∧ (ps = [] ∨ ∃ r, ps = [r] ∧ r.kind = .paragraph)) ∨ ∃ as u1 q qs z, p :: ps = as ++ q :: qs ∧ u = u1 ++ ' ' :: z ∧
      articleAndParagraph j = some (as, ⟨n + u1.length, ' ' :: (z ++ R)⟩) ∧ (q.kind = .alphabeticPoint ∨ q.kind = .numericPoint) ∧
      ReferenceText (n + u1.length + 1) (q :: qs) z := by
  unfold articleAndParagraph
  have lower_open : ∀ c, isLowerAz c = true → c ≠ '(' := fun c h => ne_of_class h
  have digit_open : ∀ c, isAsciiDigit c = true → c ≠ '(' := fun c h => ne_of_class h
  cases h with
  | one h =>
    have h1 := next_read h (.inl hR) hj
    rw [hk] at h1
    have h1 : articleReference j = _ := h1
    refine .inl ⟨?_, .inl rfl⟩
    have h2 : paragraphReference ⟨n + u.length, R⟩ = none := hR.parts .paragraph _
    rw [bind_some h1, bind_some (opt_none h2)]
    rfl
  | @cons _ _ w q qs x h hu hq =>
    have e0 : w ++ ' ' :: x ++ R = w ++ ' ' :: (x ++ R) := by simp
    rw [e0] at hj
    have h1 := next_read h (.inr (part_follows hq R)) hj
    rw [hk] at h1 hu
    have h1 : articleReference j = _ := h1
    have hsk := starts_nonspace (reference_start hq R) (n + w.length)
    by_cases hqk : q.kind = .paragraph
    · cases hq with
      | one hq =>
        have h2 := next_read hq (.inl hR) hsk
        rw [hqk] at h2
        have h2 : paragraphReference _ = _ := h2
        refine .inl ⟨?_, .inr ⟨q, rfl, hqk⟩⟩
        rw [bind_some h1, bind_some (opt_some h2)]
        have e : n + (w ++ ' ' :: x).length = n + w.length + 1 + x.length := by simp; omega
        rw [e]
        rfl
      | @cons _ _ y r rs z hy hu' hz =>
        have e1 : y ++ ' ' :: z ++ R = y ++ ' ' :: (z ++ R) := by simp
        rw [e1] at hsk
        have h2 := next_read hy (.inr (part_follows hz R)) hsk
        rw [hqk] at h2 hu'
        have h2 : paragraphReference _ = _ := h2
        right
        refine ⟨[p, q], w ++ ' ' :: y, r, rs, z, rfl, by simp, ?_, hu', ?_⟩
        · rw [bind_some h1, e1, bind_some (opt_some h2)]
          have e : n + (w ++ ' ' :: y).length = n + w.length + 1 + y.length := by simp; omega
          rw [e]
          rfl
        · have e : n + (w ++ ' ' :: y).length + 1 = n + w.length + 1 + y.length + 1 := by simp; omega
          rw [e]
          exact hz
    · have hqk' : q.kind = .alphabeticPoint ∨ q.kind = .numericPoint := hu.resolve_left hqk
      right
      refine ⟨[p], w, q, qs, x, rfl, rfl, ?_, hqk', hq⟩
      obtain ⟨y, z, hx, hy⟩ := reference_part hq
      have h3 : paragraphReference ⟨n + w.length, ' ' :: (x ++ R)⟩ = none := by
        refine start_fails (k := .paragraph) (rest := z ++ R) hy (by rw [hsk, hx, List.append_assoc]) ?_
        rcases hqk' with h | h <;> rw [h]
        · exact lower_open
        · exact digit_open
      rw [bind_some h1, bind_some (opt_none h3)]
      rfl

/-! ## No position before what is new -/

theorem following_no_beside {words : List Str} (s : Str) : Fails (besideArticle words) ((py" a következő") ++ s) := by
  intro n
  show (opt az >>= _) (At.skip _) = none
  have h0 : (⟨n, (py" a következő") ++ s⟩ : At).skip = ⟨n + 1, (py"a ") ++ ((py"következő") ++ s)⟩ := skip_one (by decide +kernel)
  rw [h0, bind_some (opt_some (reads_az (b := py"a ") (by simp) ((py"következő") ++ s) (n + 1)))]
  refine bind_fails fun a j h1 => bind_fails fun b k h2 => bind_none ?_
  have e := (inNumber_token (by decide +kernel) _ _ _ h2).trans (inNumber_pieces _ _ _ h1)
  refine articleSuffix_none ?_ k.pos
  have hk : (afterNumber k.rest).head? = some 'k' := by rw [e]; rfl
  intro c hc hm
  obtain rfl := List.mem_singleton.mp hm
  obtain ⟨t, ht⟩ : ∃ t, k.rest.dropWhile isSpace = '§' :: t := by
    unfold first at hc
    cases hr : k.rest.dropWhile isSpace with
    | nil => rw [hr] at hc; cases hc
    | cons d t => rw [hr] at hc; cases hc; exact ⟨t, rfl⟩
  rw [afterNumber_first ht (by decide +kernel)] at hk
  cases hk

theorem following_no_position {m : Nat} {s : Str} (ht : subtitleTitle ⟨m, (py" a következő") ++ s⟩ = none) :
    structuralPosition ⟨m, (py" a következő") ++ s⟩ = none ∧ structuralAlternatives ⟨m, (py" a következő") ++ s⟩ = none := by
  refine no_structure rfl ?_ ?_ ht (bind_none (following_no_beside s m)) (bind_none (following_no_beside s m))
  · exact space_not_first (c := 'a') (by decide +kernel) (by decide +kernel)
  · have e : afterNumber ((py" a következő") ++ s) = (py"a következő") ++ s :=
      afterNumber_first (c := 'a') ((dropWhile_space _).trans (dropWhile_cons_of (by decide +kernel))) (by decide +kernel)
    rw [e]
    rintro ⟨r, hr⟩
    cases hr

theorem following_no_suffix {s : Str} (h : ItemStart s) : Fails amendmentSuffix ((py" a következő ") ++ s) := by
  refine Fails.rule ?_
  have e : ((py" a következő ") ++ s).dropWhile isSpace = (py"a következő ") ++ s := (dropWhile_space _).trans (dropWhile_cons_of (by decide +kernel))
  rw [e]
  refine Fails.or (fails_text rfl).bind (Fails.bind ?_)
  intro n
  refine token_not_prefix ?_
  rw [show ((py"a következő ") ++ s).dropWhile isSpace = (py"a következő ") ++ s from dropWhile_cons_of (by decide +kernel), Bool.eq_false_iff]
  intro hp
  obtain ⟨r, hr⟩ := List.isPrefixOf_iff_prefix.mp hp
  have hr : (py"szöveggel lép hatályba") ++ r = s := by
    have : (py"a következő ") ++ ((py"szöveggel lép hatályba") ++ r) = (py"a következő ") ++ s := hr
    exact List.append_cancel_left this
  obtain ⟨c, t, rfl, hx⟩ := h
  cases hr
  rcases hx with h | h | ⟨_, d, u, hd, hx⟩
  · exact absurd h (by decide)
  · exact absurd h (by decide)
  · cases hd
    rcases hx with h | ⟨_, e, v, he, hx⟩
    · exact absurd h (by decide)
    · cases he
      exact absurd hx (by decide)

/-! ## What is new -/

/-- The article at the beginning of a reference. -/
theorem article_first {n : Nat} {p : ParsedPart} {ps : List ParsedPart} {u R : Str} (h : ReferenceText n (p :: ps) u) (hk : p.kind = .article)
    (hR : Quiet R) {j : At} (hj : j.skip = ⟨n, u ++ R⟩) :
    ∃ k, articleReference j = some (p, k) ∧ ((ps = [] ∧ k = ⟨n + u.length, R⟩) ∨ (ps ≠ [] ∧ ∃ m s, k = ⟨m, ' ' :: s⟩ ∧ ItemStart s)) := by
  cases h with
  | one h =>
    have h1 := next_read h (.inl hR) hj
    rw [hk] at h1
    exact ⟨_, h1, .inl ⟨rfl, rfl⟩⟩
  | @cons _ _ w q qs x h hu hq =>
    have e0 : w ++ ' ' :: x ++ R = w ++ ' ' :: (x ++ R) := by simp
    rw [e0] at hj
    have h1 := next_read h (.inr (part_follows hq R)) hj
    rw [hk] at h1
    exact ⟨_, h1, .inr ⟨by simp, _, _, rfl, reference_start hq R⟩⟩

theorem start_opt_az {s : Str} (h : ItemStart s) (n : Nat) : opt az ⟨n, s⟩ = some (none, ⟨n, s⟩) := opt_none (start_no_az h n)

theorem intoArticle {p : ParsedPart} {i j k : At} {o : Option Str} {ws : List Str} (h0 : opt az i = some (o, j)) (h : articleReference j = some (p, k)) :
    insertedInto (do let a ← articleReference; pure [a]) ws i = some ([p], k) := by
  unfold insertedInto
  have h1 : (do let _ ← opt az; (do let a ← articleReference; pure [a]) : Peg (List ParsedPart)) i = some ([p], k) := by
    rw [bind_some h0, bind_some h]
    rfl
  exact bind_some (opt_some (or_left h1))

theorem intoParagraph {ps : List ParsedPart} {i j k : At} {o : Option Str} {ws : List Str} (h0 : opt az i = some (o, j))
    (h : articleAndParagraph j = some (ps, k)) :
    insertedInto articleAndParagraph ws i = some (ps, k) := by
  unfold insertedInto
  have h1 : (do let _ ← opt az; articleAndParagraph : Peg (List ParsedPart)) i = some (ps, k) := by
    rw [bind_some h0, h]
  exact bind_some (opt_some (or_left h1))

theorem located_eq {α : Type} {p : Peg α} {i : At} {n m : Nat} {s t : Str} {a : α} (hi : i.skip = ⟨n, s⟩) (h : p ⟨n, s⟩ = some (a, ⟨m, t⟩)) :
    located p i = some ((a, ↑n, ↑m), ⟨m, t⟩) := by
  unfold located
  rw [hi, h]

theorem located_fails {α : Type} {p : Peg α} {i j : At} (hi : i.skip = j) (h : p j = none) : located p i = none := by
  unfold located
  rw [hi, h]

theorem noun_no_insertion {b s : Str} (hb : Noun b) (h : ItemStart s) : Fails insertionToken (b ++ s) := by
  unfold Noun at hb
  simp only [List.mem_cons, List.not_mem_nil, or_false] at hb
  rcases hb with rfl | rfl | rfl
  · exact (start_no_insertion h).1
  · refine Fails.rule ?_
    rw [show ((py"a ") ++ s).dropWhile isSpace = (py"a ") ++ s from dropWhile_cons_of (by decide +kernel)]
    intro n
    refine token_not_prefix ?_
    rw [show ((py"a ") ++ s).dropWhile isSpace = (py"a ") ++ s from dropWhile_cons_of (by decide +kernel), Bool.eq_false_iff]
    intro hp
    obtain ⟨r, hr⟩ := List.isPrefixOf_iff_prefix.mp hp
    have hr : (py"következő") ++ r = s := by
      have : (py"a ") ++ ((py"következő") ++ r) = (py"a ") ++ s := hr
      exact List.append_cancel_left this
    obtain ⟨c, t, rfl, hx⟩ := h
    cases hr
    rcases hx with h | h | ⟨_, d, u, hd, hx⟩
    · exact absurd h (by decide)
    · exact absurd h (by decide)
    · cases hd
      rcases hx with h | ⟨hx, _⟩
      · exact absurd h (by decide)
      · exact absurd hx (by decide)
  · refine Fails.rule ?_
    rw [show ((py"az ") ++ s).dropWhile isSpace = (py"az ") ++ s from dropWhile_cons_of (by decide +kernel)]
    exact fails_text rfl

theorem under_reads {n : Nat} {b u v R : Str} {p q : ParsedPart} {ps : List ParsedPart} (hb : Noun b) (hp : p.kind = .article)
    (h : ReferenceText (n + b.length) (p :: ps) u) (hl : ∀ l, (p :: ps).getLast? = some l → Under l.kind q.kind)
    (hq : PartText (n + b.length + u.length + 13) q v) (hR : Quiet R) {j : At} (hj : j.skip = ⟨n, b ++ (u ++ (py" a következő ") ++ v) ++ R⟩) :
    insertionReference j = some ((p :: ps ++ [q], ↑n, ↑(n + (b ++ (u ++ (py" a következő ") ++ v)).length)),
      ⟨n + (b ++ (u ++ (py" a következő ") ++ v)).length, R⟩) := by
  obtain ⟨m, hm⟩ : ∃ m, m = n + b.length := ⟨_, rfl⟩
  have e1 : b ++ (u ++ (py" a következő ") ++ v) ++ R = b ++ (u ++ ((py" a következő") ++ ' ' :: (v ++ R))) := by simp
  rw [e1] at hj
  have e2 : n + (b ++ (u ++ (py" a következő ") ++ v)).length = m + u.length + 13 + v.length := by rw [hm]; simp; omega
  rw [e2]
  rw [← hm] at h hq
  have hQ : Quiet ((py" a következő") ++ ' ' :: (v ++ R)) := following_quiet _
  have hst := reference_start h ((py" a következő") ++ ' ' :: (v ++ R))
  obtain ⟨o, haz⟩ : ∃ o, opt az ⟨n, b ++ (u ++ ((py" a következő") ++ ' ' :: (v ++ R)))⟩ = some (o, ⟨m, u ++ ((py" a következő") ++ ' ' :: (v ++ R))⟩) := by
    rw [hm]
    rcases List.mem_cons.mp hb with rfl | hb
    · exact ⟨none, start_opt_az hst n⟩
    · exact ⟨_, opt_some (reads_az hb _ n)⟩
  have hsk : (⟨m, u ++ ((py" a következő") ++ ' ' :: (v ++ R))⟩ : At).skip = ⟨m, u ++ ((py" a következő") ++ ' ' :: (v ++ R))⟩ := by
    obtain ⟨c, t, hc, hs⟩ := hst.head
    rw [hc]
    exact skip_cons hs m
  refine located_eq hj ?_
  refine (or_right (bind_none (noun_no_insertion hb hst n))).trans ?_
  have tok : insertionToken ⟨m + u.length, (py" a következő") ++ ' ' :: (v ++ R)⟩ = some (py"a következő", ⟨m + u.length + 12, ' ' :: (v ++ R)⟩) :=
    insertionToken_reads (' ' :: (v ++ R)) (m + u.length)
  have hv : (⟨m + u.length + 12, ' ' :: (v ++ R)⟩ : At).skip = ⟨m + u.length + 13, v ++ R⟩ := part_skip hq _ _
  obtain ⟨k, ha, hk⟩ := article_first h hp hQ hsk
  have lower_open : ∀ c, isLowerAz c = true → c ≠ '(' := fun c h => ne_of_class h
  have digit_open : ∀ c, isAsciiDigit c = true → c ≠ '(' := fun c h => ne_of_class h
  -- a paragraph
  by_cases hqp : q.kind = .paragraph
  · have hps : ps = [] := by
      obtain ⟨l, hl'⟩ : ∃ l, (p :: ps).getLast? = some l := ⟨_, List.getLast?_eq_some_getLast (by simp)⟩
      have hu := hl l hl'
      rw [hqp] at hu
      cases h with
      | one h => rfl
      | @cons _ _ w r rs x hh hu' hr =>
        have : ∀ {n} {r : ParsedPart} {rs : List ParsedPart} {x : Str}, r.kind ≠ .article → ReferenceText n (r :: rs) x → ∀ l, (r :: rs).getLast? = some l → l.kind ≠ .article := by
          intro n r rs
          induction rs generalizing n r with
          | nil => intro x hr _ l hl; cases hl; exact hr
          | cons s rs ih =>
            intro x hr h l hl
            cases h with
            | cons h1 h2 h3 =>
              rw [List.getLast?_cons_cons] at hl
              refine ih ?_ h3 l hl
              intro hs
              rw [hs] at h2
              revert h2
              cases r.kind <;> simp [Under]
        rw [List.getLast?_cons_cons] at hl'
        have hne := this (by intro hr'; rw [hp, hr'] at hu'; simp [Under] at hu') hr l hl'
        revert hu
        cases hlk : l.kind <;> simp [Under, hlk] at hne ⊢
    subst hps
    rcases hk with ⟨_, rfl⟩ | ⟨hk, _⟩
    · have hq1 := next_read hq (.inl hR) hv
      rw [hqp] at hq1
      have hq1 : paragraphReference _ = _ := hq1
      refine or_left ?_
      rw [bind_some (intoArticle haz ha), bind_some tok, bind_some hq1]
      rfl
    · exact absurd rfl hk
  · -- not the one of a paragraph
    have alt2 : (do
        let ps ← insertedInto (do let a ← articleReference; pure [a]) [py"a §"]
        let _ ← insertionToken
        let p ← paragraphReference
        pure (ps ++ [p]) : Peg (List ParsedPart)) ⟨n, b ++ (u ++ ((py" a következő") ++ ' ' :: (v ++ R)))⟩ = none := by
      rw [bind_some (intoArticle haz ha)]
      rcases hk with ⟨_, rfl⟩ | ⟨_, m, s, rfl, hs⟩
      · rw [bind_some tok]
        refine bind_none (start_fails (k := .paragraph) hq hv ?_)
        revert hqp
        cases q.kind
        · intro _; exact digit_open
        · intro h; exact absurd rfl h
        · intro _; exact lower_open
        · intro _; exact digit_open
        · intro _; exact lower_open
        · intro _; exact digit_open
      · exact bind_none ((start_no_insertion hs).2 m)
    refine (or_right alt2).trans ?_
    rcases pair_read h hp hQ hsk with ⟨h2, hps⟩ | ⟨as, u1, r, rs, z, hps, rfl, h2, hr, hz⟩
    · have hqk : q.kind = .alphabeticPoint ∨ q.kind = .numericPoint := by
        rcases hps with rfl | ⟨r, rfl, hr⟩
        · have := hl p rfl
          rw [hp] at this
          exact this.resolve_left hqp
        · have := hl r rfl
          rw [hr] at this
          exact this
      refine or_left ?_
      rw [bind_some (intoParagraph haz h2), bind_some tok, bind_some (anyPoint_read hq (.inl hR) hqk hv)]
      rfl
    · obtain ⟨rfl, hqk⟩ : rs = [] ∧ (q.kind = .alphabeticSubpoint ∨ q.kind = .numericSubpoint) := by
        have e : (p :: ps).getLast? = (r :: rs).getLast? := by
          rw [hps, List.getLast?_append, List.getLast?_eq_some_getLast (l := r :: rs) (by simp)]
          rfl
        rw [e] at hl
        cases hz with
        | one hz =>
          have := hl r rfl
          refine ⟨rfl, ?_⟩
          rcases hr with hr | hr <;> rw [hr] at this <;> exact this
        | @cons _ _ _ s ss _ _ hu hz =>
          exfalso
          have hs : s.kind = .alphabeticSubpoint ∨ s.kind = .numericSubpoint := by rcases hr with hr | hr <;> rw [hr] at hu <;> exact hu
          cases hz with
          | one _ =>
            have := hl s rfl
            rcases hs with hs | hs <;> rw [hs] at this <;> exact this
          | cons _ hu' _ => rcases hs with hs | hs <;> rw [hs] at hu' <;> exact hu'
      have hzs := reference_start hz ((py" a következő") ++ ' ' :: (v ++ R))
      have alt3 : (do
          let ps ← insertedInto articleAndParagraph [py"a §", py"a bekezdés"]
          let _ ← insertionToken
          let p ← anyPoint
          pure (ps ++ [p]) : Peg (List ParsedPart)) ⟨n, b ++ (u1 ++ ' ' :: z ++ ((py" a következő") ++ ' ' :: (v ++ R)))⟩ = none := by
        rw [bind_some (intoParagraph haz h2)]
        exact bind_none ((start_no_insertion hzs).2 _)
      refine (or_right alt3).trans ?_
      have hz' : PartText (m + u1.length + 1) r z := by cases hz with | one h => exact h
      have h3 := anyPoint_read hz' (.inl hQ) hr (starts_nonspace hzs (m + u1.length))
      have e3 : m + u1.length + 1 + z.length = m + (u1 ++ ' ' :: z).length := by simp; omega
      rw [e3] at h3
      rw [bind_some haz, bind_some h2, bind_some h3, bind_some tok, bind_some (anySubpoint_read hq hR hqk hv)]
      have e4 : p :: ps ++ [q] = as ++ [r, q] := by rw [hps]; simp
      rw [e4]
      rfl

theorem insertion_reads {n : Nat} {ps : List ParsedPart} {v R : Str} (h : InsertionText n ps v) (hR : Quiet R) {j : At} (hj : j.skip = ⟨n, v ++ R⟩) :
    insertionReference j = some ((ps, ↑n, ↑(n + v.length)), ⟨n + v.length, R⟩) := by
  have first : ∀ {ps : List ParsedPart} {v : Str}, ReferenceText (n + 12) ps v → (∃ p qs, ps = p :: qs ∧ p.kind = .article) →
      (∀ q ∈ ps, q.kind ≠ .alphabeticPoint ∧ q.kind ≠ .numericPoint) →
      j.skip = ⟨n, (py"a következő ") ++ v ++ R⟩ →
      insertionReference j = some ((ps, ↑n, ↑(n + ((py"a következő ") ++ v).length)), ⟨n + ((py"a következő ") ++ v).length, R⟩) := by
    rintro ps v h ⟨p, qs, rfl, hk⟩ hps hj
    refine located_eq hj (or_left ?_)
    have h1 := insertionToken_here (' ' :: (v ++ R)) n
    have e1 : (py"a következő ") ++ v ++ R = (py"a következő") ++ ' ' :: (v ++ R) := by simp
    rw [e1, bind_some h1]
    have e2 : n + ((py"a következő ") ++ v).length = n + 12 + v.length := by simp; omega
    rw [e2]
    rcases pair_read h hk hR (j := ⟨n + 11, ' ' :: (v ++ R)⟩) (starts_nonspace (reference_start h R) _) with ⟨h2, _⟩ | ⟨as, _, q, qs', _, he, _, _, hq, _⟩
    · exact h2
    · have := hps q (by rw [he]; simp)
      rcases hq with hq | hq
      · exact absurd hq this.1
      · exact absurd hq this.2
  cases h with
  | article hp h => exact first h ⟨_, _, rfl, hp⟩ (by rintro q hq; simp at hq; subst hq; rw [hp]; simp) hj
  | paragraph hp hq h => exact first h ⟨_, _, rfl, hp⟩ (by rintro r hr; simp at hr; rcases hr with rfl | rfl <;> simp [hp, hq]) hj
  | @under p ps q u v hp h hl hq => exact under_reads (b := []) (by simp [Noun]) hp h hl hq hR hj

/-! ## What is new beside what is replaced -/

theorem into_word {p : Peg (List ParsedPart)} {i j k : At} {o : Option Str} {ws : List Str} {x : Str} (h0 : opt az i = some (o, j)) (h : p j = none)
    (hw : tokens ws i = some (x, k)) : insertedInto p ws i = some ([], k) := by
  unfold insertedInto
  have h1 : (do let _ ← opt az; p : Peg (List ParsedPart)) i = none := by rw [bind_some h0, h]
  have h2 : (do let _ ← tokens ws; pure [] : Peg (List ParsedPart)) i = some ([], k) := by rw [bind_some hw]; rfl
  exact bind_some (opt_some ((or_right h1).trans h2))

theorem into_nothing {p : Peg (List ParsedPart)} {i j : At} {o : Option Str} {ws : List Str} (h0 : opt az i = some (o, j)) (h : p j = none)
    (hw : tokens ws i = none) : insertedInto p ws i = some ([], i) := by
  unfold insertedInto
  have h1 : (do let _ ← opt az; p : Peg (List ParsedPart)) i = none := by rw [bind_some h0, h]
  exact bind_some (opt_none ((or_right h1).trans (bind_none hw)))

/-- No article comes after `a`. -/
theorem no_article_after {c : Char} (hs : isSpace c = false) (hd : isAsciiDigit c = false) (s : Str) :
    Fails articleReference (c :: s) := fails_start (k := .article) hs (by simp [Begins, hd])

/-- After `a következő`. -/
theorem addition_last {m : Nat} {q : ParsedPart} {v R : Str} (hq : PartText (m + 1) q v) (hR : Quiet R) :
    (q.kind = .paragraph → paragraphReference ⟨m, ' ' :: (v ++ R)⟩ = some (q, ⟨m + 1 + v.length, R⟩)) ∧
    (q.kind = .alphabeticPoint ∨ q.kind = .numericPoint → paragraphReference ⟨m, ' ' :: (v ++ R)⟩ = none ∧
      anyPoint ⟨m, ' ' :: (v ++ R)⟩ = some (q, ⟨m + 1 + v.length, R⟩)) ∧
    (q.kind = .paragraph ∨ q.kind = .alphabeticPoint ∨ q.kind = .numericPoint → articleReference ⟨m, ' ' :: (v ++ R)⟩ = none) := by
  have lower_open : ∀ c, isLowerAz c = true → c ≠ '(' := fun c h => ne_of_class h
  have digit_open : ∀ c, isAsciiDigit c = true → c ≠ '(' := fun c h => ne_of_class h
  have hv : (⟨m, ' ' :: (v ++ R)⟩ : At).skip = ⟨m + 1, v ++ R⟩ := part_skip hq _ _
  refine ⟨fun hk => ?_, fun hk => ⟨start_fails (k := .paragraph) hq hv ?_, anyPoint_read hq (.inl hR) hk hv⟩, fun hk => ?_⟩
  · have h1 := next_read hq (.inl hR) hv
    rw [hk] at h1
    exact h1
  · rcases hk with hk | hk <;> rw [hk]
    · exact lower_open
    · exact digit_open
  · rcases hk with hk | hk | hk
    · refine start_fails (k := .article) hq hv ?_
      rw [hk]
      exact fun c h1 h2 => digit_open c h2 h1
    · refine start_fails (k := .article) hq hv ?_
      rw [hk]
      exact fun c h1 h2 => digit_lower h2 h1
    · exact fails_at_skip (point_no_article hq (.inl hk)) hv

/-- What comes before `a következő`. -/
theorem addition_into (n : Nat) {x : Str} (s : Str) (hx : x ∈ [py"", py"a § ", py"a bekezdés "]) : ∃ k : At,
    insertedInto articleAndParagraph [py"a §", py"a bekezdés"] ⟨n, x ++ (py"a következő") ++ s⟩ = some ([], k) ∧
    insertionToken k = some (py"a következő", ⟨n + x.length + 11, s⟩) ∧
    (x ≠ py"a bekezdés " → insertedInto (do let a ← articleReference; pure [a]) [py"a §"] ⟨n, x ++ (py"a következő") ++ s⟩ = some ([], k)) ∧
    (x = py"a bekezdés " → ∃ k', insertedInto (do let a ← articleReference; pure [a]) [py"a §"] ⟨n, x ++ (py"a következő") ++ s⟩ = some ([], k') ∧
      insertionToken k' = none) ∧ (x ≠ [] → insertionToken ⟨n, x ++ (py"a következő") ++ s⟩ = none) := by
  have az1 : ∀ s, opt az ⟨n, (py"a ") ++ s⟩ = some (some (py"a "), ⟨n + 2, s⟩) := fun s => opt_some (reads_az (by simp) s n)
  have noA : ∀ {c : Char} (s : Str), isSpace c = false → isAsciiDigit c = false →
      (do let a ← articleReference; pure [a] : Peg (List ParsedPart)) ⟨n + 2, c :: s⟩ = none ∧ articleAndParagraph ⟨n + 2, c :: s⟩ = none :=
    fun s h1 h2 => ⟨bind_none (no_article_after h1 h2 s _), bind_none (no_article_after h1 h2 s _)⟩
  simp only [List.mem_cons, List.not_mem_nil, or_false] at hx
  rcases hx with rfl | rfl | rfl
  · have h1 := noA (c := 'k') ((py"övetkező") ++ s) (by decide +kernel) (by decide +kernel)
    have a1 : opt az ⟨n, [] ++ (py"a következő") ++ s⟩ = some (some (py"a "), ⟨n + 2, 'k' :: ((py"övetkező") ++ s)⟩) := az1 ('k' :: ((py"övetkező") ++ s))
    have t1 : Fails (token (py"a §")) ([] ++ (py"a következő") ++ s) := fails_text rfl
    have t2 : Fails (token (py"a bekezdés")) ([] ++ (py"a következő") ++ s) := fails_text rfl
    have w1 : Fails (tokens [py"a §"]) ([] ++ (py"a következő") ++ s) := fails_tokens (by simpa using t1)
    have w2 : Fails (tokens [py"a §", py"a bekezdés"]) ([] ++ (py"a következő") ++ s) := fails_tokens (by simpa using ⟨t1, t2⟩)
    exact ⟨_, into_nothing a1 h1.2 (w2 n), insertionToken_here s n, fun _ => into_nothing a1 h1.1 (w1 n), fun h => absurd h (by decide),
      fun h => absurd rfl h⟩
  · have h1 := noA (c := '§') ((py" a következő") ++ s) (by decide +kernel) (by decide +kernel)
    have a1 : opt az ⟨n, (py"a § ") ++ (py"a következő") ++ s⟩ = some (some (py"a "), ⟨n + 2, '§' :: ((py" a következő") ++ s)⟩) :=
      az1 ('§' :: ((py" a következő") ++ s))
    have t1 : Reads (token (py"a §")) (py"a §") ((py" a következő") ++ s) (py"a §") := reads_text (by decide +kernel)
    have w1 : tokens [py"a §"] ⟨n, (py"a § ") ++ (py"a következő") ++ s⟩ = some (py"a §", ⟨n + 3, (py" a következő") ++ s⟩) := or_left (t1 n)
    have w2 : tokens [py"a §", py"a bekezdés"] ⟨n, (py"a § ") ++ (py"a következő") ++ s⟩ = some (py"a §", ⟨n + 3, (py" a következő") ++ s⟩) :=
      or_left (t1 n)
    have f1 : Fails insertionToken ((py"a § ") ++ (py"a következő") ++ s) := by
      refine Fails.rule ?_
      rw [show ((py"a § ") ++ (py"a következő") ++ s).dropWhile isSpace = (py"a § ") ++ (py"a következő") ++ s from dropWhile_cons_of (by decide +kernel)]
      exact fails_text rfl
    exact ⟨_, into_word a1 h1.2 w2, insertionToken_reads s (n + 3), fun _ => into_word a1 h1.1 w1, fun h => absurd h (by decide), fun _ => f1 n⟩
  · have h1 := noA (c := 'b') ((py"ekezdés a következő") ++ s) (by decide +kernel) (by decide +kernel)
    have a1 : opt az ⟨n, (py"a bekezdés ") ++ (py"a következő") ++ s⟩ = some (some (py"a "), ⟨n + 2, 'b' :: ((py"ekezdés a következő") ++ s)⟩) :=
      az1 ('b' :: ((py"ekezdés a következő") ++ s))
    have t1 : Fails (token (py"a §")) ((py"a bekezdés ") ++ (py"a következő") ++ s) := fails_text rfl
    have t2 : Reads (token (py"a bekezdés")) (py"a bekezdés") ((py" a következő") ++ s) (py"a bekezdés") := reads_text (by decide +kernel)
    have w1 : Fails (tokens [py"a §"]) ((py"a bekezdés ") ++ (py"a következő") ++ s) := fails_tokens (by simpa using t1)
    have w2 : tokens [py"a §", py"a bekezdés"] ⟨n, (py"a bekezdés ") ++ (py"a következő") ++ s⟩ =
        some (py"a bekezdés", ⟨n + 10, (py" a következő") ++ s⟩) := (or_right (t1 n)).trans (or_left (t2 n))
    have f1 : Fails insertionToken ((py"a bekezdés ") ++ (py"a következő") ++ s) := by
      refine Fails.rule ?_
      rw [show ((py"a bekezdés ") ++ (py"a következő") ++ s).dropWhile isSpace = (py"a bekezdés ") ++ (py"a következő") ++ s
        from dropWhile_cons_of (by decide +kernel)]
      exact fails_text rfl
    exact ⟨_, into_word a1 h1.2 w2, insertionToken_reads s (n + 10), fun h => absurd rfl h, fun _ => ⟨_, into_nothing a1 h1.1 (w1 n), f1 n⟩, fun _ => f1 n⟩

theorem addition_reads {n : Nat} {ps : List ParsedPart} {v R : Str} (h : AdditionText n ps v) (hR : Quiet R) {j : At} (hj : j.skip = ⟨n, v ++ R⟩) :
    insertionReference j = some ((ps, ↑n, ↑(n + v.length)), ⟨n + v.length, R⟩) := by
  -- the first alternative
  have alt1 : ∀ {x v : Str} {q : ParsedPart}, x ∈ [py"", py"a § ", py"a bekezdés "] → PartText (n + x.length + 12) q v →
      q.kind = .paragraph ∨ q.kind = .alphabeticPoint ∨ q.kind = .numericPoint →
      (do let _ ← insertionToken; articleAndParagraph : Peg (List ParsedPart)) ⟨n, x ++ (py"a következő") ++ ' ' :: (v ++ R)⟩ = none := by
    intro x v q hx hq hk
    by_cases hx0 : x = []
    · subst hx0
      rw [List.nil_append, bind_some (insertionToken_here (' ' :: (v ++ R)) n)]
      exact bind_none ((addition_last (m := n + 11) hq hR).2.2 hk)
    · obtain ⟨k, -, -, -, -, h5⟩ := addition_into n (' ' :: (v ++ R)) hx
      exact bind_none (h5 hx0)
  have form : ∀ x v : Str, x ++ (py"a következő ") ++ v ++ R = x ++ (py"a következő") ++ ' ' :: (v ++ R) := by intro x v; simp
  have len : ∀ x v : Str, n + (x ++ (py"a következő ") ++ v).length = n + x.length + 11 + 1 + v.length := by intro x v; simp; omega
  cases h with
  | insertion h => exact insertion_reads h hR hj
  | under hb hp h hl hq => exact under_reads (List.mem_cons_of_mem _ hb) hp h hl hq hR hj
  | @paragraph x q v hx hk hq =>
    have hx' : x ∈ [py"", py"a § ", py"a bekezdés "] := by
      simp only [List.mem_cons, List.not_mem_nil, or_false] at hx ⊢
      rcases hx with h | h <;> simp [h]
    have hxb : x ≠ py"a bekezdés " := by
      simp only [List.mem_cons, List.not_mem_nil, or_false] at hx
      rcases hx with rfl | rfl <;> decide
    rw [form] at hj
    rw [len]
    refine located_eq hj ((or_right (alt1 hx' hq (.inl hk))).trans (or_left ?_))
    obtain ⟨k, -, h2, h3, -⟩ := addition_into n (' ' :: (v ++ R)) hx'
    rw [bind_some (h3 hxb), bind_some h2, bind_some ((addition_last hq hR).1 hk)]
    rfl
  | @point x q v hx hk hq =>
    rw [form] at hj
    rw [len]
    refine located_eq hj ((or_right (alt1 hx hq (.inr hk))).trans ?_)
    obtain ⟨k, h1, h2, h3, h4, -⟩ := addition_into n (' ' :: (v ++ R)) hx
    have alt2 : (do
        let ps ← insertedInto (do let a ← articleReference; pure [a]) [py"a §"]
        let _ ← insertionToken
        let p ← paragraphReference
        pure (ps ++ [p]) : Peg (List ParsedPart)) ⟨n, x ++ (py"a következő") ++ ' ' :: (v ++ R)⟩ = none := by
      by_cases hxb : x = py"a bekezdés "
      · obtain ⟨k', h5, h6⟩ := h4 hxb
        rw [bind_some h5]
        exact bind_none h6
      · rw [bind_some (h3 hxb), bind_some h2]
        exact bind_none ((addition_last hq hR).2.1 hk).1
    refine (or_right alt2).trans (or_left ?_)
    rw [bind_some h1, bind_some h2, bind_some ((addition_last hq hR).2.1 hk).2]
    rfl

/-! ## No insertions where something is replaced -/

/-- Nothing new comes from here. -/
def Halted (i : At) : Prop := insertionToken i = none ∨ ∃ x k, insertionToken i = some (x, k) ∧ ∀ kind, partOf kind k = none

theorem halted_start {s : Str} (h : ItemStart s) (n : Nat) : Halted ⟨n, s⟩ ∧ Halted ⟨n, ' ' :: s⟩ :=
  ⟨.inl ((start_no_insertion h).1 n), .inl ((start_no_insertion h).2 n)⟩

theorem halted_replacing {e : Str} (he : Replacing e) (s : Str) (n : Nat) : Halted ⟨n, e ++ s⟩ := by
  simp only [Replacing, List.mem_cons, List.not_mem_nil, or_false] at he
  have no : ∀ t : Str, Fails insertionToken ((py" helyébe") ++ t) := by
    intro t
    refine Fails.rule ?_
    rw [show ((py" helyébe") ++ t).dropWhile isSpace = (py"helyébe") ++ t from (dropWhile_space _).trans (dropWhile_cons_of (by decide +kernel))]
    exact fails_text rfl
  rcases he with rfl | rfl | rfl
  · exact .inl (no ((py" a következő rendelkezés lép") ++ s) n)
  · exact .inl (no ((py" a következő rendelkezések lépnek") ++ s) n)
  · refine .inr ⟨_, _, insertionToken_reads ((py" szöveggel lép hatályba") ++ s) n, fun kind => ?_⟩
    exact (quiet_word (w := py"szöveggel") (s := (py" lép hatályba") ++ s) (plain_word rfl) (by rintro _ ⟨⟩; decide)).parts kind _

theorem halted_bind {α : Type} {i : At} {kinds : Peg ParsedPart} {f : ParsedPart → Peg α} (h : Halted i)
    (hk : ∀ k, (∀ kind, partOf kind k = none) → kinds k = none) : (do let _ ← insertionToken; let p ← kinds; f p : Peg α) i = none := by
  rcases h with h | ⟨x, k, h, hp⟩
  · exact bind_none h
  · rw [bind_some h]
    exact bind_none (hk k hp)

theorem anyPoint_none {i : At} (h : ∀ kind, partOf kind i = none) : anyPoint i = none := (or_right (h .alphabeticPoint)).trans (h .numericPoint)

theorem anySubpoint_none {i : At} (h : ∀ kind, partOf kind i = none) : anySubpoint i = none :=
  (or_right (h .alphabeticSubpoint)).trans (h .numericSubpoint)

theorem into_or {p : Peg (List ParsedPart)} {i : At} {ws : List Str} (h0 : opt az i = some (none, i)) (hw : tokens ws i = none) :
    ∃ x, insertedInto p ws i = some x ∧ ((p i = none ∧ x.2 = i) ∨ p i = some x) := by
  cases hp : p i with
  | none =>
    have h1 : (do let _ ← opt az; p : Peg (List ParsedPart)) i = none := by rw [bind_some h0, hp]
    have h2 : (do let _ ← tokens ws; pure [] : Peg (List ParsedPart)) i = none := bind_none hw
    exact ⟨([], i), bind_some (opt_none ((or_right h1).trans h2)), .inl ⟨rfl, rfl⟩⟩
  | some x =>
    obtain ⟨ps, k⟩ := x
    have h1 : (do let _ ← opt az; p : Peg (List ParsedPart)) i = some (ps, k) := by rw [bind_some h0, hp]
    exact ⟨(ps, k), bind_some (opt_some (or_left h1)), .inr rfl⟩

theorem no_insertion_of {n : Nat} {ps : List ParsedPart} {v r : Str} (h : ReferenceText n ps v) (hQ : Quiet r) (hH : ∀ m, Halted ⟨m, r⟩) {j : At}
    (hj : j.skip = ⟨n, v ++ r⟩) : insertionReference j = none := by
  have hst := reference_start h r
  have haz := start_opt_az hst n
  have hsk : (⟨n, v ++ r⟩ : At).skip = ⟨n, v ++ r⟩ := by
    obtain ⟨c, t, hc, hs⟩ := hst.head
    rw [hc]
    exact skip_cons hs n
  have words : ∀ ws : List Str, (∀ w ∈ ws, w ∈ [py"a §", py"a bekezdés"]) → tokens ws ⟨n, v ++ r⟩ = none := by
    intro ws hws
    refine fails_tokens (fun w hw => ?_) n
    have := hws w hw
    simp only [List.mem_cons, List.not_mem_nil, or_false] at this
    rcases this with rfl | rfl
    · exact hst.no_second rfl (by decide +kernel) (by decide +kernel) (by decide +kernel)
    · exact hst.no_second rfl (by decide +kernel) (by decide +kernel) (by decide +kernel)
  obtain ⟨p, ps, rfl⟩ : ∃ p ps', ps = p :: ps' := by cases h <;> exact ⟨_, _, rfl⟩
  -- the article
  have art : p.kind ≠ .article → articleReference ⟨n, v ++ r⟩ = none := by
    intro hk
    obtain ⟨u, t, hu, hp⟩ := reference_part h
    have hskp : (⟨n, v ++ r⟩ : At).skip = ⟨n, u ++ (t ++ r)⟩ := by rw [hsk, hu, List.append_assoc]
    have numeric : p.kind = .numericPoint ∨ p.kind = .numericSubpoint → articleReference ⟨n, v ++ r⟩ = none := by
      intro hk
      have := point_no_article (rest := t ++ r) hp hk n
      rw [hu, List.append_assoc]
      exact this
    have other : (∀ c, Begins p.kind c → ¬ Begins .article c) → articleReference ⟨n, v ++ r⟩ = none := fun hb => start_fails (k := .article) hp hskp hb
    revert numeric other hk
    cases p.kind
    · intro hk; exact absurd rfl hk
    · intro _ _ other
      exact other fun c (h : c = '(') (h' : isAsciiDigit c = true) => by subst h; exact absurd h' (by decide)
    · intro _ _ other
      exact other fun c => lower_digit
    · intro _ numeric _
      exact numeric (.inl rfl)
    · intro _ _ other
      exact other fun c => lower_digit
    · intro _ numeric _
      exact numeric (.inr rfl)
  have pair : articleAndParagraph ⟨n, v ++ r⟩ = none ∨ ∃ as k, articleAndParagraph ⟨n, v ++ r⟩ = some (as, k) ∧ Halted k ∧
      (do
        let p ← anyPoint
        let _ ← insertionToken
        let s ← anySubpoint
        pure (as ++ [p, s]) : Peg (List ParsedPart)) k = none := by
    by_cases hk : p.kind = .article
    · right
      rcases pair_read h hk hQ hsk with ⟨h2, _⟩ | ⟨as, u1, b, bs, z, _, _, h2, hr, hz⟩
      · exact ⟨_, _, h2, hH _, bind_none (anyPoint_none fun kind => hQ.parts kind _)⟩
      · have hzs := reference_start hz r
        refine ⟨_, _, h2, (halted_start hzs _).2, ?_⟩
        cases hz with
        | one hz =>
          rw [bind_some (anyPoint_read hz (.inl hQ) hr (starts_nonspace hzs (n + u1.length)))]
          exact halted_bind (hH _) fun k => anySubpoint_none
        | @cons _ _ y q qs x hy hu hq =>
          have e1 : y ++ ' ' :: x ++ r = y ++ ' ' :: (x ++ r) := by simp
          have hsk' := starts_nonspace hzs (n + u1.length)
          rw [e1] at hsk' ⊢
          rw [bind_some (anyPoint_read hy (.inr (part_follows hq r)) hr hsk')]
          exact bind_none ((start_no_insertion (reference_start hq r)).2 _)
    · exact .inl (bind_none (art hk))
  refine located_fails hj ?_
  refine (or_right (bind_none ((start_no_insertion hst).1 n))).trans ?_
  -- the paragraph
  have alt2 : (do
      let ps ← insertedInto (do let a ← articleReference; pure [a]) [py"a §"]
      let _ ← insertionToken
      let p ← paragraphReference
      pure (ps ++ [p]) : Peg (List ParsedPart)) ⟨n, v ++ r⟩ = none := by
    obtain ⟨x, h1, h2⟩ := into_or (p := do let a ← articleReference; pure [a]) (ws := [py"a §"]) haz (words _ (by simp))
    refine (bind_some h1).trans ?_
    have hh : Halted x.2 := by
      rcases h2 with ⟨_, h2⟩ | h2
      · rw [h2]
        exact (halted_start hst n).1
      · by_cases hk : p.kind = .article
        · obtain ⟨k, h3, h4⟩ := article_first h hk hQ hsk
          rw [bind_some h3] at h2
          cases h2
          rcases h4 with ⟨_, rfl⟩ | ⟨_, m, t, rfl, ht⟩
          · exact hH _
          · exact (halted_start ht m).2
        · rw [bind_none (art hk)] at h2
          cases h2
    exact halted_bind hh fun k hk => hk .paragraph
  refine (or_right alt2).trans ?_
  -- the point
  have alt3 : (do
      let ps ← insertedInto articleAndParagraph [py"a §", py"a bekezdés"]
      let _ ← insertionToken
      let p ← anyPoint
      pure (ps ++ [p]) : Peg (List ParsedPart)) ⟨n, v ++ r⟩ = none := by
    obtain ⟨x, h1, h2⟩ := into_or (p := articleAndParagraph) (ws := [py"a §", py"a bekezdés"]) haz (words _ (by simp))
    refine (bind_some h1).trans ?_
    have hh : Halted x.2 := by
      rcases h2 with ⟨_, h2⟩ | h2
      · rw [h2]
        exact (halted_start hst n).1
      · rcases pair with h3 | ⟨as, k, h3, h4, _⟩
        · rw [h3] at h2
          cases h2
        · rw [h3] at h2
          cases h2
          exact h4
    exact halted_bind hh fun k => anyPoint_none
  refine (or_right alt3).trans ?_
  rw [bind_some haz]
  rcases pair with h3 | ⟨as, k, h3, _, h5⟩
  · exact bind_none h3
  · exact (bind_some h3).trans h5

theorem no_insertion {n : Nat} {ps : List ParsedPart} {v e s : Str} (h : ReferenceText n ps v) (he : Replacing e) {j : At}
    (hj : j.skip = ⟨n, v ++ (e ++ s)⟩) : insertionReference j = none :=
  no_insertion_of h (replacing_quiet he s) (halted_replacing he s) hj

/-! ## The trees -/

theorem block_sentence {o s : Str} {t : ParseTree} {m : Nat} (ho : o ∈ [py"A ", py"Az "])
    (h : (do
      let a ← amendedAct
      let _ ← opt structuralPosition
      Peg.or (do
          let r ← reference
          andColon amendmentSuffix
          pure (withAct a (.blockAmendment a (some r) none))) (Peg.or
        (do
          let r ← insertionReference
          andColon insertionSuffix
          pure (withAct a (.blockAmendment a none (some r))))
        (do
          let r ← reference
          amendmentSuffix
          let _ ← opt (token (py","))
          let _ ← tokens [py"és", py"valamint", py"egyidejűleg"]
          let i ← insertionReference
          andColon insertionSuffix
          pure (withAct a (.blockAmendment a (some r) (some i))))) : Peg ParseTree) ⟨0, o ++ s⟩ = some (t, ⟨m, []⟩)) :
    parse (o ++ s) = some t := by
  obtain ⟨c, z, hz, hc⟩ : ∃ c z, o ++ s = c :: z ∧ isSpace c = false := by
    simp only [List.mem_cons, List.not_mem_nil, or_false] at ho
    rcases ho with rfl | rfl
    · exact ⟨_, _, rfl, by decide +kernel⟩
    · exact ⟨_, _, rfl, by decide +kernel⟩
  have h1 : blockAmendment ⟨0, o ++ s⟩ = some (t, ⟨m, []⟩) := by
    unfold blockAmendment
    rw [hz, rule_eq hc, ← hz]
    exact h
  rw [hz] at h1 ⊢
  exact parse_of hc (k := ⟨m, []⟩) (sentence_this (whole_read h1))

theorem in_sentence {o p r : Str} : (⟨o.length + p.length, r⟩ : At).In (o ++ (p ++ r)) := by
  refine ⟨by simp, ?_⟩
  rw [← List.append_assoc, ← List.length_append, List.drop_left]

theorem replacing_no_beside {e : Str} (he : Replacing e) (s : Str) : WordEnds (e ++ s) ∧ ∀ t ∈ besideWords, Fails (token t) (e ++ s) := by
  refine ⟨(replacing_quiet he s).word, ?_⟩
  simp only [Replacing, besideWords, List.mem_cons, List.not_mem_nil, or_false] at he ⊢
  rcases he with rfl | rfl | rfl
  · rintro t (rfl | rfl | rfl | rfl) <;> exact fails_text rfl
  · rintro t (rfl | rfl | rfl | rfl) <;> exact fails_text rfl
  · rintro t (rfl | rfl | rfl | rfl) <;> exact fails_text rfl

theorem following_no_beside_words (s : Str) : ∀ t ∈ besideWords, Fails (token t) ((py" a következő") ++ s) := by
  simp only [besideWords, List.mem_cons, List.not_mem_nil, or_false]
  rintro t (rfl | rfl | rfl | rfl) <;> exact fails_text rfl

theorem reference_after {n : Nat} {ps : List ParsedPart} {v s : Str} (h : ReferenceText (n + 1) ps v) (hs : Quiet s) :
    reference ⟨n, ' ' :: (v ++ s)⟩ = some ((ps, ↑(n + 1), ↑(n + 1 + v.length)), ⟨n + 1 + v.length, s⟩) := by
  have h1 := reference_read h hs
  rw [← starts_nonspace (reference_start h s) n] at h1
  unfold reference at h1 ⊢
  rw [located_skip] at h1
  exact h1

theorem amend_tree {o p v e : Str} {a : ParsedActRef} {ps : List ParsedPart} (ho : o ∈ [py"A ", py"Az "])
    (ha : ActPhrase o.length a p (' ' :: v ++ e ++ py":")) (hr : ReferenceText (o.length + p.length + 1) ps v) (he : Replacing e)
    (hs : NoTitle (o ++ p ++ ' ' :: v ++ e ++ py":")) :
    parse (o ++ p ++ ' ' :: v ++ e ++ py":") =
      some (withAct a (.blockAmendment a (some (ps, ↑(o.length + p.length + 1), ↑(o.length + p.length + 1 + v.length))) none)) := by
  simp only [List.append_assoc, List.cons_append] at ha hs ⊢
  have hst := reference_start hr (e ++ py":")
  have h1 := amendedAct_read ho ha (no_title_end hst)
  have h2 := (no_position hr (replacing_no_beside he (py":")).1 (replacing_no_beside he (py":")).2 (no_subtitleTitle in_sentence hs)).1
  have h3 := reference_after hr (replacing_quiet he (py":"))
  have h4 := andColon_reads (replacing_reads (rest := py":") he) (o.length + p.length + 1 + v.length)
  rw [List.append_nil] at h4
  refine block_sentence ho (m := o.length + p.length + 1 + v.length + (e ++ py":").length) ?_
  rw [bind_some h1, bind_some (opt_none h2)]
  refine or_left ?_
  rw [bind_some h3, bind_some h4]
  rfl

theorem insert_position {n : Nat} {ps : List ParsedPart} {v s : Str} (h : InsertionText (n + 1) ps v)
    (ht : subtitleTitle ⟨n, ' ' :: (v ++ s)⟩ = none) : structuralPosition ⟨n, ' ' :: (v ++ s)⟩ = none := by
  cases h with
  | @article _ v _ _ =>
    have e : ' ' :: ((py"a következő ") ++ v ++ s) = (py" a következő") ++ ' ' :: (v ++ s) := by simp
    rw [e] at ht ⊢
    exact (following_no_position ht).1
  | @paragraph _ _ v _ _ _ =>
    have e : ' ' :: ((py"a következő ") ++ v ++ s) = (py" a következő") ++ ' ' :: (v ++ s) := by simp
    rw [e] at ht ⊢
    exact (following_no_position ht).1
  | @under _ _ _ u v _ h _ _ =>
    have e : u ++ (py" a következő ") ++ v ++ s = u ++ ((py" a következő") ++ ' ' :: (v ++ s)) := by simp
    rw [e] at ht ⊢
    exact (no_position h (following_quiet _).word (following_no_beside_words _) ht).1

/-- What is new begins after a space. -/
theorem insertion_start {n : Nat} {ps : List ParsedPart} {v : Str} (h : InsertionText n ps v) (s : Str) :
    (∃ t, v ++ s = (py"a következő") ++ t) ∨ ItemStart (v ++ s) := by
  cases h with
  | @article _ v _ _ => exact .inl ⟨' ' :: (v ++ s), by simp⟩
  | @paragraph _ _ v _ _ _ => exact .inl ⟨' ' :: (v ++ s), by simp⟩
  | under _ h _ _ =>
    right
    rw [List.append_assoc, List.append_assoc]
    exact reference_start h _

theorem insertion_skip {n : Nat} {ps : List ParsedPart} {v : Str} (h : InsertionText n ps v) (s : Str) (m : Nat) :
    (⟨m, ' ' :: (v ++ s)⟩ : At).skip = ⟨m + 1, v ++ s⟩ := by
  rcases insertion_start h s with ⟨t, e⟩ | h
  · rw [e]
    exact skip_one (by decide +kernel)
  · exact starts_nonspace h m

theorem addition_skip {n : Nat} {ps : List ParsedPart} {v : Str} (h : AdditionText n ps v) (s : Str) (m : Nat) :
    (⟨m, ' ' :: (v ++ s)⟩ : At).skip = ⟨m + 1, v ++ s⟩ := by
  cases h with
  | insertion h => exact insertion_skip h s m
  | under hb _ _ _ _ =>
    simp only [List.mem_cons, List.not_mem_nil, or_false] at hb
    rcases hb with rfl | rfl <;> exact skip_one (by decide +kernel)
  | paragraph hx _ _ =>
    simp only [List.mem_cons, List.not_mem_nil, or_false] at hx
    rcases hx with rfl | rfl <;> exact skip_one (by decide +kernel)
  | point hx _ _ =>
    simp only [List.mem_cons, List.not_mem_nil, or_false] at hx
    rcases hx with rfl | rfl | rfl <;> exact skip_one (by decide +kernel)

theorem insertion_no_title_end {n : Nat} {ps : List ParsedPart} {v : Str} (h : InsertionText n ps v) (s : Str) :
    Fails (token (py"hatálybalépésével összefüggő")) (' ' :: (v ++ s)) := by
  rcases insertion_start h s with ⟨t, e⟩ | h
  · rw [e]
    exact fails_text rfl
  · exact no_title_end h

/-- What is new is not replaced. -/
theorem insertion_not_amendment {n : Nat} {ps : List ParsedPart} {v s : Str} (h : InsertionText (n + 1) ps v) :
    ∀ r k, reference ⟨n, ' ' :: (v ++ s)⟩ = some (r, k) → amendmentSuffix k = none := by
  have fol : ∀ t : Str, reference ⟨n, ' ' :: ((py"a") ++ ((py" következő") ++ t))⟩ = none := fun t =>
    pauses_fails (pauses_word (plain_word rfl)) n
  intro r k hr
  cases h with
  | @article _ v _ _ =>
    have e : ' ' :: ((py"a következő ") ++ v ++ s) = ' ' :: ((py"a") ++ ((py" következő") ++ ' ' :: (v ++ s))) := by simp
    rw [e, fol] at hr
    cases hr
  | @paragraph _ _ v _ _ _ =>
    have e : ' ' :: ((py"a következő ") ++ v ++ s) = ' ' :: ((py"a") ++ ((py" következő") ++ ' ' :: (v ++ s))) := by simp
    rw [e, fol] at hr
    cases hr
  | @under p ps q u v _ h _ hq =>
    have e : u ++ (py" a következő ") ++ v ++ s = u ++ ((py" a következő") ++ ' ' :: (v ++ s)) := by simp
    rw [e, reference_after h (following_quiet _)] at hr
    cases hr
    have e : (py" a következő") ++ ' ' :: (v ++ s) = (py" a következő ") ++ (v ++ s) := by simp
    rw [e]
    exact following_no_suffix (reference_start (.one hq) s) _

theorem insert_tree {o p v e : Str} {a : ParsedActRef} {ps : List ParsedPart} (ho : o ∈ [py"A ", py"Az "])
    (ha : ActPhrase o.length a p (' ' :: v ++ e ++ py":")) (hr : InsertionText (o.length + p.length + 1) ps v) (he : Adding e)
    (hs : NoTitle (o ++ p ++ ' ' :: v ++ e ++ py":")) :
    parse (o ++ p ++ ' ' :: v ++ e ++ py":") =
      some (withAct a (.blockAmendment a none (some (ps, ↑(o.length + p.length + 1), ↑(o.length + p.length + 1 + v.length))))) := by
  simp only [List.append_assoc, List.cons_append] at ha hs ⊢
  have h1 := amendedAct_read ho ha (insertion_no_title_end hr _)
  have h2 := insert_position hr (no_subtitleTitle in_sentence hs)
  have h3 := insertion_reads hr (adding_quiet he (py":")) (insertion_skip hr _ (o.length + p.length))
  obtain ⟨x, h4⟩ := adding_reads (rest := py":") he
  have h4 := andColon_reads h4 (o.length + p.length + 1 + v.length)
  rw [List.append_nil] at h4
  refine block_sentence ho (m := o.length + p.length + 1 + v.length + (e ++ py":").length) ?_
  rw [bind_some h1, bind_some (opt_none h2)]
  have h5 : (do
      let r ← reference
      andColon amendmentSuffix
      pure (withAct a (.blockAmendment a (some r) none)) : Peg ParseTree) ⟨o.length + p.length, ' ' :: (v ++ (e ++ py":"))⟩ = none := by
    cases hx : reference ⟨o.length + p.length, ' ' :: (v ++ (e ++ py":"))⟩ with
    | none => exact bind_none hx
    | some y =>
      have h6 : andColon amendmentSuffix y.2 = none := bind_none (insertion_not_amendment hr y.1 y.2 hx)
      rw [bind_some hx]
      exact bind_none h6
  rw [or_right h5]
  refine or_left ?_
  rw [bind_some h3, bind_some h4]
  rfl

theorem amendInsert_tree {o p v e c w u f : Str} {a : ParsedActRef} {ps qs : List ParsedPart} (ho : o ∈ [py"A ", py"Az "])
    (ha : ActPhrase o.length a p (' ' :: v ++ e ++ c ++ w ++ ' ' :: u ++ f ++ py":")) (hr : ReferenceText (o.length + p.length + 1) ps v)
    (he : Replacing e) (hc : c ∈ [py"", py","]) (hw : w ∈ [py" és", py" valamint", py" egyidejűleg"])
    (hi : AdditionText (o.length + p.length + 1 + v.length + e.length + c.length + w.length + 1) qs u) (hf : Adding f)
    (hs : NoTitle (o ++ p ++ ' ' :: v ++ e ++ c ++ w ++ ' ' :: u ++ f ++ py":")) :
    parse (o ++ p ++ ' ' :: v ++ e ++ c ++ w ++ ' ' :: u ++ f ++ py":") =
      some (withAct a (.blockAmendment a (some (ps, ↑(o.length + p.length + 1), ↑(o.length + p.length + 1 + v.length)))
        (some (qs, ↑(o.length + p.length + 1 + v.length + e.length + c.length + w.length + 1),
          ↑(o.length + p.length + 1 + v.length + e.length + c.length + w.length + 1 + u.length))))) := by
  simp only [List.append_assoc, List.cons_append] at ha hs ⊢
  obtain ⟨r, hr'⟩ : ∃ r, r = c ++ (w ++ ' ' :: (u ++ (f ++ py":"))) := ⟨_, rfl⟩
  rw [← hr'] at ha hs ⊢
  have hst := reference_start hr (e ++ r)
  have h1 := amendedAct_read ho ha (no_title_end hst)
  have h2 := (no_position hr (replacing_no_beside he r).1 (replacing_no_beside he r).2 (no_subtitleTitle in_sentence hs)).1
  have h3 := reference_after hr (replacing_quiet he r)
  have h4 := replacing_reads (rest := r) he (o.length + p.length + 1 + v.length)
  have h5 := no_insertion (s := r) hr he (starts_nonspace hst (o.length + p.length))
  have hcolon : Fails (token (py":")) r := by
    rw [hr']
    simp only [List.mem_cons, List.not_mem_nil, or_false] at hc hw
    rcases hc with rfl | rfl
    · rcases hw with rfl | rfl | rfl <;> exact fails_text rfl
    · exact fails_text rfl
  have h6 : ∃ y, opt (token (py",")) ⟨o.length + p.length + 1 + v.length + e.length, r⟩ =
      some (y, ⟨o.length + p.length + 1 + v.length + e.length + c.length, w ++ ' ' :: (u ++ (f ++ py":"))⟩) := by
    rw [hr']
    simp only [List.mem_cons, List.not_mem_nil, or_false] at hc hw
    rcases hc with rfl | rfl
    · refine ⟨_, opt_none ?_⟩
      rcases hw with rfl | rfl | rfl <;> exact fails_text rfl _
    · exact ⟨_, opt_some (reads_text (by decide +kernel) _)⟩
  have h7 : ∃ y, tokens [py"és", py"valamint", py"egyidejűleg"]
      ⟨o.length + p.length + 1 + v.length + e.length + c.length, w ++ ' ' :: (u ++ (f ++ py":"))⟩ =
      some (y, ⟨o.length + p.length + 1 + v.length + e.length + c.length + w.length, ' ' :: (u ++ (f ++ py":"))⟩) := by
    simp only [List.mem_cons, List.not_mem_nil, or_false] at hw
    have hns : ∀ c ∈ (' ' :: (u ++ (f ++ py":"))).head?, isNameChar c = false := by rintro _ ⟨⟩; decide +kernel
    rcases hw with rfl | rfl | rfl
    · exact ⟨_, names_space (t := py"és") (by simp) (by decide +kernel) hns _⟩
    · exact ⟨_, names_space (t := py"valamint") (by simp) (by decide +kernel) hns _⟩
    · exact ⟨_, names_space (t := py"egyidejűleg") (by simp) (by decide +kernel) hns _⟩
  obtain ⟨y, h6⟩ := h6
  obtain ⟨z, h7⟩ := h7
  have h8 := addition_reads hi (adding_quiet hf (py":")) (addition_skip hi _ (o.length + p.length + 1 + v.length + e.length + c.length + w.length))
  obtain ⟨x, h9⟩ := adding_reads (rest := py":") hf
  have h9 := andColon_reads h9 (o.length + p.length + 1 + v.length + e.length + c.length + w.length + 1 + u.length)
  rw [List.append_nil] at h9
  refine block_sentence ho (m := o.length + p.length + 1 + v.length + e.length + c.length + w.length + 1 + u.length + (f ++ py":").length) ?_
  rw [bind_some h1, bind_some (opt_none h2)]
  have h10 : (do
      let r ← reference
      andColon amendmentSuffix
      pure (withAct a (.blockAmendment a (some r) none)) : Peg ParseTree) ⟨o.length + p.length, ' ' :: (v ++ (e ++ r))⟩ = none := by
    have h11 : andColon amendmentSuffix ⟨o.length + p.length + 1 + v.length, e ++ r⟩ = none := (bind_some h4).trans (bind_none (hcolon _))
    rw [bind_some h3]
    exact bind_none h11
  rw [or_right h10, or_right (bind_none h5), bind_some h3, bind_some h4, bind_some h6, bind_some h7, bind_some h8, bind_some h9]
  rfl

end Verif.ActGrammar
