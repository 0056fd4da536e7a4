import Verif.Proofs.Divisions

/-! # Sentences that change the divisions of acts are read (grammar.ebnf:155-231, 306-319) -/

namespace Verif.ActGrammar

open Peg Spec

/-! ## The word for subtitles -/

theorem word_rest {R : Str} (h : WordEnds R) : ∀ c ∈ R.head?, ¬ hunLetter c ∧ c ≠ '-' := by
  intro c hc
  have : ∀ c ∈ py" ,.;:)?!”", ¬ hunLetter c ∧ c ≠ '-' := by
    intro c hc
    rw [hunLetter_iff]
    revert c
    decide +kernel
  exact this c (h c hc)

theorem word_no_lower {R : Str} (h : WordEnds R) : ∀ c ∈ R.head?, isLowerHun c = false := by
  have : ∀ c ∈ py" ,.;:)?!”", isLowerHun c = false := by decide +kernel
  exact fun c hc => this c (h c hc)

theorem ends_space (s : Str) : Ends (' ' :: s) := ⟨by rintro _ ⟨⟩; decide, no_name_space⟩

theorem ends_stop (s : Str) : Ends ('.' :: s) := ⟨by rintro _ ⟨⟩; decide, no_name (by decide +kernel)⟩

/-- It is plain text. -/
theorem subtitle_plain {z R : Str} (hz : SubtitleWord z) (hR : WordEnds R) : ∃ u t, z ++ R = 'a' :: 'l' :: u ++ t ∧ PlainText ('a' :: 'l' :: u) t := by
  have plain : ∀ {w t : Str}, (decide (2 < w.length) && w.all (fun c => isLowerHun c || c == '-') && (w.take 3).all (· != '-')) = true → WordEnds t →
      PlainText w t := by
    intro w t h ht
    rw [Bool.and_eq_true, Bool.and_eq_true, decide_eq_true_eq] at h
    obtain ⟨⟨h1, h2⟩, h3⟩ := h
    have hl : ∀ c ∈ w, hunLetter c ∨ c = '-' := by
      intro c hc
      have := List.all_eq_true.mp h2 c hc
      rw [hunLetter_iff]
      rw [Bool.or_eq_true, beq_iff_eq] at this
      rcases this with h | h
      · left; simp [h]
      · exact .inr h
    refine .word (fun h => by rw [h] at h1; simp at h1) hl (fun c hc => by simpa using List.all_eq_true.mp h3 c hc) (word_rest ht)
      (fun h => absurd h (by omega)) (.inl ?_)
    intro c hc
    cases w with
    | nil => cases hc
    | cons d w =>
      obtain rfl : d = c := by simpa using hc
      have := List.all_eq_true.mp h2 d (List.mem_cons_self ..)
      have hd : (d != '-') = true := List.all_eq_true.mp h3 d (by simp)
      rw [Bool.or_eq_true] at this
      rcases this with h | h
      · simpa [isLowerHun, hunLower] using h
      · rw [beq_iff_eq] at h
        subst h
        exact absurd hd (by decide)
  simp only [SubtitleWord, List.mem_cons, List.not_mem_nil, or_false] at hz
  rcases hz with (rfl | rfl | rfl | rfl | rfl | rfl) | ⟨e, _, rfl⟩
  · exact ⟨_, R, rfl, plain (by decide +kernel) hR⟩
  · exact ⟨_, R, rfl, plain (by decide +kernel) hR⟩
  · exact ⟨_, R, rfl, plain (by decide +kernel) hR⟩
  · exact ⟨_, R, rfl, plain (by decide +kernel) hR⟩
  · exact ⟨_, R, rfl, plain (by decide +kernel) hR⟩
  · exact ⟨_, R, rfl, plain (by decide +kernel) hR⟩
  · exact ⟨py"cím", ' ' :: (e ++ R), by simp, plain (by decide +kernel) (by rintro _ ⟨⟩; decide)⟩

/-- A longer word is not there. -/
theorem fails_longer_word {t y R : Str} {x : Char} (hR : WordEnds R) (hx : x ∉ py" ,.;:)?!”") (h : t.head?.any (fun c => !isSpace c) = true := by decide +kernel) :
    Fails (token (t ++ x :: y)) (t ++ R) := by
  refine fails_text ?_
  have e : (t ++ R).dropWhile isSpace = t ++ R := by
    cases t with
    | nil => cases h
    | cons c t => exact dropWhile_cons_of (by simpa using h)
  rw [e, Bool.eq_false_iff]
  intro hp
  obtain ⟨r, hr⟩ := List.isPrefixOf_iff_prefix.mp hp
  rw [List.append_assoc] at hr
  have := List.append_cancel_left hr
  rw [← this] at hR
  exact hx (hR x rfl)

/-- It is read. -/
theorem subtitle_reads {z R : Str} (hz : SubtitleWord z) (hR : Ends R) (hc : NotFirst (py"c") R) : Reads subtitleToken z R () := by
  have done : ∀ {α β : Type} {p : Peg α} {u r : Str} {a : α} (b : β), Reads p u r a → Reads (do let _ ← p; pure b) u r b :=
    fun b h => h.to (reads_nil b _)
  have no_title : ∀ {t : Str}, NotFirst (py"c") t → Fails (pattern (.seq (.star (· == ' ')) (.seq (.str (py"cím")) (.star isLowerHun)))) t := by
    intro t ht
    refine fails_pattern ?_
    simp only [Regex.ends, List.flatMap_eq_nil_iff, List.map_eq_nil_iff, List.mem_reverse, List.mem_range]
    intro n hn
    have key : ∀ (t : Str) (n : Nat), n < (t.takeWhile (· == ' ')).length + 1 → NotFirst (py"c") t → ∀ c ∈ (t.drop n).head?, c ≠ 'c' := by
      intro t
      induction t with
      | nil => intro n _ _ c hc; simp at hc
      | cons d t ih =>
        intro n hn ht
        cases n with
        | zero =>
          rintro _ ⟨⟩ rfl
          exact ht 'c' (first_cons (by decide +kernel)) (by decide)
        | succ n =>
          by_cases hd : d = ' '
          · subst hd
            rw [List.takeWhile_cons_of_pos (by decide)] at hn
            refine ih n (by simp at hn; omega) fun c hc => ht c ?_
            rw [first_space]
            exact hc
          · rw [List.takeWhile_cons_of_neg (by simpa using hd)] at hn
            simp at hn
    have := key t n hn ht
    rw [str_none (py"cím") _ (by decide)]
    · rintro _ ⟨⟩
    cases hd : t.drop n with
    | nil => rfl
    | cons d u =>
      rw [hd] at this
      have hne : 'c' ≠ d := fun h => this d rfl h.symm
      simp [List.isPrefixOf, hne]
  have list : ∀ {w : Str}, Reads (tokens [py"alcímmel", py"alcímekkel", py"alcím-megjelölése", py"alcím-megjelölés", py"alcíme"]) w R w →
      w.head? = some 'a' → Reads subtitleToken w R () := fun h ha => (Reads.left (done () h)).rule (c := 'a') ha (by decide +kernel)
  have plain : ∀ {R : Str}, Ends R →
      Fails (tokens [py"alcímmel", py"alcímekkel", py"alcím-megjelölése", py"alcím-megjelölés", py"alcíme"]) ((py"alcím") ++ R) := by
    intro R hR
    refine fails_tokens fun t ht => ?_
    simp only [List.mem_cons, List.not_mem_nil, or_false] at ht
    rcases ht with rfl | rfl | rfl | rfl | rfl
    · exact fails_longer_word (t := py"alcím") hR.word (x := 'm') (y := py"el") (by decide)
    · exact fails_longer_word (t := py"alcím") hR.word (x := 'e') (y := py"kkel") (by decide)
    · exact fails_longer_word (t := py"alcím") hR.word (x := '-') (y := py"megjelölése") (by decide)
    · exact fails_longer_word (t := py"alcím") hR.word (x := '-') (y := py"megjelölés") (by decide)
    · exact fails_longer_word (t := py"alcím") hR.word (x := 'e') (y := []) (by decide)
  simp only [SubtitleWord, List.mem_cons, List.not_mem_nil, or_false] at hz
  have word : ∀ {w t : Str} {a : Option Str}, Reads (opt (pattern (.seq (.star (· == ' ')) (.seq (.str (py"cím")) (.star isLowerHun))))) w R a →
      w ++ R = t → Ends t → Reads subtitleToken ((py"alcím") ++ w) R () := by
    rintro w t a h rfl ht
    have h1 : Reads (token (py"alcím")) (py"alcím") (w ++ R) (py"alcím") := reads_name (by decide +kernel) ht.name
    refine Reads.rule (c := 'a') (Reads.right (Fails.bind ?_) (h1.bind (done () h))) rfl (by decide +kernel)
    rw [List.append_assoc]
    exact plain ht
  rcases hz with (rfl | rfl | rfl | rfl | rfl | rfl) | ⟨e, he, rfl⟩
  · exact word (w := []) (no_title hc).opt rfl hR
  · exact list (.left (reads_name (by decide +kernel) hR.name)) rfl
  · exact list (.right (fails_text rfl) (.left (reads_name (by decide +kernel) hR.name))) rfl
  · exact list (.right (fails_text rfl) (.right (fails_text rfl) (.right (fails_longer_word (t := py"alcím-megjelölés") hR.word (x := 'e') (y := []) (by decide))
      (.left (reads_text (by decide +kernel)))))) rfl
  · exact list (.right (fails_text rfl) (.right (fails_text rfl) (.left (reads_text (by decide +kernel))))) rfl
  · exact list (.right (fails_text rfl) (.right (fails_longer_word (t := py"alcíme") hR.word (x := 'k') (y := py"kel") (by decide)) (.right (fails_text rfl) (.right (fails_text rfl) (.left (reads_name (by decide +kernel) hR.name)))))) rfl
  · obtain ⟨l, rfl, hl⟩ := he
    have h1 : Reads (pattern (.seq (.star (· == ' ')) (.seq (.str (py"cím")) (.star isLowerHun)))) (' ' :: ((py"cím") ++ l)) R (' ' :: ((py"cím") ++ l)) := by
      refine Reads.matches ?_
      have h2 := str_seq_ends (t := py"cím") (r := .star isLowerHun) (by decide) (star_ends (fun c hc => isLowerHun_of (hl c hc)) (word_no_lower hR.word))
      have e1 : (' ' :: ((py"cím") ++ l) ++ R).takeWhile (· == ' ') = py" " := rfl
      generalize hr : Regex.seq (.str (py"cím")) (.star isLowerHun) = r at h2 ⊢
      simp only [Regex.ends, e1]
      show (([1, 0] : List Nat).flatMap _).head? = _
      rw [List.flatMap_cons, List.head?_append, List.head?_map]
      have e2 : List.drop 1 (' ' :: ((py"cím") ++ l) ++ R) = (py"cím") ++ l ++ R := rfl
      rw [e2, h2]
      simp
      omega
    have e : (py"alcím ") ++ ((py"cím") ++ l) = (py"alcím") ++ ' ' :: ((py"cím") ++ l) := by simp
    rw [e]
    exact word h1.opt rfl (ends_space _)

/-! ## Which sentence it is -/

/-- What comes after the act in `block_amendment` (grammar.ebnf:206-213). -/
def plainBody (a : ParsedActRef) : Peg ParseTree := do
  let _ ← opt structuralPosition
  Peg.or (do
      let r ← reference
      andColon amendmentSuffix
      pure (withAct a (.blockAmendment a (some r) none))) (Peg.or
    (do
      let r ← insertionReference
      andColon insertionSuffix
      pure (withAct a (.blockAmendment a none (some r))))
    (do
      let r ← reference
      amendmentSuffix
      let _ ← opt (token (py","))
      let _ ← tokens [py"és", py"valamint", py"egyidejűleg"]
      let i ← insertionReference
      andColon insertionSuffix
      pure (withAct a (.blockAmendment a (some r) (some i)))))

/-- What comes after the act in `block_amendment_with_subtitle` (grammar.ebnf:215-221). -/
def subtitleBody (a : ParsedActRef) : Peg ParseTree := do
  let s ← opt structuralPosition
  Peg.or (do
      let r ← referenceWithSubtitle
      andColon amendmentSuffix
      pure (withAct a (.blockAmendmentWithSubtitle a s (some r) none))) (Peg.or
    (do
      let r ← referenceWithSubtitle
      andColon amendmentSuffixWithSubtitle
      pure (withAct a (.blockAmendmentWithSubtitle a s (some r) none)))
    (do
      let _ ← insertionToken
      let r ← referenceWithSubtitle
      andColon insertionSuffix
      pure (withAct a (.blockAmendmentWithSubtitle a s none (some r)))))

/-- What comes after the act in `block_amendment_structural` (grammar.ebnf:223-231). -/
def structuralBody (a : ParsedActRef) : Peg ParseTree :=
  Peg.or (do
      let r ← anyStructuralReference
      andColon amendmentSuffix
      pure (withAct a (.blockAmendmentStructural a (some r) none))) (Peg.or
    (do
      let r ← anyStructuralReference
      andColon amendmentSuffixWithStructural
      pure (withAct a (.blockAmendmentStructural a (some r) none))) (Peg.or
    (do
      let _ ← insertionToken
      let r ← anyStructuralReference
      andColon insertionSuffix
      pure (withAct a (.blockAmendmentStructural a none (some r))))
    (do
      let r ← titleInsertionWithBook
      andColon insertionSuffix
      pure (withAct a (.blockAmendmentStructural a none (some r))))))

theorem plain_is : blockAmendment = rule (amendedAct >>= plainBody) := rfl

theorem subtitle_is : blockAmendmentWithSubtitle = rule (amendedAct >>= subtitleBody) := rfl

theorem structural_is : blockAmendmentStructural = rule (amendedAct >>= structuralBody) := rfl

theorem plainBody_none {a : ParsedActRef} {i j : At} {x : Option ParsedStructRef} (h : opt structuralPosition i = some (x, j))
    (h1 : ∀ r k, reference j = some (r, k) → amendmentSuffix k = none) (h2 : ∀ r k, insertionReference j = some (r, k) → insertionSuffix k = none) :
    plainBody a i = none := by
  unfold plainBody
  rw [bind_some h]
  have c1 : ∀ {k : At}, amendmentSuffix k = none → andColon amendmentSuffix k = none := fun h => bind_none h
  have c2 : ∀ {k : At}, insertionSuffix k = none → andColon insertionSuffix k = none := fun h => bind_none h
  have n1 : ∀ {f : ParsedRef → Unit → Peg ParseTree}, (do let r ← reference; let x ← andColon amendmentSuffix; f r x : Peg ParseTree) j = none :=
    bind_fails fun r k hr => bind_none (c1 (h1 r k hr))
  have n2 : ∀ {f : ParsedRef → Unit → Peg ParseTree}, (do let r ← insertionReference; let x ← andColon insertionSuffix; f r x : Peg ParseTree) j = none :=
    bind_fails fun r k hr => bind_none (c2 (h2 r k hr))
  have n3 : ∀ {f : ParsedRef → Unit → Peg ParseTree}, (do let r ← reference; let x ← amendmentSuffix; f r x : Peg ParseTree) j = none :=
    bind_fails fun r k hr => bind_none (h1 r k hr)
  rw [or_right n1, or_right n2]
  exact n3

theorem subtitleBody_none {a : ParsedActRef} {i j : At} {x : Option ParsedStructRef} (h : opt structuralPosition i = some (x, j))
    (h1 : referenceWithSubtitle j = none) (h2 : ∀ y k, insertionToken j = some (y, k) → referenceWithSubtitle k = none) : subtitleBody a i = none := by
  unfold subtitleBody
  rw [bind_some h, or_right (bind_none h1), or_right (bind_none h1)]
  exact bind_fails fun y k hk => bind_none (h2 y k hk)

theorem first_nonspace {o : Str} (ho : o ∈ [py"A ", py"Az "]) (s : Str) : ∃ c z, o ++ s = c :: z ∧ isSpace c = false := by
  obtain ⟨t, ht⟩ := first_capital ho s
  exact ⟨_, t, ht, by decide +kernel⟩

theorem subtitle_sentence {o s : Str} {a : ParsedActRef} {i : At} {t : ParseTree} {m : Nat} (ho : o ∈ [py"A ", py"Az "])
    (h1 : amendedAct ⟨0, o ++ s⟩ = some (a, i)) (h2 : plainBody a i = none) (h3 : subtitleBody a i = some (t, ⟨m, []⟩)) : parse (o ++ s) = some t := by
  obtain ⟨c, z, hz, hc⟩ := first_nonspace ho s
  rw [hz] at h1 ⊢
  have e1 : blockAmendment ⟨0, c :: z⟩ = none := by rw [plain_is, rule_eq hc, bind_some h1, h2]
  have e2 : blockAmendmentWithSubtitle ⟨0, c :: z⟩ = some (t, ⟨m, []⟩) := by rw [subtitle_is, rule_eq hc, bind_some h1, h3]
  refine parse_of hc (k := ⟨m, []⟩) ?_
  unfold specialSentences
  rw [sentence_next (whole_none e1)]
  exact sentence_this (whole_read e2)

theorem structural_sentence {o s : Str} {a : ParsedActRef} {i : At} {t : ParseTree} {m : Nat} (ho : o ∈ [py"A ", py"Az "])
    (h1 : amendedAct ⟨0, o ++ s⟩ = some (a, i)) (h2 : plainBody a i = none) (h3 : subtitleBody a i = none)
    (h4 : structuralBody a i = some (t, ⟨m, []⟩)) : parse (o ++ s) = some t := by
  obtain ⟨c, z, hz, hc⟩ := first_nonspace ho s
  rw [hz] at h1 ⊢
  have e1 : blockAmendment ⟨0, c :: z⟩ = none := by rw [plain_is, rule_eq hc, bind_some h1, h2]
  have e2 : blockAmendmentWithSubtitle ⟨0, c :: z⟩ = none := by rw [subtitle_is, rule_eq hc, bind_some h1, h3]
  have e3 : blockAmendmentStructural ⟨0, c :: z⟩ = some (t, ⟨m, []⟩) := by rw [structural_is, rule_eq hc, bind_some h1, h4]
  refine parse_of hc (k := ⟨m, []⟩) ?_
  unfold specialSentences
  rw [sentence_next (whole_none e1), sentence_next (whole_none e2)]
  exact sentence_this (whole_read e3)

/-! ## Where nothing is amended and nothing is new -/

theorem no_insertion_from {i j k : At} {x : Option Str} (hj : j.skip = i) (hH : Halted i) (ha : opt az i = some (x, k))
    (hk : articleReference k = none) (hw : ∀ w ∈ [py"a §", py"a bekezdés"], token w i = none) : insertionReference j = none := by
  have pair : articleAndParagraph k = none := bind_none hk
  have into : ∀ {p : Peg (List ParsedPart)} {ws : List Str}, p k = none → (∀ w ∈ ws, w ∈ [py"a §", py"a bekezdés"]) → insertedInto p ws i = some ([], i) := by
    intro p ws hp hws
    unfold insertedInto
    have h1 : (do let _ ← opt az; p : Peg (List ParsedPart)) i = none := by rw [bind_some ha, hp]
    have h2 : (do let _ ← tokens ws; pure [] : Peg (List ParsedPart)) i = none := bind_none (tokens_none fun w h => hw w (hws w h))
    exact bind_some (opt_none ((or_right h1).trans h2))
  refine located_fails hj ?_
  refine (or_right (halted_bind hH fun k hk => hk .article)).trans ?_
  refine (or_right ?_).trans ((or_right ?_).trans ?_)
  · rw [bind_some (into (bind_none hk) (by simp))]
    exact halted_bind hH fun k hk => hk .paragraph
  · rw [bind_some (into pair (by simp))]
    exact halted_bind hH fun k => anyPoint_none
  · rw [bind_some ha]
    exact bind_none pair

/-- Neither something that is amended nor something that is new is read. -/
def Barren (r : Str) : Prop := Fails reference r ∧ Fails insertionReference r

theorem barren_body {a : ParsedActRef} {i : At} {n : Nat} {r : Str} {x : Option ParsedStructRef} (h : opt structuralPosition i = some (x, ⟨n, r⟩))
    (hr : Barren r) : plainBody a i = none :=
  plainBody_none h (fun _ _ h => by rw [hr.1] at h; cases h) (fun _ _ h => by rw [hr.2] at h; cases h)

theorem barren_other {c : Char} {t : Str} (hs : isSpace c = false) (ha : c ≠ 'a') (hp : ∀ k, Fails (partOf k) (c :: t)) : Barren (' ' :: c :: t) := by
  have no : ∀ {u : Str}, u.head? = some 'a' → Fails (token u) (c :: t) := by
    intro u hu
    refine fails_token hu fun d hd => ?_
    rw [first_cons hs] at hd
    cases hd
    exact ha
  refine ⟨fails_reference fun k => ?_, fun n => ?_⟩
  · rw [dropWhile_space, dropWhile_cons_of hs]
    exact hp k
  · refine no_insertion_from (space_skip hs n) (.inl (Fails.rule ?_ _)) ((fails_az hs ha).opt _) (hp .article _) fun w hw => ?_
    · rw [dropWhile_cons_of hs]
      exact no rfl
    · simp only [List.mem_cons, List.not_mem_nil, or_false] at hw
      rcases hw with rfl | rfl
      · exact no rfl _
      · exact no rfl _

theorem al_no_az (t : Str) : Fails az ('a' :: 'l' :: t) := by
  refine Fails.rule ?_
  rw [dropWhile_cons_of (by decide +kernel)]
  refine fails_pattern ?_
  simp [Regex.ends, Regex.char]

theorem barren_al {t : Str} (hp : ∀ k, Fails (partOf k) ('a' :: 'l' :: t)) : Barren (' ' :: 'a' :: 'l' :: t) := by
  have hs : isSpace 'a' = false := by decide +kernel
  refine ⟨fails_reference fun k => ?_, fun n => ?_⟩
  · rw [dropWhile_space, dropWhile_cons_of hs]
    exact hp k
  · refine no_insertion_from (space_skip hs n) (.inl (Fails.rule ?_ _)) ((al_no_az t).opt _) (hp .article _) fun w hw => ?_
    · rw [dropWhile_cons_of hs]
      exact fails_text rfl
    · simp only [List.mem_cons, List.not_mem_nil, or_false] at hw
      rcases hw with rfl | rfl
      · exact fails_text (s := 'a' :: 'l' :: t) rfl _
      · exact fails_text (s := 'a' :: 'l' :: t) rfl _

theorem barren_following {s : Str} (hp : ∀ k, Fails (partOf k) s) : Barren ((py" a következő") ++ s) := by
  refine ⟨pauses_fails (pauses_word (w := py"a") (s := (py" következő") ++ s) (plain_word rfl)), fun n => ?_⟩
  have h0 : (⟨n, (py" a következő") ++ s⟩ : At).skip = ⟨n + 1, (py"a következő") ++ s⟩ := skip_one (by decide +kernel)
  have h1 : opt az ⟨n + 1, (py"a következő") ++ s⟩ = some (some (py"a "), ⟨n + 3, (py"következő") ++ s⟩) :=
    opt_some (reads_az (b := py"a ") (by simp) ((py"következő") ++ s) (n + 1))
  refine no_insertion_from h0 (.inr ⟨_, _, insertionToken_here s (n + 1), fun kind => hp kind _⟩) h1 ?_ fun w hw => ?_
  · exact fails_start (k := .article) (c := 'k') (t := (py"övetkező") ++ s) (by decide +kernel) (by simp only [Begins]; decide) _
  · simp only [List.mem_cons, List.not_mem_nil, or_false] at hw
    rcases hw with rfl | rfl
    · exact fails_text (s := (py"a következő") ++ s) rfl _
    · exact fails_text (s := (py"a következő") ++ s) rfl _

/-! ## The words -/

theorem no_subtitleToken {c : Char} {t : Str} (hs : isSpace c = false) (hc : c ≠ 'a') : Fails subtitleToken (c :: t) := by
  have no : ∀ {u : Str}, u.head? = some 'a' → Fails (token u) (c :: t) := by
    intro u hu
    refine fails_token hu fun d hd => ?_
    rw [first_cons hs] at hd
    cases hd
    exact hc
  refine Fails.rule ?_
  rw [dropWhile_cons_of hs]
  refine Fails.or (Fails.bind (fails_tokens fun u hu => no ?_)) (no rfl).bind
  simp only [List.mem_cons, List.not_mem_nil, or_false] at hu
  rcases hu with rfl | rfl | rfl | rfl | rfl <;> rfl

theorem following_no_subtitle (s : Str) : Fails subtitleToken ((py"a következő") ++ s) := by
  refine Fails.rule ?_
  rw [show ((py"a következő") ++ s).dropWhile isSpace = (py"a következő") ++ s from dropWhile_cons_of (by decide +kernel)]
  exact Fails.or (Fails.bind (fails_texts rfl)) (Fails.bind (fails_text rfl))

theorem no_subtitled {s : Str} (h1 : Fails subtitleToken (s.dropWhile isSpace)) (h2 : Fails (partOf .article) (s.dropWhile isSpace)) :
    Fails referenceWithSubtitle s :=
  Fails.located (Fails.or h1.bind (Fails.or (Fails.bind (p := articleReference) h2) h1.bind))

theorem following_no_subtitled (s : Str) : Fails referenceWithSubtitle ((py" a következő") ++ s) := by
  have e : ((py" a következő") ++ s).dropWhile isSpace = (py"a következő") ++ s := (dropWhile_space _).trans (dropWhile_cons_of (by decide +kernel))
  refine no_subtitled ?_ ?_
  · rw [e]
    exact following_no_subtitle s
  · rw [e]
    exact fails_start (k := .article) (by decide +kernel) (by simp only [Begins]; decide)

theorem other_no_subtitled {c : Char} {t : Str} (hs : isSpace c = false) (hc : c ≠ 'a') (hp : Fails (partOf .article) (c :: t)) :
    Fails referenceWithSubtitle (' ' :: c :: t) := by
  have e : (' ' :: c :: t).dropWhile isSpace = c :: t := (dropWhile_space _).trans (dropWhile_cons_of hs)
  refine no_subtitled ?_ ?_
  · rw [e]
    exact no_subtitleToken hs hc
  · rw [e]
    exact hp

theorem no_insertionToken {c : Char} {t : Str} (hs : isSpace c = false) (hc : c ≠ 'a') : Fails insertionToken (' ' :: c :: t) := by
  refine Fails.rule ?_
  rw [show (' ' :: c :: t).dropWhile isSpace = c :: t from (dropWhile_space _).trans (dropWhile_cons_of hs)]
  refine fails_token (a := 'a') rfl fun d hd => ?_
  rw [first_cons hs] at hd
  cases hd
  exact hc

/-- What is to be said of the words after something that is replaced. -/
structure Instead (r : Str) : Prop where
  ends : Ends r
  quiet : Quiet r
  barren : Barren r
  subtitled : Fails referenceWithSubtitle r
  new : ∀ {n} y k, insertionToken ⟨n, r⟩ = some (y, k) → referenceWithSubtitle k = none
  beside : ∀ words, Fails (besideArticle words) r
  other : NotFirst (py"cé") r
  title : Fails (token (py"hatálybalépésével összefüggő")) r

theorem instead_helyébe (s : Str) : Instead ((py" helyébe") ++ ' ' :: s) := by
  have hs : isSpace 'h' = false := by decide +kernel
  have hp : ∀ k, Fails (partOf k) ((py"helyébe") ++ ' ' :: s) := plain_fails (plain_word rfl)
  refine ⟨ends_space _, quiet_word (w := py"helyébe") (s := ' ' :: s) (plain_word rfl) (by rintro _ ⟨⟩; decide), barren_other hs (by decide) hp,
    other_no_subtitled hs (by decide) (hp .article), fun {n} y k h => ?_, fun words => no_besideArticle ?_ ?_, ?_, fails_text rfl⟩
  · have := (no_insertionToken (t := (py"elyébe") ++ ' ' :: s) hs (by decide) n).symm.trans h
    cases this
  · intro n
    rw [← az_skip, show (⟨n, (py" helyébe") ++ ' ' :: s⟩ : At).skip = ⟨n + 1, (py"helyébe") ++ ' ' :: s⟩ from space_skip hs n]
    exact fails_az hs (by decide) _
  · rw [show afterNumber ((py" helyébe") ++ ' ' :: s) = (py"helyébe") ++ ' ' :: s from
      afterNumber_first ((dropWhile_space _).trans (dropWhile_cons_of hs)) (by decide +kernel)]
    simp
  · exact space_not_first hs (by decide)

theorem instead_szöveggel (s : Str) : Instead ((py" a következő szöveggel") ++ ' ' :: s) := by
  have hs : isSpace 's' = false := by decide +kernel
  have hp : ∀ k, Fails (partOf k) ((py"szöveggel") ++ ' ' :: s) := plain_fails (plain_word rfl)
  have hp' : ∀ k, Fails (partOf k) ((py" szöveggel") ++ ' ' :: s) := fun k n => by
    rw [← partOf_skip, show (⟨n, (py" szöveggel") ++ ' ' :: s⟩ : At).skip = ⟨n + 1, (py"szöveggel") ++ ' ' :: s⟩ from space_skip hs n]
    exact hp k _
  refine ⟨ends_space _, following_quiet ((py" szöveggel") ++ ' ' :: s), barren_following (s := (py" szöveggel") ++ ' ' :: s) hp',
    following_no_subtitled ((py" szöveggel") ++ ' ' :: s), fun {n} y k h => ?_, fun words => following_no_beside ((py" szöveggel") ++ ' ' :: s),
    space_not_first (by decide +kernel) (by decide), fails_text rfl⟩
  have h1 := insertionToken_reads ((py" szöveggel") ++ ' ' :: s) n
  have h2 := h1.symm.trans h
  cases h2
  exact other_no_subtitled hs (by decide) (hp .article) _

theorem replacing_instead {e : Str} (he : Replacing e) (s : Str) : Instead (e ++ s) := by
  simp only [Replacing, List.mem_cons, List.not_mem_nil, or_false] at he
  rcases he with rfl | rfl | rfl
  · exact instead_helyébe ((py"a következő rendelkezés lép") ++ s)
  · exact instead_helyébe ((py"a következő rendelkezések lépnek") ++ s)
  · exact instead_szöveggel ((py"lép hatályba") ++ s)

theorem division_instead {e : Str} (he : ReplacingDivision e) (s : Str) : Instead (e ++ s) := by
  rcases he with he | he
  · exact replacing_instead he s
  · simp only [List.mem_cons, List.not_mem_nil, or_false] at he
    rcases he with rfl | rfl | rfl | rfl
    · exact instead_helyébe ((py"a következő lép") ++ s)
    · exact instead_helyébe ((py"a következő cím lép") ++ s)
    · exact instead_helyébe ((py"a következő fejezet lép") ++ s)
    · exact instead_helyébe ((py"a következő rész lép") ++ s)

theorem subtitle_instead {e : Str} (he : ReplacingSubtitle e) (s : Str) : Instead (e ++ s) := by
  rcases he with he | ⟨a, b, l, rfl, _⟩
  · exact replacing_instead he s
  · have e : (py" helyébe a következő") ++ a ++ (py" alcím") ++ b ++ l ++ s = (py" helyébe") ++ ' ' :: ((py"a következő") ++ a ++ (py" alcím") ++ b ++ l ++ s) := by
      simp
    rw [e]
    exact instead_helyébe _

/-- The two ways to say that a division is replaced. -/
theorem division_suffix {e : Str} (he : ReplacingDivision e) : Reads (andColon amendmentSuffix) (e ++ py":") [] () ∨
    (Fails (andColon amendmentSuffix) (e ++ py":") ∧ Reads (andColon amendmentSuffixWithStructural) (e ++ py":") [] ()) := by
  rcases he with he | he
  · exact .inl (andColon_reads (replacing_reads he))
  · right
    have done : ∀ {α β : Type} {p : Peg α} {u r : Str} {a : α} (b : β), Reads p u r a → Reads (do let _ ← p; pure b) u r b :=
      fun b h => h.to (reads_nil b _)
    have no : ∀ {t : Str}, Fails (tokens [py"rendelkezés lép", py"rendelkezések lépnek"]) t →
        Fails (andColon amendmentSuffix) ((py" helyébe a következő") ++ t) := by
      intro t ht
      refine Fails.bind (Fails.rule ?_)
      rw [show ((py" helyébe a következő") ++ t).dropWhile isSpace = (py"helyébe a következő") ++ t from
        (dropWhile_space _).trans (dropWhile_cons_of (by decide +kernel))]
      refine Fails.or ?_ (fails_text rfl).bind
      exact (reads_text (t := py"helyébe a következő") (rest := t) (by decide +kernel)).fails (f := fun _ => do
        let _ ← tokens [py"rendelkezés lép", py"rendelkezések lépnek"]; pure ()) ht.bind
    have lép : Reads (do let _ ← token (py"lép"); pure () : Peg Unit) (py" lép") (py":") () := done () (name_space (by decide +kernel) (no_name (by decide +kernel)))
    have yes : ∀ {w : Str}, Reads (opt (tokens [py"cím", py"fejezet", py"rész"]) >>= fun _ => do let _ ← token (py"lép"); pure () : Peg Unit) w (py":") () →
        Reads (andColon amendmentSuffixWithStructural) ((py" helyébe a következő") ++ w ++ py":") [] () := by
      intro w hw
      refine andColon_reads (x := ()) (Reads.rule_space (c := 'h') (w := (py"helyébe a következő") ++ w) ?_ rfl (by decide +kernel))
      exact (reads_text (t := py"helyébe a következő") (rest := w ++ py":") (by decide +kernel)).bind hw
    have word : ∀ {t : Str}, t ∈ [py"cím", py"fejezet", py"rész"] →
        Reads (opt (tokens [py"cím", py"fejezet", py"rész"]) >>= fun _ => do let _ ← token (py"lép"); pure () : Peg Unit) (' ' :: t ++ py" lép") (py":") () := by
      intro t ht
      exact Reads.bind (Reads.opt (names_space ht (by decide +kernel) no_name_space)) lép
    simp only [List.mem_cons, List.not_mem_nil, or_false] at he
    rcases he with rfl | rfl | rfl | rfl
    · refine ⟨no (t := py" lép:") (fails_texts rfl), yes (w := py" lép") ?_⟩
      exact Reads.bind (u := []) (Fails.opt (rest := py" lép:") (fails_texts rfl)) lép
    · exact ⟨no (t := py" cím lép:") (fails_texts rfl), yes (w := py" cím lép") (word (t := py"cím") (by simp))⟩
    · exact ⟨no (t := py" fejezet lép:") (fails_texts rfl), yes (w := py" fejezet lép") (word (t := py"fejezet") (by simp))⟩
    · exact ⟨no (t := py" rész lép:") (fails_texts rfl), yes (w := py" rész lép") (word (t := py"rész") (by simp))⟩

end Verif.ActGrammar
