import Verif.Proofs.Phrases

/-! # The trees of sentences that change the law -/

namespace Verif.ActGrammar

open Spec Peg

/-! ## Which sentence it is -/

theorem whole_none {α : Type} {p : Peg α} {i : At} (h : p i = none) : whole p i = none := bind_none h

theorem whole_read {α : Type} {p : Peg α} {i : At} {t : α} {m : Nat} (h : p i = some (t, ⟨m, []⟩)) : whole p i = some (t, ⟨m, []⟩) := bind_some h

theorem sentence_this {p : Peg ParseTree} {ps : List (Peg ParseTree)} {i : At} {x : ParseTree × At} (h : whole p i = some x) :
    sentence (p :: ps) i = some x := or_left h

theorem sentence_next {p : Peg ParseTree} {ps : List (Peg ParseTree)} {i : At} (h : whole p i = none) : sentence (p :: ps) i = sentence ps i :=
  or_right h

theorem parse_of {c : Char} {s : Str} {t : ParseTree} {k : At} (hc : isSpace c = false)
    (h : sentence specialSentences ⟨0, c :: s⟩ = some (t, k)) : parse (c :: s) = some t := by
  unfold parse startDefault
  rw [rule_eq hc, h]
  rfl

/-- The trees are such ones. -/
def Makes (P : GrammarNode → Prop) (p : Peg ParseTree) : Prop := ∀ i t j, p i = some (t, j) → P (root t)

theorem makes_bind {α : Type} {P : GrammarNode → Prop} {p : Peg α} {f : α → Peg ParseTree} (h : ∀ a, Makes P (f a)) : Makes P (p >>= f) := by
  intro i t j hi
  cases hp : p i with
  | none => rw [bind_none hp] at hi; cases hi
  | some x =>
    rw [bind_some (a := x.1) (j := x.2) hp] at hi
    exact h _ _ _ _ hi

theorem makes_or {P : GrammarNode → Prop} {p q : Peg ParseTree} (hp : Makes P p) (hq : Makes P q) : Makes P (Peg.or p q) := by
  intro i t j hi
  cases h : p i with
  | none => rw [or_right h] at hi; exact hq _ _ _ hi
  | some x => rw [or_left h] at hi; cases hi; exact hp _ _ _ h

theorem makes_rule {P : GrammarNode → Prop} {p : Peg ParseTree} (h : Makes P p) : Makes P (rule p) := fun _ _ _ hi => h _ _ _ hi

theorem makes_pure {P : GrammarNode → Prop} {t : ParseTree} (h : P (root t)) : Makes P (pure t) := by
  intro i t' j hi
  cases hi
  exact h

theorem makes_whole {P : GrammarNode → Prop} {p : Peg ParseTree} (h : Makes P p) : Makes P (whole p) := by
  intro i t j hi
  unfold whole at hi
  cases hp : p i with
  | none => rw [bind_none hp] at hi; cases hi
  | some x =>
    rw [bind_some (a := x.1) (j := x.2) hp] at hi
    cases he : eof x.2 with
    | none => rw [bind_none he] at hi; cases hi
    | some y =>
      rw [bind_some (a := y.1) (j := y.2) he] at hi
      cases hi
      exact h _ _ _ hp

/-- A sentence that can be read is one of its kind. -/
theorem whole_written {s : Str} {P : GrammarNode → Prop} {p : Peg ParseTree} {x : ParseTree × At} (hm : Makes P p) (hs : Sentence s p)
    (h : whole p ⟨0, s⟩ = some x) : ∃ n, P n ∧ NodeWritten s n := by
  obtain ⟨t, j⟩ := x
  refine ⟨root t, makes_whole hm _ _ _ h, ?_⟩
  have h1 := sentence_whole hs ⟨0, s⟩ t j ⟨Nat.zero_le _, rfl⟩ h
  exact h1.2.2 (by simp [told, slice, squeeze]) (root t) (root_mem t)

/-! ## Sentences that end with a full stop amend no blocks -/

/-- A node of an amendment of blocks. -/
def OfBlocks : GrammarNode → Prop
  | .blockAmendment .. | .blockAmendmentWithSubtitle .. | .blockAmendmentStructural .. => True
  | _ => False

theorem makes_blocks : ∀ p ∈ [blockAmendment, blockAmendmentWithSubtitle, blockAmendmentStructural], Makes OfBlocks p := by
  simp only [List.mem_cons, List.not_mem_nil, or_false]
  rintro p (rfl | rfl | rfl)
  · refine makes_rule (makes_bind fun a => makes_bind fun _ => makes_or ?_ (makes_or ?_ ?_))
    · exact makes_bind fun _ => makes_bind fun _ => makes_pure trivial
    · exact makes_bind fun _ => makes_bind fun _ => makes_pure trivial
    · exact makes_bind fun _ => makes_bind fun _ => makes_bind fun _ => makes_bind fun _ => makes_bind fun _ => makes_bind fun _ =>
        makes_pure trivial
  · refine makes_rule (makes_bind fun a => makes_bind fun _ => makes_or ?_ (makes_or ?_ ?_))
    · exact makes_bind fun _ => makes_bind fun _ => makes_pure trivial
    · exact makes_bind fun _ => makes_bind fun _ => makes_pure trivial
    · exact makes_bind fun _ => makes_bind fun _ => makes_bind fun _ => makes_pure trivial
  · refine makes_rule (makes_bind fun a => makes_or ?_ (makes_or ?_ (makes_or ?_ ?_)))
    · exact makes_bind fun _ => makes_bind fun _ => makes_pure trivial
    · exact makes_bind fun _ => makes_bind fun _ => makes_pure trivial
    · exact makes_bind fun _ => makes_bind fun _ => makes_bind fun _ => makes_pure trivial
    · exact makes_bind fun _ => makes_bind fun _ => makes_pure trivial

theorem stop_not_in {u : Str} {es : List Str} (h : ∀ e ∈ es, e.getLast? = some ':') : ¬ EndsIn (u ++ py".") es := by
  rintro ⟨e, he, x, hx⟩
  have h1 : (squeeze (u ++ py".")).getLast? = some '.' := by
    have : squeeze (u ++ py".") = squeeze u ++ py"." := by
      unfold squeeze
      rw [List.filter_append]
      rfl
    rw [this, List.getLast?_append]
    rfl
  rw [← hx, List.getLast?_append, h e he] at h1
  cases h1

theorem blocks_end {u : Str} {n : GrammarNode} (hn : OfBlocks n) : ¬ NodeWritten (u ++ py".") n := by
  intro h
  have ha : ∀ e ∈ amendmentEnds ++ insertionEnds ++ subtitleEnds ++ structureEnds, e.getLast? = some ':' := by decide
  have sub : ∀ {es : List Str}, (∀ e ∈ es, e ∈ amendmentEnds ++ insertionEnds ++ subtitleEnds ++ structureEnds) → ¬ EndsIn (u ++ py".") es :=
    fun hes => stop_not_in fun e he => ha e (hes e he)
  cases n with
  | blockAmendment =>
    obtain ⟨_, _, _, ⟨_, _, h⟩ | ⟨_, h⟩⟩ := h
    · exact sub (by simp +contextual) h
    · exact sub (by simp +contextual) h
  | blockAmendmentWithSubtitle =>
    obtain ⟨_, _, _, _, ⟨_, _, h⟩ | ⟨_, _, h⟩⟩ := h
    · refine sub (fun e he => ?_) h
      rcases List.mem_append.mp he with he | he <;> simp only [List.mem_append, he, true_or, or_true]
    · exact sub (by simp +contextual) h
  | blockAmendmentStructural =>
    obtain ⟨_, _, _, ⟨_, _, h⟩ | ⟨_, _, h⟩⟩ := h
    · refine sub (fun e he => ?_) h
      rcases List.mem_append.mp he with he | he <;> simp only [List.mem_append, he, true_or, or_true]
    · exact sub (by simp +contextual) h
  | _ => exact hn

/-- The sentence is not an amendment of blocks. -/
theorem no_blocks {s : Str} (h : ∃ u, s = u ++ py".") :
    sentence specialSentences ⟨0, s⟩ = sentence [textAmendment, articleTitleAmendment, enforcementDate, repeal, structuralRepeal] ⟨0, s⟩ := by
  obtain ⟨u, rfl⟩ := h
  have no : ∀ p ∈ [blockAmendment, blockAmendmentWithSubtitle, blockAmendmentStructural], Sentence (u ++ py".") p → whole p ⟨0, u ++ py"."⟩ = none := by
    intro p hp hs
    cases h : whole p ⟨0, u ++ py"."⟩ with
    | none => rfl
    | some x =>
      obtain ⟨n, h1, h2⟩ := whole_written (makes_blocks p hp) hs h
      exact absurd h2 (blocks_end h1)
  unfold specialSentences
  rw [sentence_next (no _ (by simp) sentence_blockAmendment), sentence_next (no _ (by simp) sentence_blockAmendmentWithSubtitle),
    sentence_next (no _ (by simp) sentence_blockAmendmentStructural)]

/-! ## Amendments of texts -/

theorem quiet_word {w s : Str} (hw : PlainText w s) (hd : ∀ c ∈ w.head?, c ∉ py"-–−") : Quiet (' ' :: (w ++ s)) := by
  obtain ⟨c, t, rfl, hc⟩ := plain_not_space hw
  have e : (' ' :: (c :: t ++ s)).dropWhile isSpace = c :: t ++ s := by
    rw [dropWhile_space, List.cons_append, dropWhile_cons_of hc]
  refine quiet_of (by rintro _ ⟨⟩; decide) (.inr ⟨c :: t, s, e, hw⟩) ?_
  intro d u he hdash
  rw [e] at he
  cases he
  exact absurd hdash (hd c rfl)

theorem pauses_word {w s : Str} (hw : PlainText w s) : Pauses (' ' :: (w ++ s)) := by
  obtain ⟨c, t, rfl, hc⟩ := plain_not_space hw
  refine .inr ⟨c :: t, s, ?_, hw⟩
  rw [dropWhile_space, List.cons_append, dropWhile_cons_of hc]

/-- A quotation with a noun before it. -/
theorem noun_plain {b x u r : Str} (hb : Noun b) (h : QuoteText x u) : ∃ w t, b ++ (u ++ r) = w ++ t ∧ PlainText w t ∧
    (∀ c ∈ w.head?, c ∉ py"-–−") ∧ NotFirst (py",;évi") (' ' :: (b ++ (u ++ r))) := by
  obtain ⟨y, rfl, hy, _⟩ := h
  unfold Noun at hb
  simp only [List.mem_cons, List.not_mem_nil, or_false] at hb
  rcases hb with rfl | rfl | rfl
  · exact ⟨_, r, rfl, .quoted hy, by rintro _ ⟨⟩; decide, space_not_first (by decide +kernel) (by decide)⟩
  · exact ⟨py"a", ' ' :: ('„' :: y ++ (py"”") ++ r), rfl, plain_word rfl, by rintro _ ⟨⟩; decide, space_not_first (by decide +kernel) (by decide)⟩
  · exact ⟨py"az", ' ' :: ('„' :: y ++ (py"”") ++ r), rfl, plain_word rfl, by rintro _ ⟨⟩; decide, space_not_first (by decide +kernel) (by decide)⟩

theorem replacedTexts_quote {l : List (Str × Str)} {v : Str} (h : ReplacedTexts l v) : ∃ x u r, v = u ++ r ∧ QuoteText x u := by
  have : ∀ {x y w : Str}, ReplacedText x y w → ∃ u r, w = u ++ r ∧ QuoteText x u := by
    rintro x y w ⟨u, p, h, a, v, rfl, hu, _⟩
    exact ⟨u, _, by simp only [List.append_assoc]; rfl, hu⟩
  cases h with
  | one h _ => obtain ⟨u, r, rfl, hu⟩ := this h; exact ⟨_, u, _, by simp only [List.append_assoc]; rfl, hu⟩
  | cons h _ _ _ => obtain ⟨u, r, rfl, hu⟩ := this h; exact ⟨_, u, _, by simp only [List.append_assoc]; rfl, hu⟩

theorem takesEffect_read {e : Str} (he : e ∈ [py" lép.", py" lép hatályba."]) (m : Nat) : takesEffect ⟨m, e⟩ = some ((), ⟨m + e.length, []⟩) := by
  have h1 : ∀ {r : Str}, (∀ c ∈ r.head?, isNameChar c = false) → Reads (token (py"lép")) (py" lép") r (py"lép") := fun hr => name_space (by decide +kernel) hr
  have h2 : ∀ n, token (py".") ⟨n, py"."⟩ = some (py".", ⟨n + 1, []⟩) := reads_text (rest := []) (by decide +kernel)
  simp only [List.mem_cons, List.not_mem_nil, or_false] at he
  unfold takesEffect
  rcases he with rfl | rfl
  · have h3 : Fails (token (py"hatályba")) (py".") := fails_text rfl
    exact (bind_some (h1 (r := py".") (no_name (by decide +kernel)) m)).trans ((bind_some (h3.opt _)).trans (bind_some (h2 _)))
  · have h3 : Reads (token (py"hatályba")) (py" hatályba") (py".") (py"hatályba") := name_space (by decide +kernel) (no_name (by decide +kernel))
    exact (bind_some (h1 (r := py" hatályba.") no_name_space m)).trans ((bind_some (h3.opt _)).trans (bind_some (h2 _)))

theorem effect_rest {e : Str} (he : e ∈ [py" lép.", py" lép hatályba."]) : (∀ c ∈ e.head?, isNameChar c = false) ∧ NotFirst (py",;évi") e ∧
    Fails textAmendmentPart e ∧ ∃ u, e = u ++ py"." := by
  simp only [List.mem_cons, List.not_mem_nil, or_false] at he
  have no : ∀ {r : Str}, Fails textAmendmentPart (' ' :: 'l' :: r) := by
    intro r
    refine Fails.rule ?_
    rw [dropWhile_space, dropWhile_cons_of (by decide +kernel)]
    refine Fails.bind ?_
    intro n
    refine (bind_some ((fails_az (s := r) (c := 'l') (by decide +kernel) (by decide)).opt n)).trans ?_
    exact (fails_quote (notFirst_cons (by decide +kernel) (by decide))).bind n
  rcases he with rfl | rfl
  · exact ⟨no_name_space, space_not_first (by decide +kernel) (by decide), no, py" lép", rfl⟩
  · exact ⟨no_name_space, space_not_first (by decide +kernel) (by decide), no, py" lép hatályba", rfl⟩

theorem first_capital {o : Str} (ho : o ∈ [py"A ", py"Az "]) (s : Str) : ∃ t, o ++ s = 'A' :: t := by
  simp only [List.mem_cons, List.not_mem_nil, or_false] at ho
  rcases ho with rfl | rfl <;> exact ⟨_, rfl⟩

theorem texts_tree {o p v b q e : Str} {a : ParsedActRef} {rs : List ParsedRef} {l : List (Str × Str)} (ho : o ∈ [py"A ", py"Az "])
    (ha : ActPhrase o.length a p (' ' :: v ++ ' ' :: b ++ q ++ e)) (hr : ReferencesText (o.length + p.length + 1) rs v) (hb : Noun b)
    (hl : ReplacedTexts l q) (he : e ∈ [py" lép.", py" lép hatályba."]) :
    ∃ qs, parse (o ++ p ++ ' ' :: v ++ ' ' :: b ++ q ++ e) = some (withAct a (.textAmendment a rs qs)) ∧
      Both (fun q x => Quoted q.1 x.1 ∧ Quoted q.2 x.2) qs l := by
  simp only [List.append_assoc, List.cons_append] at ha ⊢
  obtain ⟨e1, e2, e3, u, eu⟩ := effect_rest he
  obtain ⟨x, y, r, rfl, hy⟩ := replacedTexts_quote hl
  obtain ⟨w, t, hw, h1, h2, h3⟩ := noun_plain (r := r ++ e) hb hy
  have hq : Quiet (' ' :: (b ++ (y ++ r ++ e))) := by
    rw [List.append_assoc, hw]
    exact quiet_word h1 h2
  have hnl : Fails listedReference (' ' :: (b ++ (y ++ r ++ e))) := by
    rw [List.append_assoc, hw]
    exact pauses_listed (pauses_word h1)
  rw [← List.append_assoc y] at h3
  obtain ⟨h4, h5⟩ := references_before hr hq h3
  have h6 := amendedAct_read ho ha (no_title_end (references_start hr _))
  have hj : (⟨o.length + p.length + 1 + v.length, ' ' :: (b ++ (y ++ r ++ e))⟩ : At).skip =
      ⟨o.length + p.length + 1 + v.length + 1, b ++ (y ++ r ++ e)⟩ := by
    rw [List.append_assoc, hw]
    obtain ⟨c, z, rfl, hc⟩ := plain_not_space h1
    exact space_skip hc _
  obtain ⟨qs, h7, h8, h9⟩ := replaced_steps hl hb e1 e2 hj
  have h10 : item textAmendmentPart ⟨o.length + p.length + 1 + v.length + 1 + b.length + (y ++ r).length, e⟩ = none := e3.bind _
  refine ⟨qs, ?_, h8⟩
  obtain ⟨z, hz⟩ := first_capital ho (p ++ ' ' :: (v ++ ' ' :: (b ++ (y ++ r ++ e))))
  have h11 : textAmendment ⟨0, o ++ (p ++ ' ' :: (v ++ ' ' :: (b ++ (y ++ r ++ e))))⟩ =
      some (withAct a (.textAmendment a rs qs), ⟨o.length + p.length + 1 + v.length + 1 + b.length + (y ++ r).length + e.length, []⟩) := by
    unfold textAmendment
    rw [hz, rule_eq (by decide +kernel), ← hz, bind_some h6, bind_some (many1_steps h4 h5 (hnl _)), bind_some (many1_steps h7 h9 h10)]
    exact bind_some (takesEffect_read he _)
  rw [hz]
  refine parse_of (k := ⟨o.length + p.length + 1 + v.length + 1 + b.length + (y ++ r).length + e.length, []⟩) (by decide +kernel) ?_
  rw [← hz, no_blocks, sentence_this (whole_read h11)]
  exact ⟨o ++ (p ++ ' ' :: (v ++ ' ' :: (b ++ (y ++ (r ++ u))))), by rw [eu]; simp⟩

/-! ## Repeals -/

theorem repealedTexts_quote {l : List Str} {v : Str} (h : RepealedTexts l v) : ∃ x u r, v = u ++ r ∧ QuoteText x u := by
  cases h with
  | one h _ => exact ⟨_, _, _, rfl, h⟩
  | cons h _ _ _ => exact ⟨_, _, _, by simp only [List.append_assoc]; rfl, h⟩

theorem first_repeal {o : Str} (ho : o ∈ [py"Nem lép hatályba ", py"Hatályát veszti "]) (s : Str) :
    ∃ c t, o ++ s = c :: t ∧ isSpace c = false ∧ c ∉ py"AaE" := by
  simp only [List.mem_cons, List.not_mem_nil, or_false] at ho
  rcases ho with rfl | rfl <;> exact ⟨_, _, rfl, by decide +kernel, by decide⟩

theorem fails_amendedAct {c : Char} {s : Str} (h : c ∉ py"Aa") : Fails amendedAct (c :: s) := by
  refine Fails.bind (fails_pattern (seq_none (set_none ?_)))
  rintro _ ⟨⟩
  simp only [List.mem_cons, List.not_mem_nil, or_false, not_or] at h
  simp [h.1, h.2]

theorem not_amendment {c : Char} {s : Str} (hs : isSpace c = false) (h : c ∉ py"Aa") :
    textAmendment ⟨0, c :: s⟩ = none ∧ articleTitleAmendment ⟨0, c :: s⟩ = none := by
  unfold textAmendment articleTitleAmendment
  rw [rule_eq hs, rule_eq hs]
  exact ⟨bind_none (fails_amendedAct h _), bind_none (fails_amendedAct h _)⟩

theorem not_enforcement {c : Char} {s : Str} (hs : isSpace c = false) (h : c ∉ py"AaE") : enforcementDate ⟨0, c :: s⟩ = none := by
  simp only [List.mem_cons, List.not_mem_nil, or_false, not_or] at h
  unfold enforcementDate
  rw [rule_eq hs]
  refine bind_none ((Fails.or (Fails.bind (fails_tokens fun t ht => ?_)) (Fails.bind (fails_pattern (seq_none (set_none ?_))))) 0)
  · have : t.head? = some 'E' := by
      simp only [List.mem_cons, List.not_mem_nil, or_false] at ht
      rcases ht with rfl | rfl <;> rfl
    refine fails_token this fun d hd => ?_
    rw [first_cons hs] at hd
    cases hd
    exact h.2.2
  · rintro _ ⟨⟩
    simpa using h.1

theorem item_fails {α : Type} {p : Peg α} {s : Str} (h : Fails p s) : Fails (item p) s := h.bind

theorem fails_repealedText {c : Char} {s : Str} (hs : isSpace c = false) (ha : c ≠ 'a') (hq : c ≠ '„') : Fails repealedText (c :: s) := by
  intro n
  refine (bind_some ((fails_az hs ha).opt n)).trans ?_
  exact (fails_quote (notFirst_cons hs (by simpa using hq))).bind n

theorem repeal_tree {o b p v t : Str} {a : ParsedActRef} {rs : List ParsedRef} {l : List Str}
    (ho : o ∈ [py"Nem lép hatályba ", py"Hatályát veszti "]) (hb : b ∈ [py"a ", py"az "])
    (ha : ActPhrase (o.length + b.length) a p (' ' :: v ++ t ++ py".")) (hr : ReferencesText (o.length + b.length + p.length + 1) rs v)
    (ht : (l = [] ∧ t = []) ∨ ∃ b q, t = ' ' :: b ++ q ∧ Noun b ∧ RepealedTexts l q) :
    ∃ qs, parse (o ++ b ++ p ++ ' ' :: v ++ t ++ py".") = some (withAct a (.simpleRepeal a rs qs)) ∧ Both Quoted qs l := by
  simp only [List.append_assoc, List.cons_append] at ha ⊢
  have h6 := repealedAct_read ho hb ha (no_title_end (references_start hr _))
  have dot : ∀ m, token (py".") ⟨m, py"."⟩ = some (py".", ⟨m + 1, []⟩) := reads_text (rest := []) (by decide +kernel)
  have stop : Fails (item repealedText) (py".") := item_fails (fails_repealedText (by decide +kernel) (by decide) (by decide))
  -- the rest of the sentence
  have rest : ∃ qs, Both Quoted qs l ∧ Quiet (t ++ py".") ∧ Fails listedReference (t ++ py".") ∧ NotFirst (py",;évi") (t ++ py".") ∧
      many (item repealedText) ⟨o.length + b.length + p.length + 1 + v.length, t ++ py"."⟩ =
        some (qs, ⟨o.length + b.length + p.length + 1 + v.length + t.length, py"."⟩) := by
    rcases ht with ⟨rfl, rfl⟩ | ⟨c, q, rfl, hc, hq⟩
    · have hd : Pauses (py".") := .inr ⟨py".", [], rfl, plain_mark (by decide +kernel)⟩
      refine ⟨[], .nil, quiet_of (by rintro _ ⟨⟩; decide) hd ?_, pauses_listed hd, notFirst_cons (by decide +kernel) (by decide),
        many_fails stop _⟩
      intro d u he hdash
      cases he
      exact absurd hdash (by decide)
    · obtain ⟨x, y, r, rfl, hy⟩ := repealedTexts_quote hq
      obtain ⟨w, z, hw, h1, h2, h3⟩ := noun_plain (r := r ++ py".") hc hy
      have ew : ' ' :: c ++ (y ++ r) ++ (py".") = ' ' :: (w ++ z) := by rw [← hw]; simp
      have ew' : ' ' :: (c ++ (y ++ (r ++ py"."))) = ' ' :: c ++ (y ++ r) ++ (py".") := by simp
      have hj : ∀ m, (⟨m, ' ' :: c ++ (y ++ r) ++ py"."⟩ : At).skip = ⟨m + 1, c ++ ((y ++ r) ++ py".")⟩ := by
        intro m
        have e : c ++ ((y ++ r) ++ py".") = w ++ z := by rw [← hw]; simp
        rw [ew, e]
        obtain ⟨c, z, rfl, hc⟩ := plain_not_space h1
        exact space_skip hc _
      obtain ⟨qs, h7, h8, _⟩ := repealed_steps hq hc (rest := py".") (no_name (by decide +kernel)) (notFirst_cons (by decide +kernel) (by decide))
        (hj (o.length + b.length + p.length + 1 + v.length))
      refine ⟨qs, h8, ?_, ?_, ?_, ?_⟩
      · rw [ew]; exact quiet_word h1 h2
      · rw [ew]; exact pauses_listed (pauses_word h1)
      · rw [← ew']; exact h3
      · have e : o.length + b.length + p.length + 1 + v.length + (' ' :: c ++ (y ++ r)).length =
            o.length + b.length + p.length + 1 + v.length + 1 + c.length + (y ++ r).length := by
          simp
          omega
        rw [e]
        exact many_steps h7 (stop _)
  obtain ⟨qs, h8, hq, hnl, hnf, hm⟩ := rest
  obtain ⟨h4, h5⟩ := references_before hr hq hnf
  refine ⟨qs, ?_, h8⟩
  obtain ⟨c, z, hz, hc1, hc2⟩ := first_repeal ho (b ++ (p ++ ' ' :: (v ++ (t ++ py"."))))
  have h11 : repeal ⟨0, o ++ (b ++ (p ++ ' ' :: (v ++ (t ++ py"."))))⟩ =
      some (withAct a (.simpleRepeal a rs qs), ⟨o.length + b.length + p.length + 1 + v.length + t.length + 1, []⟩) := by
    unfold repeal
    rw [hz, rule_eq hc1, ← hz, bind_some h6, bind_some (many1_steps h4 h5 (hnl _)), bind_some hm]
    exact bind_some (dot _)
  rw [hz]
  refine parse_of (k := ⟨o.length + b.length + p.length + 1 + v.length + t.length + 1, []⟩) hc1 ?_
  have hx := not_amendment (s := z) hc1 (fun h => hc2 (by simp at h ⊢; rcases h with h | h <;> simp [h]))
  rw [no_blocks, sentence_next (whole_none hx.1), sentence_next (whole_none hx.2), sentence_next (whole_none (not_enforcement hc1 hc2)), ← hz,
    sentence_this (whole_read h11)]
  exact ⟨o ++ (b ++ (p ++ ' ' :: (v ++ t))), by rw [← hz]; simp⟩

/-! ## Amendments of titles -/

theorem article_head {x : Str} (h : ArticleNumber x) : ∃ c t, x = c :: t ∧ isAsciiDigit c = true := by
  obtain ⟨b, n, l, rfl, hb, hn, _⟩ := h
  have : ∀ {d : Str}, Digits d → ∃ c t, d = c :: t ∧ isAsciiDigit c = true := by
    intro d hd
    obtain ⟨c, t, rfl⟩ := List.exists_cons_of_ne_nil hd.1
    exact ⟨c, t, rfl, hd.2 c (List.mem_cons_self ..)⟩
  rcases hb with rfl | ⟨d, hd, rfl⟩
  · obtain ⟨c, t, rfl, hc⟩ := this hn
    exact ⟨c, _, rfl, hc⟩
  · obtain ⟨c, t, rfl, hc⟩ := this hd
    exact ⟨c, _, rfl, hc⟩

theorem pieces_read {x rest : Str} (h : ArticleNumber x) (hr : Stop rest) (n : Nat) :
    ∃ ps, ps.flatten = x ∧ articleIdPieces ⟨n, x ++ rest⟩ = some (ps, ⟨n + x.length, rest⟩) := by
  have h1 := reads_articleId h hr n
  obtain ⟨c, t, hx, hc⟩ := article_head h
  have hsk : (⟨n, x ++ rest⟩ : At).skip = ⟨n, x ++ rest⟩ := by
    rw [hx]
    exact skip_cons (digit_not_space hc) n
  unfold articleId rule at h1
  rw [hsk] at h1
  cases hp : articleIdPieces ⟨n, x ++ rest⟩ with
  | none => rw [bind_none hp] at h1; cases h1
  | some y =>
    rw [bind_some (a := y.1) (j := y.2) hp] at h1
    obtain ⟨ps, j⟩ := y
    have h2 : (ps.flatten, j) = (x, (⟨n + x.length, rest⟩ : At)) := Option.some.inj h1
    obtain ⟨h3, h4⟩ := Prod.mk.inj h2
    exact ⟨ps, h3, by rw [h4]⟩

/-- An article that is named alone. -/
theorem article_text {n : Nat} {x g : Str} (hx : ArticleNumber x) (hg : EndText .article g) :
    ∃ p : ParsedPart, ReferencesText n [([p], ↑n, ↑(n + (x ++ (py". ") ++ g).length))] (x ++ (py". ") ++ g) := by
  refine ⟨{ kind := .article, singles := [(x, ↑n, ↑(n + (x ++ py".").length))], ranges := [] }, .one (.one ?_)⟩
  refine ⟨[.inr (x, ↑n, ↑(n + (x ++ py".").length))], x ++ py".", g, .one ⟨rfl, hx, rfl⟩, hg, by simp, rfl, rfl⟩

theorem single_read {n : Nat} {x g rest : Str} (hx : ArticleNumber x) (hg : EndText .article g) (hr : WordEnds rest) {j : At}
    (hj : j.skip = ⟨n, x ++ '.' :: ' ' :: (g ++ rest)⟩) : ∃ ps, ps.flatten = x ∧
      singleArticleReference j = some ((ps, ↑n, ↑(n + (x ++ (py". ") ++ g).length)), ⟨n + (x ++ (py". ") ++ g).length, rest⟩) := by
  obtain ⟨ps, h1, h2⟩ := pieces_read hx (stop_dot (' ' :: (g ++ rest))) n
  obtain ⟨y, h3⟩ := reads_suffixOf (k := .article) hg hr
  refine ⟨ps, h1, ?_⟩
  have h4 : (do
      let pieces ← articleIdPieces
      let _ ← token (py".")
      let _ ← articleSuffix
      pure pieces : Peg (List Str)) ⟨n, x ++ '.' :: ' ' :: (g ++ rest)⟩ = some (ps, ⟨n + x.length + 1 + (' ' :: g).length, rest⟩) := by
    exact (bind_some h2).trans ((bind_some (reads_dot (' ' :: (g ++ rest)) _)).trans (bind_some (h3 _)))
  have e : n + x.length + 1 + (' ' :: g).length = n + (x ++ (py". ") ++ g).length := by simp; omega
  rw [e] at h4
  unfold singleArticleReference located
  rw [hj, h4]

theorem title_word_read {c rest : Str} (hc : Inflected (py"cím") c) (hn : c ≠ py"cím") (hr : rest.head? = some ' ') :
    PlainText c rest ∧ (∃ t, c = 'c' :: t) ∧ Reads (rule (pattern (.seq (.str (py"cím")) (.plus isLowerHun)))) (' ' :: c) rest c := by
  obtain ⟨ce, rfl, hce⟩ := hc
  have hne : ce ≠ [] := by rintro rfl; exact hn rfl
  have low : ∀ d ∈ (py"cím") ++ ce, hunLower d := by
    intro d hd
    rcases List.mem_append.mp hd with hd | hd
    · have : ∀ d ∈ (py"cím"), hunLower d := by unfold hunLower; decide +kernel
      exact this d hd
    · exact hce d hd
  refine ⟨?_, ⟨_, rfl⟩, ?_⟩
  · refine .word (by simp) (fun d hd => .inl (.inl (low d hd))) (fun d hd => ?_) ?_ (fun h => ?_) (.inl ?_)
    · have : d ∈ (py"cím") := by simpa using hd
      have h3 : ∀ d ∈ (py"cím"), d ≠ '-' := by decide
      exact h3 d this
    · rw [hr]
      rintro _ ⟨⟩
      unfold hunLetter hunLower
      decide +kernel
    · simp at h
    · rintro _ ⟨⟩
      exact low 'c' (by simp)
  · refine Reads.rule_space (c := 'c') (Reads.matches (str_seq_ends (by decide) (plus_ends hne (fun d hd => isLowerHun_of (hce d hd)) ?_))) rfl (by decide +kernel)
    rw [hr]
    rintro _ ⟨⟩
    decide +kernel

theorem title_tree {o p x g c b old new q z e : Str} {a : ParsedActRef} (ho : o ∈ [py"A ", py"Az "])
    (ha : ActPhrase o.length a p (' ' :: x ++ (py". ") ++ g ++ ' ' :: c ++ ' ' :: b ++ q ++ z ++ e)) (hx : ArticleNumber x)
    (hg : EndText .article g) (hc : Inflected (py"cím") c) (hn : c ≠ py"cím") (hb : Noun b) (hq : ReplacedText old new q)
    (hz : ReplacingWord z) (he : e ∈ [py" lép.", py" lép hatályba."]) :
    ∃ ps q1 q2, parse (o ++ p ++ ' ' :: x ++ (py". ") ++ g ++ ' ' :: c ++ ' ' :: b ++ q ++ z ++ e) = some (withAct a (.articleTitleAmendment a
      (ps, ↑(o.length + p.length + 1), ↑(o.length + p.length + 1 + (x ++ (py". ") ++ g).length)) q1 q2)) ∧
      ps.flatten = x ∧ Quoted q1 old ∧ Quoted q2 new := by
  obtain ⟨part, hrefs⟩ := article_text (n := o.length + p.length + 1) hx hg
  have hsingle := fun rest (hr : WordEnds rest) (j : At) => single_read (n := o.length + p.length + 1) (rest := rest) (j := j) hx hg hr
  have e0 : ∀ rest, x ++ '.' :: ' ' :: (g ++ rest) = (x ++ (py". ") ++ g) ++ rest := by simp
  simp only [e0] at hsingle
  have e1 : ∀ rest, ' ' :: x ++ (py". ") ++ g ++ rest = ' ' :: ((x ++ (py". ") ++ g) ++ rest) := by simp
  have e2 : ' ' :: x ++ (py". ") ++ g ++ ' ' :: c ++ ' ' :: b ++ q ++ z ++ e = ' ' :: ((x ++ (py". ") ++ g) ++ ' ' :: (c ++ ' ' :: (b ++ (q ++ (z ++ e))))) := by simp
  have e3 : o ++ p ++ ' ' :: x ++ (py". ") ++ g ++ ' ' :: c ++ ' ' :: b ++ q ++ z ++ e =
    o ++ (p ++ ' ' :: ((x ++ (py". ") ++ g) ++ ' ' :: (c ++ ' ' :: (b ++ (q ++ (z ++ e)))))) := by simp
  rw [e2] at ha
  rw [e3]
  have hv : ∃ d t, x ++ (py". ") ++ g = d :: t ∧ isAsciiDigit d = true := by
    obtain ⟨d, t, hx', hd⟩ := article_head hx
    exact ⟨d, _, by rw [hx']; rfl, hd⟩
  clear e0 e1 e2 e3
  generalize hvx : x ++ (py". ") ++ g = v at *
  obtain ⟨e1, e2, e3, u, eu⟩ := effect_rest he
  obtain ⟨hw, ⟨ct, hct⟩, h9⟩ := title_word_read (rest := ' ' :: (b ++ (q ++ (z ++ e)))) hc hn rfl
  have hquiet : Quiet (' ' :: (c ++ ' ' :: (b ++ (q ++ (z ++ e))))) := quiet_word hw (by rw [hct]; rintro _ ⟨⟩; decide)
  have hnl : Fails listedReference (' ' :: (c ++ ' ' :: (b ++ (q ++ (z ++ e))))) := pauses_listed (pauses_word hw)
  obtain ⟨h4, h5⟩ := references_before hrefs hquiet (by rw [hct]; exact space_not_first (by decide +kernel) (by decide))
  have st := references_start hrefs (' ' :: (c ++ ' ' :: (b ++ (q ++ (z ++ e)))))
  have h6 := amendedAct_read ho ha (no_title_end st)
  obtain ⟨z', hz'⟩ := first_capital ho (p ++ ' ' :: (v ++ ' ' :: (c ++ ' ' :: (b ++ (q ++ (z ++ e))))))
  -- it is not an amendment of texts
  have no : textAmendment ⟨0, o ++ (p ++ ' ' :: (v ++ ' ' :: (c ++ ' ' :: (b ++ (q ++ (z ++ e))))))⟩ = none := by
    unfold textAmendment
    rw [hz', rule_eq (by decide +kernel), ← hz', bind_some h6, bind_some (many1_steps h4 h5 (hnl _))]
    refine bind_none (many1_none (bind_none ?_))
    rw [hct]
    refine Fails.rule ?_ _
    rw [dropWhile_space, List.cons_append, dropWhile_cons_of (by decide +kernel)]
    intro n
    refine bind_none ?_
    refine (bind_some ((fails_az (c := 'c') (by decide +kernel) (by decide)).opt n)).trans ?_
    exact (fails_quote (notFirst_cons (by decide +kernel) (by decide))).bind n
  have hj : (⟨o.length + p.length, ' ' :: (v ++ ' ' :: (c ++ ' ' :: (b ++ (q ++ (z ++ e)))))⟩ : At).skip =
      ⟨o.length + p.length + 1, v ++ ' ' :: (c ++ ' ' :: (b ++ (q ++ (z ++ e))))⟩ := by
    obtain ⟨d, t, hx', hd⟩ := hv
    rw [hx']
    exact space_skip (digit_not_space hd) _
  obtain ⟨ps, h7, h8⟩ := hsingle (' ' :: (c ++ ' ' :: (b ++ (q ++ (z ++ e))))) (by rintro _ ⟨⟩; decide) _ hj
  obtain ⟨qt, hqt⟩ := replaced_head hq
  have hj2 : ∀ M, (⟨M + (' ' :: c).length, ' ' :: (b ++ (q ++ (z ++ e)))⟩ : At).skip = ⟨M + (' ' :: c).length + 1, b ++ (q ++ (z ++ e))⟩ := by
    intro M
    rw [hqt]
    unfold Noun at hb
    simp only [List.mem_cons, List.not_mem_nil, or_false] at hb
    rcases hb with rfl | rfl | rfl <;> exact space_skip (by decide +kernel) _
  obtain ⟨q1, q2, hq1, hq2, h10⟩ := replacement_read (rest := z ++ e) hb hq (hj2 (o.length + p.length + 1 + v.length))
  obtain ⟨h11, _, _⟩ := replacing_read hz e1
  refine ⟨ps, q1, q2, ?_, h7, hq1, hq2⟩
  have fin : ∃ K, articleTitleAmendment ⟨0, o ++ (p ++ ' ' :: (v ++ ' ' :: (c ++ ' ' :: (b ++ (q ++ (z ++ e))))))⟩ =
      some (withAct a (.articleTitleAmendment a (ps, ↑(o.length + p.length + 1), ↑(o.length + p.length + 1 + v.length)) q1 q2), ⟨K, []⟩) := by
    refine ⟨o.length + p.length + 1 + v.length + (' ' :: c).length + 1 + b.length + q.length + z.length + e.length, ?_⟩
    unfold articleTitleAmendment
    rw [hz', rule_eq (by decide +kernel), ← hz', bind_some h6, bind_some h8]
    exact (bind_some (h9 _)).trans ((bind_some h10).trans ((bind_some (h11 _)).trans (bind_some (takesEffect_read he _))))
  obtain ⟨K, hK⟩ := fin
  rw [hz']
  refine parse_of (k := ⟨K, []⟩) (by decide +kernel) ?_
  rw [← hz', no_blocks, sentence_next (whole_none no), sentence_this (whole_read hK)]
  exact ⟨o ++ (p ++ ' ' :: (v ++ ' ' :: (c ++ ' ' :: (b ++ (q ++ (z ++ u)))))), by rw [eu]; simp⟩

end Verif.ActGrammar
