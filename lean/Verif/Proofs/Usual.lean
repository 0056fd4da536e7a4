import Verif.Spec.Usual
import Verif.Proofs.Headings
import Verif.Proofs.ParsedArticle

/-! # Acts that are written in the usual way are parsed -/

namespace Verif

open Verif.Spec

variable {inAct : Bool}

/-! ## Lines -/

theorem fine_text (ps : List Part) (h : ∀ p ∈ ps, p.content.length = 1) : (ps.flatMap (·.content)).length = ps.length := by
  induction ps with
  | nil => rfl
  | cons p ps ih =>
    simp only [List.flatMap_cons, List.length_append, List.length_cons, h p (by simp), ih fun q hq => h q (by simp [hq])]
    omega

theorem Spec.Fine.length {l : Line} (h : Fine l) : l.content.length = l.parts.length := fine_text _ h

theorem Spec.Fine.fineEnd {l : Line} (h : Fine l) : FineEnd l := fun p hp => h p (List.mem_of_mem_getLast? hp)

theorem Spec.Fine.content {l : Line} (h : Fine l) (he : l.isEmptyLine = false) : l.content ≠ [] := by
  intro hc
  have := h.length
  rw [hc] at this
  unfold Line.isEmptyLine at he
  rw [List.isEmpty_eq_false_iff] at he
  exact he (List.eq_nil_of_length_eq_zero this.symm)

theorem Spec.Fine.border {l : Line} (h : Fine l) {k : Nat} (hk : k ≤ l.content.length) : Border l k := by
  rw [h.length] at hk
  refine ⟨l.parts.take k, l.parts.drop k, (List.take_append_drop ..).symm, ?_⟩
  rw [fine_text _ fun p hp => h p (List.mem_of_mem_take hp), List.length_take]
  omega

theorem place_length (ps : List Part) : ∀ x, (place x ps).length = ps.length := by
  induction ps with
  | nil => exact fun _ => rfl
  | cons p ps ih => intro x; simp [place, ih]

theorem place_inj (ps : List Part) : ∀ (qs : List Part) (x : Rat), place x ps = place x qs → ps = qs := by
  induction ps with
  | nil => intro qs x h; cases qs with
    | nil => rfl
    | cons q qs => cases h
  | cons p ps ih =>
    intro qs x h
    cases qs with
    | nil => cases h
    | cons q qs =>
      simp only [place, List.cons.injEq, Prod.mk.injEq] at h
      obtain ⟨⟨h1, h2, h3⟩, h4⟩ := h
      have hd : p.dx = q.dx := by grind
      rw [hd] at h4
      rw [ih _ _ h4]
      cases p; cases q
      simp_all

theorem place_fine (ps : List Part) (h : ∀ p ∈ ps, p.content.length = 1) : ∀ (x : Rat) (qs : List Placed), qs.Sublist (place x ps) →
    (placedText qs).length = qs.length := by
  intro x qs hq
  have hall : ∀ q ∈ place x ps, q.2.1.length = 1 := by
    clear hq
    induction ps generalizing x with
    | nil => intro q hq; cases hq
    | cons p ps ih =>
      intro q hq
      rcases List.mem_cons.1 hq with rfl | hq
      · exact h p (by simp)
      · exact ih (fun q hq => h q (by simp [hq])) _ q hq
  have : ∀ q ∈ qs, q.2.1.length = 1 := fun q hm => hall q (hq.subset hm)
  clear hq hall
  induction qs with
  | nil => rfl
  | cons q qs ih =>
    unfold placedText at ih ⊢
    simp only [List.flatMap_cons, List.length_append, List.length_cons, this q (by simp), ih fun q hq => this q (by simp [hq])]
    omega

/-- The cut line is a slice. -/
theorem cut_slice {l l' : Line} {a b : Nat} (hf : Fine l) (h : CutLine l a b l') : l.slice a (some b) = .ok l' := by
  obtain ⟨hab, hb, hp, hm⟩ := h
  obtain ⟨r, hr⟩ := (Props.slice_succeeds_iff l a b hab hb (FineEnd.not_inside hf.fineEnd a)).1 ⟨hf.border (by omega), hf.border hb⟩
  have hc := slice_fine hf.fineEnd hr
  simp only [Option.getD_some] at hc
  have hlen : r.content.length = b - a := by
    rw [hc]
    unfold pySlice pyBound
    simp only [Int.toNat_natCast]
    rw [if_neg (by omega), if_neg (by omega)]
    simp; omega
  have hne : r ≠ emptyLine := by
    rintro rfl
    simp only [emptyLine, Line.content, List.flatMap_nil, List.length_nil] at hlen
    omega
  obtain ⟨pre, post, h1, h2, h3⟩ := Props.slice_keeps_places l r a (some b) hr hne
  have hb0 : pyBound l.content.length (a : Int) = a := by
    unfold pyBound
    rw [if_neg (by omega)]
    simp; omega
  rw [hb0, place_fine _ hf 0 pre (by rw [h1, List.append_assoc]; exact List.sublist_append_left _ _)] at h2
  have hrl : (place 0 r.parts).length = b - a := by
    rw [← place_fine _ hf 0 (place 0 r.parts) (by rw [h1]; exact (List.sublist_append_right _ _).trans (List.sublist_append_left _ _)),
      Line.place_text, ← hlen]
    rfl
  have hl := congrArg List.length h1
  rw [place_length, ← hf.length, List.length_append, List.length_append, hrl, h2] at hl
  have hpl : place 0 r.parts = place 0 l'.parts := by
    rw [hp, h1, List.take_append_of_le_length (by simp [hrl, h2]; omega), List.take_of_length_le (by simp [hrl, h2]; omega),
      List.drop_append_of_le_length (by omega), List.drop_of_length_le (by omega), List.nil_append]
  rw [hr]
  have hparts := place_inj _ _ _ hpl
  have hmr : r.marginRight = l'.marginRight := by
    rw [h3, hm]
    have : post.length = l.content.length - b := by omega
    rw [this]
  cases r; cases l'
  simp only at hparts hmr
  rw [hparts, hmr]

theorem cut_from {l l' : Line} {a : Nat} (hf : Fine l) (h : CutLine l a l.content.length l') : l.slice a = .ok l' := by
  have := cut_slice hf h
  rw [Line.slice_eq] at this ⊢
  exact this

theorem cut_between {l l' : Line} {a : Nat} (hf : Fine l) (h : CutLine l a (l.content.length - 1) l') : l.slice a (some (-1)) = .ok l' := by
  have := cut_slice hf h
  rw [Line.slice_eq] at this ⊢
  have hadj : l.adjust ((l.content.length - 1 : Nat) : Int) = l.adjust (-1) := by
    unfold Line.adjust
    have := h.1
    have := h.2.1
    rw [if_neg (by omega), if_pos (by omega)]
    omega
  simp only [Option.getD_some, hadj] at this ⊢
  exact this

theorem place_contents (ps : List Part) (h : ∀ p ∈ ps, p.content.length = 1) : ∀ (x : Rat), ∀ q ∈ place x ps, q.2.1.length = 1 := by
  induction ps with
  | nil => intro x q hq; cases hq
  | cons p ps ih =>
    intro x q hq
    rcases List.mem_cons.1 hq with rfl | hq
    · exact h p (by simp)
    · exact ih (fun q hq => h q (by simp [hq])) _ q hq

theorem fine_of_place (ps : List Part) : ∀ (x : Rat), (∀ q ∈ place x ps, q.2.1.length = 1) → ∀ p ∈ ps, p.content.length = 1 := by
  induction ps with
  | nil => intro x h p hp; cases hp
  | cons p ps ih =>
    intro x h q hq
    rcases List.mem_cons.1 hq with rfl | hq
    · exact h _ (List.mem_cons_self ..)
    · exact ih (x + p.dx) (fun q hq => h q (List.mem_cons_of_mem _ hq)) q hq

theorem Spec.CutLine.fine {l l' : Line} {a b : Nat} (hf : Fine l) (h : CutLine l a b l') : Fine l' := by
  refine fine_of_place _ 0 fun q hq => place_contents _ hf 0 q ?_
  rw [h.2.2.1] at hq
  exact List.mem_of_mem_take (List.mem_of_mem_drop hq)

theorem Spec.CutLine.content {l l' : Line} {a : Nat} (hf : Fine l) (h : CutLine l a l.content.length l') : l'.content = l.content.drop a :=
  slice_fine_from hf.fineEnd (cut_from hf h)

theorem Spec.CutLine.full {l l' : Line} {a b : Nat} (h : CutLine l a b l') (hf : Fine l) : l'.isEmptyLine = false := by
  have hl := congrArg List.length h.2.2.1
  rw [place_length, List.length_drop, List.length_take, place_length, ← hf.length] at hl
  have := h.1
  have := h.2.1
  unfold Line.isEmptyLine
  rw [List.isEmpty_eq_false_iff]
  intro he
  rw [he, List.length_nil] at hl
  omega

theorem joinLines_eq {ls : List Line} (h : ∀ l ∈ ls, Fine l) : joinLines ls = joined (lineTexts ls) := by
  unfold joinLines
  exact Props.join_single_spaces_partial _ (by
    intro s hs
    obtain ⟨l, hl, rfl⟩ := List.mem_map.1 hs
    rw [List.mem_filter] at hl
    exact (h l hl.1).content (by simpa using hl.2))

/-! ## Levels -/

/-- The lines with the levels where they begin. -/
def levels : Int → List Line → List (Int × Line)
  | _, [] => []
  | q, l :: ls => (q, l) :: levels (q + openQuotes [l]) ls

theorem levels_append (a b : List Line) : ∀ q, levels q (a ++ b) = levels q a ++ levels (q + openQuotes a) b := by
  induction a with
  | nil => intro q; simp [levels, openQuotes_nil]
  | cons l a ih =>
    intro q
    simp only [List.cons_append, levels, ih]
    rw [show openQuotes (l :: a) = openQuotes [l] + openQuotes a from by rw [← openQuotes_append]; rfl, Int.add_assoc]

theorem quoteLevels (ls : List Line) : ∀ (q : Int), (∀ before after, ls = before ++ after → 0 ≤ q + openQuotes before) →
    quoteLevelLoop true q ls = ⟨levels q ls, if q + openQuotes ls ≠ 0 then some .valueError else none⟩ := by
  induction ls with
  | nil => intro q _; simp [quoteLevelLoop, levels, openQuotes_nil]
  | cons l ls ih =>
    intro q h
    have h1 := h [l] ls rfl
    rw [openQuotes_one] at h1
    simp only [quoteLevelLoop]
    rw [if_neg (by simpa using h1), ih]
    · rw [show openQuotes (l :: ls) = openQuotes [l] + openQuotes ls from by rw [← openQuotes_append]; rfl]
      simp only [levels, openQuotes_one, Int.add_assoc]
    · intro before after hb
      have := h (l :: before) after (by rw [hb]; rfl)
      rw [show openQuotes (l :: before) = openQuotes [l] + openQuotes before from by rw [← openQuotes_append]; rfl, openQuotes_one] at this
      omega

theorem iterate_closed {ls : List Line} (h : QuotesClosed ls) : iterateWithQuoteLevel ls = ⟨levels 0 ls, none⟩ := by
  unfold iterateWithQuoteLevel
  rw [quoteLevels ls 0 (by simpa using h.1)]
  simp [h.2]

theorem Spec.QuotesClosed.append {a b : List Line} (ha : QuotesClosed a) (hb : QuotesClosed b) : QuotesClosed (a ++ b) := by
  refine ⟨?_, by rw [openQuotes_append, ha.2, hb.2]; rfl⟩
  intro before after h
  rcases List.append_eq_append_iff.1 h with ⟨x, rfl, hx⟩ | ⟨x, rfl, hx⟩
  · rw [openQuotes_append, ha.2]
    have := hb.1 x after hx
    omega
  · exact ha.1 before x rfl

theorem openQuotes_cons' (l : Line) (ls : List Line) : openQuotes (l :: ls) = openQuotes [l] + openQuotes ls := by
  rw [← openQuotes_append]; rfl

/-- The first line may be replaced by one with the same quotes. -/
theorem Spec.QuotesClosed.replace {l l' : Line} {ls : List Line} (h : QuotesClosed (l :: ls)) (hl : openQuotes [l'] = openQuotes [l]) :
    QuotesClosed (l' :: ls) := by
  refine ⟨?_, by rw [openQuotes_cons', hl, ← openQuotes_cons', h.2]⟩
  intro before after hb
  cases before with
  | nil => simp [openQuotes_nil]
  | cons x before =>
    obtain ⟨rfl, rfl⟩ := List.cons.inj hb
    rw [openQuotes_cons', hl, ← openQuotes_cons']
    exact h.1 (l :: before) after rfl

theorem openQuotes_empty {ls : List Line} (h : ∀ l ∈ ls, l.isEmptyLine = true) : openQuotes ls = 0 := by
  induction ls with
  | nil => rfl
  | cons l ls ih =>
    rw [openQuotes_cons', ih fun l hl => h l (by simp [hl]), openQuotes_one, content_of_empty (h l (by simp))]
    rfl

theorem closed_empty {ls : List Line} (h : ∀ l ∈ ls, l.isEmptyLine = true) : QuotesClosed ls := by
  refine ⟨fun before after hb => ?_, openQuotes_empty h⟩
  rw [openQuotes_empty fun l hl => h l (by rw [hb]; simp [hl])]
  omega

/-! ## Finding the elements of a list -/

/-- What is known of the parser for the elements of a list. -/
structure Finds (P : ElementParser) (k : SaeKind) (p : Str) : Prop where
  kind : P.kind = k
  looks : P.Looks (ElementHeading k p) (ElementAfter k p)
  first : P.first = firstNumber k p
  wraps : P.canHaveWrapUp = true ↔ k ≠ .numericSubpoint ∧ k ≠ .paragraph
  intro : P.mustHaveIntro = true ↔ k ≠ .paragraph
  next : ∀ {s t a b}, ElementHeading k p s a → ElementHeading k p t b → ElementAfter k p a b → P.kind.isNextIdentifier a b = .ok true
  total : ∀ {s t a b}, k ≠ .alphabeticSubpoint → ElementHeading k p s a → ElementHeading k p t b → ∃ r, P.kind.isNextIdentifier a b = .ok r

theorem numeric_total {a b : Str} (ha : IsNumericPointId a) (hb : IsNumericPointId b) : ∃ r, isNextNumericIdentifier a b = .ok r := by
  obtain ⟨D1, r1, _, h1, _, rfl, t1⟩ := numeric_shape ha
  obtain ⟨D2, r2, _, h2, _, rfl, t2⟩ := numeric_shape hb
  have f1 : (D1 ++ r1).filter (· ≠ '/') = D1 ++ r1.filter (· ≠ '/') := by
    rw [List.filter_append, filter_slash_number h1]
  have f2 : (D2 ++ r2).filter (· ≠ '/') = D2 ++ r2.filter (· ≠ '/') := by
    rw [List.filter_append, filter_slash_number h2]
  unfold isNextNumericIdentifier
  simp only [f1, f2]
  rcases numericTail_filter t1 with s1 | ⟨c1, hc1, s1⟩ <;> rcases numericTail_filter t2 with s2 | ⟨c2, hc2, s2⟩ <;>
    simp only [s1, s2]
  · simp only [List.append_nil, number_isDigitStr h1, number_isDigitStr h2, if_true, pyInt_value h1, pyInt_value h2, bind,
      Except.bind]
    exact ⟨_, rfl⟩
  · simp only [List.append_nil, number_isDigitStr h1, not_isDigitStr' (lower_not_digit hc2), if_true]
    exact ⟨_, rfl⟩
  · simp only [List.append_nil, not_isDigitStr' (lower_not_digit hc1), number_isDigitStr h2, if_true, List.dropLast_concat, pyInt_value h1,
      pyInt_value h2, bind, Except.bind]
    exact ⟨_, rfl⟩
  · simp only [not_isDigitStr' (lower_not_digit hc1), not_isDigitStr' (lower_not_digit hc2), List.dropLast_concat, List.getLast?_concat]
    by_cases hD : D1 = D2
    · subst hD
      simp
    · simp [hD]

theorem paragraph_finds : Finds paragraphParser .paragraph [] where
  kind := rfl
  looks := paragraph_looks
  first := rfl
  wraps := by simp [paragraphParser]
  intro := by simp [paragraphParser]
  next := fun ha hb h => (numeric_after_iff (.inl ha.1) (.inl hb.1)).2 h
  total := fun _ ha hb => numeric_total (.inl ha.1) (.inl hb.1)

theorem numericPoint_finds : Finds numericPointParser .numericPoint [] where
  kind := rfl
  looks := numericPoint_looks
  first := rfl
  wraps := by simp [numericPointParser]
  intro := by simp [numericPointParser]
  next := fun ha hb h => (numeric_after_iff ha.1 hb.1).2 h
  total := fun _ ha hb => numeric_total ha.1 hb.1

theorem numericSubpoint_finds : Finds numericSubpointParser .numericSubpoint [] where
  kind := rfl
  looks := numericSubpoint_looks
  first := rfl
  wraps := by simp [numericSubpointParser]
  intro := by simp [numericSubpointParser]
  next := fun ha hb h => (numeric_after_iff ha.1 hb.1).2 h
  total := fun _ ha hb => numeric_total ha.1 hb.1

theorem alphabeticPoint_finds : Finds alphabeticPointParser .alphabeticPoint [] where
  kind := rfl
  looks := alphabeticPoint_looks
  first := rfl
  wraps := by simp [alphabeticPointParser]
  intro := by simp [alphabeticPointParser]
  next := fun {s t a b} ha hb h => by
    have la := matchLettered_letters (by simp [Letters]) (alphabeticPoint_looks.header.2 ha)
    have lb := matchLettered_letters (by simp [Letters]) (alphabeticPoint_looks.header.2 hb)
    exact congrArg Except.ok ((letter_after_iff la lb).2 h)
  total := fun _ _ _ => ⟨_, rfl⟩

theorem alphabeticSubpoint_finds {p : Str} (hp : SubPrefix p) (hs : p.length ≤ 1) : Finds (alphabeticSubpointParser p) .alphabeticSubpoint p where
  kind := rfl
  looks := alphabeticSubpoint_looks hp
  first := rfl
  wraps := by simp [alphabeticSubpointParser]
  intro := by simp [alphabeticSubpointParser]
  next := fun {s t a b} ha hb h => by
    have h1 := (alphabeticSubpoint_looks hp).header.2 ha
    have h2 := (alphabeticSubpoint_looks hp).header.2 hb
    have : ∃ r, alphabeticSubpointIsNext a b = .ok r := by
      obtain ⟨c, y, rfl, rfl, hy, hl⟩ := h
      match p, hs with
      | [], _ => exact ⟨_, rfl⟩
      | [q], _ =>
        have hy := hl (by simp)
        match y, hy with
        | [d], _ => exact ⟨_, by simp [alphabeticSubpointIsNext]; rfl⟩
    obtain ⟨r, hr⟩ := this
    have : r = true := ((alphabeticSubpoint_looks hp).next h1 h2 hr).2 h
    rw [← this]
    exact hr
  total := fun h => absurd rfl h

theorem Finds.accepts_next {P : ElementParser} {k : SaeKind} {p : Str} (hP : Finds P k p) {last : Option (Str × Rat)} {s i : Str}
    (hl : ∀ l, last = some l → ∃ t, ElementHeading k p t l.1) (hi : ElementHeading k p s i)
    (h : NextSibling (firstNumber k p) (ElementAfter k p) last i) : P.accepts last i = .ok true := by
  cases last with
  | none =>
    simp only [NextSibling] at h
    simp [ElementParser.accepts, hP.first, h]
  | some l =>
    obtain ⟨t, ht⟩ := hl l rfl
    exact hP.next ht hi h

/-- Lines that are not headers are skipped. -/
theorem headerLoop_skip (P : ElementParser) (last : Option (Str × Rat)) (ls : List Line) : ∀ (q : Int) (n : Nat) (rest : List (Int × Line)),
    (∀ before l after, ls = before ++ l :: after → q + openQuotes before = 0 → (∀ x, last = some x → l.indent < x.2 + 1) → ∀ j,
      P.header l.content = some j → P.accepts last j = .ok false) →
    headerLoop P last n (levels q ls ++ rest) = headerLoop P last (n + ls.length) rest := by
  induction ls with
  | nil => intro q n rest _; rfl
  | cons l ls ih =>
    intro q n rest h
    have ht := ih (q + openQuotes [l]) (n + 1) rest fun before l' after hb hq => h (l :: before) l' after (by rw [hb]; rfl) (by
      rw [openQuotes_cons']; omega)
    have hn : n + 1 + ls.length = n + (l :: ls).length := by simp; omega
    rw [hn] at ht
    simp only [levels, List.cons_append]
    rw [headerLoop]
    by_cases hq : q = 0
    · rw [if_neg (by simpa using hq)]
      by_cases hi : (last.any fun l' => !similarIndent l'.2 l.indent && decide (l.indent > l'.2)) = true
      · rw [if_pos hi, ht]
      · rw [if_neg hi]
        cases hh : P.header l.content with
        | none => exact ht
        | some j =>
          have := h [] l ls rfl (by simp [openQuotes_nil, hq]) (by
            rintro x rfl
            have hs : similarIndent x.2 l.indent = true ↔ _ := similar_iff
            simp only [Option.any_some, Bool.and_eq_true, Bool.not_eq_true', decide_eq_true_eq] at hi
            rw [← Bool.not_eq_true, hs] at hi
            grind) j hh
          simp only [this]
          exact ht
    · rw [if_pos hq, ht]

/-- A header is found. -/
theorem headerLoop_found {P : ElementParser} {last : Option (Str × Rat)} {l : Line} {n : Nat} {rest : List (Int × Line)} {i : Str}
    (hi : ∀ x, last = some x → l.indent < x.2 + 1) (hh : P.header l.content = some i) (ha : P.accepts last i = .ok true) :
    headerLoop P last n ((0, l) :: rest) =
      ⟨n :: (headerLoop P (some (i, l.indent)) (n + 1) rest).yields, (headerLoop P (some (i, l.indent)) (n + 1) rest).stop⟩ := by
  rw [headerLoop, if_neg (by simp), if_neg]
  · simp only [hh, ha]
  · cases last with
    | none => simp
    | some x =>
      have hs : similarIndent x.2 l.indent = true ↔ _ := similar_iff
      simp only [Option.any_some, Bool.and_eq_true, Bool.not_eq_true', decide_eq_true_eq]
      rw [← Bool.not_eq_true, hs]
      have := hi x rfl
      grind

/-- One element of the list: its number is found, and none in its other lines. -/
theorem headerLoop_item {P : ElementParser} {k : SaeKind} {p : Str} (hP : Finds P k p) {last : Option (Str × Rat)} {line : Line}
    {own : List Line} {i : Str} (hl : ∀ l, last = some l → ∃ t, ElementHeading k p t l.1) (hi : ElementHeading k p line.content i)
    (number : NextSibling (firstNumber k p) (ElementAfter k p) last i) (indent : ∀ l, last = some l → line.indent < l.2 + 1)
    (next : NotTheNext k p i line own) (n : Nat) (rest : List (Int × Line)) :
    headerLoop P last n (levels 0 (line :: own) ++ rest) =
      ⟨n :: (headerLoop P (some (i, line.indent)) (n + (line :: own).length) rest).yields,
        (headerLoop P (some (i, line.indent)) (n + (line :: own).length) rest).stop⟩ := by
  simp only [levels, List.cons_append]
  rw [headerLoop_found indent (hP.looks.header.2 hi) (hP.accepts_next hl hi number), headerLoop_skip]
  · have : n + 1 + own.length = n + (line :: own).length := by simp; omega
    rw [this]
  · intro before l after hb hq hx j hj
    have hj := hP.looks.header.1 hj
    obtain ⟨h1, h2⟩ := next before l after hb (by rw [openQuotes_cons']; omega) (hx _ rfl) j hj
    obtain ⟨r, hr⟩ := hP.total h1 hi hj
    cases r with
    | false => exact hr
    | true => exact absurd ((hP.looks.next (hP.looks.header.2 hi) (hP.looks.header.2 hj) hr).1 rfl) h2

/-! ## Lists -/

theorem wrapUp_found (x : Rat) (line : Line) (own text : List Line) (hown : ∀ l ∈ own, x + 1 ≤ l.indent)
    (htext : ∀ l, text.head? = some l → l.indent < x + 1) :
    wrapUpByIndent x (line :: own ++ text) = if text = [] then none else some (own.length + 1) := by
  unfold wrapUpByIndent
  rw [List.find?_filter]
  have hin : ∀ j, j < own.length + 1 → 0 < j → ∃ l ∈ own, (line :: own ++ text)[j]? = some l := by
    intro j hj h0
    obtain ⟨m, rfl⟩ := Nat.exists_eq_succ_of_ne_zero (Nat.ne_of_gt h0)
    have hm : m < own.length := by omega
    refine ⟨own[m], List.getElem_mem hm, ?_⟩
    simp only [List.cons_append, Nat.succ_eq_add_one, List.getElem?_cons_succ]
    rw [List.getElem?_append_left hm, List.getElem?_eq_getElem hm]
  cases text with
  | nil =>
    rw [if_pos rfl, List.find?_eq_none]
    intro j hj
    rw [List.mem_range] at hj
    by_cases h0 : 0 < j
    · obtain ⟨l, hl, he⟩ := hin j (by simpa using hj) h0
      have := hown l hl
      simp only [he]
      simp only [decide_eq_true_eq]
      grind
    · simp [h0]
  | cons t ts =>
    rw [if_neg (by simp), List.find?_range_eq_some]
    refine ⟨?_, by simp, fun j hj => ?_⟩
    · have hg : (line :: own ++ t :: ts)[own.length + 1]? = some t := by simp
      simp only [hg]
      simpa using htext t rfl
    · by_cases h0 : 0 < j
      · obtain ⟨l, hl, he⟩ := hin j hj h0
        have := hown l hl
        simp only [he]
        simp only [decide_eq_true_eq, Bool.not_eq_true', decide_eq_false_iff_not]
        grind
      · simp [h0]

theorem last_step (q : Nat → Bool) (n : Nat) : (((List.range (n + 1)).filter (0 < ·)).reverse).find? q =
    if 0 < n ∧ q n = true then some n else (((List.range n).filter (0 < ·)).reverse).find? q := by
  rw [List.range_succ, List.filter_append, List.reverse_append]
  by_cases h0 : 0 < n
  · by_cases hq : q n = true
    · simp [h0, hq]
    · simp [h0, hq]
  · simp [h0]

theorem last_none {q : Nat → Bool} (n : Nat) (h : ∀ j, 0 < j → j < n → q j = false) : (((List.range n).filter (0 < ·)).reverse).find? q = none := by
  induction n with
  | zero => rfl
  | succ n ih =>
    rw [last_step, if_neg, ih fun j h0 hj => h j h0 (by omega)]
    rintro ⟨h0, hq⟩
    rw [h n h0 (by omega)] at hq
    cases hq

theorem last_some {q : Nat → Bool} {i : Nat} (h0 : 0 < i) (hi : q i = true) (n : Nat) (hn : i < n) (h : ∀ j, i < j → j < n → q j = false) :
    (((List.range n).filter (0 < ·)).reverse).find? q = some i := by
  induction n with
  | zero => omega
  | succ n ih =>
    rw [last_step]
    by_cases he : i = n
    · subst he
      rw [if_pos ⟨h0, hi⟩]
    · rw [if_neg, ih (by omega) fun j h1 hj => h j h1 (by omega)]
      rintro ⟨_, hq⟩
      rw [h n (by omega) (by omega)] at hq
      cases hq

theorem wrapUp_margin {line : Line} {own text : List Line} (h : TextApart false line own text) :
    wrapUpByMargin (line :: own ++ text) = if text = [] then none else some (own.length + 1) := by
  unfold wrapUpByMargin
  cases text with
  | nil =>
    have h : ∀ l ∈ (line :: own).dropLast, l.marginRight ≤ 20 := h
    rw [if_pos rfl, List.append_nil, last_none]
    intro j h0 hj
    have hj' : j - 1 < (line :: own).dropLast.length := by rw [List.length_dropLast]; omega
    have hg : (line :: own)[j - 1]? = some ((line :: own).dropLast[j - 1]) := by
      rw [List.getElem_dropLast, List.getElem?_eq_getElem (by rw [List.length_dropLast] at hj'; omega)]
    have := h _ (List.getElem_mem hj')
    simp only [hg, decide_eq_false_iff_not]
    grind
  | cons t ts =>
    obtain ⟨h1, h2⟩ : (∀ l ∈ (t :: ts).dropLast, l.marginRight ≤ 20) ∧ ∀ l, (line :: own).getLast? = some l → 20 < l.marginRight := h
    rw [if_neg (by simp), last_some (i := own.length + 1) (by omega)]
    · have hg : (line :: own ++ t :: ts)[own.length + 1 - 1]? = (line :: own).getLast? := by
        rw [List.getElem?_append_left (by simp), List.getLast?_eq_getElem?]
        simp
      simp only [hg]
      cases hl : (line :: own).getLast? with
      | none => simp at hl
      | some l => simpa using h2 l hl
    · simp
    · intro j hj hn
      have hlen : (line :: own ++ t :: ts).length = own.length + 1 + (ts.length + 1) := by
        simp only [List.cons_append, List.length_cons, List.length_append]
        omega
      have hj' : j - 1 - (own.length + 1) < (t :: ts).dropLast.length := by rw [List.length_dropLast, List.length_cons]; omega
      have hg : (line :: own ++ t :: ts)[j - 1]? = some ((t :: ts).dropLast[j - 1 - (own.length + 1)]) := by
        rw [List.getElem?_append_right (by simp only [List.length_cons]; omega), List.getElem_dropLast]
        simp only [List.length_cons]
        rw [List.getElem?_eq_getElem]
      have := h1 _ (List.getElem_mem hj')
      simp only [hg, decide_eq_false_iff_not]
      grind

/-- The last element and the text after it. -/
theorem splitWrapUp_written {P : ElementParser} (hP : P.canHaveWrapUp = true) {line : Line} {own text empty : List Line}
    (hf : ∀ l ∈ text, Fine l) (hline : line.isEmptyLine = false) (apart : TextApart inAct line own text) (fullOwn : ∀ l ∈ own, l.isEmptyLine = false)
    (full : ∀ l ∈ text, l.isEmptyLine = false) (isEmpty : ∀ l ∈ empty, l.isEmptyLine = true) :
    splitWrapUp P (line :: own ++ text ++ empty) inAct = .ok (line :: own, closingText text) := by
  have hfil : (line :: own ++ text ++ empty).filter (fun l => !l.isEmptyLine) = line :: own ++ text := by
    rw [List.filter_append, List.filter_append, List.filter_eq_self.2, List.filter_eq_self.2, List.filter_eq_nil_iff.2, List.append_nil]
    · intro l hl; simp [isEmpty l hl]
    · intro l hl; simp [full l hl]
    · intro l hl
      rcases List.mem_cons.1 hl with rfl | hl
      · simp [hline]
      · simp [fullOwn l hl]
  unfold splitWrapUp
  rw [if_neg (by simp [hP])]
  simp only [hfil]
  have hw : (if inAct = true then (match line :: own ++ text with
        | [] => Except.error Err.indexError
        | l :: _ => .ok (wrapUpByIndent l.indent (line :: own ++ text))) else .ok (wrapUpByMargin (line :: own ++ text)) : Res (Option Nat)) =
      .ok (if text = [] then none else some (own.length + 1)) := by
    cases inAct with
    | true =>
      obtain ⟨h1, h2⟩ : (∀ l ∈ own, line.indent + 1 ≤ l.indent) ∧ ∀ l, text.head? = some l → l.indent < line.indent + 1 := apart
      rw [if_pos rfl]
      exact congrArg Except.ok (wrapUp_found line.indent line own text h1 h2)
    | false =>
      rw [if_neg (by simp)]
      exact congrArg Except.ok (wrapUp_margin apart)
  refine (congrArg (fun x : Res (Option Nat) => x >>= _) hw).trans ?_
  cases text with
  | nil => simp [closingText, bind, Except.bind]
  | cons t ts =>
    have ht : (line :: (own ++ t :: ts)).take (own.length + 1) = line :: own := by simp
    have hd : (line :: (own ++ t :: ts)).drop (own.length + 1) = t :: ts := by simp
    simp only [reduceCtorEq, if_false, bind, Except.bind, List.cons_append, ht, hd]
    simp only [closingText, lineTexts]
    rw [List.filter_eq_self.2 (by intro l hl; simp [full l hl]), Props.join_single_spaces_partial]
    intro s hs
    obtain ⟨l, hl, rfl⟩ := List.mem_map.1 hs
    exact (hf l hl).content (full l hl)

/-- What the elements of a list are parsed into. -/
inductive ListParsed (inAct : Bool) (P : ElementParser) (parse : List Line → Res Node) (n : Nat) (last : Option (Str × Rat)) (ls : List Line) (ns : List Node)
    (w : Option Str) : Prop
  | mk (bs : List (List Line)) (lb rem : List Line) (ms : List Node) (m : Node) (lines : ls = bs.flatten ++ lb) (nodes : ns = ms ++ [m])
      (found : headerLoop P last n (levels 0 ls) = ⟨offsets n (bs ++ [lb]), none⟩) (parsed : Both (fun b m => parse b = .ok m) bs ms)
      (split : splitWrapUp P lb inAct = .ok (rem, w)) (parsedLast : parse rem = .ok m) : ListParsed inAct P parse n last ls ns w

theorem headed_full {k : SaeKind} {p s i : Str} (h : ElementHeading k p s i) : s ≠ [] := by
  rintro rfl
  cases k <;> simp only [ElementHeading] at h
  · obtain ⟨_, t, ht⟩ := h; simp at ht
  · obtain ⟨_, t, ht⟩ := h; simp at ht
  · obtain ⟨_, t, ht⟩ := h; simp at ht
  · obtain ⟨_, t, ht⟩ := h; simp at ht
  · obtain ⟨_, t, ht⟩ := h; simp at ht

theorem list_parsed {says : SaeKind → Option Str → List Line → Node → Prop} {k : SaeKind} {p : Str} {P : ElementParser} {parse : List Line → Res Node}
    (hP : Finds P k p) (hparse : ∀ i line own n, (∀ l ∈ line :: own, Fine l) → QuotesClosed (line :: own) → EntryWritten says k p i line own n →
      parse (line :: own) = .ok n) {last : Option (Str × Rat)} {ls : List Line} {ns : List Node} {w : Option Str}
    (h : ListWritten inAct says k p last ls ns w) : ∀ (_ : ∀ l ∈ ls, Fine l) (_ : ∀ l, last = some l → ∃ t, ElementHeading k p t l.1) (n : Nat),
    QuotesClosed ls ∧ ListParsed inAct P parse n last ls ns w := by
  induction h with
  | @item last line own rest i m ns w number indent item quotes next tail ih =>
    intro hf hl n
    have hitem := item.1
    obtain ⟨hq, bs, lb, rem, ms, m', e1, e2, e3, e4, e5, e6⟩ := ih (fun l hl => hf l (by simp at hl ⊢; grind)) (by
      rintro l ⟨⟩; exact ⟨_, hitem⟩) (n + (line :: own).length)
    refine ⟨QuotesClosed.append quotes hq, (line :: own) :: bs, lb, rem, m :: ms, m', ?_, ?_, ?_, ?_, e5, e6⟩
    · rw [e1]; simp
    · rw [e2]; rfl
    · rw [levels_append, quotes.2, Int.add_zero, headerLoop_item hP hl hitem number indent next, e3]
      rfl
    · exact .cons (hparse i line own m (fun l hl => hf l (by simp at hl ⊢; grind)) quotes item) e4
  | @last last line own i m kind number indent item quotes next =>
    intro hf hl n
    refine ⟨quotes, [], line :: own, line :: own, [], m, rfl, rfl, ?_, .nil, ?_, ?_⟩
    · have := headerLoop_item hP hl item.1 number indent next n []
      rw [List.append_nil] at this
      rw [this]
      rfl
    · unfold splitWrapUp
      rw [if_pos]
      have := hP.wraps
      rcases kind with rfl | rfl <;> simp at this <;> simp [this]
    · exact hparse i line own m hf quotes item
  | @lastAndText last line own text empty i m kind number indent item quotes quotesText next further notFurther full isEmpty =>
    intro hf hl n
    refine ⟨QuotesClosed.append (QuotesClosed.append quotes quotesText) (closed_empty isEmpty), [], line :: own ++ text ++ empty, line :: own,
      [], m, rfl, rfl, ?_, .nil, ?_, ?_⟩
    · have := headerLoop_item hP hl item.1 number indent (own := own ++ text ++ empty) (by
        intro before l after hb hq hi j hj
        have hne : l ∉ empty := fun hm => headed_full hj (content_of_empty (isEmpty l hm))
        rcases List.append_eq_append_iff.1 hb with ⟨x, rfl, hx⟩ | ⟨x, hx, hy⟩
        · exact absurd (by rw [hx]; simp) hne
        · cases x with
          | nil => exact absurd (by rw [List.nil_append] at hy; rw [← hy]; simp) hne
          | cons y x =>
            obtain ⟨rfl, rfl⟩ := List.cons.inj hy
            exact next before l x hx hq hi j hj) n []
      rw [List.append_nil] at this
      rw [List.append_assoc, List.cons_append, ← List.append_assoc, this]
      rfl
    · exact splitWrapUp_written (hP.wraps.2 kind) (fun l hl => hf l (by simp; grind)) (nonempty_of_content (headed_full item.1)) further notFurther
        full isEmpty
    · exact hparse i line own m (fun l hl => hf l (by simp at hl ⊢; grind)) quotes item

theorem parseBetween_written {parse : List Line → Res Node} {bs : List (List Line)} {ms : List Node}
    (h : Both (fun b m => parse b = .ok m) bs ms) (lb : List Line) : ∀ (pre : List Line), ∃ more,
    offsets pre.length (bs ++ [lb]) = pre.length :: more ∧ more.length = bs.length ∧
      parseBetween parse (pre ++ (bs.flatten ++ lb)) pre.length more = .ok (ms, (pre ++ bs.flatten).length) := by
  induction h with
  | nil => intro pre; exact ⟨[], rfl, rfl, by simp [parseBetween]⟩
  | @cons b m bs ms hb _ ih =>
    intro pre
    obtain ⟨more, h1, h2, h3⟩ := ih (pre ++ b)
    refine ⟨(pre ++ b).length :: more, ?_, by simp [h2], ?_⟩
    · rw [← h1]
      simp [offsets]
    · have hl : lineSlice (pre ++ (List.flatten (b :: bs) ++ lb)) pre.length (pre ++ b).length = b := by
        unfold lineSlice
        rw [show pre ++ (List.flatten (b :: bs) ++ lb) = (pre ++ b) ++ (bs.flatten ++ lb) by simp, List.take_left', List.drop_left']
        · rfl
        · rfl
      have he : pre ++ (List.flatten (b :: bs) ++ lb) = pre ++ b ++ (bs.flatten ++ lb) := by simp
      simp only [parseBetween, hl, hb]
      rw [he, h3]
      simp [bind, Except.bind]

/-- Lists that are written are parsed. -/
theorem extractMultiple_written {says : SaeKind → Option Str → List Line → Node → Prop} {k : SaeKind} {p : Str} {P : ElementParser}
    {kids : ChildReader} (hP : Finds P k p)
    (hparse : ∀ i line own n, (∀ l ∈ line :: own, Fine l) → QuotesClosed (line :: own) → EntryWritten says k p i line own n →
      parseElement P kids (line :: own) inAct = .ok n) {ls : List Line} {ns : List Node} {w : Option Str}
    (h : ListWritten inAct says k p none ls ns w) (hf : ∀ l ∈ ls, Fine l) (hn : P.mustHaveMultiple = true → 2 ≤ ns.length) :
    extractMultiple P kids ls inAct = .ok (ns, w) := by
  obtain ⟨hq, bs, lb, rem, ms, m, e1, e2, e3, e4, e5, e6⟩ := list_parsed (parse := fun ls => parseElement P kids ls inAct) hP
    hparse h hf (by simp) 0
  obtain ⟨more, h1, h2, h3⟩ := parseBetween_written e4 lb []
  simp only [List.nil_append, List.length_nil] at h1 h3
  have hfound : (findHeaderLines P ls).toList = .ok (0 :: more) := by
    unfold findHeaderLines
    rw [iterate_closed hq]
    simp only [e3, h1]
    rfl
  have hhead : (ls.head?.bind fun l => P.header l.content) = some P.first := by
    have : ∃ line rest i, ls = line :: rest ∧ ElementHeading k p line.content i ∧ NextSibling (firstNumber k p) (ElementAfter k p) none i := by
      cases h with
      | item number _ item _ _ _ => exact ⟨_, _, _, rfl, item.1, number⟩
      | last _ number _ item _ _ => exact ⟨_, _, _, rfl, item.1, number⟩
      | lastAndText _ number _ item _ _ _ _ _ _ _ => exact ⟨_, _, _, rfl, item.1, number⟩
    obtain ⟨line, rest, i, rfl, hi, hnum⟩ := this
    simp only [List.head?_cons, Option.bind_some]
    rw [hP.looks.header.2 hi, hP.first]
    simp only [NextSibling] at hnum
    rw [hnum]
  unfold extractMultiple
  rw [hfound]
  simp only [bind, Except.bind]
  rw [if_neg (by simp), if_neg (by simp [hhead]), if_neg]
  · rw [e1, h3]
    simp only
    rw [List.drop_left', e5]
    · simp only [e6, e2]
    · rfl
  · rw [Bool.and_eq_true, not_and]
    intro hm hmm
    have := hn hmm
    rw [e2, List.length_append, e4.length.symm, ← h2] at this
    simp only [List.isEmpty_iff] at hm
    simp [hm] at this

/-! ## Choosing between the kinds of lists -/

/-- The parser finds its first header only at `n` or after it, or at the first line, where it is not wanted. -/
def NotBefore (n : Nat) (lines : List Line) (p : SubParser) : Prop :=
  ∃ r, p.firstHeader lines = .ok r ∧ ∀ m, r = some m → n ≤ m ∨ (m = 0 ∧ p.mustHaveIntro = true)

theorem firstHeaders_total {lines : List Line} {n : Nat} {ps : List SubParser} (h : ∀ p ∈ ps, NotBefore n lines p) :
    ∃ found, firstHeaders lines ps = .ok found ∧ (∀ e ∈ found, n ≤ e.1) ∧
      ∀ p ∈ ps, ∀ m, m ≠ 0 → p.firstHeader lines = .ok (some m) → (m, p) ∈ found := by
  induction ps with
  | nil => exact ⟨[], rfl, by simp, by simp⟩
  | cons p ps ih =>
    obtain ⟨found, h1, h2, h3⟩ := ih fun q hq => h q (by simp [hq])
    obtain ⟨r, hr, hm⟩ := h p (by simp)
    rw [firstHeaders, hr]
    simp only [bind, Except.bind]
    cases r with
    | none =>
      refine ⟨found, h1, h2, ?_⟩
      intro q hq m h0 hqm
      rcases List.mem_cons.1 hq with rfl | hq
      · rw [hr] at hqm; cases hqm
      · exact h3 q hq m h0 hqm
    | some m =>
      simp only
      by_cases hc : (m = 0 && p.mustHaveIntro) = true
      · rw [if_pos (by simpa using hc)]
        refine ⟨found, h1, h2, ?_⟩
        intro q hq m' h0 hqm
        rcases List.mem_cons.1 hq with rfl | hq
        · rw [hr] at hqm
          cases hqm
          simp at hc
          exact absurd hc.1 h0
        · exact h3 q hq m' h0 hqm
      · rw [if_neg (by simpa using hc), h1]
        refine ⟨_, rfl, ?_, ?_⟩
        · intro e he
          rcases List.mem_cons.1 he with rfl | he
          · rcases hm m rfl with hm | hm
            · exact hm
            · simp [hm] at hc
          · exact h2 e he
        · intro q hq m' h0 hqm
          rcases List.mem_cons.1 hq with rfl | hq
          · rw [hr] at hqm
            cases hqm
            simp
          · exact List.mem_cons_of_mem _ (h3 q hq m' h0 hqm)

theorem childrenBy_list {lines : List Line} {n : Nat} {ps : List SubParser} {p : SubParser} {ns : List Node} {w : Option Str}
    (hap : ps.Pairwise Apart) (h : ∀ p ∈ ps, NotBefore n lines p) (hn : n ≠ 0) (hp : p ∈ ps) (hfirst : p.firstHeader lines = .ok (some n))
    (he : p.extract (lines.drop n) inAct = .ok (ns, w)) :
    childrenBy ps lines inAct = .ok (some (joinLines (lines.take n)), ns, w) := by
  obtain ⟨found, h1, h2, h3⟩ := firstHeaders_total h
  have hd := firstHeaders_apart hap h1
  obtain ⟨sorted, hs⟩ := sortHeaders_total hd
  obtain ⟨hperm, hlt⟩ := sortHeaders_spec hs
  have hmem : (n, p) ∈ sorted := hperm.mem_iff.2 (h3 p hp n hn hfirst)
  cases sorted with
  | nil => cases hmem
  | cons e es =>
    rw [List.pairwise_cons] at hlt
    have hen : e = (n, p) := by
      rcases List.mem_cons.1 hmem with h | h
      · exact h.symm
      · have := hlt.1 _ h
        have := h2 e (hperm.mem_iff.1 (by simp))
        simp only at *
        omega
    subst hen
    unfold childrenBy
    rw [h1]
    simp only [bind, Except.bind, hs, tryParsers, he]
    rw [if_neg hn]

theorem childrenBy_text {lines : List Line} {ps : List SubParser} (h : ∀ p ∈ ps, ∃ r, p.firstHeader lines = .ok r ∧
    ∀ m, r = some m → m = 0 ∧ p.mustHaveIntro = true) : childrenBy ps lines inAct = .error .noSubelements := by
  have : firstHeaders lines ps = .ok [] := by
    induction ps with
    | nil => rfl
    | cons p ps ih =>
      obtain ⟨r, hr, hm⟩ := h p (by simp)
      rw [firstHeaders, hr]
      simp only [bind, Except.bind]
      cases r with
      | none => exact ih fun q hq => h q (by simp [hq])
      | some m =>
        simp only
        rw [if_pos (by simp [hm m rfl])]
        exact ih fun q hq => h q (by simp [hq])
  unfold childrenBy
  rw [this]
  rfl

/-! ## The first elements of lists -/

theorem headerLoop_none (P : ElementParser) (ys : List (Int × Line)) : ∀ n, (headerLoop P none n ys).yields = [] →
    (headerLoop P none n ys).stop = none := by
  induction ys with
  | nil => intro n _; rfl
  | cons y ys ih =>
    obtain ⟨q, l⟩ := y
    intro n
    rw [headerLoop]
    split
    · exact ih _
    · simp only [Option.any_none, Bool.false_eq_true, if_false]
      cases P.header l.content with
      | none => exact ih _
      | some i =>
        simp only [ElementParser.accepts]
        cases i == P.first with
        | false => exact ih _
        | true => intro h; cases h

theorem firstHeader_total (P : ElementParser) {lines : List Line} (hq : QuotesClosed lines) : ∃ r, findFirstHeader P lines = .ok r := by
  unfold findFirstHeader findHeaderLines
  rw [iterate_closed hq]
  simp only [Option.or_none]
  have := headerLoop_none P (levels 0 lines) 0
  unfold Gen.next
  cases hy : (headerLoop P none 0 (levels 0 lines)).yields with
  | nil => rw [this hy]; exact ⟨_, rfl⟩
  | cons y ys => exact ⟨_, rfl⟩

/-- No line after the first one is found. -/
theorem element_notBefore {P : ElementParser} {kids : ChildReader} {intro ls : List Line} (hq : QuotesClosed (intro ++ ls))
    (hi : P.mustHaveIntro = true) (h : ∀ before l after, intro = before ++ l :: after → before ≠ [] → openQuotes before = 0 →
      P.header l.content ≠ some P.first) : NotBefore intro.length (intro ++ ls) (P.asSub kids) := by
  obtain ⟨r, hr⟩ := firstHeader_total P hq
  refine ⟨r, hr, ?_⟩
  rintro m rfl
  obtain ⟨pre, l, post, h1, h2, h3, h4⟩ := findFirstHeader_spec hr
  by_cases hm : intro.length ≤ m
  · exact .inl hm
  · right
    refine ⟨?_, hi⟩
    by_cases h0 : m = 0
    · exact h0
    · exfalso
      rcases List.append_eq_append_iff.1 h1 with ⟨x, rfl, hx⟩ | ⟨x, hx, hy⟩
      · rw [List.length_append] at h2; omega
      · cases x with
        | nil => rw [List.append_nil] at hx; subst hx; exact hm (by omega)
        | cons y x =>
          obtain ⟨rfl, rfl⟩ := List.cons.inj hy
          exact h pre l x hx (by rintro rfl; simp at h2; exact h0 h2) h3 h4

theorem element_first {P : ElementParser} {intro rest : List Line} {line : Line} (hq : QuotesClosed (intro ++ line :: rest))
    (hi : openQuotes intro = 0) (h : ∀ before l after, intro = before ++ l :: after → openQuotes before = 0 →
      P.header l.content ≠ some P.first) (hl : P.header line.content = some P.first) :
    findFirstHeader P (intro ++ line :: rest) = .ok (some intro.length) := by
  unfold findFirstHeader findHeaderLines
  rw [iterate_closed hq, levels_append]
  simp only
  rw [headerLoop_skip]
  · simp only [levels, hi, Int.add_zero]
    rw [headerLoop_found (by simp) hl (by simp [ElementParser.accepts])]
    simp [Gen.next]
  · intro before l after hb hq _ j hj
    simp only [ElementParser.accepts, Except.ok.injEq, beq_eq_false_iff_ne]
    rintro rfl
    exact h before l after hb (by omega) hj

theorem opens_true {l : Line} (h : OpensQuote l) : opensWithQuote l = .ok true := by
  obtain ⟨c, rest, hc, hl⟩ := h
  unfold opensWithQuote
  rw [hl]
  rcases hc with rfl | rfl <;> rfl

theorem opens_false {l : Line} (hf : Fine l) (he : l.isEmptyLine = false) (h : ¬ OpensQuote l) : opensWithQuote l = .ok false := by
  unfold opensWithQuote
  have := hf.content he
  cases hc : l.content with
  | nil => exact absurd hc this
  | cons c rest =>
    simp only [Except.ok.injEq, Bool.or_eq_false_iff, beq_eq_false_iff_ne]
    refine ⟨?_, ?_⟩
    · rintro rfl; exact h ⟨_, _, .inl rfl, hc⟩
    · rintro rfl; exact h ⟨_, _, .inr rfl, hc⟩

theorem OpensQuote_of {l : Line} (h : opensWithQuote l = .ok true) : OpensQuote l := by
  unfold opensWithQuote at h
  cases hc : l.content with
  | nil => rw [hc] at h; cases h
  | cons c rest =>
    rw [hc] at h
    simp only [Except.ok.injEq, Bool.or_eq_true, beq_iff_eq] at h
    exact ⟨c, rest, h, hc⟩

theorem OpensQuote_full {l : Line} (h : OpensQuote l) : l.isEmptyLine = false := by
  obtain ⟨c, rest, _, hl⟩ := h
  exact nonempty_of_content (by rw [hl]; simp)

theorem closes_true {l : Line} (h : l.content.getLast? = some '”') : closesWithQuote l = .ok true := by
  unfold closesWithQuote
  rw [h]
  rfl

theorem closes_false {l : Line} (hf : Fine l) (he : l.isEmptyLine = false) (h : l.content.getLast? ≠ some '”') : closesWithQuote l = .ok false := by
  unfold closesWithQuote
  have := hf.content he
  cases hc : l.content.getLast? with
  | none => exact absurd (List.getLast?_eq_none_iff.1 hc) this
  | some c =>
    simp only [Except.ok.injEq, beq_eq_false_iff_ne]
    rintro rfl
    exact h hc

theorem quotedFirst_total (ls : List Line) : ∀ (q : Int) (n : Nat), (∀ l ∈ ls, Fine l) → ∃ r, quotedFirstLoop n (levels q ls) none = .ok r := by
  induction ls with
  | nil => intro q n _; exact ⟨_, rfl⟩
  | cons l ls ih =>
    intro q n hf
    obtain ⟨r, hr⟩ := ih (q + openQuotes [l]) (n + 1) fun l hl => hf l (by simp [hl])
    simp only [levels, quotedFirstLoop]
    split
    · rename_i h
      by_cases ho : OpensQuote l
      · rw [opens_true ho]; exact ⟨_, rfl⟩
      · rw [opens_false (hf l (by simp)) h.2 ho]
        exact ⟨r, hr⟩
    · exact ⟨r, hr⟩

theorem quotedFirst_skip (ls : List Line) : ∀ (q : Int) (n : Nat) (rest : List (Int × Line)), (∀ l ∈ ls, Fine l) →
    (∀ before l after, ls = before ++ l :: after → q + openQuotes before = 0 → ¬ OpensQuote l) →
    quotedFirstLoop n (levels q ls ++ rest) none = quotedFirstLoop (n + ls.length) rest none := by
  induction ls with
  | nil => intro q n rest _ _; rfl
  | cons l ls ih =>
    intro q n rest hf h
    have ht := ih (q + openQuotes [l]) (n + 1) rest (fun l hl => hf l (by simp [hl])) fun before l' after hb hq =>
      h (l :: before) l' after (by rw [hb]; rfl) (by rw [openQuotes_cons']; omega)
    have hn : n + 1 + ls.length = n + (l :: ls).length := by simp; omega
    rw [hn] at ht
    simp only [levels, List.cons_append, quotedFirstLoop]
    split
    · rename_i hl
      rw [opens_false (hf l (by simp)) hl.2 (h [] l ls rfl (by simp [openQuotes_nil, hl.1]))]
      exact ht
    · exact ht

theorem quoted_notBefore {intro ls : List Line} (hf : ∀ l ∈ intro ++ ls, Fine l) (hq : QuotesClosed (intro ++ ls))
    (h : ∀ before l after, intro = before ++ l :: after → before ≠ [] → openQuotes before = 0 → ¬ OpensQuote l) :
    NotBefore intro.length (intro ++ ls) quotedParser := by
  obtain ⟨r, hr'⟩ := quotedFirst_total (intro ++ ls) 0 0 hf
  have hr : quotedParser.firstHeader (intro ++ ls) = .ok r := by
    simp only [quotedParser, iterate_closed hq]
    exact hr'
  refine ⟨r, hr, ?_⟩
  rintro m rfl
  obtain ⟨pre, l, post, h1, h2, h3, h4⟩ := quotedFirstLoop_spec _ 0 0 m _ hr
  by_cases hm : intro.length ≤ m
  · exact .inl hm
  · right
    refine ⟨?_, rfl⟩
    by_cases h0 : m = 0
    · exact h0
    · exfalso
      rcases List.append_eq_append_iff.1 h1 with ⟨x, rfl, hx⟩ | ⟨x, hx, hy⟩
      · rw [List.length_append] at h2; omega
      · cases x with
        | nil => rw [List.append_nil] at hx; subst hx; exact hm (by omega)
        | cons y x =>
          obtain ⟨rfl, rfl⟩ := List.cons.inj hy
          exact h pre l x hx (by rintro rfl; simp at h2; exact h0 h2) (by omega) (OpensQuote_of h4)

theorem quoted_first {intro rest : List Line} {line : Line} (hf : ∀ l ∈ intro ++ line :: rest, Fine l)
    (hq : QuotesClosed (intro ++ line :: rest)) (hi : openQuotes intro = 0)
    (h : ∀ before l after, intro = before ++ l :: after → openQuotes before = 0 → ¬ OpensQuote l) (hl : OpensQuote line) :
    quotedParser.firstHeader (intro ++ line :: rest) = .ok (some intro.length) := by
  simp only [quotedParser, iterate_closed hq]
  rw [levels_append, quotedFirst_skip _ _ _ _ (fun l hl => hf l (by simp [hl])) (fun b l a h1 h2 => h b l a h1 (by omega))]
  simp only [levels, hi, Int.add_zero, quotedFirstLoop]
  rw [if_pos ⟨by simp, OpensQuote_full hl⟩, opens_true hl]
  simp [bind, Except.bind]

/-! ## Quotations -/

theorem joined_snoc (ts : List Str) (c : Str) (h : ∀ t ∈ ts, t ≠ []) (hne : ts ≠ []) :
    joined (ts ++ [c]) = joined [joined ts, c] ∧ joined ts ≠ [] := by
  induction ts with
  | nil => exact absurd rfl hne
  | cons s ts ih =>
    cases ts with
    | nil => exact ⟨rfl, h s (by simp)⟩
    | cons t ts =>
      obtain ⟨h1, h2⟩ := ih (fun t ht => h t (by simp [ht])) (by simp)
      have hl : ∀ x : Str, (x ++ joined (t :: ts)).getLast? = (joined (t :: ts)).getLast? := by
        intro x
        rw [List.getLast?_append]
        cases hx : (joined (t :: ts)).getLast? with
        | none => exact absurd (List.getLast?_eq_none_iff.1 hx) h2
        | some c => rfl
      refine ⟨?_, ?_⟩
      · simp only [List.cons_append] at h1 ⊢
        have e1 : joined (s :: t :: (ts ++ [c])) = s ++ (if s.getLast? = some '-' then [] else [' ']) ++ joined (t :: (ts ++ [c])) := rfl
        have e2 : ∀ a : Str, joined [a, c] = a ++ (if a.getLast? = some '-' then [] else [' ']) ++ c := fun _ => rfl
        have e3 : joined (s :: t :: ts) = s ++ (if s.getLast? = some '-' then [] else [' ']) ++ joined (t :: ts) := rfl
        rw [e1, h1, e2, e2, e3, hl]
        simp only [List.append_assoc]
      · simp only [joined]
        simp [h2]

theorem wrapUp_loop (ls : List Line) (blocks : List Node) : ∀ (q : Int) (ts : List Str), (∀ l ∈ ls, Fine l) → (∀ t ∈ ts, t ≠ []) → ts ≠ [] →
    quotedLoop (.wrapUp (joined ts)) blocks (levels q ls) = .ok (.wrapUp (joined (ts ++ lineTexts ls)), blocks) := by
  induction ls with
  | nil => intro q ts _ _ _; simp [levels, quotedLoop, lineTexts]
  | cons l ls ih =>
    intro q ts hf ht hne
    simp only [levels, quotedLoop]
    have hf' : ∀ l ∈ ls, Fine l := fun l hl => hf l (by simp [hl])
    cases he : l.isEmptyLine with
    | true =>
      have htx : lineTexts (l :: ls) = lineTexts ls := by simp [lineTexts, he]
      simp only [quotedStep, he, if_true, bind, Except.bind]
      rw [htx]
      exact ih _ _ hf' ht hne
    | false =>
      have htx : lineTexts (l :: ls) = l.content :: lineTexts ls := by simp [lineTexts, he]
      simp only [quotedStep, he, Bool.false_eq_true, if_false, bind, Except.bind]
      obtain ⟨h1, h2⟩ := joined_snoc ts l.content ht hne
      have hc := (hf l (by simp)).content he
      rw [Props.join_single_spaces_partial _ (by simp [h2, hc]), ← h1, htx, ih _ _ hf' (by
        intro t hm
        rcases List.mem_append.1 hm with hm | hm
        · exact ht t hm
        · rw [List.mem_singleton.1 hm]; exact hc) (by simp)]
      simp

theorem skip_empty (ls : List Line) (blocks : List Node) (rest : List (Int × Line)) : ∀ q, (∀ l ∈ ls, l.isEmptyLine = true) →
    quotedLoop .maybe blocks (levels q ls ++ rest) = quotedLoop .maybe blocks rest := by
  induction ls with
  | nil => intro q _; rfl
  | cons l ls ih =>
    intro q h
    simp only [levels, List.cons_append, quotedLoop, quotedStep, h l (by simp), if_true, bind, Except.bind]
    exact ih _ fun l hl => h l (by simp [hl])

theorem block_loop (first : Line) (middle : List Line) (blocks : List Node) (rest : List (Int × Line)) : ∀ (before quoted : List Line),
    (∀ l ∈ middle, Fine l) → (∀ b a, middle = b ++ a → openQuotes (first :: before ++ b) ≠ 0) →
    quotedLoop (.block quoted) blocks (levels (openQuotes (first :: before)) middle ++ rest) =
      quotedLoop (.block (quoted ++ middle)) blocks rest := by
  induction middle with
  | nil => intro before quoted _ _; simp [levels]
  | cons l ls ih =>
    intro before quoted hf h
    have ht := ih (before ++ [l]) (quoted ++ [l]) (fun l hl => hf l (by simp [hl])) (by
      intro b a hb
      have := h (l :: b) a (by rw [hb]; rfl)
      simpa using this)
    rw [← List.cons_append, openQuotes_append, List.append_assoc] at ht
    have hs : quotedStep (.block quoted) blocks (openQuotes (first :: before)) l = .ok (.block (quoted ++ [l]), blocks) := by
      simp only [quotedStep]
      cases he : l.isEmptyLine with
      | true => simp
      | false =>
        simp only [Bool.false_eq_true, if_false, bind, Except.bind]
        have hne := h [l] ls rfl
        rw [openQuotes_append, openQuotes_one] at hne
        by_cases hc : l.content.getLast? = some '”'
        · rw [closes_true hc]
          simp [hne]
        · rw [closes_false (hf l (by simp)) he hc]
          simp
    simp only [levels, List.cons_append, quotedLoop, hs, bind, Except.bind]
    exact ht

theorem quotation_closed {q q' : List Line} (h : QuotationWritten q q') : QuotesClosed q ∧ ∃ l rest, q = l :: rest ∧ OpensQuote l := by
  cases h with
  | one opens _ quotes _ => exact ⟨quotes, _, _, rfl, opens⟩
  | several opens _ _ quotes _ _ _ => exact ⟨quotes, _, _, rfl, opens⟩

theorem quotation_loop {q q' : List Line} (h : QuotationWritten q q') (hf : ∀ l ∈ q, Fine l) {st : QuoteState} (hst : st = .start ∨ st = .maybe)
    (blocks : List Node) (rest : List (Int × Line)) :
    quotedLoop st blocks (levels 0 q ++ rest) = quotedLoop .maybe (blocks ++ [.quoted q']) rest := by
  have hopen : ∀ l : Line, OpensQuote l → quotedStep st blocks 0 l = openBlock blocks l := by
    intro l hl
    have he := OpensQuote_full hl
    rcases hst with rfl | rfl <;>
      simp [quotedStep, he, opens_true hl, bind, Except.bind]
  cases h with
  | @one l l' opens closes quotes cut =>
    simp only [levels, List.cons_append, List.nil_append, quotedLoop, hopen l opens, openBlock, closes_true closes, bind, Except.bind]
    have hc : l.slice 1 (some (-1)) = .ok l' := cut_between (a := 1) (hf l (by simp)) cut
    rw [hc]
    rfl
  | @several first middle last first' last' opens notYet closes quotes inside cut cutLast =>
    have hff := hf first (by simp)
    have hb : ∀ rest, quotedLoop (.block [first']) blocks (levels (openQuotes [first]) middle ++ rest) = _ := fun rest =>
      block_loop first middle blocks rest [] [first'] (fun l hl => hf l (by simp [hl])) (by
        intro b a hb
        exact inside b a hb)
    have h1 : quotedStep st blocks 0 first = .ok (.block [first'], blocks) := by
      rw [hopen first opens]
      simp only [openBlock, closes_false hff (OpensQuote_full opens) notYet, bind, Except.bind]
      rw [show (1 : Int) = ((1 : Nat) : Int) from rfl, cut_from hff cut]
      rfl
    have hlf : last.isEmptyLine = false := nonempty_of_content (by intro h; rw [h] at closes; cases closes)
    have h2 : ∀ qs, quotedStep (.block qs) blocks (openQuotes (first :: middle)) last = .ok (.maybe, blocks ++ [.quoted (qs ++ [last'])]) := by
      intro qs
      have h0 := quotes.2
      rw [openQuotes_append, openQuotes_one] at h0
      simp only [quotedStep, hlf, Bool.false_eq_true, if_false, bind, Except.bind, closes_true closes, h0]
      rw [show (0 : Int) = ((0 : Nat) : Int) from rfl, cut_between (hf last (by simp)) cutLast]
      rfl
    simp only [List.cons_append, levels, Int.zero_add, quotedLoop, h1, bind, Except.bind]
    rw [levels_append, List.append_assoc, hb, ← openQuotes_cons']
    simp only [levels, List.cons_append, List.nil_append, quotedLoop, h2, bind, Except.bind]

theorem quotations_loop {ls : List Line} {ns : List Node} (h : QuotationsWritten ls ns) : ∀ (_ : ∀ l ∈ ls, Fine l) (st : QuoteState)
    (_ : st = .start ∨ st = .maybe) (blocks : List Node) (rest : List (Int × Line)),
    QuotesClosed ls ∧ quotedLoop st blocks (levels 0 ls ++ rest) = quotedLoop .maybe (blocks ++ ns) rest := by
  induction h with
  | @last q q' empty quotation isEmpty =>
    intro hf st hst blocks rest
    have hc := (quotation_closed quotation).1
    refine ⟨hc.append (closed_empty isEmpty), ?_⟩
    rw [levels_append, hc.2, List.append_assoc, quotation_loop quotation (fun l hl => hf l (by simp [hl])) hst, skip_empty _ _ _ _ isEmpty]
  | @more q q' empty rest' ns quotation isEmpty tail ih =>
    intro hf st hst blocks rest
    have hc := (quotation_closed quotation).1
    obtain ⟨i1, i2⟩ := ih (fun l hl => hf l (by simp [hl])) .maybe (.inr rfl) (blocks ++ [.quoted q']) rest
    have hc' := hc.append (closed_empty isEmpty)
    refine ⟨hc'.append i1, ?_⟩
    rw [levels_append, hc'.2, levels_append, hc.2, List.append_assoc, List.append_assoc, quotation_loop quotation (fun l hl => hf l (by simp [hl])) hst,
      skip_empty _ _ _ _ isEmpty, Int.add_zero, i2]
    simp

theorem quotedExtract_written {ls text : List Line} {ns : List Node} (h : QuotationsWritten ls ns) (hf : ∀ l ∈ ls ++ text, Fine l)
    (quotesText : QuotesClosed text) (notMore : ∀ l, text.head? = some l → l.isEmptyLine = false ∧ ¬ OpensQuote l) :
    QuotesClosed (ls ++ text) ∧ quotedExtract (ls ++ text) = .ok (ns, closingText text) := by
  obtain ⟨h1, h2⟩ := quotations_loop h (fun l hl => hf l (by simp [hl])) .start (.inl rfl) [] (levels 0 text)
  have hc := h1.append quotesText
  refine ⟨hc, ?_⟩
  unfold quotedExtract
  rw [iterate_closed hc, levels_append, h1.2]
  simp only [Int.add_zero, h2, List.nil_append]
  cases text with
  | nil => rfl
  | cons t ts =>
    obtain ⟨n1, n2⟩ := notMore t rfl
    have hft := hf t (by simp)
    have hs : quotedStep .maybe ns 0 t = .ok (.wrapUp (joined [t.content]), ns) := by
      simp only [quotedStep, n1, Bool.false_eq_true, if_false, opens_false hft n1 n2, bind, Except.bind, Bool.false_and]
      rfl
    have hw := wrapUp_loop ts ns (0 + openQuotes [t]) [t.content] (fun l hl => hf l (by simp [hl])) (by simp [hft.content n1]) (by simp)
    simp only [levels, quotedLoop, hs, hw, bind, Except.bind]
    simp [closingText, lineTexts, n1]

/-! ## Elements -/

/-- The lines of an element after its number are parsed into it. -/
inductive ReadsAs (inAct : Bool) (kids : ChildReader) (k : SaeKind) (id : Option Str) (body : List Line) (n : Node) : Prop
  | children {intro cs w} (read : kids body id inAct = .ok (intro, cs, w))
      (made : mkSae k { identifier := id, intro := intro, wrapUp := w } (some cs) = .ok n) : ReadsAs inAct kids k id body n
  | text (read : kids body id inAct = .error .noSubelements)
      (made : mkSae k { identifier := id, text := some (joinLines body) } none = .ok n) : ReadsAs inAct kids k id body n

/-- The subparser looks for a list in the element or for quotations. -/
inductive LooksIn (k : SaeKind) (id : Option Str) : SubParser → Prop
  | quoted (paragraph : k = .paragraph) : LooksIn k id quotedParser
  | list {k' p'} {P : ElementParser} {kids : ChildReader} (kind : ListIn k id k' p') (intro : P.mustHaveIntro = true)
      (header : ∀ s, P.header s = some P.first → ElementHeading k' p' s (firstNumber k' p')) : LooksIn k id (P.asSub kids)

theorem LooksIn.notBefore {k : SaeKind} {id : Option Str} {p : SubParser} (h : LooksIn k id p) {intro ls : List Line}
    (hf : ∀ l ∈ intro ++ ls, Fine l) (hq : QuotesClosed (intro ++ ls)) (plain : NoListAfterFirst k id intro) :
    NotBefore intro.length (intro ++ ls) p := by
  cases h with
  | quoted hk => exact quoted_notBefore hf hq fun b l a h1 h2 h3 h4 => plain b l a h1 h2 h3 (.inr ⟨hk, h4⟩)
  | list kind hi header => exact element_notBefore hq hi fun b l a h1 h2 h3 h4 => plain b l a h1 h2 h3 (.inl ⟨_, _, kind, header _ h4⟩)

theorem LooksIn.inside {k : SaeKind} {id : Option Str} {p : SubParser} (h : LooksIn k id p) {ls : List Line} {m : Nat}
    (hm : p.firstHeader ls = .ok (some m)) : m < ls.length := by
  cases h with
  | quoted hk =>
    obtain ⟨pre, l, post, h1, h2, _⟩ := quotedFirstLoop_spec _ 0 0 m _ hm
    rw [h1]; simp; omega
  | list kind hi header =>
    obtain ⟨pre, l, post, h1, h2, _⟩ := findFirstHeader_spec hm
    rw [h1]; simp; omega

theorem mkSae_children {k : SaeKind} {d : SaeData} {t : NodeType} {ns : List Node} (ht : d.text = none) (hne : ns ≠ [])
    (hns : ∀ n ∈ ns, n.type = t) (hk : t ∈ k.allowedChildren) : mkSae k d (some ns) = .ok (.sae k d ns) := by
  cases ns with
  | nil => exact absurd rfl hne
  | cons n ns =>
    have h1 : (ns.all fun d => d.type == n.type) = true := by
      rw [List.all_eq_true]
      intro m hm
      rw [hns n (by simp), hns m (by simp [hm])]
      simp
    have h2 : validText d (some (n :: ns)) = true := by simp [validText, ht]
    have h3 : validChildren k (some (n :: ns)) = true := by
      unfold validChildren
      rw [Option.getD_some, List.all_eq_true]
      intro m hm
      rw [hns m hm]
      simpa using hk
    unfold mkSae
    simp only [childrenType, h1, if_true, bind, Except.bind, h2, h3, Bool.not_true, Bool.false_eq_true, if_false]
    rfl

theorem list_nodes {says : SaeKind → Option Str → List Line → Node → Prop} {k : SaeKind} {p : Str} {last : Option (Str × Rat)} {ls : List Line}
    {ns : List Node} {w : Option Str} (h : ListWritten inAct says k p last ls ns w) :
    ns ≠ [] ∧ ∀ n ∈ ns, ∃ i line own, EntryWritten says k p i line own n := by
  induction h with
  | item number indent item quotes next tail ih =>
    refine ⟨by simp, ?_⟩
    intro m hm
    rcases List.mem_cons.1 hm with rfl | hm
    · exact ⟨_, _, _, item⟩
    · exact ih.2 m hm
  | last kind number indent item quotes next =>
    refine ⟨by simp, ?_⟩
    intro m hm
    rw [List.mem_singleton.1 hm]
    exact ⟨_, _, _, item⟩
  | lastAndText kind number indent item quotes quotesText next further notFurther full isEmpty =>
    refine ⟨by simp, ?_⟩
    intro m hm
    rw [List.mem_singleton.1 hm]
    exact ⟨_, _, _, item⟩

theorem quotations_nodes {ls : List Line} {ns : List Node} (h : QuotationsWritten ls ns) : ns ≠ [] ∧ ∀ n ∈ ns, n.type = .quoted := by
  induction h with
  | last quotation isEmpty => simp [Node.type]
  | more quotation isEmpty tail ih =>
    refine ⟨by simp, ?_⟩
    intro m hm
    rcases List.mem_cons.1 hm with rfl | hm
    · rfl
    · exact ih.2 m hm

theorem quotations_begin {ls : List Line} {ns : List Node} (h : QuotationsWritten ls ns) : ∃ l rest, ls = l :: rest ∧ OpensQuote l := by
  cases h with
  | last quotation isEmpty =>
    obtain ⟨_, l, rest, rfl, ho⟩ := quotation_closed quotation
    exact ⟨_, _, rfl, ho⟩
  | more quotation isEmpty tail =>
    obtain ⟨_, l, rest, rfl, ho⟩ := quotation_closed quotation
    exact ⟨_, _, rfl, ho⟩

theorem list_begins {says : SaeKind → Option Str → List Line → Node → Prop} {k : SaeKind} {p : Str} {ls : List Line}
    {ns : List Node} {w : Option Str} (h : ListWritten inAct says k p none ls ns w) :
    ∃ line rest, ls = line :: rest ∧ ElementHeading k p line.content (firstNumber k p) := by
  have : ∃ line rest i, ls = line :: rest ∧ ElementHeading k p line.content i ∧ NextSibling (firstNumber k p) (ElementAfter k p) none i := by
    cases h with
    | item number _ item _ _ _ => exact ⟨_, _, _, rfl, item.1, number⟩
    | last _ number _ item _ _ => exact ⟨_, _, _, rfl, item.1, number⟩
    | lastAndText _ number _ item _ _ _ _ _ _ _ => exact ⟨_, _, _, rfl, item.1, number⟩
  obtain ⟨line, rest, i, h1, h2, h3⟩ := this
  simp only [NextSibling] at h3
  subst h3
  exact ⟨line, rest, h1, h2⟩

theorem says_type {says : SaeKind → Option Str → List Line → Node → Prop} {k : SaeKind} {id : Option Str} {body : List Line} {n : Node}
    (h : Says inAct says k id body n) : n.type = .sae k ∧ n.identifier = id ∧ ∃ l rest, body = l :: rest ∧ l.isEmptyLine = false := by
  cases h with
  | text _ begins _ => exact ⟨rfl, rfl, begins⟩
  | list _ _ _ begins _ _ _ =>
    obtain ⟨l, rest, rfl, h, _⟩ := begins
    exact ⟨rfl, rfl, l, _, rfl, h⟩
  | quotations _ _ begins _ _ _ _ =>
    obtain ⟨l, rest, rfl, h, _⟩ := begins
    exact ⟨rfl, rfl, l, _, rfl, h⟩

theorem says_read {says : SaeKind → Option Str → List Line → Node → Prop} {k : SaeKind} {id : Option Str} {kids : ChildReader}
    {ps : List SubParser} (hkids : ∀ body, kids body id inAct = childrenBy ps body inAct) (hap : ps.Pairwise Apart)
    (hlooks : ∀ p ∈ ps, LooksIn k id p) (hquoted : k = .paragraph → quotedParser ∈ ps)
    (hlists : ∀ k' p', ListIn k id k' p' → p'.length ≤ 1 → ∃ P kids', P.asSub kids' ∈ ps ∧ Finds P k' p' ∧
      (∀ i line own n, (∀ l ∈ line :: own, Fine l) → QuotesClosed (line :: own) → EntryWritten says k' p' i line own n →
        parseElement P kids' (line :: own) inAct = .ok n))
    (htype : ∀ k' id' b n, says k' id' b n → n.type = .sae k')
    {body : List Line} {n : Node} (h : Says inAct says k id body n) (hf : ∀ l ∈ body, Fine l) : ReadsAs inAct kids k id body n := by
  cases h with
  | text quotes begins plain =>
    refine .text ?_ ?_
    · rw [hkids]
      refine childrenBy_text fun p hp => ?_
      obtain ⟨r, hr, hm⟩ := (hlooks p hp).notBefore (ls := []) (by simpa using hf) (by simpa using quotes) plain
      rw [List.append_nil] at hr
      refine ⟨r, hr, ?_⟩
      rintro m rfl
      rcases hm m rfl with hm | hm
      · have := (hlooks p hp).inside hr
        omega
      · exact hm
    · rw [joinLines_eq hf]
      rfl
  | @list intro ls k' p' ns w kind short quotes begins plain list several =>
    obtain ⟨P, kids', hmem, hP, hparse⟩ := hlists k' p' kind short
    have hfl : ∀ l ∈ ls, Fine l := fun l hl => hf l (by simp [hl])
    have hq : QuotesClosed (intro ++ ls) := quotes.append (list_parsed (parse := fun ls => parseElement P kids' ls inAct) hP
      hparse list hfl (by simp) 0).1
    obtain ⟨line, rest, rfl, hline⟩ := list_begins list
    obtain ⟨l, rest', hintro, he, hno⟩ := begins
    have hne : intro.length ≠ 0 := by rw [hintro]; simp
    have hfirst : (P.asSub kids').firstHeader (intro ++ line :: rest) = .ok (some intro.length) := by
      refine element_first hq quotes.2 ?_ (by rw [hP.first]; exact hP.looks.header.2 hline)
      intro before m after hb h0 hm
      rw [hP.first] at hm
      have hm := hP.looks.header.1 hm
      by_cases hbn : before = []
      · subst hbn
        rw [hintro] at hb
        obtain ⟨rfl, rfl⟩ := List.cons.inj hb
        exact hno hm
      · exact plain before m after hb hbn h0 (.inl ⟨_, _, kind, hm⟩)
    refine .children (intro := some (joined (lineTexts intro))) (cs := ns) (w := w) ?_ ?_
    · rw [hkids, childrenBy_list hap (fun p hp => (hlooks p hp).notBefore hf hq plain) hne hmem hfirst (ns := ns) (w := w), List.take_left' rfl,
        joinLines_eq fun l hl => hf l (by simp [hl])]
      rw [List.drop_left' rfl]
      exact extractMultiple_written hP hparse list hfl fun _ => several
    · obtain ⟨h1, h2⟩ := list_nodes list
      refine mkSae_children (t := .sae k') rfl h1 ?_ ?_
      · intro n hn
        obtain ⟨i, line, own, _, l', _, hs⟩ := h2 n hn
        exact htype _ _ _ _ hs
      · cases kind <;> decide
  | @quotations intro ls text ns kind quotes begins plain list quotesText notMore =>
    obtain ⟨hq', he⟩ := quotedExtract_written list (fun l hl => hf l (by simp at hl ⊢; grind)) quotesText notMore
    have hq := quotes.append hq'
    rw [← List.append_assoc] at hq
    obtain ⟨line, rest, rfl, hline⟩ := quotations_begin list
    obtain ⟨l, rest', hintro, hle, hno⟩ := begins
    have hne : intro.length ≠ 0 := by rw [hintro]; simp
    have hass : intro ++ (line :: rest) ++ text = intro ++ line :: (rest ++ text) := by simp
    rw [hass] at hf hq
    have hfirst : quotedParser.firstHeader (intro ++ line :: (rest ++ text)) = .ok (some intro.length) := by
      refine quoted_first hf hq quotes.2 ?_ hline
      intro before m after hb h0 hm
      by_cases hbn : before = []
      · subst hbn
        rw [hintro] at hb
        obtain ⟨rfl, rfl⟩ := List.cons.inj hb
        exact hno hm
      · exact plain before m after hb hbn h0 (.inr ⟨kind, hm⟩)
    rw [hass]
    refine .children (intro := some (joined (lineTexts intro))) (cs := ns) (w := closingText text) ?_ ?_
    · rw [hkids, childrenBy_list hap (fun p hp => (hlooks p hp).notBefore hf hq plain) hne (hquoted kind) hfirst (ns := ns) (w := closingText text),
        List.take_left' rfl, joinLines_eq fun l hl => hf l (by simp [hl])]
      rw [List.drop_left' rfl]
      exact he
    · obtain ⟨h1, h2⟩ := quotations_nodes list
      exact mkSae_children (t := .quoted) rfl h1 h2 (by rw [kind]; decide)

theorem heading_prefix {k : SaeKind} {p s i : Str} (h : ElementHeading k p s i) :
    k.headerPrefix (some i) = .ok (heading k (some i) ++ py" ") ∧ ∃ t, s = heading k (some i) ++ py" " ++ t := by
  cases k <;> simp only [ElementHeading] at h
  · obtain ⟨_, t, rfl⟩ := h; exact ⟨by simp [SaeKind.headerPrefix, heading], t, by simp [heading]⟩
  · obtain ⟨_, t, rfl⟩ := h; exact ⟨by simp [SaeKind.headerPrefix, heading], t, by simp [heading]⟩
  · obtain ⟨_, t, rfl⟩ := h; exact ⟨by simp [SaeKind.headerPrefix, heading], t, by simp [heading]⟩
  · obtain ⟨_, t, rfl⟩ := h; exact ⟨by simp [SaeKind.headerPrefix, heading], t, by simp [heading]⟩
  · obtain ⟨_, t, rfl⟩ := h; exact ⟨by simp [SaeKind.headerPrefix, heading], t, by simp [heading]⟩

/-- What comes after the number is read. -/
theorem parse_read {P : ElementParser} {kids : ChildReader} {first first' : Line} {rest : List Line} {n : Node} {id : Option Str} {pre : Str}
    (hid : P.header first.content = id) (hpre : P.kind.headerPrefix id = .ok pre) (hs : startsWith first.content pre = true)
    (hcut : first.slice pre.length = .ok first') (hread : ReadsAs inAct kids P.kind id (first' :: rest) n) :
    parseElement P kids (first :: rest) inAct = .ok n := by
  unfold parseElement
  simp only [hid, hpre, bind, Except.bind, hs, Bool.not_true, Bool.false_eq_true, if_false, hcut]
  cases hread with
  | children read made => rw [read]; exact made
  | text read made => rw [read]; exact made

theorem item_parsed {says : SaeKind → Option Str → List Line → Node → Prop} {k : SaeKind} {p : Str} {P : ElementParser} {kids : ChildReader}
    (hP : Finds P k p) (hread : ∀ s i body n, ElementHeading k p s i → (∀ l ∈ body, Fine l) → says k (some i) body n →
      ReadsAs inAct kids k (some i) body n) (i : Str) (line : Line) (own : List Line) (n : Node) (hf : ∀ l ∈ line :: own, Fine l)
    (_ : QuotesClosed (line :: own)) (h : EntryWritten says k p i line own n) : parseElement P kids (line :: own) inAct = .ok n := by
  obtain ⟨hh, line', hcut, hs⟩ := h
  obtain ⟨hp, t, ht⟩ := heading_prefix hh
  have hfl := hf line (by simp)
  have hlen : (heading k (some i) ++ py" ").length = (heading k (some i)).length + 1 := by simp
  rw [← hlen] at hcut
  refine parse_read (hP.looks.header.2 hh) (by rw [hP.kind]; exact hp) (startsWith_append_iff.2 ⟨t, ht⟩) (cut_from hfl hcut) ?_
  rw [hP.kind]
  refine hread _ _ _ _ hh ?_ hs
  intro l hl
  rcases List.mem_cons.1 hl with rfl | hl
  · exact hcut.fine hfl
  · exact hf l (by simp [hl])

theorem subpoint_reads {k : SaeKind} (hk : k = .alphabeticSubpoint ∨ k = .numericSubpoint) {id : Option Str} {body : List Line} {n : Node}
    (h : SubpointSays inAct k id body n) (hf : ∀ l ∈ body, Fine l) : ReadsAs inAct subpointKids k id body n := by
  refine says_read (ps := []) (fun _ => rfl) (by simp) (by simp) ?_ ?_ ?_ h hf
  · rcases hk with rfl | rfl <;> intro h <;> cases h
  · intro k' p' hl
    rcases hk with rfl | rfl <;> cases hl
  · intro _ _ _ _ h; exact h.elim

theorem subpoint_type (k : SaeKind) (id : Option Str) (b : List Line) (n : Node) (h : SubpointSays inAct k id b n) : n.type = .sae k := (says_type h).1

theorem numericPoint_reads {id : Option Str} {body : List Line} {n : Node}
    (h : PointSays inAct .numericPoint id body n) (hf : ∀ l ∈ body, Fine l) : ReadsAs inAct numericPointKids .numericPoint id body n := by
  have hs := alphabeticSubpoint_finds (p := []) (.inl rfl) (by simp)
  refine says_read (ps := [(alphabeticSubpointParser []).asSub subpointKids]) (fun _ => rfl) (by simp) ?_ (by intro h; cases h) ?_
    subpoint_type h hf
  · intro p hp
    rw [List.mem_singleton.1 hp]
    exact .list (.lettersBelowNumber id) rfl fun s h => hs.looks.header.1 h
  · intro k' p' hl _
    cases hl
    exact ⟨_, _, by simp, hs, item_parsed hs fun _ _ _ _ _ hf h => subpoint_reads (.inl rfl) h hf⟩

theorem alphabeticPoint_reads {i : Str} (hi : SubPrefix i) {body : List Line} {n : Node}
    (h : PointSays inAct .alphabeticPoint (some i) body n) (hf : ∀ l ∈ body, Fine l) : ReadsAs inAct alphabeticPointKids .alphabeticPoint (some i) body n := by
  have hn := numericSubpoint_finds
  refine says_read (ps := [numericSubpointParser.asSub subpointKids, (alphabeticSubpointParser i).asSub subpointKids]) (fun _ => rfl)
    (alphabetic_subparsers_apart hi.letters) ?_ (by intro h; cases h) ?_ subpoint_type h hf
  · intro p hp
    simp only [List.mem_cons, List.not_mem_nil, or_false] at hp
    rcases hp with rfl | rfl
    · exact .list (.numbersBelowLetter _) rfl fun s h => hn.looks.header.1 h
    · exact .list (.lettersBelowLetter i) rfl fun s h => (alphabeticSubpoint_looks hi).header.1 h
  · intro k' p' hl hs
    cases hl with
    | numbersBelowLetter =>
      exact ⟨_, _, List.mem_cons_self .., hn, item_parsed hn fun _ _ _ _ _ hf h => subpoint_reads (.inr rfl) h hf⟩
    | lettersBelowLetter =>
      have hs := alphabeticSubpoint_finds hi hs
      exact ⟨_, _, List.mem_cons_of_mem _ (List.mem_cons_self ..), hs, item_parsed hs fun _ _ _ _ _ hf h => subpoint_reads (.inl rfl) h hf⟩

theorem paragraph_reads {id : Option Str} {body : List Line} {n : Node}
    (h : ParagraphSays inAct .paragraph id body n) (hf : ∀ l ∈ body, Fine l) : ReadsAs inAct paragraphKids .paragraph id body n := by
  refine says_read (ps := [quotedParser, alphabeticPointParser.asSub alphabeticPointKids, numericPointParser.asSub numericPointKids]) (fun _ => rfl)
    paragraph_subparsers_apart ?_ (by simp) ?_ (fun _ _ _ _ h => (says_type h).1) h hf
  · intro p hp
    simp only [List.mem_cons, List.not_mem_nil, or_false] at hp
    rcases hp with rfl | rfl | rfl
    · exact .quoted rfl
    · exact .list (.letters _) rfl fun s h => alphabeticPoint_finds.looks.header.1 h
    · exact .list (.numbers _) rfl fun s h => numericPoint_finds.looks.header.1 h
  · intro k' p' hl _
    cases hl with
    | letters =>
      refine ⟨_, _, List.mem_cons_of_mem _ (List.mem_cons_self ..), alphabeticPoint_finds,
        item_parsed alphabeticPoint_finds fun _ i _ _ hh hf h => alphabeticPoint_reads ?_ h hf⟩
      exact .inr hh.1
    | numbers =>
      exact ⟨_, _, List.mem_cons_of_mem _ (List.mem_cons_of_mem _ (List.mem_cons_self ..)), numericPoint_finds,
        item_parsed numericPoint_finds fun _ _ _ _ _ hf h => numericPoint_reads h hf⟩

theorem paragraph_parsed : ∀ i line own n, (∀ l ∈ line :: own, Fine l) → QuotesClosed (line :: own) →
    EntryWritten (ParagraphSays inAct) .paragraph [] i line own n → parseElement paragraphParser paragraphKids (line :: own) inAct = .ok n :=
  item_parsed paragraph_finds fun _ _ _ _ _ hf h => paragraph_reads h hf

/-! ## Articles -/

theorem title_read {ls rest : List Line} {title : Option Str} (h : TitleWritten ls title rest) :
    articleTitle ls = .ok (title, rest) ∧ ∀ l ∈ rest, l ∈ ls := by
  cases h with
  | @none l rest begins =>
    obtain ⟨c, t, hl, hc⟩ := begins
    refine ⟨?_, fun _ h => h⟩
    simp [articleTitle, hl, hc]
  | @line l rest t title =>
    refine ⟨?_, fun _ h => List.mem_cons_of_mem _ h⟩
    have h1 : closesBracket (some l) = .ok true := by
      simp only [closesBracket, Option.bind_some, title]
      rw [List.getLast?_concat]
      rfl
    have h2 : (l.content.drop 1).dropLast = t := by rw [title]; simp
    simp only [articleTitle, List.head?_cons, Option.bind_some, title, List.cons_append]
    rw [if_neg (by simp)]
    simp only [List.getElem?_cons_zero, h1, bind, Except.bind, if_true, Option.map_some, Option.getD_some, List.drop_one, List.tail_cons]
    rw [List.drop_one] at h2
    rw [h2]
  | @lines l m rest s t first notYet second full =>
    refine ⟨?_, fun _ h => by simp [h]⟩
    have h1 : closesBracket (some l) = .ok false := by
      cases s with
      | nil => exact absurd rfl full.1
      | cons c s =>
        simp only [closesBracket, Option.bind_some, first, List.getLast?_cons_cons]
        cases hx : (c :: s).getLast? with
        | none => simp at hx
        | some d =>
          simp only [Except.ok.injEq, beq_eq_false_iff_ne]
          rintro rfl
          exact notYet hx
    have h2 : closesBracket (some m) = .ok true := by
      simp only [closesBracket, Option.bind_some, second]
      rw [List.getLast?_concat]
      rfl
    have h3 : joinLineStrs [s, t] = joined [s, t] := Props.join_single_spaces_partial _ (by
      intro x hx
      simp only [List.mem_cons, List.not_mem_nil, or_false] at hx
      rcases hx with rfl | rfl
      · exact full.1
      · exact full.2)
    have h4 : m.content.dropLast = t := by rw [second]; simp
    have h5 : l.content.drop 1 = s := by rw [first]; rfl
    simp only [articleTitle, List.head?_cons, Option.bind_some, first]
    rw [if_neg (by simp)]
    simp only [List.getElem?_cons_zero, List.getElem?_cons_succ, h1, h2, bind, Except.bind, if_true, Bool.false_eq_true, if_false, Option.map_some,
      Option.getD_some, h4, h5, h3]
    rfl

theorem paragraphs_parsed {ls : List Line} {ns : List Node} (h : ParagraphsWritten inAct ls ns) (hf : ∀ l ∈ ls, Fine l) :
    articleParagraphs ls inAct = .ok ns ∧ (∀ n ∈ ns, n.type = .sae .paragraph) ∧
      (ns.any (fun c => c.identifier.isNone) && decide (ns.length ≠ 1)) = false := by
  cases h with
  | @one l rest n unnumbered says =>
    obtain ⟨ht, hi, l', rest', hb, he⟩ := says_type says
    obtain ⟨rfl, rfl⟩ := List.cons.inj hb
    have hfl := hf l (by simp)
    have hh : paragraphParser.header l.content = none := by
      cases hx : paragraphParser.header l.content with
      | none => rfl
      | some i => exact absurd (paragraph_looks.header.1 hx) (unnumbered i)
    refine ⟨?_, by simp [ht], by simp⟩
    unfold articleParagraphs
    simp only [hh]
    rw [if_pos (by simp)]
    have hcut : l.slice ((0 : Nat) : Int) = .ok l := by
      refine cut_from hfl ⟨?_, Nat.le_refl _, ?_, ?_⟩
      · exact List.length_pos_iff.2 (hfl.content he)
      · rw [List.drop_zero, hfl.length, List.take_of_length_le (by rw [place_length]; exact Nat.le_refl _)]
      · simp [Rat.add_zero]
    have := parse_read (P := paragraphParser) (kids := paragraphKids) (first := l) (first' := l) (rest := rest) (n := n) (id := none) (pre := [])
      hh rfl rfl hcut (paragraph_reads says hf)
    rw [this]
    rfl
  | list list =>
    obtain ⟨line, rest, rfl, hline⟩ := list_begins list
    have hfirst : paragraphParser.header line.content = some paragraphParser.first := paragraph_looks.header.2 hline
    obtain ⟨hne, hall⟩ := list_nodes list
    have hsays : ∀ n ∈ ns, n.type = .sae .paragraph ∧ n.identifier.isNone = false := by
      intro n hn
      obtain ⟨i, line, own, _, l', _, hs⟩ := hall n hn
      obtain ⟨h1, h2, _⟩ := says_type hs
      exact ⟨h1, by rw [h2]; rfl⟩
    refine ⟨?_, fun n hn => (hsays n hn).1, ?_⟩
    · unfold articleParagraphs
      simp only [hfirst]
      rw [if_neg (by simp), extractMultiple_written paragraph_finds paragraph_parsed list hf (by intro h; cases h)]
      rfl
    · rw [Bool.and_eq_false_iff]
      left
      rw [List.any_eq_false]
      intro n hn
      simp [(hsays n hn).2]

theorem section_sign {i : Str} (h : IsArticleId i) : '§' ∉ i := by
  have hn : ∀ {n : Str}, IsNumber n → '§' ∉ n := by
    intro n hn hm
    exact absurd (hn.2 _ hm) (by decide)
  have ht : ∀ {n : Str}, IsArticleTail n → '§' ∉ n := by
    rintro n (h | ⟨m, c, h, hc, rfl⟩) hm
    · exact hn h hm
    · rcases List.mem_append.1 hm with hm | hm
      · exact hn h hm
      · simp only [List.mem_cons, List.not_mem_nil, or_false] at hm
        rcases hm with hm | rfl
        · revert hm; decide
        · revert hc; decide
  rcases h with h | ⟨b, t, hb, h, rfl⟩
  · exact ht h
  · intro hm
    rcases List.mem_append.1 hm with hm | hm
    · exact hn hb hm
    · rcases List.mem_cons.1 hm with hm | hm
      · revert hm; decide
      · exact ht h hm

theorem article_parsed {ls : List Line} {n : Node} (h : ArticleWritten inAct ls n) (hf : ∀ l ∈ ls, Fine l) : parseArticle ls inAct = .ok n := by
  cases h with
  | @article first rest first' i gap text title ls paragraphs ns number space begins oneLine cut titled empty full written =>
    have hff := hf first (by simp)
    have hm : matchArticle first.content = some i := matchArticle_iff.2 ⟨number, gap, text, [], space, oneLine, .inl rfl, by rw [begins]; simp⟩
    have hs : strFind (py"§ ") first.content = some (i ++ py"." ++ gap).length := by
      rw [begins, List.append_assoc, strFind_skip, strFind_here _ _ (by simp)]
      · simp
      · intro hm
        rcases List.mem_append.1 hm with hm | hm
        · rcases List.mem_append.1 hm with hm | hm
          · exact section_sign number hm
          · revert hm; decide
        · rcases space with rfl | rfl
          · cases hm
          · revert hm; decide
    have hcut : first.slice (((i ++ py"." ++ gap).length : Int) + 2) = .ok first' := by
      have := cut_from hff cut
      rw [List.length_append (as := i ++ py"." ++ gap)] at this
      exact this
    have hff' : ∀ l ∈ first' :: rest, Fine l := by
      intro l hl
      rcases List.mem_cons.1 hl with rfl | hl
      · exact cut.fine hff
      · exact hf l (by simp [hl])
    obtain ⟨t1, t2⟩ := title_read titled
    have hfp : ∀ l ∈ paragraphs, Fine l := by
      intro l hl
      rcases empty with rfl | ⟨e, _, rfl⟩
      · exact hff' l (t2 l hl)
      · exact hff' l (t2 l (by simp [hl]))
    obtain ⟨p1, p2, p3⟩ := paragraphs_parsed written hfp
    have hskip : skipEmptyLine ls = .ok paragraphs := by
      rcases empty with rfl | ⟨e, he, rfl⟩
      · cases ls with
        | nil => cases p1
        | cons l ls => simp [skipEmptyLine, full l rfl]
      · simp [skipEmptyLine, he]
    have hfil : (ns.filter fun p => p.type == .sae .paragraph) = ns := by
      rw [List.filter_eq_self]
      intro n hn
      simp [p2 n hn]
    have hbody : articleBody i (first' :: rest) inAct = .ok (.article i title ns) := by
      unfold articleBody
      simp only [t1, hskip, p1, bind, Except.bind, hfil]
      unfold mkArticle
      rw [if_neg]
      rw [p3]
      simp
    unfold parseArticle
    simp only [hm, hs, hcut, hbody, bind, Except.bind]

/-! ## Structural elements -/

theorem extract_none {k : StructKind} {line : Line} (h : ∀ j, ¬ StructHeading k line.content j) : k.extractIdentifier line = .ok none := by
  have hv : ∀ g e, k.identifierFromString g = .error e → e = .valueError := by
    have hroman : ∀ g e, romanToArabicWithPostfix g = .error e → e = .valueError := by
      intro g e he
      unfold romanToArabicWithPostfix textToIntRomanWithPostfix at he
      simp only [bind, Except.bind] at he
      split at he
      · rename_i hx
        split at hx
        · cases hx; cases he; rfl
        · cases hx
      · cases he
    have hhun : ∀ g e, (do let n ← textToIntHun g; Except.ok (natStr n) : Res Str) = .error e → e = .valueError := by
      intro g e he
      unfold textToIntHun at he
      split at he
      · cases he
      · cases he; rfl
    intro g e he
    cases k with
    | book => exact hhun g e he
    | part => exact hhun g e he
    | title => exact hroman g e he
    | chapter => exact hroman g e he
    | subtitle => cases he
  have hno : ∀ i, k.extractIdentifier line ≠ .ok (some i) := fun i hi => h i (structHeading_iff.1 hi)
  unfold StructKind.extractIdentifier at hno ⊢
  split
  · rename_i i hi
    rw [hi] at hno
    exact absurd rfl (hno i)
  · rename_i hi
    rw [hi] at hno
    split
    · rfl
    · rename_i g hg
      simp only [hg] at hno
      split
      · rename_i i hi
        rw [hi] at hno
        exact absurd rfl (hno i)
      · rename_i e he
        rw [hv g e he]
        rfl

theorem structural_parsed {ls : List Line} {k : StructKind} {i : Option Str} {n : Node} (h : StructuralWritten ls (.structural k i) n)
    (hf : ∀ l ∈ ls, Fine l) : k.parse ls = .ok n := by
  cases h with
  | @header k line more i kind number notNamed =>
    have hsp : (if k = .part then specialPartId line.content else none) = none := by
      by_cases hk : k = .part
      · rw [if_pos hk]; exact specialPartId_none.2 (notNamed hk)
      · rw [if_neg hk]
    simp only [StructKind.parse]
    rw [if_neg kind]
    simp only [hsp, structHeading_iff.2 number, bind, Except.bind]
    rw [joinLines_eq fun l hl => hf l (by simp [hl])]
  | @namedPart line more m name empty =>
    have hsp : specialPartId line.content = some (natStr (m + 1)) := specialPartId_iff.2 ⟨m, name, rfl⟩
    simp [StructKind.parse, hsp]
  | @subtitle line more i text number header =>
    have hx : StructKind.subtitle.extractIdentifier line = .ok (some i) := structHeading_iff.2 ⟨number, text, header⟩
    have hne : line.isEmptyLine = false := nonempty_of_content (by rw [header]; simp)
    have ht : lineTexts (line :: more) = line.content :: lineTexts more := by simp [lineTexts, hne]
    have hj : joined (line.content :: lineTexts more) = i ++ py". " ++ joined (text :: lineTexts more) := by
      rw [header]
      cases lineTexts more with
      | nil => rfl
      | cons t ts =>
        have hl : (i ++ py". " ++ text).getLast? = some '-' ↔ text.getLast? = some '-' := by
          cases text with
          | nil => simp
          | cons c text => simp [List.getLast?_append]
        have e : ∀ a : Str, joined (a :: t :: ts) = a ++ (if a.getLast? = some '-' then [] else [' ']) ++ joined (t :: ts) := fun _ => rfl
        rw [e, e]
        by_cases hh : text.getLast? = some '-'
        · rw [if_pos hh, if_pos (hl.2 hh)]; simp
        · rw [if_neg hh, if_neg (fun h => hh (hl.1 h))]; simp
    have hs : strFind (py". ") (i ++ py". " ++ joined (text :: lineTexts more)) = some i.length := by
      rw [List.append_assoc, strFind_skip, strFind_here _ _ (by simp)]
      · simp
      · intro hm
        have hn : ∀ {n : Str}, IsNumber n → '.' ∉ n := by
          intro n hn hm
          exact absurd (hn.2 _ hm) (by decide)
        rcases number with h | ⟨m, c, h, hc, rfl⟩
        · exact hn h hm
        · rcases List.mem_append.1 hm with hm | hm
          · exact hn h hm
          · simp only [List.mem_cons, List.not_mem_nil, or_false] at hm
            rcases hm with hm | rfl
            · revert hm; decide
            · revert hc; decide
    simp only [StructKind.parse, if_true, hx, bind, Except.bind]
    rw [joinLines_eq hf, ht, hj, hs]
    have : (i ++ py". " ++ joined (text :: lineTexts more)).drop (i.length + 2) = joined (text :: lineTexts more) :=
      List.drop_left' (by simp)
    simp only [this]
  | @unnumbered line more capital =>
    simp only [StructKind.parse, if_true, capital_no_number capital, bind, Except.bind]
    rw [joinLines_eq hf]

/-! ## Acts -/

/-- The parser for elements that begin in this way. -/
def Spec.Opening.parser : Opening → BodyParser
  | .article _ => .article
  | .structural k _ => .struct k

theorem base_no {last : Str} {k : StructKind} {line : Line} (h : ∀ j, ¬ StructHeading k line.content j) :
    k.isHeaderBase inAct last line = .ok false := by
  unfold StructKind.isHeaderBase
  rw [extract_none h]
  rfl

theorem base_yes {last : Str} {k : StructKind} {line : Line} {i : Str} (h : StructHeading k line.content i) (hn : NextNumber inAct last i) :
    k.isHeaderBase inAct last line = .ok true := by
  unfold StructKind.isHeaderBase
  rw [structHeading_iff.2 h]
  cases inAct with
  | false => rfl
  | true =>
    simp only [bind, Except.bind, Bool.not_true, Bool.false_eq_true, if_false]
    split
    · rfl
    · rename_i hne
      rcases hn rfl with h | h
      · exact absurd h hne
      · exact h

theorem article_no {st : BodyState} {previous line : Line} (h : ∀ j, ¬ Opens inAct st previous line (.article j)) :
    BodyParser.article.isHeader inAct st line previous = .ok false := by
  cases hx : BodyParser.article.isHeader inAct st line previous with
  | error e =>
    simp only [BodyParser.isHeader] at hx
    split at hx <;> cases hx
  | ok b =>
    cases b with
    | false => rfl
    | true =>
      obtain ⟨o, ho, hr, _⟩ := header_true hx
      cases o with
      | article i => exact absurd ho (h i)
      | structural k i => cases k <;> cases hr

theorem struct_no {st : BodyState} {previous line : Line} {k : StructKind} (hk : k ≠ .subtitle) (h : ∀ j, ¬ StructHeading k line.content j) :
    (BodyParser.struct k).isHeader inAct st line previous = .ok false := by
  have := base_no (inAct := inAct) (last := st.last k) h
  cases k <;> first | exact this | exact absurd rfl hk

theorem uppercase_total {line : Line} (h : line.content ≠ []) : ∃ b, beginsUppercase line = .ok b := by
  unfold beginsUppercase
  cases hc : line.content with
  | nil => exact absurd hc h
  | cons c r => exact ⟨_, rfl⟩

theorem headerParser_no {st : BodyState} {previous line : Line} {p : BodyParser} {ps : List BodyParser}
    (h : p.isHeader inAct st line previous = .ok false) : headerParser inAct st line previous (p :: ps) = headerParser inAct st line previous ps := by
  rw [headerParser, h]
  rfl

theorem headerParser_yes {st : BodyState} {previous line : Line} {p : BodyParser} {ps : List BodyParser}
    (h : p.isHeader inAct st line previous = .ok true) : headerParser inAct st line previous (p :: ps) = .ok (some p) := by
  rw [headerParser, h]
  rfl

theorem noElement_header {st : BodyState} {previous line : Line} (h : NoElement inAct st previous line) :
    headerParser inAct st line previous bodyParsers = .ok none := by
  obtain ⟨h1, h2, h3⟩ := h
  unfold bodyParsers
  rw [headerParser_no (article_no h1), headerParser_no (struct_no (by decide) fun j => h2 _ j (by decide)),
    headerParser_no (struct_no (by decide) fun j => h2 _ j (by decide)), headerParser_no (struct_no (by decide) fun j => h2 _ j (by decide)),
    headerParser_no (struct_no (by decide) fun j => h2 _ j (by decide)), headerParser_no]
  · rfl
  · show subtitleIsHeader inAct (st.last .subtitle) line previous = .ok false
    unfold subtitleIsHeader
    cases hb : line.bold with
    | false => simp
    | true =>
      obtain ⟨h4, h5⟩ := h3 hb
      have hbase := base_no (inAct := inAct) (last := st.last .subtitle) h5
      have hup : (inAct = true → previous.isEmptyLine = true) → beginsUppercase line = .ok false := by
        intro h
        obtain ⟨hne, hcap⟩ := h4 h
        obtain ⟨b, hu⟩ := uppercase_total hne
        cases b with
        | true => exact absurd (uppercase_iff.1 hu) hcap
        | false => exact hu
      cases inAct with
      | false => simp [hup (by simp), extract_none h5, bind, Except.bind]
      | true =>
        cases he : previous.isEmptyLine with
        | false => simpa using hbase
        | true => simpa [hup fun _ => he, bind, Except.bind] using hbase

theorem begins_header {st : BodyState} {previous line : Line} {o : Opening} (h : BeginsElement inAct st previous line o) :
    headerParser inAct st line previous bodyParsers = .ok (some o.parser) ∧ o.parser.stepToNext st line = .ok (remember st line o) := by
  obtain ⟨hop, hfirst⟩ := h
  cases o with
  | article i =>
    refine ⟨headerParser_yes ?_, rfl⟩
    cases hx : BodyParser.article.isHeader inAct st line previous with
    | error e =>
      simp only [BodyParser.isHeader] at hx
      split at hx <;> cases hx
    | ok b =>
      cases b with
      | true => rfl
      | false => exact absurd hop (header_false hx _ rfl)
  | structural k i =>
    obtain ⟨hart, hlow⟩ := hfirst k i rfl
    have hext : k.extractIdentifier line = .ok i := by
      cases i with
      | none =>
        cases k <;> first | exact hop.elim | exact capital_no_number hop.2.1
      | some i =>
        cases k <;> first | exact structHeading_iff.2 hop.1 | exact structHeading_iff.2 hop.2.1
    refine ⟨?_, ?_⟩
    · unfold bodyParsers
      rw [headerParser_no (article_no hart)]
      have low : ∀ k', k' ≠ .subtitle → (Opening.structural k' none).rank < (Opening.structural k i).rank →
          (BodyParser.struct k').isHeader inAct st line previous = .ok false := fun k' hk hr => struct_no hk (hlow k' hr)
      have yes : ∀ {k'}, k' ≠ .subtitle → (∃ i', i = some i' ∧ StructHeading k' line.content i' ∧ NextNumber inAct (st.last k') i') →
          (BodyParser.struct k').isHeader inAct st line previous = .ok true := by
        rintro k' hk ⟨i', _, h1, h2⟩
        have := base_yes h1 h2
        cases k' <;> first | exact this | exact absurd rfl hk
      cases k with
      | book =>
        refine headerParser_yes (yes (by decide) ?_)
        cases i with
        | none => exact hop.elim
        | some i => exact ⟨i, rfl, hop⟩
      | part =>
        rw [headerParser_no (low .book (by decide) (by simp [Opening.rank]))]
        refine headerParser_yes (yes (by decide) ?_)
        cases i with
        | none => exact hop.elim
        | some i => exact ⟨i, rfl, hop⟩
      | title =>
        rw [headerParser_no (low .book (by decide) (by simp [Opening.rank])), headerParser_no (low .part (by decide) (by simp [Opening.rank]))]
        refine headerParser_yes (yes (by decide) ?_)
        cases i with
        | none => exact hop.elim
        | some i => exact ⟨i, rfl, hop⟩
      | chapter =>
        rw [headerParser_no (low .book (by decide) (by simp [Opening.rank])), headerParser_no (low .part (by decide) (by simp [Opening.rank])),
          headerParser_no (low .title (by decide) (by simp [Opening.rank]))]
        refine headerParser_yes (yes (by decide) ?_)
        cases i with
        | none => exact hop.elim
        | some i => exact ⟨i, rfl, hop⟩
      | subtitle =>
        rw [headerParser_no (low .book (by decide) (by simp [Opening.rank])), headerParser_no (low .part (by decide) (by simp [Opening.rank])),
          headerParser_no (low .title (by decide) (by simp [Opening.rank])), headerParser_no (low .chapter (by decide) (by simp [Opening.rank]))]
        refine headerParser_yes ?_
        show subtitleIsHeader inAct (st.last .subtitle) line previous = .ok true
        unfold subtitleIsHeader
        cases i with
        | none =>
          obtain ⟨h1, h2, h3⟩ := hop
          cases inAct with
          | false => simp [h1, uppercase_iff.2 h2, bind, Except.bind]
          | true => simp [h1, h3 rfl, uppercase_iff.2 h2, bind, Except.bind]
        | some i =>
          obtain ⟨h1, h2, h3⟩ := hop
          have hbase := base_yes h2 h3
          have hne : line.content ≠ [] := by
            obtain ⟨_, t, ht⟩ := h2
            rw [ht]; simp
          obtain ⟨b, hu⟩ := uppercase_total hne
          cases inAct with
          | false => cases b <;> simp [h1, hu, hext, bind, Except.bind]
          | true =>
            simp only [h1, Bool.not_true, Bool.false_eq_true, if_false, hu, bind, Except.bind]
            cases previous.isEmptyLine with
            | false => simpa using hbase
            | true =>
              cases b with
              | true => rfl
              | false => simpa using hbase
    · simp only [Opening.parser, BodyParser.stepToNext, hext, bind, Except.bind]
      rfl

theorem element_parsed {ls : List Line} {o : Opening} {n : Node} (h : ElementWritten inAct ls o n) (hf : ∀ l ∈ ls, Fine l) :
    o.parser.parse ls inAct = .ok n := by
  cases o with
  | article i => exact article_parsed h hf
  | structural k i => exact structural_parsed h hf

theorem bodyLoop_plain {st : BodyState} {previous last : Line} {before ls : List Line} (h : NoElements inAct st previous before ls last) :
    ∀ (v : BodyLoop) (rest : List (Int × Line)), v.state = st → v.previous = previous →
      bodyLoop inAct inAct v (levels (openQuotes before) ls ++ rest) =
        bodyLoop inAct inAct { v with current := v.current ++ ls, previous := last } rest := by
  induction h with
  | done previous before =>
    rintro v rest rfl rfl
    simp [levels]
  | @outside previous before line ls last outside plain tail ih =>
    rintro v rest rfl rfl
    have := ih { v with previous := line, current := v.current ++ [line] } rest rfl rfl
    rw [openQuotes_append] at this
    simp only [levels, List.cons_append, bodyLoop, bodyStep, outside, noElement_header plain, bind, Except.bind, ne_eq, not_true_eq_false, if_false]
    rw [outside] at this
    simp only [List.append_assoc, List.cons_append, List.nil_append] at this
    exact this
  | @inside previous before line ls last inside tail ih =>
    rintro v rest rfl rfl
    have := ih { v with current := v.current ++ [line] } rest rfl rfl
    rw [openQuotes_append] at this
    simp only [levels, List.cons_append, bodyLoop, bodyStep, if_pos inside, bind, Except.bind]
    simp only [List.append_assoc, List.cons_append, List.nil_append] at this
    exact this

theorem bodyLoop_elements {st : BodyState} {previous : Line} {ls : List Line} {ns : List Node} (h : ElementsWritten inAct st previous ls ns) :
    ∀ (v : BodyLoop) (es : List Node), (∀ l ∈ ls, Fine l) → v.state = st → v.previous = previous → finishElement inAct v = .ok es →
      QuotesClosed ls ∧ ∃ v', bodyLoop inAct inAct v (levels 0 ls) = .ok v' ∧ finishElement inAct v' = .ok (es ++ ns) ∧
        (ns ≠ [] ∨ v.parser.isSome = true → v'.parser.isSome = true) := by
  induction h with
  | done st previous =>
    rintro v es _ rfl rfl hv
    exact ⟨closed_empty (by simp), v, rfl, by simpa using hv, by simp⟩
  | @element st previous line more o n last rest ns begins written quotes plain tail ih =>
    rintro v es hf rfl rfl hv
    obtain ⟨b1, b2⟩ := begins_header begins
    have hparse := element_parsed written fun l hl => hf l (by simp at hl ⊢; grind)
    obtain ⟨i1, v', i2, i3, i4⟩ := ih
      { state := remember v.state line o, elements := es, current := line :: more, parser := some o.parser, previous := last } (es ++ [n]) (fun l hl => hf l (by simp [hl])) rfl rfl (by
      simp only [finishElement, hparse, bind, Except.bind])
    refine ⟨quotes.append i1, v', ?_, by simpa using i3, fun _ => i4 (.inr rfl)⟩
    rw [levels_append, quotes.2]
    simp only [levels, List.cons_append, bodyLoop, bodyStep, b1, hv, b2, bind, Except.bind, ne_eq, not_true_eq_false, if_false, Int.zero_add]
    rw [bodyLoop_plain plain _ _ rfl rfl]
    exact i2

theorem preamble_found {previous last line : Line} {pre rest : List Line} {o : Opening} (h : PreambleWritten previous pre last)
    (begins : BeginsElement true {} last line o) : preambleLength previous (pre ++ line :: rest) = .ok pre.length := by
  induction h with
  | done previous =>
    simp only [List.nil_append, preambleLength, (begins_header begins).1, bind, Except.bind]
    rfl
  | line plain tail ih =>
    simp only [List.cons_append, preambleLength, noElement_header plain, bind, Except.bind, ih begins]
    rfl

theorem act_parsed {lines : List Line} {preamble : Str} {ns : List Node} (h : BodyWritten lines preamble ns) (hf : ∀ l ∈ lines, Fine l)
    (identifier subject : Str) (date : Date) :
    parseAct identifier date subject lines = .ok ⟨identifier, date, subject, preamble, ns⟩ := by
  cases h with
  | @act pre last line rest o ns hpre begins elements =>
    obtain ⟨h1, v, h2, h3, h4⟩ := bodyLoop_elements elements {} [] (fun l hl => hf l (by simp at hl ⊢; grind)) rfl rfl rfl
    have hns : ns ≠ [] := by cases elements; simp
    have hp : parsePreamble (pre ++ line :: rest) = .ok (joined (lineTexts pre), line :: rest) := by
      unfold parsePreamble
      simp only [preamble_found hpre begins, bind, Except.bind]
      rw [List.take_left' rfl, List.drop_left' rfl, joinLines_eq fun l hl => hf l (by simp [hl])]
    have he : parseElements true (line :: rest) true = .ok ns := by
      unfold parseElements
      rw [iterate_closed h1]
      simp only [h2, bind, Except.bind]
      obtain ⟨p, hpv⟩ := Option.isSome_iff_exists.1 (h4 (.inl hns))
      rw [hpv]
      simp only [finishElement, hpv, bind, Except.bind, List.nil_append] at h3
      exact h3
    unfold parseAct
    simp only [hp, he, bind, Except.bind]

/-! ## Amendments -/

theorem elements_written {ls : List Line} {ns : List Node} (h : ElementsWritten inAct {} emptyLine ls ns) (hns : ns ≠ []) (hf : ∀ l ∈ ls, Fine l) :
    parseElements inAct ls inAct = .ok ns := by
  obtain ⟨h1, v, h2, h3, h4⟩ := bodyLoop_elements h {} [] hf rfl rfl rfl
  unfold parseElements
  rw [iterate_closed h1]
  simp only [h2, bind, Except.bind]
  obtain ⟨p, hpv⟩ := Option.isSome_iff_exists.1 (h4 (.inl hns))
  rw [hpv]
  simp only [finishElement, hpv, bind, Except.bind, List.nil_append] at h3
  exact h3

/-- The parser finds the elements of an amendment and reads them. -/
structure ReadsParts (P : BlockParser) (t : Reference.Level) (p : Str) : Prop where
  header : ∀ {s i}, P.header s = some i ↔ LevelHeading t p s i
  next : ∀ {s u a b}, LevelHeading t p s a → LevelHeading t p u b → LevelAfter t p a b → P.isNext a b = .ok true
  notNext : ∀ {s u a b}, LevelHeading t p s a → LevelHeading t p u b → t ≠ .alphabeticSubpoint → ¬ LevelAfter t p a b → P.isNext a b = .ok false
  heading : ∀ {i line own n}, AmendedPart t p i line own n → LevelHeading t p line.content i
  parse : ∀ {i line own n}, (∀ l ∈ line :: own, Fine l) → QuotesClosed (line :: own) → AmendedPart t p i line own n → P.parse (line :: own) = .ok n

theorem blockLoop_own {P : BlockParser} {t : Reference.Level} {p i : Str} (hP : ReadsParts P t p) {line : Line} (hi : LevelHeading t p line.content i)
    (more : List Line) : ∀ (before : List Line) (done : List Node) (rest : List (Int × Line)),
    NotTheNextPart t p i line (before ++ more) →
    blockLoop P i (line :: before) done (levels (openQuotes (line :: before)) more ++ rest) = blockLoop P i (line :: before ++ more) done rest := by
  induction more with
  | nil => intro before done rest _; simp [levels]
  | cons l more ih =>
    intro before done rest hn
    have := ih (before ++ [l]) done rest (by simpa using hn)
    have hno : blockHeader P i (line :: before) (openQuotes (line :: before)) l = .ok none := by
      unfold blockHeader
      cases hh : P.header l.content with
      | none => rfl
      | some j =>
        simp only [List.isEmpty_cons, Bool.false_or]
        by_cases h0 : openQuotes (line :: before) = 0
        · obtain ⟨h1, h2⟩ := hn before l more rfl h0 j (hP.header.1 hh)
          rw [if_neg (by simp [h0])]
          simp only [hP.notNext hi (hP.header.1 hh) h1 h2, bind, Except.bind, Bool.false_eq_true, if_false]
        · rw [if_pos (by simp [h0])]
    rw [← List.cons_append, openQuotes_append] at this
    simp only [levels, List.cons_append, blockLoop, hno, bind, Except.bind]
    simp only [List.cons_append, List.append_assoc, List.nil_append] at this
    exact this

theorem blockLoop_parts {P : BlockParser} {t : Reference.Level} {p i : Str} (hP : ReadsParts P t p) {ls : List Line} {ns : List Node}
    (h : AmendedParts t p i ls ns) : (∀ l ∈ ls, Fine l) → QuotesClosed ls ∧ ∃ line rest, ls = line :: rest ∧ LevelHeading t p line.content i ∧
      ∀ done, ∃ ms m current, ns = ms ++ [m] ∧ P.parse current = .ok m ∧
        blockLoop P i [line] done (levels (openQuotes [line]) rest) = .ok (done ++ ms, current) := by
  induction h with
  | @last i line own n part quotes next =>
    intro hf
    have hi := hP.heading part
    refine ⟨quotes, line, own, rfl, hi, fun done => ⟨[], n, line :: own, rfl, hP.parse hf quotes part, ?_⟩⟩
    have := blockLoop_own hP hi own [] done [] next
    rw [List.append_nil] at this
    rw [this]
    simp [blockLoop]
  | @more i line own n j rest ns part quotes next number tail ih =>
    intro hf
    have hi := hP.heading part
    obtain ⟨i1, line', rest', rfl, hj, ih⟩ := ih fun l hl => hf l (by simp [hl])
    refine ⟨quotes.append i1, line, own ++ line' :: rest', rfl, hi, fun done => ?_⟩
    obtain ⟨ms, m, current, rfl, e1, e2⟩ := ih (done ++ [n])
    refine ⟨n :: ms, m, current, rfl, e1, ?_⟩
    have := blockLoop_own hP hi own [] done (levels 0 (line' :: rest')) next
    rw [levels_append]
    have hz : openQuotes [line] + openQuotes own = 0 := by
      rw [← openQuotes_append]
      exact quotes.2
    rw [hz]
    refine this.trans ?_
    have hh : blockHeader P i (line :: [] ++ own) 0 line' = .ok (some j) := by
      unfold blockHeader
      rw [hP.header.2 hj]
      simp only [List.cons_append, List.isEmpty_cons, Bool.false_or]
      rw [if_neg (by simp)]
      simp only [hP.next hi hj number, bind, Except.bind, if_true]
    have hp : P.parse (line :: [] ++ own) = .ok n := hP.parse (fun l hl => hf l (by simp at hl ⊢; grind)) quotes part
    simp only [levels, blockLoop, hh, hp, bind, Except.bind]
    rw [Int.zero_add, e2]
    simp

theorem parseBlocks_written {P : BlockParser} {t : Reference.Level} {p i : Str} (hP : ReadsParts P t p) {ls : List Line} {ns : List Node}
    (h : AmendedParts t p i ls ns) (hf : ∀ l ∈ ls, Fine l) : parseBlocks P i ls = .ok ns := by
  obtain ⟨hq, line, rest, rfl, hi, hl⟩ := blockLoop_parts hP h hf
  obtain ⟨ms, m, current, rfl, e1, e2⟩ := hl []
  have hh : blockHeader P i [] 0 line = .ok none := by
    unfold blockHeader
    cases P.header line.content <;> simp
  unfold parseBlocks
  rw [iterate_closed hq]
  simp only [levels, blockLoop, hh, bind, Except.bind, List.nil_append, Int.zero_add]
  simp only [e2, e1, List.nil_append]

theorem element_parts {P : ElementParser} {kids : ChildReader} {says : SaeKind → Option Str → List Line → Node → Prop} {k : SaeKind} {p : Str}
    {t : Reference.Level} (hP : Finds P k p) (hheading : LevelHeading t p = ElementHeading k p) (hafter : LevelAfter t p = ElementAfter k p)
    (hpart : AmendedPart t p = EntryWritten says k p) (ht : t ≠ .alphabeticSubpoint → k ≠ .alphabeticSubpoint)
    (hread : ∀ s i body n, ElementHeading k p s i → (∀ l ∈ body, Fine l) → says k (some i) body n → ReadsAs false kids k (some i) body n) :
    ReadsParts (P.asBlock kids) t p where
  header := by rw [hheading]; exact hP.looks.header
  next := by rw [hheading, hafter]; exact fun ha hb h => hP.next ha hb h
  notNext := by
    rw [hheading, hafter]
    intro s u a b ha hb hk h
    obtain ⟨r, hr⟩ := hP.total (ht hk) ha hb
    have := hP.looks.next (hP.looks.header.2 ha) (hP.looks.header.2 hb) hr
    cases r with
    | true => exact absurd (this.1 rfl) h
    | false => exact hr
  heading := by
    rw [hheading, hpart]
    exact fun h => h.1
  parse := by
    rw [hpart]
    exact fun hf hq h => item_parsed hP hread _ _ _ _ hf hq h

theorem article_parts : ReadsParts articleBlockParser .article p where
  header := articleBlock_looks.header
  next := fun ha hb h => (article_after_iff ha.1 hb.1).2 h
  notNext := fun {s u a b} ha hb _ h => by
    obtain ⟨r, hr⟩ := article_total ha.1 hb.1
    cases r with
    | true => exact absurd ((article_after_iff ha.1 hb.1).1 hr) h
    | false => exact hr
  heading := fun h => h.1
  parse := fun hf _ h => article_parsed h.2 hf

theorem parts_written {r : Reference} {t : Reference.Level} {id : Ident} {i p : Str} {ls : List Line} {ns : List Node} (hr : LowestPart r t id)
    (hi : id = .one i ∨ ∃ b, id = .range i b) (hb : BeginLike t p i) (h : AmendedParts t p i ls ns) (hf : ∀ l ∈ ls, Fine l) :
    blockChildren (.ref r) ls = .ok ns := by
  have key : ∃ P, blockParser r = .ok (P, i) ∧ ReadsParts P t p := by
    have hs : ∃ s, LevelHeading t p s i := by
      have : ∀ {line own n}, AmendedPart t p i line own n → LevelHeading t p line.content i := by
        intro line own n h
        cases t with
        | act => exact h
        | _ => exact h.1
      cases h with
      | last part => exact ⟨_, this part⟩
      | more part => exact ⟨_, this part⟩
    have hp : t = .alphabeticSubpoint → p = i.dropLast ∧ (p = [] ∨ (∃ c, isLowerAz c = true ∧ p = [c]) ∨ p = py"ny" ∨ p = py"sz") := by
      rintro rfl
      simp only [BeginLike, if_true] at hb
      exact ⟨hb.1, hb.2.imp_right .inl⟩
    have hl := lowest_last hr hi hs.choose_spec hp
    unfold blockParser
    rw [hl]
    rcases hi with rfl | ⟨b, rfl⟩ <;> simp only [bind, Except.bind] <;> (
      cases t with
      | act => exact hr.elim
      | article => exact ⟨_, rfl, article_parts⟩
      | paragraph =>
        obtain rfl : p = [] := by simpa [BeginLike] using hb
        exact ⟨_, rfl, element_parts paragraph_finds rfl rfl rfl (by simp) fun _ _ _ _ _ hf h => paragraph_reads h hf⟩
      | numericPoint =>
        obtain rfl : p = [] := by simpa [BeginLike] using hb
        exact ⟨_, rfl, element_parts numericPoint_finds rfl rfl rfl (by simp) fun _ _ _ _ _ hf h => numericPoint_reads h hf⟩
      | alphabeticPoint =>
        obtain rfl : p = [] := by simpa [BeginLike] using hb
        exact ⟨_, rfl, element_parts alphabeticPoint_finds rfl rfl rfl (by simp) fun _ _ _ _ hh hf h => alphabeticPoint_reads (.inr hh.1) h hf⟩
      | numericSubpoint =>
        obtain rfl : p = [] := by simpa [BeginLike] using hb
        exact ⟨_, rfl, element_parts numericSubpoint_finds rfl rfl rfl (by simp) fun _ _ _ _ _ hf h => subpoint_reads (.inr rfl) h hf⟩
      | alphabeticSubpoint =>
        have hq : SubPrefix p := (hp rfl).2
        have hlen : p.length ≤ 1 := by
          simp only [BeginLike, if_true] at hb
          rcases hb.2 with rfl | ⟨c, _, rfl⟩ <;> simp
        have hd : (if i.length ≠ 1 then i.dropLast else []) = p := by
          rw [(hp rfl).1]
          by_cases hl : i.length ≠ 1
          · rw [if_pos hl]
          · rw [if_neg hl]
            match i, hl with
            | [c], _ => rfl
            | [], hl => exact absurd (by simp) hl
            | _ :: _ :: _, hl => exact absurd (by simp) hl
        rw [hd]
        exact ⟨_, rfl, element_parts (alphabeticSubpoint_finds hq hlen) rfl rfl rfl (by simp) fun _ _ _ _ _ hf h => subpoint_reads (.inl rfl) h hf⟩)
  obtain ⟨P, h1, h2⟩ := key
  unfold blockChildren
  simp only [h1, bind, Except.bind]
  exact parseBlocks_written h2 h hf

theorem amendment_written {position : Position} {ls : List Line} {ns : List Node} (h : AmendmentWritten position ls ns) (hf : ∀ l ∈ ls, Fine l) :
    blockChildren position ls = .ok ns := by
  cases position with
  | struct s => exact elements_written h.2 h.1 hf
  | ref r =>
    obtain ⟨t, id, i, p, hr, hi, hb, h⟩ := h
    exact parts_written hr hi hb h hf

end Verif
