import Verif.Proofs.ParsedText

/-! # Which errors are passed on, ties between kinds of children, and balanced quotes -/

namespace Verif

open Verif.Spec

/-! ## First characters of headers -/

theorem matchLettered_head {p s i : Str} (hp : Letters p) (h : matchLettered p s = some i) :
    ∃ c t, s = c :: t ∧ isLowerAz c = true := by
  unfold matchLettered at h
  split at h
  · rename_i c' t' he
    split at h
    · rename_i hc
      by_cases hs : startsWith s p = true
      · rw [if_pos hs] at he
        have hs' := startsWith_drop hs
        rw [he] at hs'
        cases p with
        | nil => exact ⟨_, _, hs', hc⟩
        | cons a p => exact ⟨a, _, hs', hp a (by simp)⟩
      · rw [if_neg hs] at he; cases he
    · cases h
  · split at h
    · rename_i hs
      exact ⟨'n', _, startsWith_drop hs, by decide⟩
    · split at h
      · rename_i hs
        exact ⟨'s', _, startsWith_drop hs, by decide⟩
      · cases h

theorem matchNumbered_head {s i : Str} (h : matchNumbered s = some i) : ∃ c t, s = c :: t ∧ isAsciiDigit c = true := by
  unfold matchNumbered at h
  cases s with
  | nil => simp at h
  | cons c t =>
    refine ⟨c, t, rfl, ?_⟩
    cases hc : isAsciiDigit c with
    | true => rfl
    | false => simp [List.takeWhile, hc] at h

theorem digit_not_lower {c : Char} (h : isAsciiDigit c = true) : isLowerAz c = false := by
  simp only [isAsciiDigit, isLowerAz, Bool.and_eq_true, decide_eq_true_eq, Bool.and_eq_false_iff,
    decide_eq_false_iff_not] at *
  left
  intro h'
  have h1 : c.val ≤ '9'.val := h.2
  have h2 : 'a'.val ≤ c.val := h'
  have : ('a'.val).toNat ≤ ('9'.val).toNat := UInt32.le_iff_toNat_le.mp (UInt32.le_trans h2 h1)
  revert this
  decide

theorem lettered_not_numbered {p s i j : Str} (hp : Letters p) (h : matchLettered p s = some i)
    (h' : matchNumbered s = some j) : False := by
  obtain ⟨c, t, rfl, hc⟩ := matchLettered_head hp h
  obtain ⟨d, u, e, hd⟩ := matchNumbered_head h'
  obtain ⟨rfl, rfl⟩ := List.cons.inj e
  rw [digit_not_lower hd] at hc
  cases hc

theorem quote_not_lettered {p i : Str} {l : Line} (hp : Letters p) (h : matchLettered p l.content = some i)
    (h' : opensWithQuote l = .ok true) : False := by
  obtain ⟨c, t, e, hc⟩ := matchLettered_head hp h
  obtain ⟨d, u, e', hd⟩ := opens_content h'
  rw [e] at e'
  obtain ⟨rfl, rfl⟩ := List.cons.inj e'
  rcases hd with rfl | rfl <;> revert hc <;> decide

theorem quote_not_numbered {i : Str} {l : Line} (h : matchNumbered l.content = some i)
    (h' : opensWithQuote l = .ok true) : False := by
  obtain ⟨c, t, e, hc⟩ := matchNumbered_head h
  obtain ⟨d, u, e', hd⟩ := opens_content h'
  rw [e] at e'
  obtain ⟨rfl, rfl⟩ := List.cons.inj e'
  rcases hd with rfl | rfl <;> revert hc <;> decide

/-! ## Kinds of children never tie -/

/-- Two subparsers never find their first header on the same line. -/
def Apart (p q : SubParser) : Prop :=
  ∀ lines n, p.firstHeader lines = .ok (some n) → q.firstHeader lines ≠ .ok (some n)

theorem Apart.symm {p q : SubParser} (h : Apart p q) : Apart q p := fun lines n h1 h2 => h lines n h2 h1

theorem same_line {a b c d : List Line} {x y : Line} (h : a ++ x :: b = c ++ y :: d) (hl : a.length = c.length) :
    x = y := by
  have := (List.append_inj h hl).2
  exact (List.cons.inj this).1

theorem element_apart {P Q : ElementParser} {k k' : ChildReader}
    (h : ∀ s, P.header s = some P.first → Q.header s = some Q.first → False) : Apart (P.asSub k) (Q.asSub k') := by
  intro lines n h1 h2
  obtain ⟨a, x, b, e1, e2, _, e4⟩ := findFirstHeader_spec h1
  obtain ⟨c, y, d, f1, f2, _, f4⟩ := findFirstHeader_spec h2
  have := same_line (e1.symm.trans f1) (by omega)
  subst this
  exact h _ e4 f4

theorem quoted_apart {Q : ElementParser} {k' : ChildReader}
    (h : ∀ l : Line, opensWithQuote l = .ok true → Q.header l.content = some Q.first → False) :
    Apart quotedParser (Q.asSub k') := by
  intro lines n h1 h2
  obtain ⟨a, x, b, e1, e2, _, e4⟩ := quotedFirstLoop_spec lines 0 0 n _ h1
  obtain ⟨c, y, d, f1, f2, _, f4⟩ := findFirstHeader_spec h2
  have := same_line (e1.symm.trans f1) (by omega)
  subst this
  exact h _ e4 f4

theorem paragraph_subparsers_apart : [quotedParser, alphabeticPointParser.asSub alphabeticPointKids,
    numericPointParser.asSub numericPointKids].Pairwise Apart := by
  simp only [List.pairwise_cons, List.mem_cons, List.not_mem_nil, or_false, forall_eq_or_imp, forall_eq]
  refine ⟨⟨?_, ?_⟩, ?_, by simp, by simp⟩
  · exact quoted_apart fun l h h' => quote_not_lettered (by simp [Letters]) h' h
  · exact quoted_apart fun l h h' => quote_not_numbered h' h
  · exact element_apart fun s h h' => lettered_not_numbered (by simp [Letters]) h h'

theorem alphabetic_subparsers_apart {i : Str} (hi : Letters i) :
    [numericSubpointParser.asSub subpointKids, (alphabeticSubpointParser i).asSub subpointKids].Pairwise Apart := by
  simp only [List.pairwise_cons, List.mem_cons, List.not_mem_nil, or_false, forall_eq]
  exact ⟨element_apart fun s h h' => lettered_not_numbered hi h' h, by simp, by simp⟩

theorem firstHeaders_apart {lines : List Line} {ps : List SubParser} {found : List (Nat × SubParser)}
    (hp : ps.Pairwise Apart) (h : firstHeaders lines ps = .ok found) :
    found.Pairwise fun a b => a.1 ≠ b.1 := by
  induction ps generalizing found with
  | nil =>
    obtain rfl : found = [] := by simpa [firstHeaders] using h.symm
    simp
  | cons p ps ih =>
    rw [List.pairwise_cons] at hp
    rw [firstHeaders] at h
    obtain ⟨r, hr, h⟩ := resBind_ok h
    cases r with
    | none => exact ih hp.2 h
    | some n =>
      simp only at h
      split at h
      · exact ih hp.2 h
      · obtain ⟨r', hr', h⟩ := resBind_ok h
        obtain rfl := Except.ok.inj h
        rw [List.pairwise_cons]
        refine ⟨?_, ih hp.2 hr'⟩
        intro e he heq
        obtain ⟨h1, h2, _⟩ := firstHeaders_spec hr' e he
        exact hp.1 e.2 h1 lines n hr (by rw [h2, ← heq])

theorem insertHeader_total {e : Nat × SubParser} {es : List (Nat × SubParser)} (h : ∀ f ∈ es, e.1 ≠ f.1) :
    ∃ r, insertHeader e es = .ok r := by
  induction es with
  | nil => exact ⟨_, rfl⟩
  | cons f fs ih =>
    rw [insertHeader]
    split
    · exact ⟨_, rfl⟩
    · rw [if_neg (h f (by simp))]
      obtain ⟨r, hr⟩ := ih fun g hg => h g (by simp [hg])
      exact ⟨f :: r, by rw [hr]; rfl⟩

theorem sortHeaders_total {es : List (Nat × SubParser)} (h : es.Pairwise fun a b => a.1 ≠ b.1) :
    ∃ r, sortHeaders es = .ok r := by
  induction es with
  | nil => exact ⟨_, rfl⟩
  | cons e es ih =>
    rw [List.pairwise_cons] at h
    obtain ⟨r, hr⟩ := ih h.2
    have hperm := (sortHeaders_spec hr).1
    obtain ⟨r', hr'⟩ := insertHeader_total (e := e) (es := r) fun f hf => h.1 f (hperm.mem_iff.mp hf)
    exact ⟨r', by rw [sortHeaders, hr]; exact hr'⟩

/-! ## Errors that mean something to the parsers -/

/-- The error is not one of the two that the parsers look for. -/
def Quiet {α : Type} (x : Res α) : Prop := ∀ e, x = .error e → e ≠ .noSubelements ∧ e ≠ .saeNotFound

theorem quiet_ok {α : Type} (a : α) : Quiet (.ok a : Res α) := fun _ h => by cases h

theorem quiet_error {α : Type} {e : Err} (h : e ≠ .noSubelements ∧ e ≠ .saeNotFound) : Quiet (.error e : Res α) :=
  fun _ h' => by obtain rfl := Except.error.inj h'; exact h

theorem quiet_bind {α β : Type} {x : Res α} {f : α → Res β} (hx : Quiet x) (hf : ∀ a, x = .ok a → Quiet (f a)) :
    Quiet (x >>= f) := by
  cases x with
  | error e => intro e' h; exact hx e' (by cases h; rfl)
  | ok a => exact hf a rfl

theorem quiet_value {α : Type} : Quiet (.error .valueError : Res α) := quiet_error (by decide)
theorem quiet_index {α : Type} : Quiet (.error .indexError : Res α) := quiet_error (by decide)
theorem quiet_assert {α : Type} : Quiet (.error .assertionError : Res α) := quiet_error (by decide)
theorem quiet_type {α : Type} : Quiet (.error .typeError : Res α) := quiet_error (by decide)

theorem pyInt_quiet (s : Str) : Quiet (pyInt s) := by
  unfold pyInt
  simp only
  repeat' split
  all_goals first | exact quiet_ok _ | exact quiet_value

theorem isNextNumeric_quiet (a b : Str) : Quiet (isNextNumericIdentifier a b) := by
  unfold isNextNumericIdentifier
  simp only
  split
  · split
    · exact quiet_bind (pyInt_quiet _) fun _ _ => quiet_bind (pyInt_quiet _) fun _ _ => quiet_ok _
    · exact quiet_ok _
  · split
    · exact quiet_bind (pyInt_quiet _) fun _ _ => quiet_bind (pyInt_quiet _) fun _ _ => quiet_ok _
    · split
      · split
        · exact quiet_ok _
        · exact quiet_index
      · exact quiet_ok _

theorem alphabeticSubpointIsNext_quiet (a b : Str) : Quiet (alphabeticSubpointIsNext a b) := by
  unfold alphabeticSubpointIsNext
  split
  · exact quiet_ok _
  · split
    · exact quiet_index
    · split
      · split
        · exact quiet_index
        · exact quiet_ok _
      · exact quiet_ok _
  · exact quiet_value

theorem isNext_quiet (k : SaeKind) (a b : Str) : Quiet (k.isNextIdentifier a b) := by
  cases k
  · exact alphabeticSubpointIsNext_quiet a b
  · exact isNextNumeric_quiet a b
  · exact isNextNumeric_quiet a b
  · exact quiet_ok _
  · exact quiet_type
  · exact isNextNumeric_quiet a b

theorem accepts_quiet (P : ElementParser) (last : Option (Str × Rat)) (i : Str) : Quiet (P.accepts last i) := by
  cases last with
  | none => exact quiet_ok _
  | some l => exact isNext_quiet _ _ _

theorem headerLoop_quiet (P : ElementParser) (ys : List (Int × Line)) : ∀ (last : Option (Str × Rat)) (n : Nat) (e : Err),
    (headerLoop P last n ys).stop = some e → e ≠ .noSubelements ∧ e ≠ .saeNotFound := by
  induction ys with
  | nil => intro last n e h; cases h
  | cons y ys ih =>
    obtain ⟨level, line⟩ := y
    intro last n e h
    rw [headerLoop] at h
    split at h
    · exact ih _ _ _ h
    · split at h
      · exact ih _ _ _ h
      · split at h
        · exact ih _ _ _ h
        · split at h
          · rename_i he
            obtain rfl := Option.some.inj h
            exact accepts_quiet _ _ _ _ he
          · exact ih _ _ _ h
          · exact ih _ _ _ h

theorem quoteLevel_error (lines : List Line) (e : Err) (h : (iterateWithQuoteLevel lines).stop = some e) :
    e = .valueError := by
  rcases (Props.quoteLevelLoop_stop lines 0 (by omega)).2 with h' | h'
  · unfold iterateWithQuoteLevel at h; rw [h'] at h; cases h
  · unfold iterateWithQuoteLevel at h; rw [h'] at h; exact (Option.some.inj h).symm

theorem balanced_of_stop {lines : List Line} (h : (iterateWithQuoteLevel lines).stop = none) : openQuotes lines = 0 := by
  have := ((Props.quoteLevelLoop_stop lines 0 (by omega)).1.mp h).2
  omega

theorem findHeaderLines_quiet (P : ElementParser) (lines : List Line) : Quiet (findHeaderLines P lines).toList := by
  intro e h
  unfold Gen.toList at h
  cases hs : (findHeaderLines P lines).stop with
  | none => simp [hs] at h
  | some e' =>
    simp only [hs] at h
    obtain rfl := Except.error.inj h
    unfold findHeaderLines at hs
    simp only at hs
    rcases Option.or_eq_some_iff.mp hs with h1 | ⟨_, h2⟩
    · exact headerLoop_quiet _ _ _ _ _ h1
    · rw [quoteLevel_error _ _ h2]; decide

theorem findFirstHeader_quiet (P : ElementParser) (lines : List Line) : Quiet (findFirstHeader P lines) := by
  intro e h
  unfold findFirstHeader Gen.next at h
  split at h
  · cases h
  · cases hs : (findHeaderLines P lines).stop with
    | none => simp [hs] at h
    | some e' =>
      simp only [hs] at h
      obtain rfl := Except.error.inj h
      refine findHeaderLines_quiet P lines e' ?_
      unfold Gen.toList
      simp [hs]

theorem findFirstHeader_none {P : ElementParser} {lines : List Line} (h : findFirstHeader P lines = .ok none) :
    openQuotes lines = 0 := by
  unfold findFirstHeader Gen.next at h
  split at h
  · cases h
  · cases hs : (findHeaderLines P lines).stop with
    | some e' => simp [hs] at h
    | none =>
      unfold findHeaderLines at hs
      simp only at hs
      exact balanced_of_stop (Option.or_eq_none_iff.mp hs).2

theorem opens_quiet (l : Line) : Quiet (opensWithQuote l) := by
  unfold opensWithQuote
  split
  · exact quiet_index
  · exact quiet_ok _

theorem closes_quiet (l : Line) : Quiet (closesWithQuote l) := by
  unfold closesWithQuote
  split
  · exact quiet_index
  · exact quiet_ok _

theorem slice_quiet (l : Line) (a : Int) (b : Option Int) : Quiet (l.slice a b) := by
  unfold Line.slice
  simp only
  repeat' split
  all_goals first | exact quiet_ok _ | exact quiet_value | exact quiet_index

theorem openBlock_quiet (blocks : List Node) (l : Line) : Quiet (openBlock blocks l) := by
  unfold openBlock
  refine quiet_bind (closes_quiet l) fun b _ => ?_
  cases b
  · exact quiet_bind (slice_quiet _ _ _) fun _ _ => quiet_ok _
  · exact quiet_bind (slice_quiet _ _ _) fun _ _ => quiet_ok _

theorem quotedStep_quiet (st : QuoteState) (blocks : List Node) (level : Int) (l : Line) :
    Quiet (quotedStep st blocks level l) := by
  cases st with
  | start =>
    simp only [quotedStep]
    split
    · exact quiet_ok _
    · refine quiet_bind (opens_quiet l) fun b _ => ?_
      split
      · exact openBlock_quiet _ _
      · exact quiet_assert
  | block q =>
    simp only [quotedStep]
    split
    · exact quiet_ok _
    · refine quiet_bind (closes_quiet l) fun b _ => ?_
      split
      · exact quiet_bind (slice_quiet _ _ _) fun _ _ => quiet_ok _
      · exact quiet_ok _
  | maybe =>
    simp only [quotedStep]
    split
    · exact quiet_ok _
    · refine quiet_bind (opens_quiet l) fun b _ => ?_
      split
      · exact openBlock_quiet _ _
      · exact quiet_ok _
  | wrapUp w =>
    simp only [quotedStep]
    split <;> exact quiet_ok _

theorem quotedLoop_quiet (ys : List (Int × Line)) : ∀ st blocks, Quiet (quotedLoop st blocks ys) := by
  induction ys with
  | nil => intro st blocks; exact quiet_ok _
  | cons y ys ih =>
    intro st blocks
    rw [quotedLoop]
    exact quiet_bind (quotedStep_quiet _ _ _ _) fun _ _ => ih _ _

theorem quotedExtract_balanced {lines : List Line} (h : ¬ Quiet (quotedExtract lines)) : openQuotes lines = 0 := by
  cases hs : (iterateWithQuoteLevel lines).stop with
  | none => exact balanced_of_stop hs
  | some e =>
    exfalso
    apply h
    unfold quotedExtract
    refine quiet_bind (quotedLoop_quiet _ _ _) fun _ _ => ?_
    simp only [hs]
    rw [quoteLevel_error _ _ hs]
    exact quiet_value

theorem extractMultiple_balanced {P : ElementParser} {kids : ChildReader} {lines : List Line} {pi : Bool}
    (h : ¬ Quiet (extractMultiple P kids lines pi)) : openQuotes lines = 0 := by
  cases hs : (findHeaderLines P lines).toList with
  | ok hs' => exact (findHeaderLines_spec hs).1
  | error e =>
    exfalso
    apply h
    unfold extractMultiple
    rw [hs]
    exact quiet_error (findHeaderLines_quiet P lines e hs)

theorem quotedFirst_quiet (ys : List (Int × Line)) : ∀ (n : Nat) (stop : Option Err),
    (∀ e, stop = some e → e = .valueError) → Quiet (quotedFirstLoop n ys stop) := by
  induction ys with
  | nil =>
    intro n stop hs
    cases stop with
    | none => exact quiet_ok _
    | some e => rw [hs e rfl]; exact quiet_value
  | cons y ys ih =>
    obtain ⟨level, line⟩ := y
    intro n stop hs
    rw [quotedFirstLoop]
    split
    · refine quiet_bind (opens_quiet line) fun b _ => ?_
      cases b
      · exact ih _ _ hs
      · exact quiet_ok _
    · exact ih _ _ hs

/-! ## Paragraphs have balanced quotes -/

theorem tryParsers_loud {lines : List Line} {pi : Bool} {es : List (Nat × SubParser)}
    (h : tryParsers lines pi es = .error .noSubelements) :
    es = [] ∨ ∃ e ∈ es, ¬ Quiet (e.2.extract (lines.drop e.1) pi) := by
  cases es with
  | nil => exact .inl rfl
  | cons e es =>
    obtain ⟨n, p⟩ := e
    refine .inr ⟨(n, p), by simp, ?_⟩
    intro hq
    rw [tryParsers] at h
    cases hx : p.extract (lines.drop n) pi with
    | ok r => obtain ⟨a, b⟩ := r; simp [hx] at h
    | error e =>
      have h1 := hq e hx
      simp only [hx] at h
      cases e <;> first | exact absurd rfl h1.1 | exact absurd rfl h1.2 | cases h

theorem openQuotes_split (lines : List Line) (n : Nat) :
    openQuotes lines = openQuotes (lines.take n) + openQuotes (lines.drop n) := by
  rw [← openQuotes_append, List.take_append_drop]

theorem firstHeader_take {P : ElementParser} {kids : ChildReader} {lines : List Line} {n : Nat}
    (h : (P.asSub kids).firstHeader lines = .ok (some n)) : openQuotes (lines.take n) = 0 := by
  obtain ⟨pre, l, post, e1, rfl, e3, _⟩ := findFirstHeader_spec h
  rw [e1, List.take_left]; exact e3

theorem quotedHeader_take {lines : List Line} {n : Nat} (h : quotedParser.firstHeader lines = .ok (some n)) :
    openQuotes (lines.take n) = 0 := by
  obtain ⟨pre, l, post, e1, e2, e3, _⟩ := quotedFirstLoop_spec lines 0 0 n _ h
  have : n = pre.length := by omega
  subst this
  rw [e1, List.take_left]; omega

theorem paragraphKids_balanced {lines : List Line} {i : Option Str} {pi : Bool} {r : Res Parts}
    (h : paragraphKids lines i pi = r) (hr : r = .error .noSubelements ∨ ∃ p, r = .ok p) : openQuotes lines = 0 := by
  rcases hr with rfl | ⟨⟨intro, cs, w⟩, rfl⟩
  · unfold paragraphKids childrenBy at h
    cases hf : firstHeaders lines [quotedParser, alphabeticPointParser.asSub alphabeticPointKids,
        numericPointParser.asSub numericPointKids] with
    | error e =>
      exfalso
      rw [hf] at h
      obtain rfl := Except.error.inj h
      revert hf
      have hq : Quiet (firstHeaders lines [quotedParser, alphabeticPointParser.asSub alphabeticPointKids,
        numericPointParser.asSub numericPointKids]) := by
        have q1 : Quiet (quotedParser.firstHeader lines) := quotedFirst_quiet _ _ _ (quoteLevel_error lines)
        have q2 := findFirstHeader_quiet alphabeticPointParser lines
        have q3 := findFirstHeader_quiet numericPointParser lines
        have step : ∀ (p : SubParser) (ps : List SubParser), Quiet (p.firstHeader lines) →
            Quiet (firstHeaders lines ps) → Quiet (firstHeaders lines (p :: ps)) := by
          intro p ps h1 h2
          rw [firstHeaders]
          refine quiet_bind h1 fun r _ => ?_
          cases r with
          | none => exact h2
          | some n =>
            simp only
            split
            · exact h2
            · exact quiet_bind h2 fun _ _ => quiet_ok _
        exact step _ _ q1 (step _ _ q2 (step _ _ q3 (quiet_ok _)))
      exact fun hf => absurd rfl (hq _ hf).1
    | ok found =>
      rw [hf] at h
      obtain ⟨sorted, hs⟩ := sortHeaders_total (firstHeaders_apart paragraph_subparsers_apart hf)
      have h' : tryParsers lines pi sorted = .error .noSubelements := by
        simpa only [hs, bind, Except.bind] using h
      have hperm := (sortHeaders_spec hs).1
      rcases tryParsers_loud h' with rfl | ⟨e, he, hq⟩
      · obtain rfl := List.nil_perm.mp hperm
        -- no kind of children was found after an intro
        have key : ∀ (p : SubParser) (ps : List SubParser), firstHeaders lines (p :: ps) = .ok [] →
            (p.firstHeader lines = .ok none ∨ p.firstHeader lines = .ok (some 0)) ∧ firstHeaders lines ps = .ok [] := by
          intro p ps h
          rw [firstHeaders] at h
          obtain ⟨r, hr, h⟩ := resBind_ok h
          cases r with
          | none => exact ⟨.inl hr, h⟩
          | some n =>
            simp only at h
            split at h
            · rename_i hc
              simp only [Bool.and_eq_true, decide_eq_true_eq] at hc
              rw [hc.1] at hr
              exact ⟨.inr hr, h⟩
            · obtain ⟨r', hr', h⟩ := resBind_ok h
              cases h
        obtain ⟨_, k2⟩ := key _ _ hf
        obtain ⟨k3, k4⟩ := key _ _ k2
        obtain ⟨k5, _⟩ := key _ _ k4
        rcases k3 with k3 | k3
        · exact findFirstHeader_none k3
        · rcases k5 with k5 | k5
          · exact findFirstHeader_none k5
          · exfalso
            exact element_apart (P := alphabeticPointParser) (Q := numericPointParser) (k := alphabeticPointKids)
              (k' := numericPointKids) (fun s h h' => lettered_not_numbered (p := []) (by simp [Letters]) h h')
              lines 0 k3 k5
      · obtain ⟨h1, h2, _⟩ := firstHeaders_spec hf e (hperm.mem_iff.mp he)
        rw [openQuotes_split lines e.1]
        simp only [List.mem_cons, List.not_mem_nil, or_false] at h1
        rcases h1 with h1 | h1 | h1
        · rw [h1] at h2 hq
          rw [quotedHeader_take h2, quotedExtract_balanced hq]; rfl
        · rw [h1] at h2 hq
          rw [firstHeader_take h2, extractMultiple_balanced hq]; rfl
        · rw [h1] at h2 hq
          rw [firstHeader_take h2, extractMultiple_balanced hq]; rfl
  · obtain ⟨p, hp, n, h1, h2, h3, h4⟩ := childrenBy_spec h
    rw [openQuotes_split lines n]
    simp only [List.mem_cons, List.not_mem_nil, or_false] at hp
    rcases hp with rfl | rfl | rfl
    · rw [quotedHeader_take h1, (quotedExtract_spec h4).1]; rfl
    · rw [firstHeader_take h1, (extractMultiple_spec alphabeticPoint_sound.visible h4).1]; rfl
    · rw [firstHeader_take h1, (extractMultiple_spec numericPoint_sound.visible h4).1]; rfl

theorem paragraph_balanced {first : Line} {rest : List Line} {pi : Bool} {n : Node} (hf : FineEnd first)
    (h : parseElement paragraphParser paragraphKids (first :: rest) pi = .ok n) : openQuotes (first :: rest) = 0 := by
  simp only [parseElement] at h
  obtain ⟨p, hp, h⟩ := resBind_ok h
  cases hs : startsWith first.content p with
  | false => simp [hs] at h
  | true =>
    simp only [hs, Bool.not_true, Bool.false_eq_true, if_false] at h
    obtain ⟨first', hc, h⟩ := resBind_ok h
    have header : Header .paragraph (paragraphParser.header first.content) first first' :=
      ⟨⟨p, hp, hs, hc⟩, fun _ => rfl, fun j hj => paragraph_sound.plain _ _ hj, paragraph_sound.full _,
        paragraph_sound.kind, fun j hj => paragraph_sound.shape _ _ hj⟩
    rw [header.same_level hf]
    cases hr : paragraphKids (first' :: rest) (paragraphParser.header first.content) pi with
    | ok r => exact paragraphKids_balanced hr (.inr ⟨r, rfl⟩)
    | error e =>
      simp only [hr] at h
      refine paragraphKids_balanced hr (.inl ?_)
      cases e <;> first | rfl | cases h

end Verif
