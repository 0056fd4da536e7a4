import Verif.Proofs.Headings
import Verif.Proofs.Wording

/-! # Which sentences are parsed -/

namespace Verif

open Spec

namespace Peg

variable {α : Type}

theorem bind_some {β : Type} {p : Peg α} {f : α → Peg β} {i j : At} {a : α} (h : p i = some (a, j)) : (p >>= f) i = f a j := by
  show (match p i with | none => none | some (a, j) => f a j) = _
  rw [h]

theorem bind_none {β : Type} {p : Peg α} {f : α → Peg β} {i : At} (h : p i = none) : (p >>= f) i = none := by
  show (match p i with | none => none | some (a, j) => f a j) = _
  rw [h]

theorem skip_head (i : At) {c : Char} (h : i.skip.rest.head? = some c) : isSpace c = false := by
  have key : ∀ l : Str, (l.drop (l.takeWhile isSpace).length).head? = some c → isSpace c = false := by
    intro l
    induction l with
    | nil => intro h; cases h
    | cons a l ih =>
      intro h
      rw [List.takeWhile_cons] at h
      by_cases ha : isSpace a = true
      · simp only [ha, if_true, List.length_cons, List.drop_succ_cons] at h
        exact ih h
      · simp only [ha, Bool.false_eq_true, if_false, List.length_nil, List.drop_zero, List.head?_cons, Option.some.injEq] at h
        subst h
        simpa using ha
  exact key _ h

theorem takeWhile_of_head {p : Char → Bool} {l : Str} (h : ∀ c, l.head? = some c → p c = false) : l.takeWhile p = [] := by
  cases l with
  | nil => rfl
  | cons a l => rw [List.takeWhile_cons, h a rfl]; rfl

theorem skip_skip (i : At) : i.skip.skip = i.skip := by
  have h : i.skip.rest.takeWhile isSpace = [] := takeWhile_of_head fun c hc => skip_head i hc
  conv => lhs; rw [At.skip, h]
  cases h' : i.skip
  simp [At.move]

theorem skip_blank {s : Str} (h : ∀ c ∈ s, isSpace c = true) (n : Nat) : (⟨n, s⟩ : At).skip = ⟨n + s.length, []⟩ := by
  have : s.takeWhile isSpace = s := by
    induction s with
    | nil => rfl
    | cons a s ih => rw [List.takeWhile_cons, h a (List.mem_cons_self ..), if_pos rfl, ih fun c hc => h c (List.mem_cons_of_mem _ hc)]
  simp [At.skip, At.move, this]

/-- A loop ends where nothing more can be read. -/
theorem manyLoop_stops {s : Str} {p : Peg α} (h : Scans s p fun _ i j => i < j) (n : Nat) :
    ∀ i : At, i.In s → i.rest.length ≤ n → p (manyLoop p n i).2 = none ∨ (manyLoop p n i).2.rest = [] := by
  induction n with
  | zero =>
    intro i _ hn
    exact .inr (List.eq_nil_of_length_eq_zero (Nat.le_zero.mp hn))
  | succ n ih =>
    intro i hi hn
    unfold manyLoop
    cases hp : p i with
    | none => exact .inl hp
    | some x =>
      obtain ⟨a, j⟩ := x
      obtain ⟨h1, _, h3⟩ := h _ _ _ hi hp
      have e1 := hi.length
      have e2 := h1.length
      have e3 := h1.le
      have hlt : j.rest.length < i.rest.length := by omega
      simp only [hlt, if_true]
      exact ih j h1 (by omega)

end Peg

namespace ActGrammar

open Peg

theorem goes_on_anyToken {s : Str} : Scans s anyToken fun _ i j => i < j := by
  have pat : ∀ (r : Regex), (∀ w, Matches r w → w ≠ []) → Scans s (pattern r) fun _ i j => i < j := by
    intro r hr
    refine (reads_pattern r).mono ?_
    rintro a i j _ _ ⟨h1, h2⟩
    exact lt_of_slice (by rw [h2]; exact hr a h1)
  have rul : ∀ {p : Peg Str}, (Scans s p fun _ i j => i < j) → Scans s (rule p) fun _ i j => i < j := by
    intro p hp
    refine (reads_rule hp).mono ?_
    rintro a i j _ _ ⟨n, h1, _, _, h2⟩
    omega
  exact rul (reads_or' (rul (pat _ fun w h => (matches_plus h).1)) (reads_or' (rul (pat _ fun w h => (matches_plus h).1))
    (pat _ fun w h => by obtain ⟨c, _, rfl⟩ := matches_set h; simp)))

theorem goes_on_anySimpleExpression {s : Str} : Scans s anySimpleExpression fun _ i j => i < j := by
  have bind : ∀ {α β : Type} {p : Peg α} {f : α → Peg β}, (Scans s p fun _ i j => i < j) → (∀ a, Goes s (f a)) →
      Scans s (p >>= f) fun _ i j => i < j := by
    intro α β p f hp hf
    refine (reads_bind hp hf).mono ?_
    rintro b i k _ _ ⟨a, j, _, h1, h2, _⟩
    omega
  have rul : ∀ {α : Type} {p : Peg α}, (Scans s p fun _ i j => i < j) → Scans s (rule p) fun _ i j => i < j := by
    intro α p hp
    refine (reads_rule hp).mono ?_
    rintro a i j _ _ ⟨n, h1, _, _, h2⟩
    omega
  have quote : Scans s quote fun _ i j => i < j := by
    refine reads_quote.mono ?_
    rintro q i j _ _ ⟨k, h1, _, h2⟩
    have := h2.1
    omega
  have act : Scans s actReference fun _ i j => i < j := reads_actReference.mono fun _ _ _ _ _ h => h.1
  have ref : Scans s reference fun _ i j => i < j := by
    refine reads_reference.mono ?_
    rintro q i j _ _ ⟨k, h1, _, _, h2, _⟩
    omega
  have abbr : Scans s abbreviation fun _ i j => i < j := by
    refine reads_abbreviation.mono ?_
    rintro q i j _ _ ⟨k, h1, _, _, h2, _⟩
    omega
  exact rul (reads_or' (bind quote fun _ => goes_pure _) (reads_or' (rul (reads_or' (bind act fun a => .bind (.of
    (reads_many reads_listedReference)) fun _ => goes_pure _) (bind ref fun _ => goes_pure _))) (reads_or' (bind abbr fun _ => goes_pure _)
    (bind goes_on_anyToken fun _ => goes_pure _))))

/-- Anything but spaces is at least a token. -/
theorem anyToken_some {i : At} (h : i.skip.rest ≠ []) : (anyToken i).isSome := by
  obtain ⟨c, l, hl⟩ := List.exists_cons_of_ne_nil h
  have hc : isSpace c = false := skip_head i (by rw [hl]; rfl)
  have hn : (c != '\n') = true := by
    rw [bne_iff_ne]
    rintro rfl
    revert hc
    decide
  have : (pattern (.set (· != '\n')) i.skip).isSome := by
    unfold pattern
    rw [hl]
    simp [Regex.ends, hn]
  unfold anyToken rule Peg.or
  cases word i.skip with
  | some x => rfl
  | none =>
    cases number i.skip with
    | some x => rfl
    | none => exact this

theorem anySimpleExpression_some {i : At} (h : i.skip.rest ≠ []) : (anySimpleExpression i).isSome := by
  have h1 : (anyToken i.skip).isSome := anyToken_some (by rw [skip_skip]; exact h)
  obtain ⟨x, hx⟩ := Option.isSome_iff_exists.mp h1
  have h2 : ((do let _ ← anyToken; pure (.node .other []) : Peg ParseTree) i.skip).isSome := by
    rw [bind_some (a := x.1) (j := x.2) hx]
    rfl
  unfold anySimpleExpression rule
  have or_some : ∀ {α : Type} {p q : Peg α} {i : At}, (q i).isSome → (Peg.or p q i).isSome := by
    intro α p q i h
    unfold Peg.or
    cases p i with
    | some x => rfl
    | none => exact h
  exact or_some (or_some (or_some h2))

/-- Every text that is not blank is at least a sentence of the last kind. -/
theorem sentence_nil_some {s : Str} {i : At} (hi : i.In s) (h : i.skip.rest ≠ []) : (sentence [] i).isSome := by
  obtain ⟨⟨t, j⟩, hx⟩ := Option.isSome_iff_exists.mp (anySimpleExpression_some h)
  obtain ⟨h1, _, _⟩ := goes_on_anySimpleExpression i t j hi hx
  have h2 := manyLoop_stops goes_on_anySimpleExpression j.rest.length j h1 (Nat.le_refl _)
  have h3 : (manyLoop anySimpleExpression j.rest.length j).2.skip.rest = [] := by
    rcases h2 with h2 | h2
    · refine Classical.byContradiction fun hne => ?_
      have := anySimpleExpression_some hne
      rw [h2] at this
      cases this
    · simp [At.skip, At.move, h2]
  have h4 : many1 anySimpleExpression i = some (t :: (manyLoop anySimpleExpression j.rest.length j).1,
      (manyLoop anySimpleExpression j.rest.length j).2) := by
    unfold many1
    rw [bind_some hx, bind_some rfl]
    rfl
  unfold sentence whole
  rw [bind_some (bind_some h4), bind_some (a := ()) (j := (manyLoop anySimpleExpression j.rest.length j).2.skip)]
  · rfl
  · unfold eof
    rw [if_pos (by rw [h3]; rfl)]

theorem sentence_some {s : Str} (ps : List (Peg ParseTree)) {i : At} (hi : i.In s) (h : i.skip.rest ≠ []) : (sentence ps i).isSome := by
  induction ps with
  | nil => exact sentence_nil_some hi h
  | cons p ps ih =>
    unfold sentence Peg.or
    cases whole p i with
    | some x => rfl
    | none => exact ih

theorem amendedAct_end (n : Nat) : amendedAct ⟨n, []⟩ = none := by
  unfold amendedAct
  exact bind_none rfl

theorem repealedAct_end (n : Nat) : repealedAct ⟨n, []⟩ = none := by
  unfold repealedAct
  exact bind_none rfl

theorem blockAmendment_end (n : Nat) : blockAmendment ⟨n, []⟩ = none := by
  unfold blockAmendment rule
  exact bind_none (amendedAct_end n)

theorem blockAmendmentWithSubtitle_end (n : Nat) : blockAmendmentWithSubtitle ⟨n, []⟩ = none := by
  unfold blockAmendmentWithSubtitle rule
  exact bind_none (amendedAct_end n)

theorem blockAmendmentStructural_end (n : Nat) : blockAmendmentStructural ⟨n, []⟩ = none := by
  unfold blockAmendmentStructural rule
  exact bind_none (amendedAct_end n)

theorem textAmendment_end (n : Nat) : textAmendment ⟨n, []⟩ = none := by
  unfold textAmendment rule
  exact bind_none (amendedAct_end n)

theorem articleTitleAmendment_end (n : Nat) : articleTitleAmendment ⟨n, []⟩ = none := by
  unfold articleTitleAmendment rule
  exact bind_none (amendedAct_end n)

theorem enforcementDate_end (n : Nat) : enforcementDate ⟨n, []⟩ = none := by
  unfold enforcementDate rule
  exact bind_none rfl

theorem repeal_end (n : Nat) : repeal ⟨n, []⟩ = none := by
  unfold repeal rule
  exact bind_none (repealedAct_end n)

theorem structuralRepeal_end (n : Nat) : structuralRepeal ⟨n, []⟩ = none := by
  unfold structuralRepeal rule
  exact bind_none (repealedAct_end n)

theorem fails_at_end {α : Type} {p : Peg α} (h : ∀ s, Scans s p fun _ i j => i < j) (n : Nat) : p ⟨n, []⟩ = none := by
  cases hx : p ⟨n, []⟩ with
  | none => rfl
  | some x =>
    obtain ⟨h1, _, h3⟩ := h (List.replicate n 'a') _ x.1 x.2 ⟨by simp, by simp⟩ hx
    have := h1.le
    simp at this h3
    omega

theorem anySimpleExpression_end (n : Nat) : anySimpleExpression ⟨n, []⟩ = none :=
  fails_at_end (fun _ => goes_on_anySimpleExpression) n

theorem many1_end (n : Nat) : many1 anySimpleExpression ⟨n, []⟩ = none := by
  unfold many1
  exact bind_none (anySimpleExpression_end n)

theorem sentence_nil_end (n : Nat) : sentence [] ⟨n, []⟩ = none := by
  unfold sentence whole
  exact bind_none (bind_none (many1_end n))

theorem parse_blank {s : Str} (h : ∀ c ∈ s, isSpace c = true) : parse s = none := by
  unfold parse startDefault rule
  rw [skip_blank h, Option.map_eq_none_iff]
  have step : ∀ (ps : List (Peg ParseTree)) (n : Nat), (∀ p ∈ ps, p ⟨n, []⟩ = none) → sentence ps ⟨n, []⟩ = none := by
    intro ps n hp
    induction ps with
    | nil => exact sentence_nil_end n
    | cons p ps ih =>
      have h1 : whole p ⟨n, []⟩ = none := bind_none (hp p (List.mem_cons_self ..))
      unfold sentence Peg.or
      rw [h1]
      exact ih fun q hq => hp q (List.mem_cons_of_mem _ hq)
  refine step _ _ fun p hp => ?_
  simp only [specialSentences, List.mem_cons, List.not_mem_nil, or_false] at hp
  rcases hp with rfl | rfl | rfl | rfl | rfl | rfl | rfl | rfl
  · exact blockAmendment_end _
  · exact blockAmendmentWithSubtitle_end _
  · exact blockAmendmentStructural_end _
  · exact textAmendment_end _
  · exact articleTitleAmendment_end _
  · exact enforcementDate_end _
  · exact repeal_end _
  · exact structuralRepeal_end _

theorem parse_nonblank {s : Str} {c : Char} (hc : c ∈ s) (h : isSpace c = false) : (parse s).isSome := by
  unfold parse startDefault rule
  rw [Option.isSome_map]
  refine sentence_some (s := s) _ (At.in_start s).skip ?_
  rw [skip_skip]
  intro he
  have h1 := told_skip (At.in_start s)
  have h2 := (At.in_start s).skip
  have h3 := h2.length
  rw [he] at h3
  have h4 : (⟨0, s⟩ : At).skip.pos = s.length := by
    have := h2.le
    simp only [List.length_nil] at h3
    omega
  rw [h4] at h1
  have : c ∈ told s 0 s.length := by
    simp [told, slice, squeeze, hc, h]
  rw [h1] at this
  cases this

end ActGrammar

/-! # Which sentences are analysed -/

/-- Nothing is raised. -/
def Succeeds {α : Type} (x : Res α) : Prop := ∃ v, x = .ok v

theorem succeeds_ok {α : Type} (v : α) : Succeeds (.ok v : Res α) := ⟨v, rfl⟩

theorem Succeeds.bind {α β : Type} {x : Res α} {f : α → Res β} (h : Succeeds x) (hf : ∀ v, x = .ok v → Succeeds (f v)) :
    Succeeds (x >>= f) := by
  obtain ⟨v, hv⟩ := h
  obtain ⟨w, hw⟩ := hf v hv
  exact ⟨w, by rw [hv]; exact hw⟩

theorem Succeeds.map {α β : Type} {x : Res α} {f : α → β} (h : Succeeds x) : Succeeds (do .ok (f (← x)) : Res β) :=
  h.bind fun _ _ => succeeds_ok _

theorem digits_int {s : Str} (h : Digits s) : Succeeds (pyInt s) := ⟨_, pyInt_value h⟩

/-! ## Comparing identifiers -/

theorem numericNext_total {a b D1 r1 D2 r2 : Str} (h1 : IsNumber D1) (h2 : IsNumber D2)
    (f1 : a.filter (· ≠ '/') = D1 ++ r1) (f2 : b.filter (· ≠ '/') = D2 ++ r2)
    (s1 : r1 = [] ∨ ∃ c, isDigit c = false ∧ r1 = [c]) (s2 : r2 = [] ∨ ∃ c, isDigit c = false ∧ r2 = [c]) :
    Succeeds (isNextNumericIdentifier a b) := by
  unfold isNextNumericIdentifier
  simp only [f1, f2]
  rcases s1 with rfl | ⟨c1, hc1, rfl⟩ <;> rcases s2 with rfl | ⟨c2, hc2, rfl⟩
  · simp only [List.append_nil, number_isDigitStr h1, number_isDigitStr h2, if_true, pyInt_value h1, pyInt_value h2, bind,
      Except.bind]
    exact succeeds_ok _
  · simp only [List.append_nil, number_isDigitStr h1, not_isDigitStr' hc2, if_true]
    exact succeeds_ok _
  · simp only [List.append_nil, not_isDigitStr' hc1, number_isDigitStr h2, if_true, List.dropLast_concat, pyInt_value h1,
      pyInt_value h2, bind, Except.bind]
    exact succeeds_ok _
  · simp only [not_isDigitStr' hc1, not_isDigitStr' hc2, List.dropLast_concat, List.getLast?_concat, Bool.false_eq_true, if_false]
    split <;> exact succeeds_ok _

theorem articleNumber_id {s : Str} (h : ArticleNumber s) : IsArticleId s := by
  obtain ⟨b, n, l, rfl, hb, hn, hl⟩ := h
  have tail : IsArticleTail (n ++ l) := by
    rcases hl with rfl | ⟨c, hc, rfl⟩
    · rw [List.append_nil]
      exact .inl hn
    · exact .inr ⟨n, c, hn, hc, rfl⟩
  rcases hb with rfl | ⟨d, hd, rfl⟩
  · exact .inl tail
  · exact .inr ⟨d, n ++ l, hd, tail, by simp⟩

/-- A number with at most one letter, without the slash. -/
theorem numbered_shape {s n l : Str} (h : s = n ++ l) (hn : Digits n)
    (hl : l = [] ∨ ∃ c, isLowerAz c = true ∧ (l = [c] ∨ l = ['/', c])) :
    ∃ r, s.filter (· ≠ '/') = n ++ r ∧ (r = [] ∨ ∃ c, isDigit c = false ∧ r = [c]) := by
  subst h
  rcases hl with rfl | ⟨c, hc, hl⟩
  · exact ⟨[], by rw [List.append_nil, filter_slash_number hn], .inl rfl⟩
  · have : c ≠ '/' := by rintro rfl; revert hc; decide
    refine ⟨[c], ?_, .inr ⟨c, lower_not_digit hc, rfl⟩⟩
    rcases hl with rfl | rfl <;> rw [List.filter_append, filter_slash_number hn] <;> simp [this]

theorem isNext_total {k : PartKind} {a b : Str} (ha : Identifies k a) (hb : Identifies k b)
    (h : k = .alphabeticSubpoint → ∀ c d, isLowerAz c = true → isLowerAz d = true → a = [c, d] → b ≠ [c]) : Succeeds (k.isNext a b) := by
  have paragraph : ∀ {l : Str}, (l = [] ∨ ∃ c, isLowerAz c = true ∧ l = [c]) → l = [] ∨ ∃ c, isLowerAz c = true ∧ (l = [c] ∨ l = ['/', c]) := by
    rintro l (h | ⟨c, hc, h⟩)
    · exact .inl h
    · exact .inr ⟨c, hc, .inl h⟩
  cases k with
  | article => exact article_total (articleNumber_id ha) (articleNumber_id hb)
  | paragraph =>
    obtain ⟨n, l, e, hn, hl⟩ := ha
    obtain ⟨n', l', e', hn', hl'⟩ := hb
    obtain ⟨r, f, t⟩ := numbered_shape e hn (paragraph hl)
    obtain ⟨r', f', t'⟩ := numbered_shape e' hn' (paragraph hl')
    exact numericNext_total hn hn' f f' t t'
  | alphabeticPoint => exact succeeds_ok _
  | numericPoint =>
    obtain ⟨n, l, e, hn, hl⟩ := ha
    obtain ⟨n', l', e', hn', hl'⟩ := hb
    obtain ⟨r, f, t⟩ := numbered_shape e hn hl
    obtain ⟨r', f', t'⟩ := numbered_shape e' hn' hl'
    exact numericNext_total hn hn' f f' t t'
  | alphabeticSubpoint =>
    show Succeeds (alphabeticSubpointIsNext a b)
    rcases ha with ⟨c, hc, rfl⟩ | ⟨c, d, hc, hd, rfl⟩
    · exact succeeds_ok _
    · have h := h rfl c d hc hd rfl
      rcases hb with ⟨x, hx, rfl⟩ | ⟨x, y, hx, hy, rfl⟩
      · have : c ≠ x := by rintro rfl; exact h rfl
        simp only [alphabeticSubpointIsNext, this, if_false]
        exact succeeds_ok _
      · simp only [alphabeticSubpointIsNext]
        split <;> exact succeeds_ok _
  | numericSubpoint => exact succeeds_ok _

/-! ## References -/

theorem convertSingle_total {act : Option Str} {parts : List ParsedPart} {start stop : Int}
    (h : (parts.flatMap ParsedPart.items).Pairwise fun x y => ∀ a b, x.kind = y.kind → x.data = .one a → y.data = .one b →
      ∃ v, x.kind.isNext a b = .ok v) : Succeeds (convertSingle act parts start stop) := by
  obtain ⟨c, hc⟩ := addAll_total h
  obtain ⟨c', gs, h1, h2, h3, h4⟩ := collected (act := act) hc
  obtain ⟨out, ho⟩ := iterLevels_total h4 stop [.articles, .paragraphs, .points, .subpoints] start { act := c'.act }
  refine ⟨out, ?_⟩
  unfold convertSingle
  rw [hc]
  show c.iter (some start) stop = _
  unfold Collector.iter
  rw [h1]
  exact ho

theorem single_total {s : Str} {gap : Str → Prop} {r : ParsedRef} (act : Option Str) (hw : RefWritten s gap r) (hc : ¬ SubpointClash s) :
    Succeeds (convertSingle act r.1 r.2.1 r.2.2) := by
  have hp := ref_placed hw
  obtain ⟨_, _, _, _, _, _, _, h5, _, _⟩ := hw
  have key := parts_items_written h5
  refine convertSingle_total ?_
  rw [List.pairwise_flatMap]
  have kind : ∀ {p : ParsedPart} {x : RefItem}, x ∈ p.items → x.kind = p.kind := by
    intro p x hx
    unfold ParsedPart.items at hx
    rcases List.mem_append.mp hx with hx | hx <;> obtain ⟨y, _, rfl⟩ := List.mem_map.mp hx <;> rfl
  constructor
  · intro p hpm
    have hsingles := hp.singles p hpm
    have key' : ∀ x ∈ p.items, _ := fun x hx => key x (List.mem_flatMap.mpr ⟨p, hpm, hx⟩)
    have hdata : ∀ x ∈ p.ranges.map fun r => (⟨p.kind, .range r.1.1 r.1.2, r.2.1, r.2.2⟩ : RefItem), ∀ a, x.data ≠ .one a := by
      intro x hx a
      obtain ⟨y, _, rfl⟩ := List.mem_map.mp hx
      simp
    unfold ParsedPart.items at key' ⊢
    rw [List.pairwise_append]
    refine ⟨?_, ?_, ?_⟩
    · rw [List.pairwise_map]
      refine List.Pairwise.imp_of_mem ?_ hsingles
      intro x y hx hy hxy a b _ ha hb
      obtain ⟨i, j, _, _, e1, e2, -, h1⟩ := key' _ (List.mem_append_left _ (List.mem_map_of_mem hx))
      obtain ⟨k, l, _, _, e3, e4, -, h2⟩ := key' _ (List.mem_append_left _ (List.mem_map_of_mem hy))
      simp only [Ident.one.injEq] at ha hb
      subst ha hb
      simp only at h1 h2 e1 e2 e3 e4 ⊢
      refine isNext_total h1.1 h2.1 ?_
      intro hk c d hcl hdl e e'
      rw [e, hk] at h1
      rw [e', hk] at h2
      exact hc ⟨c, d, i, j, k, l, hcl, hdl, by omega, h1.2, h2.2⟩
    · refine List.Pairwise.imp_of_mem (R := fun _ _ => True) ?_ (List.pairwise_of_forall fun _ _ => trivial)
      intro x y hx _ _ a b _ ha
      exact absurd ha (hdata x hx a)
    · intro x _ y hy a b _ _ hb
      exact absurd hb (hdata y hy b)
  · refine hp.kinds.imp ?_
    intro p q hpq x hx y hy a b hk
    exact absurd (by rw [← kind hx, ← kind hy, hk]) hpq

theorem each_total {s : Str} {rs : List ParsedRef} (act : Option Str) (hw : ∀ r ∈ rs, ∃ gap, RefWritten s gap r) (hc : ¬ SubpointClash s) :
    Succeeds (convertEach act rs) := by
  induction rs with
  | nil => exact succeeds_ok _
  | cons r rs ih =>
    obtain ⟨gap, h⟩ := hw r (List.mem_cons_self ..)
    exact (single_total act h hc).bind fun _ _ => (ih fun x hx => hw x (List.mem_cons_of_mem _ hx)).map

theorem multiple_total {s : Str} {rs : List ParsedRef} (hw : ∀ r ∈ rs, ∃ gap, RefWritten s gap r) (hc : ¬ SubpointClash s) :
    ∀ last, Succeeds (convertMultiple last rs) := by
  induction rs with
  | nil => exact fun _ => succeeds_ok _
  | cons r rs ih =>
    intro last
    obtain ⟨gap, h⟩ := hw r (List.mem_cons_self ..)
    exact (single_total none h hc).bind fun _ _ => (ih (fun x hx => hw x (List.mem_cons_of_mem _ hx)) _).map

theorem potential_total {s : Str} {r : Option ParsedRef} (act : Str) (hw : ∀ x ∈ r, ∃ gap, RefWritten s gap x) (hc : ¬ SubpointClash s) :
    Succeeds (convertPotentialInText act r) := by
  cases r with
  | none => exact succeeds_ok _
  | some r =>
    obtain ⟨gap, h⟩ := hw r rfl
    refine (single_total (some act) h hc).bind fun v _ => ?_
    split <;> exact succeeds_ok _

/-! ## Acts, quotations, structure and dates -/

theorem act_total {s : Str} {a : ParsedActRef} (h : ActWritten s a) : Succeeds a.id ∧ Succeeds a.outgoing := by
  rcases h with ⟨y, n, e, i, j, h1, h2, _⟩ | ⟨t, i, j, h1, _, h2, _⟩
  · have h3 : Succeeds a.id := by unfold ParsedActRef.id; rw [h1]; exact succeeds_ok _
    have h4 : Succeeds a.pos := by unfold ParsedActRef.pos; rw [h1, h2]; exact succeeds_ok _
    exact ⟨h3, h3.bind fun _ _ => h4.bind fun _ _ => succeeds_ok _⟩
  · have h3 : Succeeds a.id := by unfold ParsedActRef.id; rw [h1, h2]; exact succeeds_ok _
    have h4 : Succeeds a.pos := by unfold ParsedActRef.pos; rw [h2]; exact succeeds_ok _
    exact ⟨h3, h3.bind fun _ _ => h4.bind fun _ _ => succeeds_ok _⟩

theorem quote_total {q inner : List QuoteTree} (h : q = .text (py"„") :: inner ++ [.text (py"”")]) : Succeeds (convertQuote q) := by
  subst h
  unfold convertQuote
  rw [List.getLast?_concat]
  exact succeeds_ok _

theorem capitalOrdinal_total {b : Str} (h : CapitalOrdinal b) : Succeeds (textToIntHun b) := by
  have key : ∀ b ∈ [py"Első", py"Második", py"Harmadik", py"Negyedik", py"Ötödik", py"Hatodik", py"Hetedik", py"Nyolcadik", py"Kilencedik",
      py"Tizedik", py"Tizenegyedik", py"Tizenkettedik", py"Tizenharmadik", py"Tizennegyedik", py"Tizenötödik", py"Tizenhatodik",
      py"Tizenhetedik", py"Tizennyolcadik", py"Tizenkilencedik"], (textToIntHun b).toOption.isSome = true := by decide +kernel
  have := key b h
  cases hv : textToIntHun b with
  | ok v => exact succeeds_ok v
  | error e => rw [hv] at this; cases this

theorem ordinal_total {t : Str} (h : Ordinal t) : Succeeds (textToIntHun t) := by
  have key : ∀ t ∈ [py"első", py"második", py"harmadik", py"negyedik", py"ötödik", py"hatodik", py"hetedik", py"nyolcadik", py"kilencedik",
      py"tizedik", py"tizenegyedik", py"tizenkettedik", py"tizenharmadik", py"tizennegyedik", py"tizenötödik", py"tizenhatodik",
      py"tizenhetedik", py"tizennyolcadik", py"tizenkilencedik", py"huszadik", py"harmincadik", py"negyvenedik", py"ötvenedik",
      py"hatvanadik", py"hetvenedik", py"nyolcvanadik", py"kilencvenedik"], (textToIntHun t).toOption.isSome = true := by decide +kernel
  have := key t h
  cases hv : textToIntHun t with
  | ok v => exact succeeds_ok v
  | error e => rw [hv] at this; cases this

theorem book_total {b : Option Str} {w : Str} (h : BookWritten b w) : Succeeds (convertBookId b) := by
  rcases h with ⟨rfl, _⟩ | ⟨o, rfl, ho, _⟩
  · exact succeeds_ok _
  · exact ((capitalOrdinal_total ho).map (f := natStr)).map (f := some)

theorem roman_total {c : Char} {t : Str} (h : c ∈ py"IVXLCDM") : Succeeds (romanToArabicWithPostfix (c :: t)) := by
  have grows : ∀ f s r, r ≤ (readRomanLoop f s r).1 := by
    intro f
    induction f with
    | zero => exact fun s r => Nat.le_refl _
    | succ f ih =>
      intro s r
      unfold readRomanLoop
      split
      · exact Nat.le_refl _
      · split
        · exact Nat.le_trans (Nat.le_add_right ..) (ih ..)
        · exact Nat.le_refl _
  have first : ∃ text val, romanNumerals.find? (fun tv => tv.1 == (c :: t).take tv.1.length) = some (text, val) ∧ 0 < val := by
    cases hf : romanNumerals.find? (fun tv => tv.1 == (c :: t).take tv.1.length) with
    | none =>
      rw [List.find?_eq_none] at hf
      exfalso
      simp only [List.mem_cons, List.not_mem_nil, or_false] at h
      rcases h with rfl | rfl | rfl | rfl | rfl | rfl | rfl
      · exact hf (py"I", 1) (by decide) (by simp)
      · exact hf (py"V", 5) (by decide) (by simp)
      · exact hf (py"X", 10) (by decide) (by simp)
      · exact hf (py"L", 50) (by decide) (by simp)
      · exact hf (py"C", 100) (by decide) (by simp)
      · exact hf (py"D", 500) (by decide) (by simp)
      · exact hf (py"M", 1000) (by decide) (by simp)
    | some tv =>
      have hpos : ∀ p ∈ romanNumerals, 0 < p.2 := by decide
      exact ⟨tv.1, tv.2, rfl, hpos tv (List.mem_of_find?_eq_some hf)⟩
  obtain ⟨text, val, hf, hpos⟩ := first
  have : (readRomanLoop (c :: t).length (c :: t) 0).1 ≠ 0 := by
    rw [List.length_cons]
    unfold readRomanLoop
    rw [if_neg (by simp)]
    simp only [hf]
    have := grows t.length ((c :: t).drop text.length) (0 + val)
    omega
  unfold romanToArabicWithPostfix
  refine Succeeds.bind ?_ fun _ _ => succeeds_ok _
  unfold textToIntRomanWithPostfix
  simp only [this, if_false]
  exact succeeds_ok _

theorem lettered_roman_total {s : Str} (h : Lettered RomanDigits s) : Succeeds (romanToArabicWithPostfix s) := by
  obtain ⟨n, l, rfl, ⟨hne, hn⟩, _⟩ := h
  cases n with
  | nil => exact absurd rfl hne
  | cons c n => exact roman_total (hn c (List.mem_cons_self ..))

theorem structural_total {r : ParsedStructRef} {w : Str} (act : Str) (h : StructWritten r w) : Succeeds (convertStructural act r) := by
  cases h with
  | words => exact succeeds_ok _
  | quoted hq => exact (quote_total hq).map
  | before => exact succeeds_ok _
  | after => exact succeeds_ok _
  | subtitle => exact succeeds_ok _
  | chapter hi => exact (lettered_roman_total hi).map
  | part hb hi => exact (book_total hb).bind fun _ _ => ((capitalOrdinal_total hi).map (f := natStr)).map
  | title hb hi => exact (book_total hb).bind fun _ _ => (lettered_roman_total hi).map
  | newTitle hb hi =>
    exact (book_total (.inr ⟨_, rfl, hb, rfl⟩)).bind fun _ _ => (lettered_roman_total hi).map

theorem date_total {d : ParsedDate} (hx : ∃ x, DateNamed d x) : Succeeds (convertExactDate d) := by
  obtain ⟨x, h1, h2, h3, h4⟩ := hx
  refine ⟨x, ?_⟩
  simp only [convertExactDate, h1, month_named.mpr h2, h3, bind, Except.bind]
  rw [mkDate_ok, if_pos h4]

theorem count_total {n t : Option Str} {w : Str} (h : CountWritten n t w) :
    (∃ x, n = some x ∧ Succeeds (pyInt x)) ∨ ∃ x, n = none ∧ t = some x ∧ Succeeds (textToIntHun x) := by
  rcases h with ⟨h1, x, h2, h3, _⟩ | ⟨_, x, h1, h2, _⟩
  · exact .inr ⟨x, h1, h2, ordinal_total h3⟩
  · exact .inl ⟨x, h1, digits_int h2⟩

theorem time_total {d : ParsedEnforcementDate} {w : Str} (h : TimeWritten d w)
    (hd : ∀ e, DateWritten e w → ∃ x, DateNamed e x) : Succeeds (enforcementTime d) := by
  unfold enforcementTime
  cases h with
  | date h _ _ he =>
    rw [h]
    exact (date_total (hd _ he)).map
  | nextDay h ha =>
    rw [h, ha]
    exact succeeds_ok _
  | days h ha _ _ hn =>
    rw [h, ha]
    rcases count_total hn with ⟨x, h1, h2⟩ | ⟨x, h1, h2, h3⟩
    · simp only [convertAfterPublication, h1]
      exact h2.map
    · simp only [convertAfterPublication, h1, h2]
      exact h3.map
  | dayInMonth h ha hm _ hv hx =>
    rename_i m _ _ _ _
    have hn : ∀ months : Int, Succeeds (match m.dayAsNumber, m.dayAsText with
        | some n, _ => do .ok (.dayInMonth (← pyInt n) months)
        | none, some t => do .ok (.dayInMonth (← textToIntHun t) months)
        | none, none => .error .valueError : Res EnforcementTime) := by
      intro months
      rcases count_total hx with ⟨x, h1, h2⟩ | ⟨x, h1, h2, h3⟩
      · rw [h1]; exact h2.map
      · rw [h1, h2]; exact h3.map
    rw [h, ha, hm]
    show Succeeds (convertDayInMonth m)
    unfold convertDayInMonth
    rcases hv with ⟨h1, _⟩ | ⟨t, h1, h2, _⟩
    · rw [h1]; exact hn 1
    · rw [h1]; exact (ordinal_total h2).bind fun _ _ => hn _

/-! ## Nodes -/

theorem textParts_total {parts : List (List QuoteTree × List QuoteTree)}
    (h : ∀ p ∈ parts, Succeeds (convertQuote p.1) ∧ Succeeds (convertQuote p.2)) (r : Reference) :
    Succeeds (textAmendmentParts r parts) := by
  induction parts with
  | nil => exact succeeds_ok _
  | cons p ps ih =>
    obtain ⟨h1, h2⟩ := h p (List.mem_cons_self ..)
    exact h1.bind fun _ _ => h2.bind fun _ _ => (ih fun x hx => h x (List.mem_cons_of_mem _ hx)).map

theorem textLoop_total {parts : List (List QuoteTree × List QuoteTree)}
    (h : ∀ p ∈ parts, Succeeds (convertQuote p.1) ∧ Succeeds (convertQuote p.2)) (rs : List OutgoingReference) :
    Succeeds (textAmendmentLoop parts rs) := by
  induction rs with
  | nil => exact succeeds_ok _
  | cons r rs ih => exact (textParts_total h r.reference).bind fun _ _ => ih.map

theorem repealedTexts_total {texts : List (List QuoteTree)} (h : ∀ q ∈ texts, Succeeds (convertQuote q)) (r : Reference) :
    Succeeds (repealedTexts r texts) := by
  induction texts with
  | nil => exact succeeds_ok _
  | cons q qs ih => exact (h q (List.mem_cons_self ..)).bind fun _ _ => (ih fun x hx => h x (List.mem_cons_of_mem _ hx)).map

theorem repealLoop_total {texts : List (List QuoteTree)} (h : ∀ q ∈ texts, Succeeds (convertQuote q)) (rs : List OutgoingReference) :
    Succeeds (repealLoop texts rs) := by
  induction rs with
  | nil => exact succeeds_ok _
  | cons r rs ih =>
    unfold repealLoop
    split
    · exact ih.map
    · exact (repealedTexts_total h _).bind fun _ _ => ih.map

theorem quoteWritten_total {s : Str} {q : List QuoteTree} {a b : Nat} (h : QuoteWritten s q a b) : Succeeds (convertQuote q) := by
  obtain ⟨_, _, _, inner, hq⟩ := h
  exact quote_total hq

theorem ends_infix {s e w u v : Str} (h : EndsIn s [e]) (he : e = u ++ w ++ v) : w <:+: squeeze s := by
  obtain ⟨x, hx, p, hp⟩ := h
  rw [List.mem_singleton] at hx
  subst hx
  exact ⟨p ++ u, v, by rw [← hp, he]; simp⟩

theorem node_total {s : Str} {n : GrammarNode} (h : NodeWritten s n) (hc : ¬ SubpointClash s)
    (hd : ∀ d, n = .enforcementDate d → ¬ NoSuchDate s)
    (he : ¬ EndsIn s (amendmentEnds ++ subtitleEnds ++ insertionEnds)) : Succeeds (convertNode n) := by
  have ended : ∀ {es : List Str}, (∀ e ∈ es, e ∈ amendmentEnds ++ subtitleEnds ++ insertionEnds) → ¬ EndsIn s es := by
    rintro es h ⟨e, he', hs⟩
    exact he ⟨e, h e he', hs⟩
  have gap : ∀ {g : Str → Prop} {rs : List ParsedRef}, (∀ r ∈ rs, RefWritten s g r) → ∀ r ∈ rs, ∃ gap, RefWritten s gap r :=
    fun h r hr => ⟨_, h r hr⟩
  cases n with
  | compoundReference act references =>
    obtain ⟨h1, h2⟩ := h
    refine Succeeds.map ?_
    cases act with
    | none => exact each_total none (gap h2) hc
    | some a =>
      obtain ⟨h3, h4⟩ := act_total (h1 a rfl)
      exact h3.bind fun _ _ => h4.bind fun _ _ => (each_total _ (gap h2) hc).map
  | actReference act =>
    refine Succeeds.map ?_
    unfold actAbbreviation
    split
    · exact succeeds_ok _
    · exact (act_total h).1.map
  | blockAmendment act amended inserted =>
    obtain ⟨_, _, _, ⟨_, _, h⟩ | ⟨_, h⟩⟩ := h
    · exact absurd h (ended (by simp +contextual))
    · exact absurd h (ended (by simp +contextual))
  | blockAmendmentWithSubtitle act structural amended inserted =>
    obtain ⟨_, _, _, _, ⟨_, _, h⟩ | ⟨_, _, h⟩⟩ := h
    · exact absurd h (ended fun e he' => List.mem_append_left _ he')
    · exact absurd h (ended (by simp +contextual))
  | blockAmendmentStructural act amended inserted =>
    obtain ⟨ha, h1, h2, ⟨h3, rfl, _⟩ | ⟨rfl, h3, h⟩⟩ := h
    · cases amended with
      | none => exact absurd rfl h3
      | some x =>
        obtain ⟨i, j, hx⟩ := h1 x rfl
        exact Succeeds.map ((act_total ha).1.bind fun _ _ => (structural_total _ hx).map)
    · exact absurd h (ended (by simp +contextual))
  | enforcementDate d =>
    have named : ∀ {d w}, DateWritten d w → w <:+: squeeze s → ∃ x, DateNamed d x := by
      intro e w h1 h2
      exact Classical.byContradiction fun h3 => hd d rfl ⟨e, w, h1, h2, fun x hx => h3 ⟨x, hx⟩⟩
    obtain ⟨h1, h2, _, w, h3, h4⟩ := h
    have ht : Succeeds (enforcementTime d) := by
      refine time_total h3 fun e he' => named he' ?_
      rcases h4 with ⟨_, h4⟩ | ⟨r, e, t, v, _, _, _, _, h4⟩
      · exact ends_infix (u := []) h4 rfl
      · exact ends_infix (u := []) (v := (py"léphatályba,és") ++ e ++ v ++ t ++ py"hatályátveszti.") h4 (by simp [List.append_assoc])
    have hn : ∀ time repeal, Succeeds (if d.references.isEmpty then .ok [.enforcementDate none time repeal] else do
        let rs ← convertMultiple {} d.references
        .ok (rs.map fun r => .enforcementDate (some r.reference) time repeal) : Res (List SemanticData)) := by
      intro time repeal
      split
      · exact succeeds_ok _
      · exact (multiple_total (gap h1) hc _).map
    have hds : Succeeds (enforcementDates d) := by
      unfold enforcementDates
      refine ht.bind fun time _ => ?_
      rcases h4 with ⟨h4, _⟩ | ⟨r, e, t, v, h4, h5, _, _, h6⟩
      · rw [h4]; exact hn time none
      · rw [h4]
        refine (date_total (named h5 ?_)).bind fun x _ => hn time (some x)
        exact ends_infix (u := w ++ (py"léphatályba,és") ++ e) (v := t ++ py"hatályátveszti.") h6 (by simp [List.append_assoc])
    exact hds.bind fun _ _ => Succeeds.map ((multiple_total (gap h1) hc _).bind fun _ _ => (multiple_total (gap h2) hc _).map)
  | textAmendment act references parts =>
    obtain ⟨ha, _, h1, _, h2, _⟩ := h
    obtain ⟨h3, h4⟩ := act_total ha
    refine Succeeds.bind (h3.bind fun _ _ => (multiple_total (gap h1) hc _).bind fun _ _ => textLoop_total ?_ _) fun _ _ => Succeeds.map ?_
    · intro p hp
      obtain ⟨_, _, _, _, q1, q2, _⟩ := h2 p hp
      exact ⟨quoteWritten_total q1, quoteWritten_total q2⟩
    · exact h3.bind fun _ _ => h4.bind fun _ _ => (multiple_total (gap h1) hc _).map
  | articleTitleAmendment act article original replacement =>
    obtain ⟨ha, _, ⟨_, _, _, _, q1, q2, _⟩, _⟩ := h
    obtain ⟨h3, h4⟩ := act_total ha
    exact Succeeds.bind (h3.bind fun _ _ => (quoteWritten_total q1).bind fun _ _ => (quoteWritten_total q2).map) fun _ _ =>
      Succeeds.map (h3.bind fun _ _ => h4.map)
  | simpleRepeal act references texts =>
    obtain ⟨ha, _, h1, h2, _⟩ := h
    obtain ⟨h3, h4⟩ := act_total ha
    refine Succeeds.bind (h3.bind fun _ _ => (multiple_total (gap h1) hc _).bind fun _ _ => repealLoop_total ?_ _) fun _ _ => Succeeds.map ?_
    · intro q hq
      obtain ⟨_, _, h⟩ := h2 q hq
      exact quoteWritten_total h
    · exact h3.bind fun _ _ => h4.bind fun _ _ => (multiple_total (gap h1) hc _).map
  | structuralRepeal act structural =>
    obtain ⟨ha, ⟨i, j, h1⟩, _⟩ := h
    obtain ⟨h3, h4⟩ := act_total ha
    exact Succeeds.bind (h3.bind fun _ _ => (structural_total _ h1).map) fun _ _ => h4.map
  | other => exact succeeds_ok _

mutual
theorem convertTree_total : ∀ (t : ParseTree), (∀ n ∈ treeNodes t, Succeeds (convertNode n)) → Succeeds (convertTree t)
  | .node n cs, h => by
    unfold treeNodes at h
    unfold convertTree
    exact (convertTrees_total cs fun m hm => h m (List.mem_append_left _ hm)).bind fun _ _ =>
      (h n (List.mem_append_right _ (List.mem_singleton.mpr rfl))).map
theorem convertTrees_total : ∀ (cs : List ParseTree), (∀ n ∈ treesNodes cs, Succeeds (convertNode n)) → Succeeds (convertTrees cs)
  | [], _ => by
    unfold convertTrees
    exact succeeds_ok _
  | c :: cs, h => by
    unfold treesNodes at h
    unfold convertTrees
    exact (convertTree_total c fun m hm => h m (List.mem_append_left _ hm)).bind fun _ _ =>
      (convertTrees_total cs fun m hm => h m (List.mem_append_right _ hm)).map
end

theorem analysis_total {s : Str} (hb : ¬ Blank s) (hc : ¬ SubpointClash s) (hd : ¬ NoSuchDate s)
    (he : ¬ EndsIn s (amendmentEnds ++ subtitleEnds ++ insertionEnds)) : Succeeds (grammaticalAnalyzer ActGrammar.parse s) := by
  obtain ⟨c, hcm, hcs⟩ : ∃ c ∈ s, isSpace c = false := by
    refine Classical.byContradiction fun h => hb fun c hc => ?_
    cases hv : isSpace c with
    | true => rfl
    | false => exact absurd ⟨c, hc, hv⟩ h
  obtain ⟨t, ht⟩ := Option.isSome_iff_exists.mp (ActGrammar.parse_nonblank hcm hcs)
  obtain ⟨rs, hr⟩ := convertTree_total t fun n hn => node_total (ActGrammar.parse_written ht n hn) hc (fun _ _ => hd) he
  unfold grammaticalAnalyzer
  rw [ht]
  simp only [hr]
  exact succeeds_ok _

end Verif
