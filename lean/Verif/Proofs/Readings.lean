import Verif.Proofs.Forward

/-! # Lists of identifiers are read -/

namespace Verif.ActGrammar

open Peg Spec

/-! ## Characters -/

theorem digit_bounds {c : Char} (h : isAsciiDigit c = true) : 48 ≤ c.toNat ∧ c.toNat ≤ 57 := (isAsciiDigit_iff c).mp h

theorem lower_bounds {c : Char} (h : isLowerAz c = true) : 97 ≤ c.toNat ∧ c.toNat ≤ 122 := (isLowerAz_iff c).mp h

theorem ne_of_class {p : Char → Bool} {c x : Char} (h : p c = true) (hx : p x = false := by decide) : c ≠ x := by
  rintro rfl
  rw [h] at hx
  cases hx

theorem digit_not_lower' {c : Char} (h : isAsciiDigit c = true) : isLowerAz c = false := by
  cases hl : isLowerAz c with
  | false => rfl
  | true =>
    have := digit_bounds h
    have := lower_bounds hl
    omega

theorem lower_not_ascii {c : Char} (h : isLowerAz c = true) : isAsciiDigit c = false := by
  cases hl : isAsciiDigit c with
  | false => rfl
  | true =>
    have := digit_bounds hl
    have := lower_bounds h
    omega

theorem upper_not_ascii {c : Char} (h : isUpperAz c = true) : isAsciiDigit c = false := by
  cases hl : isAsciiDigit c with
  | false => rfl
  | true =>
    have := digit_bounds hl
    have := (isUpperAz_iff c).mp h
    omega

theorem dash_ne {c x : Char} (h : c ∈ py"−–-") (hx : x ∉ py"−–-" := by decide) : c ≠ x := by
  rintro rfl
  exact hx h

/-! ## Pieces -/

theorem digits_head {d : Str} (h : Digits d) : ∃ c, d.head? = some c ∧ isAsciiDigit c = true := by
  obtain ⟨c, d, rfl⟩ := List.exists_cons_of_ne_nil h.1
  exact ⟨c, rfl, h.2 c (List.mem_cons_self ..)⟩

theorem reads_number {d rest : Str} (h : Digits d) (hr : ∀ c ∈ rest.head?, isAsciiDigit c = false) : Reads number d rest d := by
  obtain ⟨c, hc, hd⟩ := digits_head h
  exact (Reads.matches (plus_ends h.1 h.2 hr)).rule hc (digit_not_space hd)

theorem fails_number {s : Str} (h : ∀ c ∈ first s, isAsciiDigit c = false) : Fails number s :=
  Fails.rule (fails_pattern (plus_none h))

theorem reads_dot (rest : Str) : Reads (token (py".")) (py".") rest (py".") := reads_word (c := '.') rfl (by decide) (.inl (by decide +kernel))

theorem reads_open (rest : Str) : Reads (token (py"(")) (py"(") rest (py"(") := reads_word (c := '(') rfl (by decide) (.inl (by decide +kernel))

theorem reads_close (rest : Str) : Reads (token (py")")) (py")") rest (py")") := reads_word (c := ')') rfl (by decide) (.inl (by decide +kernel))

theorem reads_colon (rest : Str) : Reads (token (py":")) (py":") rest (py":") := reads_word (c := ':') rfl (by decide) (.inl (by decide +kernel))

theorem reads_slash (rest : Str) : Reads (token (py"/")) (py"/") rest (py"/") := reads_word (c := '/') rfl (by decide) (.inl (by decide +kernel))

theorem dash_cases {d : Str} (h : Dash d) : ∃ c, d = [c] ∧ c ∈ py"−–-" := by
  simp only [Dash, List.mem_cons, List.not_mem_nil, or_false] at h
  rcases h with rfl | rfl | rfl
  · exact ⟨'−', rfl, by decide⟩
  · exact ⟨'–', rfl, by decide⟩
  · exact ⟨'-', rfl, by decide⟩

theorem reads_dash {d : Str} (h : Dash d) (rest : Str) : Reads dash d rest d := by
  have one : ∀ c : Char, isSpace c = false → isName [c] = false → Reads (token [c]) [c] rest [c] :=
    fun c h1 h2 => reads_word rfl h1 (.inl h2)
  have no : ∀ c x : Char, isSpace c = false → c ≠ x → Fails (token [x]) ([c] ++ rest) := fun c x h1 h2 =>
    fails_token (a := x) rfl (by rw [List.singleton_append, first_cons h1]; rintro _ ⟨⟩; exact h2)
  simp only [Dash, List.mem_cons, List.not_mem_nil, or_false] at h
  unfold dash
  rcases h with rfl | rfl | rfl
  · exact (Reads.left (one _ (by decide) (by decide +kernel))).rule (c := '−') rfl (by decide)
  · exact (Reads.right (no _ _ (by decide) (by decide)) (.left (one _ (by decide) (by decide +kernel)))).rule (c := '–') rfl (by decide)
  · exact (Reads.right (no _ _ (by decide) (by decide)) (.right (no _ _ (by decide) (by decide))
      (.left (one _ (by decide) (by decide +kernel))))).rule (c := '-') rfl (by decide)

theorem fails_dash {s : Str} (h : NotFirst (py"-–−") s) : Fails dash s := by
  refine Fails.rule (fails_tokens fun t ht => ?_)
  have h' : ∀ x ∈ py"-–−", ∀ c ∈ first (s.dropWhile isSpace), c ≠ x := by
    rintro x hx c hc rfl
    rw [first_dropWhile] at hc
    exact h c hc hx
  simp only [List.mem_cons, List.not_mem_nil, or_false] at ht
  rcases ht with rfl | rfl | rfl
  · exact fails_token (a := '−') rfl (h' _ (by decide))
  · exact fails_token (a := '–') rfl (h' _ (by decide))
  · exact fails_token (a := '-') rfl (h' _ (by decide))

theorem fails_first {t s : Str} {a : Char} (ht : t.head? = some a) (h : NotFirst [a] s) : Fails (token t) s :=
  fails_token ht fun c hc he => h c hc (by simp [he])

theorem notFirst_cons {cs s : Str} {c : Char} (hs : isSpace c = false) (h : c ∉ cs) : NotFirst cs (c :: s) := by
  intro d hd
  rw [first_cons hs] at hd
  cases hd
  exact h

theorem notFirst_sub {cs ds s : Str} (h : NotFirst cs s) (hd : ∀ c ∈ ds, c ∈ cs) : NotFirst ds s := fun c hc hm => h c hc (hd c hm)

/-- What may be right after an identifier. -/
def Stop (rest : Str) : Prop := ∃ c t, rest = c :: t ∧ c ∈ py".)-–−"

theorem Stop.head {rest : Str} (h : Stop rest) : ∃ c, rest.head? = some c ∧ c ∈ py".)-–−" := by
  obtain ⟨c, t, rfl, hc⟩ := h
  exact ⟨c, rfl, hc⟩

theorem Stop.not {rest : Str} (h : Stop rest) {p : Char → Bool} (hp : ∀ c ∈ py".)-–−", p c = false) : ∀ c ∈ rest.head?, p c = false := by
  obtain ⟨c, t, rfl, hc⟩ := h
  rintro _ ⟨⟩
  exact hp c hc

theorem Stop.first {rest : Str} (h : Stop rest) (cs : Str) (hp : ∀ c ∈ py".)-–−", c ∉ cs) : NotFirst cs rest := by
  obtain ⟨c, t, rfl, hc⟩ := h
  refine notFirst_cons ?_ (hp c hc)
  revert hc
  revert c
  decide +kernel

theorem stop_dot (s : Str) : Stop ((py".") ++ s) := ⟨'.', s, rfl, by decide⟩

theorem stop_close (s : Str) : Stop ((py")") ++ s) := ⟨')', s, rfl, by decide⟩

theorem stop_dash {d : Str} (h : Dash d) (s : Str) : Stop (d ++ s) := by
  obtain ⟨c, rfl, hc⟩ := dash_cases h
  refine ⟨c, s, rfl, ?_⟩
  clear h
  revert hc
  revert c
  decide +kernel

theorem notFirst_dash {d cs s : Str} (h : Dash d) (hc : ∀ c ∈ py"−–-", c ∉ cs) : NotFirst cs (d ++ s) := by
  obtain ⟨c, rfl, hd⟩ := dash_cases h
  have h1 : ∀ c ∈ py"−–-", isSpace c = false := by decide +kernel
  exact notFirst_cons (h1 c hd) (hc c hd)

/-! ## Identifiers -/

theorem reads_letter {p : Char → Bool} {c : Char} {rest : Str} (h : p c = true) : Reads (pattern (.set p)) [c] rest [c] :=
  fun n => set_some h n

theorem fails_letter {p : Char → Bool} {s : Str} (h : ∀ c ∈ s.head?, p c = false) : Fails (pattern (.set p)) s := fails_pattern (set_none h)

theorem reads_articleId {id rest : Str} (h : ArticleNumber id) (hr : Stop rest) : Reads articleId id rest id := by
  obtain ⟨b, n, l, rfl, hb, hn, hl⟩ := h
  have nd : ∀ c ∈ rest.head?, isAsciiDigit c = false := hr.not (by decide +kernel)
  -- the letter
  have h1 : Reads (opt (do let s ← token (py"/"); let l ← pattern (.set isUpperAz); pure [s, l])) l rest
      (if l = [] then none else some [py"/", l.drop 1]) := by
    rcases hl with rfl | ⟨c, hc, rfl⟩
    · exact (fails_first (a := '/') rfl (hr.first _ (by decide))).bind.opt
    · refine Reads.opt ?_
      exact Reads.bind (v := [c]) (reads_slash _) (Reads.bind (v := []) (reads_letter hc) (reads_nil _ _))
  have hlr : ∀ c ∈ (l ++ rest).head?, isAsciiDigit c = false := by
    rcases hl with rfl | ⟨c, hc, rfl⟩
    · exact nd
    · rintro _ ⟨⟩
      decide
  have hcol : NotFirst (py":") (l ++ rest) := by
    rcases hl with rfl | ⟨c, hc, rfl⟩
    · exact hr.first _ (by decide)
    · exact notFirst_cons (by decide) (by decide)
  have h2 : Reads (opt (do let n ← number; let c ← token (py":"); pure [n, c])) b (n ++ (l ++ rest))
      (if b = [] then none else some [b.dropLast, py":"]) := by
    rcases hb with rfl | ⟨d, hd, rfl⟩
    · refine Fails.opt ?_
      exact (reads_number hn hlr).fails (fails_first (a := ':') rfl hcol).bind
    · rw [if_neg (by simp), List.dropLast_concat]
      refine Reads.opt ?_
      refine Reads.bind (reads_number hd ?_) (Reads.bind (v := []) (reads_colon _) (reads_nil _ _))
      rintro _ ⟨⟩
      decide
  have hp : Reads articleIdPieces (b ++ (n ++ l)) rest
      ((if b = [] then none else some [b.dropLast, py":"]).getD [] ++ [n] ++ (if l = [] then none else some [py"/", l.drop 1]).getD []) := by
    unfold articleIdPieces
    refine Reads.bind (by rw [List.append_assoc]; exact h2) (Reads.bind (reads_number hn hlr) (h1.to (reads_nil _ _)))
  have hh : ∃ c, (b ++ (n ++ l)).head? = some c ∧ isAsciiDigit c = true := by
    rcases hb with rfl | ⟨d, hd, rfl⟩
    · obtain ⟨c, hc, hd⟩ := digits_head hn
      exact ⟨c, by simp [List.head?_append, hc], hd⟩
    · obtain ⟨c, hc, hd⟩ := digits_head hd
      exact ⟨c, by simp [List.head?_append, hc], hd⟩
  obtain ⟨c, hc, hd⟩ := hh
  rw [List.append_assoc]
  have hf : ((if b = [] then none else some [b.dropLast, py":"]).getD [] ++ [n] ++
      (if l = [] then none else some [py"/", l.drop 1]).getD []).flatten = b ++ (n ++ l) := by
    rcases hb with rfl | ⟨d, hd, rfl⟩ <;> rcases hl with rfl | ⟨c, hc, rfl⟩ <;> simp
  have := (hp.to (f := fun pieces => pure pieces.flatten) (reads_nil _ _)).rule hc (digit_not_space hd)
  rw [hf] at this
  exact this

theorem reads_paragraphId {id rest : Str} (h : Identifies .paragraph id) (hr : Stop rest) : Reads paragraphId id rest id := by
  obtain ⟨n, l, rfl, hn, hl⟩ := h
  obtain ⟨c, hc, hd⟩ := digits_head hn
  refine Reads.rule (c := c) ?_ (by simp [List.head?_append, hc]) (digit_not_space hd)
  rcases hl with rfl | ⟨c, hc, rfl⟩
  · refine Reads.bind (v := []) (reads_number hn (hr.not (by decide +kernel))) ?_
    have := (fails_letter (p := isLowerAz) (hr.not (by decide +kernel))).opt
    simpa using this.to (f := fun l => pure (n ++ l.getD [])) (reads_nil _ _)
  · refine Reads.bind (v := [c]) (reads_number hn ?_) ?_
    · rintro _ ⟨⟩
      exact lower_not_ascii hc
    · have := (reads_letter (rest := rest) hc).opt
      exact this.to (f := fun l => pure (n ++ l.getD [])) (reads_nil _ _)

theorem reads_numericPointId {id rest : Str} (h : Identifies .numericPoint id) (hr : Stop rest) : Reads numericPointId id rest id := by
  obtain ⟨n, l, rfl, hn, hl⟩ := h
  obtain ⟨c, hc, hd⟩ := digits_head hn
  refine Reads.rule (c := c) ?_ (by simp [List.head?_append, hc]) (digit_not_space hd)
  have slash : ∀ {s : Str}, NotFirst (py"/") s → Reads (opt (token (py"/"))) [] s none := fun h => (fails_first (a := '/') rfl h).opt
  rcases hl with rfl | ⟨c, hc, rfl | rfl⟩
  · refine Reads.bind (v := []) (reads_number hn (hr.not (by decide +kernel))) ?_
    have h1 := slash (hr.first (py"/") (by decide))
    have h2 : Fails (do let s ← opt (token (py"/")); let l ← pattern (.set isLowerAz); pure (s.getD [] ++ l)) rest :=
      h1.fails (f := fun s => do let l ← pattern (.set isLowerAz); pure (s.getD [] ++ l)) (fails_letter (hr.not (by decide +kernel))).bind
    simpa using h2.opt.to (f := fun l => pure (n ++ l.getD [])) (reads_nil _ _)
  · refine Reads.bind (v := [c]) (reads_number hn ?_) ?_
    · rintro _ ⟨⟩
      exact lower_not_ascii hc
    · have h1 : Reads (opt (token (py"/"))) [] ([c] ++ rest) none := slash (notFirst_cons (lower_not_space hc) (by
        simp only [List.mem_singleton]; exact ne_of_class hc))
      have h2 : Reads (do let s ← opt (token (py"/")); let l ← pattern (.set isLowerAz); pure (s.getD [] ++ l)) [c] rest [c] :=
        Reads.bind (u := []) (f := fun s => do let l ← pattern (.set isLowerAz); pure (s.getD [] ++ l)) h1
          ((reads_letter (p := isLowerAz) hc).to (reads_nil _ _))
      exact h2.opt.to (f := fun l => pure (n ++ l.getD [])) (reads_nil _ _)
  · refine Reads.bind (v := ['/', c]) (reads_number hn ?_) ?_
    · rintro _ ⟨⟩
      decide
    · have h2 : Reads (do let s ← opt (token (py"/")); let l ← pattern (.set isLowerAz); pure (s.getD [] ++ l)) ['/', c] rest ['/', c] :=
        Reads.bind (u := py"/") (f := fun s => do let l ← pattern (.set isLowerAz); pure (s.getD [] ++ l)) (reads_slash _).opt
          ((reads_letter (p := isLowerAz) hc).to (reads_nil _ _))
      exact h2.opt.to (f := fun l => pure (n ++ l.getD [])) (reads_nil _ _)

theorem reads_numericSubpointId {id rest : Str} (h : Identifies .numericSubpoint id) (hr : Stop rest) : Reads numericSubpointId id rest id := by
  obtain ⟨c, hc, hd⟩ := digits_head h
  exact (reads_number h (hr.not (by decide +kernel))).rule hc (digit_not_space hd)

theorem stop_no_name {rest : Str} (h : Stop rest) : ∀ c ∈ rest.head?, isNameChar c = false := h.not (by decide +kernel)

theorem reads_alphabeticPointId {id rest : Str} (h : Identifies .alphabeticPoint id) (hr : Stop rest) : Reads alphabeticPointId id rest id := by
  rcases h with rfl | rfl | ⟨c, hc, rfl⟩
  · exact (Reads.left (Reads.left (reads_word (c := 'n') rfl (by decide) (.inr (stop_no_name hr))))).rule (c := 'n') rfl (by decide)
  · exact (Reads.left (Reads.right (fails_first (a := 'n') rfl (notFirst_cons (by decide) (by decide)))
      (.left (reads_word (c := 's') rfl (by decide) (.inr (stop_no_name hr)))))).rule (c := 's') rfl (by decide)
  · refine (Reads.right ?_ (reads_letter hc)).rule (c := c) rfl (lower_not_space hc)
    refine fails_tokens fun t ht n => ?_
    refine token_not_prefix ?_
    obtain ⟨d, u, rfl, hd⟩ := hr
    have hs : isSpace c = false := lower_not_space hc
    rw [List.singleton_append, List.dropWhile_cons, hs]
    simp only [List.mem_cons, List.not_mem_nil, or_false] at ht
    have h1 : ∀ x ∈ py".)-–−", x ≠ 'y' ∧ x ≠ 'z' := by decide +kernel
    have h2 := h1 d hd
    rcases ht with rfl | rfl <;> simp [List.isPrefixOf, h2.1.symm, h2.2.symm]

theorem reads_alphabeticSubpointId {id rest : Str} (h : Identifies .alphabeticSubpoint id) (hr : Stop rest) :
    Reads alphabeticSubpointId id rest id := by
  have nl : ∀ c ∈ rest.head?, isLowerAz c = false := hr.not (by decide +kernel)
  rcases h with ⟨c, hc, rfl⟩ | ⟨c, d, hc, hd, rfl⟩
  · refine (Reads.matches ?_).rule (c := c) rfl (lower_not_space hc)
    simp [Regex.ends, hc, set_none nl]
  · refine (Reads.matches ?_).rule (c := c) rfl (lower_not_space hc)
    simp [Regex.ends, hc, hd]

/-! ## Items -/

/-- The rule for a range of a kind. -/
def rangeOf : PartKind → Peg (Str × Str)
  | .article => articleRange
  | .paragraph => paragraphRange
  | .alphabeticPoint => alphabeticPointRange
  | .numericPoint => numericPointRange
  | .alphabeticSubpoint => alphabeticSubpointRange
  | .numericSubpoint => numericSubpointRange

/-- The rule for one of a kind. -/
def singleOf : PartKind → Peg Str
  | .article => articleSingle
  | .paragraph => paragraphSingle
  | .alphabeticPoint => alphabeticPointSingle
  | .numericPoint => numericPointSingle
  | .alphabeticSubpoint => alphabeticSubpointSingle
  | .numericSubpoint => numericSubpointSingle

/-- The rule for the end of a list. -/
def suffixOf : PartKind → Peg Str
  | .article => articleSuffix
  | .paragraph => suffix (py"bekezdés")
  | .alphabeticPoint | .numericPoint => suffix (py"pont")
  | .alphabeticSubpoint | .numericSubpoint => suffix (py"alpont")

/-- The rule for an identifier. -/
def idOf : PartKind → Peg Str
  | .article => articleId
  | .paragraph => paragraphId
  | .alphabeticPoint => alphabeticPointId
  | .numericPoint => numericPointId
  | .alphabeticSubpoint => alphabeticSubpointId
  | .numericSubpoint => numericSubpointId

theorem reads_idOf {k : PartKind} {id rest : Str} (h : Identifies k id) (hr : Stop rest) : Reads (idOf k) id rest id := by
  cases k with
  | article => exact reads_articleId h hr
  | paragraph => exact reads_paragraphId h hr
  | alphabeticPoint => exact reads_alphabeticPointId h hr
  | numericPoint => exact reads_numericPointId h hr
  | alphabeticSubpoint => exact reads_alphabeticSubpointId h hr
  | numericSubpoint => exact reads_numericSubpointId h hr

theorem reads_single {k : PartKind} {id w : Str} (h : SingleWritten k id w) (rest : Str) : Reads (singleOf k) w rest id := by
  obtain ⟨hi, hw⟩ := h
  have dot : w = id ++ py"." → Reads (do let id ← idOf k; let _ ← token (py"."); pure id) w rest id := by
    rintro rfl
    exact Reads.bind (reads_idOf hi (stop_dot _)) ((reads_dot _).to (reads_nil _ _))
  have close : w = id ++ py")" → Reads (do let id ← idOf k; let _ ← token (py")"); pure id) w rest id := by
    rintro rfl
    exact Reads.bind (reads_idOf hi (stop_close _)) ((reads_close _).to (reads_nil _ _))
  cases k with
  | article => exact dot hw
  | numericPoint => exact dot hw
  | numericSubpoint => exact dot hw
  | alphabeticPoint => exact close hw
  | alphabeticSubpoint => exact close hw
  | paragraph =>
    replace hw : w = (py"(") ++ id ++ py")" := hw
    subst hw
    rw [List.append_assoc]
    exact Reads.bind (reads_open _) (Reads.bind (reads_paragraphId hi (stop_close _)) ((reads_close _).to (reads_nil _ _)))

theorem reads_range {k : PartKind} {x y w : Str} (h : RangeText k x y w) (rest : Str) : Reads (rangeOf k) w rest (x, y) := by
  obtain ⟨hx, hy, d, hd, hw⟩ := h
  have numeric : w = x ++ d ++ y ++ (py".") → Reads (do let x ← idOf k; let _ ← dash; let y ← idOf k; let _ ← token (py"."); pure (x, y))
      w rest (x, y) := by
    rintro rfl
    rw [List.append_assoc, List.append_assoc]
    exact Reads.bind (reads_idOf hx (by rw [List.append_assoc]; exact stop_dash hd _)) (Reads.bind (reads_dash hd _)
      (Reads.bind (reads_idOf hy (stop_dot _)) ((reads_dot _).to (reads_nil _ _))))
  cases k with
  | numericPoint => exact numeric hw
  | numericSubpoint => exact numeric hw
  | article =>
    replace hw : w = x ++ d ++ y ++ py"." := hw
    subst hw
    rw [List.append_assoc, List.append_assoc]
    have hn : NotFirst (py".") (d ++ (y ++ (py".") ++ rest)) := notFirst_dash hd (by decide)
    have h1 : Reads (opt (do let _ ← token (py"."); articleSuffix)) [] (d ++ (y ++ (py".") ++ rest)) none :=
      (fails_first (a := '.') rfl hn).bind.opt
    exact Reads.bind (reads_articleId hx (by rw [List.append_assoc]; exact stop_dash hd _)) (Reads.bind (u := []) (v := d ++ (y ++ py"."))
      (by rw [List.append_assoc]; exact h1) (Reads.bind (reads_dash hd _) (Reads.bind (reads_articleId hy (stop_dot _)) ((reads_dot _).to (reads_nil _ _)))))
  | paragraph =>
    replace hw : w = (py"(") ++ x ++ (py")") ++ d ++ (py"(") ++ y ++ py")" := hw
    subst hw
    simp only [List.append_assoc]
    refine Reads.bind (reads_open _) (Reads.bind (reads_paragraphId hx ?_) (Reads.bind (reads_close _) (Reads.bind (reads_dash hd _)
      (Reads.bind (reads_open _) (Reads.bind (reads_paragraphId hy (stop_close _)) ((reads_close _).to (reads_nil _ _)))))))
    rw [List.append_assoc]
    exact stop_close _
  | alphabeticPoint =>
    obtain ⟨m, hm, rfl⟩ := hw
    simp only [List.append_assoc]
    have hn : NotFirst (py")") (d ++ (y ++ (py")") ++ rest)) := notFirst_dash hd (by decide)
    have h1 : ∃ o, Reads (opt (token (py")"))) m (d ++ (y ++ (py")") ++ rest)) o := by
      rcases hm with rfl | rfl
      · exact ⟨_, (fails_first (a := ')') rfl hn).opt⟩
      · exact ⟨_, (reads_close _).opt⟩
    obtain ⟨o, h1⟩ := h1
    refine Reads.bind (reads_alphabeticPointId hx ?_) (Reads.bind (by rw [List.append_assoc]; exact h1) (Reads.bind (reads_dash hd _)
      (Reads.bind (reads_alphabeticPointId hy (stop_close _)) ((reads_close _).to (reads_nil _ _)))))
    rcases hm with rfl | rfl
    · rw [List.nil_append, List.append_assoc]; exact stop_dash hd _
    · rw [List.append_assoc]; exact stop_close _
  | alphabeticSubpoint =>
    replace hw : w = x ++ (py")") ++ d ++ y ++ py")" := hw
    subst hw
    simp only [List.append_assoc]
    refine Reads.bind (reads_alphabeticSubpointId hx ?_) (Reads.bind (reads_close _) (Reads.bind (reads_dash hd _)
      (Reads.bind (reads_alphabeticSubpointId hy (stop_close _)) ((reads_close _).to (reads_nil _ _)))))
    rw [List.append_assoc]
    exact stop_close _

/-- After an article, the text does not go on to a range. -/
def NoRangeAfter (rest : Str) : Prop := ∀ n x j, articleSuffix ⟨n, rest⟩ = some (x, j) → (dash j >>= fun y => articleId y.2) = none

theorem fails_range {k : PartKind} {id w rest : Str} (h : SingleWritten k id w) (hd : NotFirst (py"-–−") rest)
    (ha : k = .article → NoRangeAfter rest) : Fails (rangeOf k) (w ++ rest) := by
  obtain ⟨hi, hw⟩ := h
  have nd : Fails dash ((py".") ++ rest) := fails_dash (notFirst_cons (by decide) (by decide))
  cases k with
  | numericPoint =>
    replace hw : w = id ++ py"." := hw
    subst hw
    rw [List.append_assoc]
    exact (reads_numericPointId hi (stop_dot _)).fails nd.bind
  | numericSubpoint =>
    replace hw : w = id ++ py"." := hw
    subst hw
    rw [List.append_assoc]
    exact (reads_numericSubpointId hi (stop_dot _)).fails nd.bind
  | alphabeticPoint =>
    replace hw : w = id ++ py")" := hw
    subst hw
    rw [List.append_assoc]
    exact (reads_alphabeticPointId hi (stop_close _)).fails ((reads_close _).opt.fails (fails_dash hd).bind)
  | alphabeticSubpoint =>
    replace hw : w = id ++ py")" := hw
    subst hw
    rw [List.append_assoc]
    exact (reads_alphabeticSubpointId hi (stop_close _)).fails ((reads_close _).fails (fails_dash hd).bind)
  | paragraph =>
    replace hw : w = (py"(") ++ id ++ py")" := hw
    subst hw
    simp only [List.append_assoc]
    exact (reads_open _).fails ((reads_paragraphId hi (stop_close _)).fails ((reads_close _).fails (fails_dash hd).bind))
  | article =>
    replace hw : w = id ++ py"." := hw
    subst hw
    rw [List.append_assoc]
    refine (reads_articleId hi (stop_dot _)).fails fun n => ?_
    have h1 := reads_dot rest n
    cases hs : articleSuffix ⟨n + (py".").length, rest⟩ with
    | none =>
      have h2 : (do let _ ← token (py"."); articleSuffix : Peg Str) ⟨n, (py".") ++ rest⟩ = none := by rw [bind_some h1]; exact hs
      rw [bind_some (opt_none h2)]
      exact nd.bind n
    | some x =>
      have h2 : (do let _ ← token (py"."); articleSuffix : Peg Str) ⟨n, (py".") ++ rest⟩ = some (x.1, x.2) := by
        rw [bind_some h1]; exact hs
      rw [bind_some (opt_some h2)]
      have h3 := ha rfl _ x.1 x.2 hs
      cases hd : dash x.2 with
      | none => exact bind_none hd
      | some y =>
        rw [hd] at h3
        rw [bind_some (a := y.1) (j := y.2) hd]
        exact bind_none h3

/-! ## Separators -/

/-- How items begin. -/
def ItemStart (s : Str) : Prop :=
  ∃ c t, s = c :: t ∧ (isAsciiDigit c = true ∨ c = '(' ∨ isLowerAz c = true ∧ ∃ d u, t = d :: u ∧
    (d ∈ py")-–−" ∨ isLowerAz d = true ∧ ∃ e v, u = e :: v ∧ e ∈ py")-–−"))

theorem itemStart_digits {d s : Str} (h : Digits d) : ItemStart (d ++ s) := by
  obtain ⟨c, d, rfl⟩ := List.exists_cons_of_ne_nil h.1
  exact ⟨c, d ++ s, rfl, .inl (h.2 c (List.mem_cons_self ..))⟩

theorem itemStart_letter {k : PartKind} {id s : Str} (h : Identifies k id) (hs : ∃ c t, s = c :: t ∧ c ∈ py")-–−") :
    k ≠ .paragraph → ItemStart (id ++ s) := by
  intro hk
  obtain ⟨c, t, rfl, hc⟩ := hs
  have a1 : ∀ x, isLowerAz x = true → ItemStart ([x] ++ c :: t) := fun x hx => ⟨x, c :: t, rfl, .inr (.inr ⟨hx, c, t, rfl, .inl hc⟩)⟩
  have a2 : ∀ x y, isLowerAz x = true → isLowerAz y = true → ItemStart ([x, y] ++ c :: t) := fun x y hx hy =>
    ⟨x, y :: c :: t, rfl, .inr (.inr ⟨hx, y, c :: t, rfl, .inr ⟨hy, c, t, rfl, hc⟩⟩)⟩
  cases k with
  | article =>
    obtain ⟨b, n, l, rfl, hb, hn, hl⟩ := h
    simp only [List.append_assoc]
    rcases hb with rfl | ⟨d, hd, rfl⟩
    · rw [List.nil_append]; exact itemStart_digits hn
    · rw [List.append_assoc]; exact itemStart_digits hd
  | paragraph => exact absurd rfl hk
  | numericPoint =>
    obtain ⟨n, l, rfl, hn, hl⟩ := h
    rw [List.append_assoc]
    exact itemStart_digits hn
  | numericSubpoint => exact itemStart_digits h
  | alphabeticPoint =>
    rcases h with rfl | rfl | ⟨x, hx, rfl⟩
    · exact a2 _ _ (by decide) (by decide)
    · exact a2 _ _ (by decide) (by decide)
    · exact a1 x hx
  | alphabeticSubpoint =>
    rcases h with ⟨x, hx, rfl⟩ | ⟨x, y, hx, hy, rfl⟩
    · exact a1 x hx
    · exact a2 x y hx hy

theorem itemStart_number {k : PartKind} {id s : Str} (h : Identifies k id) (hk : k = .article ∨ k = .numericPoint ∨ k = .numericSubpoint) :
    ItemStart (id ++ s) := by
  rcases hk with rfl | rfl | rfl
  · obtain ⟨b, n, l, rfl, hb, hn, hl⟩ := h
    simp only [List.append_assoc]
    rcases hb with rfl | ⟨d, hd, rfl⟩
    · rw [List.nil_append]; exact itemStart_digits hn
    · rw [List.append_assoc]; exact itemStart_digits hd
  · obtain ⟨n, l, rfl, hn, hl⟩ := h
    rw [List.append_assoc]
    exact itemStart_digits hn
  · exact itemStart_digits h

theorem itemStart {k : PartKind} {n : Nat} {x : Item} {w : Str} (h : ItemText k n x w) (s : Str) : ItemStart (w ++ s) := by
  obtain ⟨-, h⟩ := h
  have dash_close : ∀ {d t : Str}, Dash d → ∃ c u, d ++ t = c :: u ∧ c ∈ py")-–−" := by
    intro d t hd
    obtain ⟨c, rfl, hc⟩ := dash_cases hd
    have h1 : ∀ c ∈ py"−–-", c ∈ py")-–−" := by decide
    exact ⟨c, t, rfl, h1 c hc⟩
  cases x with
  | inl r =>
    obtain ⟨hx, hy, d, hd, hw⟩ := h
    cases k with
    | paragraph =>
      replace hw : w = (py"(") ++ r.1.1 ++ (py")") ++ d ++ (py"(") ++ r.1.2 ++ py")" := hw
      subst hw
      exact ⟨'(', _, rfl, .inr (.inl rfl)⟩
    | article => rw [hw]; simp only [List.append_assoc]; exact itemStart_number hx (.inl rfl)
    | numericPoint => rw [hw]; simp only [List.append_assoc]; exact itemStart_number hx (.inr (.inl rfl))
    | numericSubpoint => rw [hw]; simp only [List.append_assoc]; exact itemStart_number hx (.inr (.inr rfl))
    | alphabeticPoint =>
      obtain ⟨m, hm, rfl⟩ := hw
      simp only [List.append_assoc]
      refine itemStart_letter hx ?_ (by decide)
      rcases hm with rfl | rfl
      · rw [List.nil_append]; exact dash_close hd
      · exact ⟨')', _, rfl, by decide⟩
    | alphabeticSubpoint =>
      rw [hw]
      simp only [List.append_assoc]
      exact itemStart_letter hx ⟨')', _, rfl, by decide⟩ (by decide)
  | inr r =>
    obtain ⟨hi, hw⟩ := h
    cases k with
    | paragraph =>
      replace hw : w = (py"(") ++ r.1 ++ py")" := hw
      subst hw
      exact ⟨'(', _, rfl, .inr (.inl rfl)⟩
    | article => rw [hw]; simp only [List.append_assoc]; exact itemStart_number hi (.inl rfl)
    | numericPoint => rw [hw]; simp only [List.append_assoc]; exact itemStart_number hi (.inr (.inl rfl))
    | numericSubpoint => rw [hw]; simp only [List.append_assoc]; exact itemStart_number hi (.inr (.inr rfl))
    | alphabeticPoint => rw [hw]; simp only [List.append_assoc]; exact itemStart_letter hi ⟨')', _, rfl, by decide⟩ (by decide)
    | alphabeticSubpoint => rw [hw]; simp only [List.append_assoc]; exact itemStart_letter hi ⟨')', _, rfl, by decide⟩ (by decide)

theorem ItemStart.head {s : Str} (h : ItemStart s) : ∃ c t, s = c :: t ∧ isSpace c = false := by
  obtain ⟨c, t, rfl, hc⟩ := h
  refine ⟨c, t, rfl, ?_⟩
  rcases hc with h | rfl | ⟨h, _⟩
  · exact digit_not_space h
  · decide
  · exact lower_not_space h

theorem ItemStart.dropWhile {s : Str} (h : ItemStart s) : s.dropWhile isSpace = s := by
  obtain ⟨c, t, rfl, hc⟩ := h.head
  exact dropWhile_cons_of hc

theorem ItemStart.no_word {s t : Str} (h : ItemStart s) {a b c : Char} {u : Str} (ht : t = a :: b :: c :: u) (ha : isLowerAz a = true)
    (hb : isLowerAz b = true) (hc : isLowerAz c = true) : Fails (token t) s := by
  intro n
  refine token_not_prefix ?_
  rw [h.dropWhile]
  obtain ⟨x, v, rfl, hx⟩ := h
  subst ht
  have cl : ∀ d ∈ py")-–−", isLowerAz d = false := by decide +kernel
  have ne : ∀ {p q : Char}, isLowerAz p = true → isLowerAz q = false → (p == q) = false := by
    intro p q hp hq
    rw [beq_eq_false_iff_ne]
    rintro rfl
    rw [hp] at hq
    cases hq
  rcases hx with h | rfl | ⟨h, d, w, rfl, hd | ⟨h', e, z, rfl, he⟩⟩
  · simp [List.isPrefixOf, ne ha (digit_not_lower' h)]
  · simp [List.isPrefixOf, ne ha (by decide : isLowerAz '(' = false)]
  · simp [List.isPrefixOf, ne hb (cl d hd)]
  · simp [List.isPrefixOf, ne hc (cl e he)]

/-- The words between items. -/
abbrev joiningWords : List Str := [py"és", py"valamint", py"illetve", py"vagy"]

theorem ItemStart.no_joining {s : Str} (h : ItemStart s) : Fails (tokens joiningWords) s := by
  refine fails_tokens fun t ht => ?_
  simp only [List.mem_cons, List.not_mem_nil, or_false] at ht
  rcases ht with rfl | rfl | rfl | rfl
  · refine fails_token (a := 'é') rfl ?_
    obtain ⟨x, v, rfl, hx⟩ := h
    intro c hc
    have hs : isSpace x = false := by
      rcases hx with h | rfl | ⟨h, _⟩
      · exact digit_not_space h
      · decide
      · exact lower_not_space h
    rw [first_cons hs] at hc
    cases hc
    rcases hx with h | rfl | ⟨h, _⟩
    · exact ne_of_class h
    · decide
    · exact ne_of_class h
  · exact h.no_word rfl (by decide) (by decide) (by decide)
  · exact h.no_word rfl (by decide) (by decide) (by decide)
  · exact h.no_word rfl (by decide) (by decide) (by decide)

theorem ItemStart.no_az {s : Str} (h : ItemStart s) : Fails (pattern (.seq (.char 'a') (.seq (.opt (.char 'z')) (.char ' ')))) s := by
  refine fails_pattern ?_
  obtain ⟨x, v, rfl, hx⟩ := h
  have cl : ∀ d ∈ py")-–−", d ≠ ' ' ∧ d ≠ 'z' := by decide +kernel
  rcases hx with h | rfl | ⟨h, d, w, rfl, hd | ⟨h', e, z, rfl, he⟩⟩
  · simp [Regex.ends, Regex.char, ne_of_class (x := 'a') h]
  · simp [Regex.ends, Regex.char]
  · by_cases ha : x = 'a'
    · simp [Regex.ends, Regex.char, ha, (cl d hd).1, (cl d hd).2]
    · simp [Regex.ends, Regex.char, ha]
  · have hd : d ≠ ' ' := ne_of_class h'
    by_cases ha : x = 'a'
    · by_cases hz : d = 'z'
      · simp [Regex.ends, Regex.char, ha, hz, (cl e he).1]
      · simp [Regex.ends, Regex.char, ha, hz, hd]
    · simp [Regex.ends, Regex.char, ha]

/-- What may come after something that separates. -/
structure Begun (s : Str) : Prop where
  head : ∃ c t, s = c :: t ∧ isSpace c = false
  no_joining : Fails (tokens joiningWords) s
  no_az : Fails (pattern (.seq (.char 'a') (.seq (.opt (.char 'z')) (.char ' ')))) s

theorem ItemStart.begun {s : Str} (h : ItemStart s) : Begun s := ⟨h.head, h.no_joining, h.no_az⟩

theorem reads_joining {o rest : Str} (ho : o ∈ joiningWords) (hr : rest.head? = some ' ') : Reads (tokens joiningWords) o rest o := by
  have hn : ∀ c ∈ rest.head?, isNameChar c = false := by
    intro c hc
    rw [hr] at hc
    cases hc
    decide +kernel
  simp only [List.mem_cons, List.not_mem_nil, or_false] at ho
  have no : ∀ (t : Str) (a : Char) (c : Char) (s : Str), t.head? = some a → isSpace c = false → c ≠ a → Fails (token t) (c :: s) :=
    fun t a c s ht hs hne => fails_token ht (by rw [first_cons hs]; rintro _ ⟨⟩; exact hne)
  have vagy : Fails (token (py"valamint")) ((py"vagy") ++ rest) := by
    intro n
    refine token_not_prefix ?_
    rw [List.cons_append, dropWhile_cons_of (by decide)]
    rfl
  rcases ho with rfl | rfl | rfl | rfl
  · exact .left (reads_word (c := 'é') rfl (by decide +kernel) (.inr hn))
  · exact .right (no _ 'é' _ _ rfl (by decide) (by decide)) (.left (reads_word (c := 'v') rfl (by decide) (.inr hn)))
  · exact .right (no _ 'é' _ _ rfl (by decide) (by decide)) (.right (no _ 'v' _ _ rfl (by decide) (by decide))
      (.left (reads_word (c := 'i') rfl (by decide) (.inr hn))))
  · exact .right (no _ 'é' _ _ rfl (by decide) (by decide)) (.right vagy (.right (no _ 'i' _ _ rfl (by decide) (by decide))
      (.left (reads_word (c := 'v') rfl (by decide) (.inr hn)))))

theorem reads_comma {c rest : Str} (hc : c ∈ [py",", py";"]) : Reads (tokens [py",", py";"]) c rest c := by
  simp only [List.mem_cons, List.not_mem_nil, or_false] at hc
  rcases hc with rfl | rfl
  · exact .left (reads_word (c := ',') rfl (by decide) (.inl (by decide +kernel)))
  · exact .right (fails_first (a := ',') rfl (notFirst_cons (by decide) (by decide)))
      (.left (reads_word (c := ';') rfl (by decide) (.inl (by decide +kernel))))

theorem fails_comma {s : Str} (h : NotFirst (py",;") s) : Fails (tokens [py",", py";"]) s := by
  refine fails_tokens fun t ht => ?_
  simp only [List.mem_cons, List.not_mem_nil, or_false] at ht
  rcases ht with rfl | rfl
  · exact fails_first (a := ',') rfl (notFirst_sub h (by decide))
  · exact fails_first (a := ';') rfl (notFirst_sub h (by decide))

theorem tokens_reads_space {ts : List Str} {w rest x : Str} (h : Reads (tokens ts) w rest x) : Reads (tokens ts) (' ' :: w) rest x := by
  intro n
  rw [List.cons_append, tokens_space, h]
  simp
  omega

theorem fails_tokens_space {ts : List Str} {s : Str} (h : Fails (tokens ts) s) : Fails (tokens ts) (' ' :: s) := by
  intro n
  rw [tokens_space]
  exact h _

/-- The words without the articles are read. -/
theorem reads_listSeparator {c o a rest : Str} (hc : c ∈ [py"", py",", py";"]) (ho : o ∈ [py"", py" és", py" valamint", py" illetve", py" vagy"])
    (ha : a ∈ [py"", py" a", py" az"]) (hn : c = [] → o ≠ []) (hr : Begun rest) :
    Reads listSeparator (c ++ o) (a ++ (py" ") ++ rest) () := by
  have hh : (a ++ (py" ") ++ rest).head? = some ' ' := by
    simp only [List.mem_cons, List.not_mem_nil, or_false] at ha
    rcases ha with rfl | rfl | rfl <;> rfl
  have hnone : Fails (tokens joiningWords) (a ++ (py" ") ++ rest) := by
    simp only [List.mem_cons, List.not_mem_nil, or_false] at ha
    have vow : ∀ t : Str, Fails (tokens joiningWords) ('a' :: t) := fun t => by
      refine fails_tokens fun u hu => ?_
      simp only [List.mem_cons, List.not_mem_nil, or_false] at hu
      have : ∀ x ∈ py"évi", NotFirst [x] ('a' :: t) := fun x hx => notFirst_cons (by decide) (by revert x; decide)
      rcases hu with rfl | rfl | rfl | rfl
      · exact fails_first (a := 'é') rfl (this _ (by decide))
      · exact fails_first (a := 'v') rfl (this _ (by decide))
      · exact fails_first (a := 'i') rfl (this _ (by decide))
      · exact fails_first (a := 'v') rfl (this _ (by decide))
    rcases ha with rfl | rfl | rfl
    · exact fails_tokens_space hr.no_joining
    · exact fails_tokens_space (vow _)
    · exact fails_tokens_space (vow _)
  have hcs : ∀ {c : Str}, c ∈ [py",", py";"] → ∃ x, c.head? = some x ∧ isSpace x = false := by
    intro c hc
    simp only [List.mem_cons, List.not_mem_nil, or_false] at hc
    rcases hc with rfl | rfl
    · exact ⟨',', rfl, by decide⟩
    · exact ⟨';', rfl, by decide⟩
  have ho' : o = [] ∨ ∃ w ∈ joiningWords, o = ' ' :: w := by
    simp only [List.mem_cons, List.not_mem_nil, or_false] at ho
    rcases ho with rfl | rfl | rfl | rfl | rfl
    · exact .inl rfl
    · exact .inr ⟨py"és", by decide, rfl⟩
    · exact .inr ⟨py"valamint", by decide, rfl⟩
    · exact .inr ⟨py"illetve", by decide, rfl⟩
    · exact .inr ⟨py"vagy", by decide, rfl⟩
  have hc' : c = [] ∨ c ∈ [py",", py";"] := by
    simp only [List.mem_cons, List.not_mem_nil, or_false] at hc
    rcases hc with rfl | rfl | rfl
    · exact .inl rfl
    · exact .inr (by decide)
    · exact .inr (by decide)
  unfold listSeparator
  rcases ho' with rfl | ⟨w, hw, rfl⟩
  · rcases hc' with rfl | hc'
    · exact absurd rfl (hn rfl)
    · obtain ⟨x, hx, hxs⟩ := hcs hc'
      rw [List.append_nil]
      refine Reads.rule (Reads.right ?_ ((reads_comma hc').to (reads_nil _ _))) hx hxs
      exact (reads_comma hc').opt.fails hnone.bind
  · rcases hc' with rfl | hc'
    · rw [List.nil_append]
      have hx : ∃ x, w.head? = some x ∧ isSpace x = false ∧ x ∉ py",;" := by
        simp only [List.mem_cons, List.not_mem_nil, or_false] at hw
        rcases hw with rfl | rfl | rfl | rfl
        · exact ⟨'é', rfl, by decide, by decide⟩
        · exact ⟨'v', rfl, by decide, by decide⟩
        · exact ⟨'i', rfl, by decide, by decide⟩
        · exact ⟨'v', rfl, by decide, by decide⟩
      obtain ⟨x, hx, hxs, hxc⟩ := hx
      refine Reads.rule_space (Reads.left ?_) hx hxs
      refine Reads.bind (u := []) (fails_comma ?_).opt ((reads_joining hw hh).to (reads_nil _ _))
      intro d hd
      rw [first_append hx hxs] at hd
      cases hd
      exact hxc
    · obtain ⟨x, hx, hxs⟩ := hcs hc'
      refine Reads.rule (c := x) (Reads.left ?_) (by simp [List.head?_append, hx]) hxs
      exact Reads.bind (reads_comma hc').opt ((tokens_reads_space (reads_joining hw hh)).to (reads_nil _ _))

/-- What is between two items is read, but perhaps for a space. -/
theorem separated_begun {g rest : Str} (hg : SeparatorText g) (hr : Begun rest) (n : Nat) :
    ∃ j, separated ⟨n, g ++ rest⟩ = some ((), j) ∧ j.skip = ⟨n + g.length, rest⟩ ∧ j.rest.length ≤ (g ++ rest).length := by
  obtain ⟨c, o, a, rfl, hc, ho, ha, hn⟩ := hg
  have h1 := reads_listSeparator hc ho ha hn hr
  obtain ⟨x, t, rfl, hx⟩ := hr.head
  have sk : ∀ m, (⟨m, x :: t⟩ : At).skip = ⟨m, x :: t⟩ := fun m => skip_cons hx m
  have fin : ∀ {o' : Option Str} {m : Nat} {u : Str}, opt az ⟨n + (c ++ o).length, a ++ (py" ") ++ (x :: t)⟩ = some (o', ⟨m, u⟩) →
      separated ⟨n, c ++ o ++ a ++ (py" ") ++ (x :: t)⟩ = some ((), ⟨m, u⟩) := by
    intro o' m u h
    unfold separated
    have h2 : (do let _ ← listSeparator; opt az : Peg (Option Str)) ⟨n, c ++ o ++ a ++ (py" ") ++ (x :: t)⟩ = some (o', ⟨m, u⟩) := by
      have := h1 n
      simp only [List.append_assoc] at this h ⊢
      rw [bind_some this]
      exact h
    rw [bind_some (opt_some h2)]
    rfl
  simp only [List.mem_cons, List.not_mem_nil, or_false] at ha
  rcases ha with rfl | rfl | rfl
  · refine ⟨⟨n + (c ++ o).length, ' ' :: x :: t⟩, fin (o' := none) ?_, ?_, by simp; omega⟩
    · refine opt_none ?_
      show rule _ ⟨_, ' ' :: x :: t⟩ = none
      rw [rule_space, rule_eq hx]
      exact hr.no_az _
    · rw [skip_space (by decide), sk]
      simp
      omega
  · refine ⟨⟨n + (c ++ o ++ (py" a") ++ py" ").length, x :: t⟩, fin (o' := some (py"a ")) ?_, sk _, by simp; omega⟩
    refine opt_some ?_
    show rule _ ⟨_, ' ' :: 'a' :: ' ' :: x :: t⟩ = _
    rw [rule_space, rule_eq (by decide)]
    have : (((Regex.seq (.char 'a') (.seq (.opt (.char 'z')) (.char ' '))).ends ((py"a ") ++ x :: t)).head?) = some (py"a ").length := by
      simp [Regex.ends, Regex.char]
    have := pattern_of (n + (c ++ o).length + 1) this
    rw [List.cons_append, List.cons_append, List.nil_append] at this
    rw [this]
    simp
    omega
  · refine ⟨⟨n + (c ++ o ++ (py" az") ++ py" ").length, x :: t⟩, fin (o' := some (py"az ")) ?_, sk _, by simp; omega⟩
    refine opt_some ?_
    show rule _ ⟨_, ' ' :: 'a' :: 'z' :: ' ' :: x :: t⟩ = _
    rw [rule_space, rule_eq (by decide)]
    have : (((Regex.seq (.char 'a') (.seq (.opt (.char 'z')) (.char ' '))).ends ((py"az ") ++ x :: t)).head?) = some (py"az ").length := by
      simp [Regex.ends, Regex.char]
    have := pattern_of (n + (c ++ o).length + 1) this
    rw [List.cons_append, List.cons_append, List.cons_append, List.nil_append] at this
    rw [this]
    simp
    omega

theorem separated_reads {g rest : Str} (hg : SeparatorText g) (hr : ItemStart rest) (n : Nat) :
    ∃ j, separated ⟨n, g ++ rest⟩ = some ((), j) ∧ j.skip = ⟨n + g.length, rest⟩ ∧ j.rest.length ≤ (g ++ rest).length :=
  separated_begun hg hr.begun n

/-! ## Lists -/

/-- The parser of an item with what separates it from the next one. -/
def itemOf (k : PartKind) : Peg Item :=
  item (or (do let x ← located (rangeOf k); pure (Sum.inl x)) (do let x ← located (singleOf k); pure (Sum.inr x)))

/-- The parser of a list. -/
def partOf (k : PartKind) : Peg ParsedPart := referencePart k (rangeOf k) (singleOf k) (suffixOf k)

theorem located_skip {α : Type} (p : Peg α) (i : At) : located p i.skip = located p i := by simp [located, skip_skip]

theorem or_congr {α : Type} {p q : Peg α} {i j : At} (hp : p i = p j) (hq : q i = q j) : Peg.or p q i = Peg.or p q j := by
  unfold Peg.or
  rw [hp, hq]

theorem bind_congr {α β : Type} {p : Peg α} {f : α → Peg β} {i j : At} (hp : p i = p j) : (p >>= f) i = (p >>= f) j := by
  show (match p i with | none => none | some (a, j) => f a j) = (match p j with | none => none | some (a, j) => f a j)
  rw [hp]

theorem itemOf_skip (k : PartKind) (i : At) : itemOf k i.skip = itemOf k i := by
  unfold itemOf item
  exact bind_congr (or_congr (bind_congr (located_skip _ _)) (bind_congr (located_skip _ _)))

/-- What may come after an item. -/
structure After (k : PartKind) (rest : Str) : Prop where
  noDash : NotFirst (py"-–−") rest
  noRange : k = .article → NoRangeAfter rest

theorem item_read {k : PartKind} {n : Nat} {x : Item} {w rest : Str} (h : ItemText k n x w) (ha : After k rest) :
    Peg.or (do let x ← located (rangeOf k); pure (Sum.inl x)) (do let x ← located (singleOf k); pure (Sum.inr x) : Peg Item)
      ⟨n, w ++ rest⟩ = some (x, ⟨n + w.length, rest⟩) := by
  obtain ⟨c, t, hs, hc⟩ := (itemStart h rest).head
  have hsk : (⟨n, w ++ rest⟩ : At).skip = ⟨n, w ++ rest⟩ := by rw [hs]; exact skip_cons hc n
  obtain ⟨hp, h⟩ := h
  cases x with
  | inl r =>
    have h1 : located (rangeOf k) ⟨n, w ++ rest⟩ = some (r, ⟨n + w.length, rest⟩) := by
      unfold located
      rw [hsk, reads_range h rest n]
      obtain ⟨⟨x, y⟩, p⟩ := r
      cases hp
      rfl
    refine or_left ?_
    rw [bind_some h1]
    rfl
  | inr r =>
    have h1 : located (singleOf k) ⟨n, w ++ rest⟩ = some (r, ⟨n + w.length, rest⟩) := by
      unfold located
      rw [hsk, reads_single h rest n]
      obtain ⟨x, p⟩ := r
      cases hp
      rfl
    have h2 : located (rangeOf k) ⟨n, w ++ rest⟩ = none := by
      unfold located
      rw [hsk, fails_range h ha.noDash ha.noRange n]
    rw [or_right (bind_none h2), bind_some h1]
    rfl

theorem separator_head {g : Str} (h : SeparatorText g) : ∃ c, first g = some c ∧ c ∈ py",;éviva" ∧ ∃ x, g.head? = some x ∧ x ∈ py",; " := by
  obtain ⟨c, o, a, rfl, hc, ho, ha, hn⟩ := h
  simp only [List.mem_cons, List.not_mem_nil, or_false] at hc ho ha
  rcases hc with rfl | rfl | rfl
  · rcases ho with rfl | rfl | rfl | rfl | rfl
    · exact absurd rfl (hn rfl)
    all_goals rcases ha with rfl | rfl | rfl <;> exact ⟨_, rfl, by decide, _, rfl, by decide⟩
  · exact ⟨',', rfl, by decide, ',', rfl, by decide⟩
  · exact ⟨';', rfl, by decide, ';', rfl, by decide⟩

theorem first_append_of {g s : Str} {c : Char} (h : first g = some c) : first (g ++ s) = some c := by
  unfold first at h ⊢
  rw [List.dropWhile_append]
  cases hg : g.dropWhile isSpace with
  | nil => rw [hg] at h; cases h
  | cons a t => rw [hg] at h; simpa using h

theorem articleSuffix_none {s : Str} (h : NotFirst (py"§") s) : Fails articleSuffix s := by
  have h' : NotFirst (py"§") (s.dropWhile isSpace) := by intro c hc; rw [first_dropWhile] at hc; exact h c hc
  refine Fails.rule (Fails.or (fails_pattern (seq_none (str_none _ _ (by decide) ?_))) (fails_first (a := '§') rfl h'))
  cases hs : s.dropWhile isSpace with
  | nil => rfl
  | cons a t =>
    have : a ≠ '§' := by
      rintro rfl
      exact h '§' (by simp [first, hs]) (by decide)
    simp [List.isPrefixOf, Ne.symm this]

theorem after_separator {k : PartKind} {g : Str} (h : SeparatorText g) (rest : Str) : After k (g ++ rest) := by
  obtain ⟨c, hf, hc, -⟩ := separator_head h
  have hne : ∀ cs : Str, c ∉ cs → NotFirst cs (g ++ rest) := by
    intro cs hcs d hd
    rw [first_append_of hf] at hd
    cases hd
    exact hcs
  have h1 : ∀ c ∈ py",;éviva", c ∉ py"-–−" ∧ c ∉ py"§" := by decide +kernel
  refine ⟨hne _ (h1 c hc).1, fun _ n x j hs => ?_⟩
  rw [articleSuffix_none (hne _ (h1 c hc).2) n] at hs
  cases hs

/-- The items of a list are read one after the other. -/
theorem items_read {k : PartKind} {n : Nat} {xs : List Item} {w : Str} (h : ItemsText k n xs w) : ∀ {rest : Str} {j : At},
    After k rest → Reads separated [] rest () → j.skip = ⟨n, w ++ rest⟩ → (w ++ rest).length ≤ j.rest.length →
    Steps (itemOf k) j xs ⟨n + w.length, rest⟩ := by
  induction h with
  | @one n x w h =>
    intro rest j ha hs hj hl
    have h1 := item_read h ha
    have h2 : itemOf k ⟨n, w ++ rest⟩ = some (x, ⟨n + w.length, rest⟩) := by
      unfold itemOf item
      have h0 : separated ⟨n + w.length, rest⟩ = some ((), ⟨n + w.length, rest⟩) := hs _
      rw [bind_some h1, bind_some h0]
      rfl
    rw [← hj, itemOf_skip] at h2
    refine .cons h2 ?_ (.nil _)
    obtain ⟨c, t, he, _⟩ := itemStart h []
    rw [List.append_nil] at he
    rw [List.length_append] at hl
    simp only [he, List.length_cons] at hl ⊢
    omega
  | @cons n x w g xs v h hg hxs ih =>
    intro rest j ha hs hj hl
    have hst : ItemStart (v ++ rest) := by
      cases hxs with
      | one h => exact itemStart h rest
      | cons h _ _ => simp only [List.append_assoc]; exact itemStart h _
    have h1 := item_read h (after_separator (k := k) hg (v ++ rest))
    obtain ⟨j', h2, h3, h4⟩ := separated_reads hg hst (n + w.length)
    have h5 : itemOf k ⟨n, w ++ (g ++ (v ++ rest))⟩ = some (x, j') := by
      unfold itemOf item
      rw [bind_some h1, bind_some h2]
      rfl
    have e : w ++ g ++ v ++ rest = w ++ (g ++ (v ++ rest)) := by simp
    rw [e] at hj hl
    rw [← hj, itemOf_skip] at h5
    have e2 : n + (w ++ g ++ v).length = n + w.length + g.length + v.length := by simp; omega
    rw [e2]
    refine .cons h5 ?_ (ih ha hs h3 ?_)
    · obtain ⟨c, t, he, _⟩ := itemStart h []
      rw [List.append_nil] at he
      rw [List.length_append] at hl
      simp only [he, List.length_cons] at hl
      omega
    · have h6 : j'.rest.length ≥ j'.skip.rest.length := by
        simp [At.skip, At.move]
      rw [h3] at h6
      exact h6

/-! ## The ends of lists -/

theorem isLowerHun_of {c : Char} (h : hunLower c) : isLowerHun c = true := isLowerHun_iff.mpr h

theorem _root_.Verif.Spec.WordEnds.not {rest : Str} (h : WordEnds rest) {p : Char → Bool} (hp : ∀ c ∈ py" ,.;:)?!”", p c = false) :
    ∀ c ∈ rest.head?, p c = false := fun c hc => hp c (h c hc)

theorem reads_suffix {t e rest : Str} {c : Char} (he : Inflected t e) (hc : t.head? = some c) (hs : isSpace c = false) (hr : WordEnds rest) :
    ∃ x, Reads (suffix t) e rest x := by
  obtain ⟨l, rfl, hl⟩ := he
  have ht : t ≠ [] := by rintro rfl; cases hc
  have hh : (t ++ l).head? = some c := by simp [List.head?_append, hc]
  have lows : ∀ c ∈ rest.head?, isLowerHun c = false := hr.not (by decide +kernel)
  cases hl' : l with
  | nil =>
    refine ⟨t, ?_⟩
    rw [List.append_nil]
    refine Reads.rule (Reads.right (fails_pattern (str_seq_none ht (plus_none lows))) ?_) hc hs
    exact reads_word hc hs (.inr (hr.not (by decide +kernel)))
  | cons a l' =>
    rw [← hl']
    refine ⟨t ++ l, Reads.rule (Reads.left (Reads.matches ?_)) hh hs⟩
    exact str_seq_ends ht (plus_ends (by rw [hl']; simp) (fun c hc => isLowerHun_of (hl c hc)) lows)

theorem reads_articleSuffix {e rest : Str} (he : EndText .article e) (hr : WordEnds rest) : ∃ x, Reads articleSuffix e rest x := by
  have lows : ∀ c ∈ rest.head?, isLowerHun c = false := hr.not (by decide +kernel)
  rcases he with rfl | ⟨l, rfl, hn, hl⟩
  · refine ⟨py"§", Reads.rule (c := '§') (Reads.right (fails_pattern (seq_none (str_none _ _ (by decide) ?_))) ?_) rfl (by decide +kernel)⟩
    · cases rest with
      | nil => rfl
      | cons a t =>
        have h1 : ∀ c ∈ py" ,.;:)?!”", c ≠ '-' := by decide
        have : a ≠ '-' := h1 a (hr a rfl)
        simp [List.isPrefixOf, Ne.symm this]
    · exact reads_word (c := '§') rfl (by decide +kernel) (.inl (by decide +kernel))
  · refine ⟨(py"§-") ++ l, Reads.rule (c := '§') (Reads.left (Reads.matches ?_)) rfl (by decide +kernel)⟩
    exact str_seq_ends (by decide) (plus_ends hn (fun c hc => isLowerHun_of (hl c hc)) lows)

theorem end_head {k : PartKind} {e : Str} (h : EndText k e) : ∃ c t, e = c :: t ∧ c ∈ py"§bpa" := by
  cases k with
  | article =>
    rcases h with rfl | ⟨l, rfl, _⟩
    · exact ⟨'§', [], rfl, by decide⟩
    · exact ⟨'§', '-' :: l, rfl, by decide⟩
  | paragraph => obtain ⟨l, rfl, _⟩ := h; exact ⟨'b', _, rfl, by decide⟩
  | alphabeticPoint => obtain ⟨l, rfl, _⟩ := h; exact ⟨'p', _, rfl, by decide⟩
  | numericPoint => obtain ⟨l, rfl, _⟩ := h; exact ⟨'p', _, rfl, by decide⟩
  | alphabeticSubpoint => obtain ⟨l, rfl, _⟩ := h; exact ⟨'a', _, rfl, by decide⟩
  | numericSubpoint => obtain ⟨l, rfl, _⟩ := h; exact ⟨'a', _, rfl, by decide⟩

theorem end_not_space : ∀ c ∈ py"§bpa", isSpace c = false := by decide +kernel

theorem reads_suffixOf {k : PartKind} {e rest : Str} (he : EndText k e) (hr : WordEnds rest) : ∃ x, Reads (suffixOf k) (' ' :: e) rest x := by
  obtain ⟨c, t, hct, hc⟩ := end_head he
  have lift : ∀ {p : Peg Str} {x : Str}, Reads (rule p) e rest x → Reads (rule p) (' ' :: e) rest x := by
    intro p x h n
    rw [List.cons_append, rule_space, h]
    simp
    omega
  have key : ∃ x, Reads (suffixOf k) e rest x := by
    cases k with
    | article => exact reads_articleSuffix he hr
    | paragraph => exact reads_suffix (c := 'b') he rfl (by decide) hr
    | alphabeticPoint => exact reads_suffix (c := 'p') he rfl (by decide) hr
    | numericPoint => exact reads_suffix (c := 'p') he rfl (by decide) hr
    | alphabeticSubpoint => exact reads_suffix (c := 'a') he rfl (by decide) hr
    | numericSubpoint => exact reads_suffix (c := 'a') he rfl (by decide) hr
  obtain ⟨x, hx⟩ := key
  refine ⟨x, ?_⟩
  cases k <;> exact lift hx

theorem separated_nothing {s : Str} (h : NotFirst (py",;évi") s) : Reads separated [] s () := by
  have h' : ∀ cs : Str, (∀ c ∈ cs, c ∈ py",;évi") → NotFirst cs (s.dropWhile isSpace) := by
    intro cs hcs c hc
    rw [first_dropWhile] at hc
    exact fun hm => h c hc (hcs c hm)
  have hw : Fails (tokens joiningWords) (s.dropWhile isSpace) := by
    refine fails_tokens fun t ht => ?_
    simp only [List.mem_cons, List.not_mem_nil, or_false] at ht
    rcases ht with rfl | rfl | rfl | rfl
    · exact fails_first (a := 'é') rfl (h' _ (by decide))
    · exact fails_first (a := 'v') rfl (h' _ (by decide))
    · exact fails_first (a := 'i') rfl (h' _ (by decide))
    · exact fails_first (a := 'v') rfl (h' _ (by decide))
  have hc : Fails (tokens [py",", py";"]) (s.dropWhile isSpace) := fails_comma (h' _ (by decide))
  have hl : Fails listSeparator s := by
    refine Fails.rule (Fails.or ?_ hc.bind)
    have := hc.opt.fails (f := fun _ => do let _ ← tokens joiningWords; pure ()) hw.bind
    exact this
  intro n
  unfold separated
  have := hl.bind (f := fun _ => opt az) n
  rw [List.nil_append, bind_some (opt_none this)]
  rfl

theorem fails_idOf_number {k : PartKind} (hk : k = .article ∨ k = .numericPoint ∨ k = .numericSubpoint) {s : Str}
    (h : ∀ c ∈ first s, isAsciiDigit c = false) : Fails (idOf k) s := by
  have h' : ∀ c ∈ first (s.dropWhile isSpace), isAsciiDigit c = false := by rw [first_dropWhile]; exact h
  rcases hk with rfl | rfl | rfl
  · refine Fails.rule (Fails.bind ?_)
    have h1 : Reads (opt (do let n ← number; let c ← token (py":"); pure [n, c])) [] (s.dropWhile isSpace) none := (fails_number h').bind.opt
    exact h1.fails (fails_number h').bind
  · exact Fails.rule (fails_number h').bind
  · exact Fails.rule (fails_number h')

theorem fails_item_number {k : PartKind} (hk : k = .article ∨ k = .numericPoint ∨ k = .numericSubpoint) {s : Str}
    (h : ∀ c ∈ first s, isAsciiDigit c = false) : Fails (rangeOf k) s ∧ Fails (singleOf k) s := by
  have h1 := fails_idOf_number hk h
  rcases hk with rfl | rfl | rfl <;> exact ⟨h1.bind, h1.bind⟩

/-- No item of a list can be read. -/
theorem fails_itemOf {k : PartKind} {s : Str} (h : Fails (rangeOf k) (s.dropWhile isSpace) ∧ Fails (singleOf k) (s.dropWhile isSpace)) :
    Fails (itemOf k) s := by
  unfold itemOf item
  exact Fails.bind (Fails.or (Fails.located h.1).bind (Fails.located h.2).bind)

/-- A letter that is not followed by a bracket or a dash is no item. -/
theorem fails_letter_item {c d : Char} {s : Str} (hc : isLowerAz c = true) (hd : isLowerAz d = true) (hny : c ≠ 'n') (hsz : c ≠ 's') :
    Fails (rangeOf .alphabeticPoint) (c :: d :: s) ∧ Fails (singleOf .alphabeticPoint) (c :: d :: s) := by
  have hid : Reads alphabeticPointId [c] (d :: s) [c] := by
    refine Reads.rule (c := c) (Reads.right ?_ (reads_letter hc)) rfl (lower_not_space hc)
    refine fails_tokens fun t ht => ?_
    simp only [List.mem_cons, List.not_mem_nil, or_false] at ht
    rcases ht with rfl | rfl
    · exact fails_first (a := 'n') rfl (notFirst_cons (lower_not_space hc) (by simpa using hny))
    · exact fails_first (a := 's') rfl (notFirst_cons (lower_not_space hc) (by simpa using hsz))
  have hnc : Fails (token (py")")) (d :: s) := fails_first (a := ')') rfl (notFirst_cons (lower_not_space hd) (by
    simpa using ne_of_class (x := ')') hd))
  have hnd : Fails dash (d :: s) := fails_dash (notFirst_cons (lower_not_space hd) (by
    simp [ne_of_class (x := '-') hd, ne_of_class (x := '–') hd, ne_of_class (x := '−') hd]))
  exact ⟨hid.fails (hnc.opt.fails hnd.bind), hid.fails hnc.bind⟩

theorem fails_at_end_of_list {k : PartKind} {e rest : Str} (he : EndText k e) : Fails (itemOf k) (' ' :: e ++ rest) := by
  obtain ⟨c, t, hct, hc⟩ := end_head he
  have hs := end_not_space c hc
  refine fails_itemOf ?_
  rw [List.cons_append, dropWhile_space]
  have hd : (e ++ rest).dropWhile isSpace = e ++ rest := by rw [hct]; exact dropWhile_cons_of hs
  rw [hd]
  have hf : first (e ++ rest) = some c := by rw [hct]; exact first_cons hs
  have hdig : ∀ c ∈ py"§bpa", isAsciiDigit c = false := by decide +kernel
  have num : ∀ {k}, (k = .article ∨ k = .numericPoint ∨ k = .numericSubpoint) → Fails (rangeOf k) (e ++ rest) ∧ Fails (singleOf k) (e ++ rest) :=
    fun hk => fails_item_number hk (by rw [hf]; rintro _ ⟨⟩; exact hdig c hc)
  cases k with
  | article => exact num (.inl rfl)
  | numericPoint => exact num (.inr (.inl rfl))
  | numericSubpoint => exact num (.inr (.inr rfl))
  | paragraph =>
    have : Fails (token (py"(")) (e ++ rest) := fails_first (a := '(') rfl (by
      intro d hd'
      rw [hf] at hd'
      cases hd'
      have : ∀ c ∈ py"§bpa", c ∉ py"(" := by decide
      exact this c hc)
    exact ⟨this.bind, this.bind⟩
  | alphabeticPoint =>
    obtain ⟨l, rfl, _⟩ := he
    exact fails_letter_item (by decide) (by decide) (by decide) (by decide)
  | alphabeticSubpoint =>
    obtain ⟨l, rfl, _⟩ := he
    have hid : Reads alphabeticSubpointId (py"al") ('p' :: ((py"ont") ++ l ++ rest)) (py"al") := by
      refine (Reads.matches ?_).rule (c := 'a') rfl (by decide)
      simp [Regex.ends, isLowerAz]
    have hnc : Fails (token (py")")) ('p' :: ((py"ont") ++ l ++ rest)) := fails_first (a := ')') rfl (notFirst_cons (by decide) (by decide))
    have e1 : (py"alpont") ++ l ++ rest = (py"al") ++ 'p' :: ((py"ont") ++ l ++ rest) := rfl
    rw [e1]
    exact ⟨hid.fails hnc.bind, hid.fails hnc.bind⟩

theorem after_end {k : PartKind} {e rest : Str} (he : EndText k e) (hr : WordEnds rest)
    (ha : k = .article → ∀ n, (dash ⟨n, rest⟩ >>= fun y => articleId y.2) = none) : After k (' ' :: e ++ rest) := by
  obtain ⟨c, t, hct, hc⟩ := end_head he
  have hs := end_not_space c hc
  refine ⟨?_, ?_⟩
  · intro d hd
    rw [List.cons_append, first_space, hct, List.cons_append, first_cons hs] at hd
    cases hd
    have : ∀ c ∈ py"§bpa", c ∉ py"-–−" := by decide
    exact this c hc
  · rintro rfl n x j hx
    obtain ⟨y, hy⟩ := reads_suffixOf (k := .article) he hr
    have h1 : articleSuffix ⟨n, ' ' :: e ++ rest⟩ = some (y, ⟨n + (' ' :: e).length, rest⟩) := hy n
    rw [h1] at hx
    cases hx
    exact ha rfl _

/-- A list is read. -/
theorem part_read {n : Nat} {p : ParsedPart} {w rest : Str} {j : At} (h : PartText n p w) (hr : WordEnds rest)
    (ha : p.kind = .article → ∀ n, (dash ⟨n, rest⟩ >>= fun y => articleId y.2) = none) (hj : j.skip = ⟨n, w ++ rest⟩) :
    partOf p.kind j = some (p, ⟨n + w.length, rest⟩) := by
  obtain ⟨items, u, e, hi, he, rfl, hs, hg⟩ := h
  obtain ⟨c, t, hct, hc⟩ := end_head he
  have hsp := end_not_space c hc
  have hsep : Reads separated [] (' ' :: e ++ rest) () := separated_nothing (by
    intro d hd
    rw [List.cons_append, first_space, hct, List.cons_append, first_cons hsp] at hd
    cases hd
    have : ∀ c ∈ py"§bpa", c ∉ py",;évi" := by decide
    exact this c hc)
  have e0 : u ++ ' ' :: e ++ rest = u ++ (' ' :: e ++ rest) := by simp
  rw [e0] at hj
  have hh : j.skip.skip = ⟨n, u ++ (' ' :: e ++ rest)⟩ := by rw [skip_skip, hj]
  have h1 := items_read hi (after_end he hr ha) hsep hh (by rw [hj]; exact Nat.le_refl _)
  have hne : items ≠ [] := by cases hi <;> simp
  have h2 := many1_steps h1 hne (fails_at_end_of_list he _)
  obtain ⟨x, hx⟩ := reads_suffixOf he hr
  show (many1 (itemOf p.kind) >>= fun items => suffixOf p.kind >>= fun _ =>
    (pure (⟨p.kind, items.filterMap Sum.getRight?, items.filterMap Sum.getLeft?⟩ : ParsedPart) : Peg ParsedPart)) j.skip = _
  rw [bind_some h2, bind_some (hx _)]
  have e1 : n + u.length + (' ' :: e).length = n + (u ++ ' ' :: e).length := by simp; omega
  rw [e1, ← hs, ← hg]
  rfl

end Verif.ActGrammar
