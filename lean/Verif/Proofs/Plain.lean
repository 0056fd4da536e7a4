import Verif.Proofs.Reading

/-! # Plain text is passed over -/

namespace Verif.ActGrammar

open Peg Spec

/-! ## Letters -/

theorem hunLetter_iff {c : Char} : hunLetter c ↔ (isLowerHun c || isUpperHun c) = true := by
  unfold hunLetter isUpperHun
  rw [Bool.or_eq_true, isLowerHun_iff, Bool.or_eq_true, List.contains_iff_mem]

instance (c : Char) : Decidable (hunLetter c) := decidable_of_iff _ hunLetter_iff.symm

theorem letter_cases {P : Char → Prop} (hl : ∀ c, isLowerAz c = true → P c) (hu : ∀ c, isUpperAz c = true → P c)
    (ha : ∀ c ∈ (py"éáőúöüóíű") ++ py"ÉÁŐÚÖÜÓÍŰ", P c) {c : Char} (h : hunLetter c) : P c := by
  rcases h with (h | h) | h | h
  · exact hl c h
  · exact ha c (List.mem_append_left _ h)
  · exact hu c h
  · exact ha c (List.mem_append_right _ h)

theorem letter_not_digit {c : Char} (h : hunLetter c) : isAsciiDigit c = false :=
  letter_cases (P := fun c => isAsciiDigit c = false) (fun _ => lower_not_ascii) (fun _ => upper_not_ascii) (by decide +kernel) h

theorem letter_not_space {c : Char} (h : hunLetter c) : isSpace c = false := by
  refine letter_cases (P := fun c => isSpace c = false) (fun _ => lower_not_space) (fun c h => ?_) (by decide +kernel) h
  have := (isUpperAz_iff c).mp h
  unfold isSpace
  simp
  omega

theorem letter_ne {c x : Char} (h : hunLetter c) (hx : ¬ hunLetter x := by decide +kernel) : c ≠ x := by
  rintro rfl
  exact hx h

theorem letter_name {c : Char} (h : hunLetter c) : isNameChar c = true := by
  refine letter_cases (P := fun c => isNameChar c = true) (fun c h => ?_) (fun c h => ?_) (by decide +kernel) h
  · simp [isNameChar, isAlpha, h]
  · simp [isNameChar, isAlpha, h]

/-! ## Plain text is no list -/

theorem plain_ne {w rest : Str} (h : PlainText w rest) : w ≠ [] := by
  cases h with
  | word hw => exact hw
  | number hw => exact hw.1
  | dotted hw => exact hw.1
  | _ => simp

theorem take_lower {t : Str} {m : Nat} (h : ∀ c ∈ t.take m, isLowerAz c = true) {i : Nat} (hi : i < m) {c : Char} (hc : t[i]? = some c) : isLowerAz c = true := by
  refine h c ?_
  rw [List.mem_take_iff_getElem]
  obtain ⟨hl, rfl⟩ := List.getElem?_eq_some_iff.mp hc
  exact ⟨i, by omega, rfl⟩

/-- A word is no identifier. -/
theorem word_no_id {w rest : Str} (hw : w ≠ []) (hl : ∀ c ∈ w, hunLetter c ∨ c = '-') (hf : ∀ c ∈ w.take 3, c ≠ '-')
    (hr : ∀ c ∈ rest.head?, ¬ hunLetter c ∧ c ≠ '-') (hs : w.length ≤ 2 → NotFirst (py")-–−") rest) {k : PartKind}
    (hk : k = .alphabeticPoint ∨ k = .alphabeticSubpoint) : Fails (rangeOf k) (w ++ rest) ∧ Fails (singleOf k) (w ++ rest) := by
  have lt : ∀ c ∈ w.take 3, hunLetter c := by
    intro c hc
    rcases hl c (List.mem_of_mem_take hc) with h | h
    · exact h
    · exact absurd h (hf c hc)
  have nl : ∀ {c : Char} {s : Str}, hunLetter c → NotFirst (py")-–−") (c :: s) := by
    intro c s h
    refine notFirst_cons (letter_not_space h) ?_
    have h1 : ∀ x ∈ py")-–−", ¬ hunLetter x := by decide +kernel
    exact fun hm => h1 c hm h
  match w, hw, lt, hs with
  | [a], _, lt, hs =>
    have ha := lt a (by simp)
    refine fails_alph hk (dropWhile_cons_of (letter_not_space ha)) fun m hm hlow _ => ?_
    rcases hm with rfl | ⟨rfl, _⟩
    · exact hs (by simp)
    · cases rest with
      | nil => intro c hc; cases hc
      | cons b rest =>
        have := take_lower (t := a :: b :: rest) hlow (i := 1) (by omega) rfl
        exact absurd (Or.inl (Or.inl this)) (hr b rfl).1
  | [a, b], _, lt, hs =>
    have ha := lt a (by simp)
    have hb := lt b (by simp)
    refine fails_alph hk (dropWhile_cons_of (letter_not_space ha)) fun m hm hlow _ => ?_
    rcases hm with rfl | ⟨rfl, _⟩
    · exact nl hb
    · exact hs (by simp)
  | a :: b :: c :: w, _, lt, hs =>
    have ha := lt a (by simp)
    have hb := lt b (by simp)
    have hc := lt c (by simp)
    refine fails_alph hk (dropWhile_cons_of (letter_not_space ha)) fun m hm hlow _ => ?_
    rcases hm with rfl | ⟨rfl, _⟩
    · exact nl hb
    · exact nl hc

/-- A number is read as an identifier. -/
theorem reads_plain_id {k : PartKind} (hk : k = .article ∨ k = .numericPoint ∨ k = .numericSubpoint) {w rest : Str} (hw : Digits w)
    (hr : ∀ c ∈ rest.head?, isAsciiDigit c = false ∧ isLowerAz c = false) (hn : NotFirst (py":/") rest) : Reads (idOf k) w rest w := by
  obtain ⟨c, hc, hd⟩ := digits_head hw
  have hnum := reads_number (rest := rest) hw (fun c hc => (hr c hc).1)
  have slash : Fails (token (py"/")) rest := fails_first (a := '/') rfl (notFirst_sub hn (by decide))
  have colon : Fails (token (py":")) rest := fails_first (a := ':') rfl (notFirst_sub hn (by decide))
  rcases hk with rfl | rfl | rfl
  · have h1 : Reads (opt (do let n ← number; let c ← token (py":"); pure [n, c])) [] (w ++ rest) none := (hnum.fails colon.bind).opt
    have h2 : Reads (opt (do let s ← token (py"/"); let l ← pattern (.set isUpperAz); pure [s, l])) [] rest none := slash.bind.opt
    have h3 : Reads articleIdPieces ([] ++ (w ++ [])) rest [w] := Reads.bind (by rw [List.append_nil]; exact h1) (Reads.bind hnum (h2.to (reads_nil _ _)))
    simp only [List.nil_append, List.append_nil] at h3
    have h4 := (h3.to (f := fun pieces => pure pieces.flatten) (reads_nil _ _)).rule hc (digit_not_space hd)
    have e : [w].flatten = w := by simp
    rw [e] at h4
    exact h4
  · have h2 : Fails (do let s ← opt (token (py"/")); let l ← pattern (.set isLowerAz); pure (s.getD [] ++ l)) rest :=
      slash.opt.fails (f := fun s => do let l ← pattern (.set isLowerAz); pure (s.getD [] ++ l)) (fails_letter fun c hc => (hr c hc).2).bind
    have h3 := h2.opt.to (f := fun l => pure (w ++ l.getD [])) (reads_nil _ _)
    have h4 := (hnum.to (f := fun n => do let l ← opt (do let s ← opt (token (py"/")); let l ← pattern (.set isLowerAz); pure (s.getD [] ++ l)); pure (n ++ l.getD [])) h3).rule hc (digit_not_space hd)
    have e : w ++ (none : Option Str).getD [] = w := by simp
    rw [e] at h4
    exact h4
  · exact hnum.rule hc (digit_not_space hd)

/-- A number is no item. -/
theorem number_no_item {k : PartKind} (hk : k = .article ∨ k = .numericPoint ∨ k = .numericSubpoint) {w rest : Str} (hw : Digits w)
    (hr : ∀ c ∈ rest.head?, isAsciiDigit c = false ∧ ¬ hunLetter c)
    (h : NotFirst (py".:/-–−") rest ∨ ∃ c t, rest = '-' :: c :: t ∧ hunLetter c) : Fails (rangeOf k) (w ++ rest) ∧ Fails (singleOf k) (w ++ rest) := by
  have hr' : ∀ c ∈ rest.head?, isAsciiDigit c = false ∧ isLowerAz c = false := by
    intro c hc
    refine ⟨(hr c hc).1, ?_⟩
    cases hl : isLowerAz c with
    | false => rfl
    | true => exact absurd (Or.inl (Or.inl hl)) (hr c hc).2
  have hn : NotFirst (py":/.") rest := by
    rcases h with h | ⟨c, t, rfl, _⟩
    · exact notFirst_sub h (by decide)
    · exact notFirst_cons (by decide) (by decide)
  have hid := reads_plain_id hk hw hr' (notFirst_sub hn (by decide))
  have dot : Fails (token (py".")) rest := fails_first (a := '.') rfl (notFirst_sub hn (by decide))
  -- what would be after a dash
  have tail : ∀ {α : Type} (f : Str → Peg α), (∀ d s, (∀ c ∈ first s, isAsciiDigit c = false) → Fails (f d) s) → Fails (dash >>= f) rest := by
    intro α f hf
    rcases h with h | ⟨c, t, rfl, hc⟩
    · exact (fails_dash (notFirst_sub h (by decide))).bind
    · exact (reads_dash (d := py"-") (by unfold Dash; decide) (c :: t)).fails (hf _ _ (by
        rw [first_cons (letter_not_space hc)]; rintro _ ⟨⟩; exact letter_not_digit hc))
  rcases hk with rfl | rfl | rfl
  · refine ⟨hid.fails ((dot.bind).opt.fails (tail _ fun d s hs => ?_)), hid.fails dot.bind⟩
    exact (fails_idOf_number (.inl rfl) hs).bind
  · refine ⟨hid.fails (tail _ fun d s hs => ?_), hid.fails dot.bind⟩
    exact (fails_idOf_number (.inr (.inl rfl)) hs).bind
  · refine ⟨hid.fails (tail _ fun d s hs => ?_), hid.fails dot.bind⟩
    exact (fails_idOf_number (.inr (.inr rfl)) hs).bind

/-- A number with a full stop and without the right word after it is no list. -/
theorem dotted_no_list {k : PartKind} (hk : k = .article ∨ k = .numericPoint ∨ k = .numericSubpoint) {w t : Str} (hw : Digits w)
    (hd : ∀ c ∈ first t, isAsciiDigit c = false) (h : NotFirst (py"§,;évi-–−") t)
    (hp : ∀ u ∈ [py"pont", py"alpont"], ¬ u <+: t.dropWhile isSpace) : Fails (partOf k) (w ++ '.' :: t) := by
  intro n
  have hid : SingleWritten k w (w ++ py".") := by
    rcases hk with rfl | rfl | rfl
    · exact ⟨⟨[], w, [], by simp, .inl rfl, hw, .inl rfl⟩, rfl⟩
    · exact ⟨⟨w, [], by simp, hw, .inl rfl⟩, rfl⟩
    · exact ⟨hw, rfl⟩
  have hs : Fails (suffixOf k) t := by
    have no : ∀ u ∈ [py"pont", py"alpont"], u.isPrefixOf (t.dropWhile isSpace) = false := by
      intro u hu
      rw [← Bool.not_eq_true, List.isPrefixOf_iff_prefix]
      exact hp u hu
    rcases hk with rfl | rfl | rfl
    · exact articleSuffix_none (notFirst_sub h (by decide))
    · exact fails_suffix (by decide) (no _ (by simp))
    · exact fails_suffix (by decide) (no _ (by simp))
  have ha : After k t := by
    refine ⟨notFirst_sub h (by decide), fun _ n x j hx => ?_⟩
    rw [articleSuffix_none (notFirst_sub h (by decide)) n] at hx
    cases hx
  obtain ⟨c, u, rfl⟩ := List.exists_cons_of_ne_nil hw.1
  have hc : isAsciiDigit c = true := hw.2 c (List.mem_cons_self ..)
  have hj : (⟨n, c :: u ++ '.' :: t⟩ : At).skip.skip = ⟨n, (c :: u ++ py".") ++ t⟩ := by
    rw [skip_skip, List.append_assoc]
    exact skip_cons (digit_not_space hc) n
  refine part_none (items_read (.one (x := .inr (c :: u, ↑n, ↑(n + (c :: u ++ py".").length))) ⟨rfl, hid⟩) ha (separated_nothing (notFirst_sub h (by decide))) hj ?_) ?_ (hs _)
  · rw [skip_skip] at hj
    rw [hj]
    exact Nat.le_refl _
  · exact fails_itemOf (fails_item_number hk (by rw [first_dropWhile]; exact hd)) _

/-- Plain text is no list. -/
theorem plain_fails {w rest : Str} (h : PlainText w rest) (k : PartKind) : Fails (partOf k) (w ++ rest) := by
  have start : ∀ {c : Char} {t : Str}, isSpace c = false → isAsciiDigit c = false → isLowerAz c = false → c ≠ '(' → Fails (partOf k) (c :: t) := by
    intro c t h1 h2 h3 h4
    refine fails_start h1 ?_
    cases k <;> simp [Begins, h2, h3, h4]
  cases h with
  | @mark c _ hc hd hs hn =>
    refine start hs hd ?_ (by rintro rfl; exact hn (by decide))
    cases hl : isLowerAz c with
    | false => rfl
    | true => exact absurd (Or.inl (Or.inl hl)) hc
  | ending => exact start (by decide) (by decide) (by decide) (by decide)
  | quoted => exact start (by decide) (by decide) (by decide) (by decide)
  | bracket h =>
    by_cases hk : k = .paragraph
    · subst hk
      refine fails_partOf ?_
      have hp : Fails paragraphId rest := by
        refine Fails.rule (fails_number ?_).bind
        rw [first_dropWhile]
        exact h
      rw [List.singleton_append, dropWhile_cons_of (by decide)]
      exact ⟨(reads_open rest).fails hp.bind, (reads_open rest).fails hp.bind⟩
    · refine fails_start (by decide) ?_
      have : isAsciiDigit '(' = false ∧ isLowerAz '(' = false := by decide
      cases k <;> first | exact absurd rfl hk | simp [Begins, this.1, this.2]
  | word hw hl hf hr hs ha =>
    obtain ⟨c, t, rfl⟩ := List.exists_cons_of_ne_nil hw
    have hc : hunLetter c := by
      rcases hl c (List.mem_cons_self ..) with h | h
      · exact h
      · exact absurd h (hf c (by simp))
    have alph : (k = .alphabeticPoint ∨ k = .alphabeticSubpoint) → Fails (partOf k) (c :: t ++ rest) := by
      intro hk
      refine fails_partOf ?_
      have := word_no_id hw hl hf hr hs hk
      rw [List.cons_append] at this ⊢
      rw [dropWhile_cons_of (letter_not_space hc)]
      exact this
    have dig : ¬ isAsciiDigit c = true := by rw [letter_not_digit hc]; simp
    cases k with
    | alphabeticPoint => exact alph (.inl rfl)
    | alphabeticSubpoint => exact alph (.inr rfl)
    | paragraph => exact fails_start (letter_not_space hc) (letter_ne hc)
    | article => exact fails_start (letter_not_space hc) dig
    | numericPoint => exact fails_start (letter_not_space hc) dig
    | numericSubpoint => exact fails_start (letter_not_space hc) dig
  | number hw hr h =>
    obtain ⟨c, t, rfl⟩ := List.exists_cons_of_ne_nil hw.1
    have hc : isAsciiDigit c = true := hw.2 c (List.mem_cons_self ..)
    have num : (k = .article ∨ k = .numericPoint ∨ k = .numericSubpoint) → Fails (partOf k) (c :: t ++ rest) := by
      intro hk
      refine fails_partOf ?_
      have := number_no_item hk hw hr h
      rw [List.cons_append] at this ⊢
      rw [dropWhile_cons_of (digit_not_space hc)]
      exact this
    cases k with
    | article => exact num (.inl rfl)
    | numericPoint => exact num (.inr (.inl rfl))
    | numericSubpoint => exact num (.inr (.inr rfl))
    | paragraph => exact fails_start (digit_not_space hc) (ne_of_class hc)
    | alphabeticPoint => exact fails_start (digit_not_space hc) (digit_lower hc)
    | alphabeticSubpoint => exact fails_start (digit_not_space hc) (digit_lower hc)
  | dotted hw hd h hp =>
    have num := fun hk => dotted_no_list (k := k) hk hw hd h hp
    obtain ⟨c, t, rfl⟩ := List.exists_cons_of_ne_nil hw.1
    have hc : isAsciiDigit c = true := hw.2 c (List.mem_cons_self ..)
    cases k with
    | article => exact num (.inl rfl)
    | numericPoint => exact num (.inr (.inl rfl))
    | numericSubpoint => exact num (.inr (.inr rfl))
    | paragraph => exact fails_start (digit_not_space hc) (ne_of_class hc)
    | alphabeticPoint => exact fails_start (digit_not_space hc) (digit_lower hc)
    | alphabeticSubpoint => exact fails_start (digit_not_space hc) (digit_lower hc)

theorem fails_end (k : PartKind) {s : Str} (h : s.dropWhile isSpace = []) : Fails (partOf k) s := by
  refine fails_partOf ?_
  rw [h]
  have : ∀ c ∈ first ([] : Str), isAsciiDigit c = false := by rintro _ ⟨⟩
  have : ∀ c ∈ first ([] : Str), isLowerAz c = false := by rintro _ ⟨⟩
  cases k with
  | article => exact fails_item_number (.inl rfl) (by rintro _ ⟨⟩)
  | numericPoint => exact fails_item_number (.inr (.inl rfl)) (by rintro _ ⟨⟩)
  | numericSubpoint => exact fails_item_number (.inr (.inr rfl)) (by rintro _ ⟨⟩)
  | paragraph => exact fails_paragraph_start (by rintro _ ⟨⟩)
  | alphabeticPoint => exact fails_alph_start (.inl rfl) rfl (by rintro _ ⟨⟩)
  | alphabeticSubpoint => exact fails_alph_start (.inr rfl) rfl (by rintro _ ⟨⟩)

theorem skip_eq (n : Nat) (s : Str) : (⟨n, s⟩ : At).skip = ⟨(⟨n, s⟩ : At).skip.pos, s.dropWhile isSpace⟩ := by
  conv => rhs; rw [← skip_rest n s]

/-- Nothing of a reference comes next. -/
theorem quiet_of {s : Str} (he : ∀ c ∈ s.head?, c ∈ py" ,.;:)?!”") (hp : Pauses s) (hd : NoRangeNext s) : Quiet s := by
  refine ⟨he, fun k => ?_, fun n => ?_⟩
  · rcases hp with h | ⟨w, rest, h, hw⟩
    · exact fails_end k h
    · intro n
      rw [← partOf_skip, skip_eq, h]
      exact plain_fails hw k _
  · have hsk : dash ⟨n, s⟩ = dash (At.skip ⟨n, s⟩) := (rule_skip _ _).symm
    cases hs : s.dropWhile isSpace with
    | nil =>
      rw [hsk, skip_eq, hs]
      have : Fails dash [] := fails_dash (by rintro _ ⟨⟩)
      rw [this]
      rfl
    | cons d t =>
      by_cases hm : d ∈ py"-–−"
      · have h1 := hd d t hs hm
        have h2 : Dash [d] := by
          simp only [List.mem_cons, List.not_mem_nil, or_false] at hm
          unfold Dash
          rcases hm with rfl | rfl | rfl <;> decide
        rw [hsk, skip_eq, hs]
        have := reads_dash h2 t (At.skip ⟨n, s⟩).pos
        rw [List.singleton_append] at this
        rw [this]
        exact fails_idOf_number (k := .article) (.inl rfl) h1 _
      · have : Fails dash s := fails_dash (by
          intro c hc
          unfold first at hc
          rw [hs] at hc
          cases hc
          exact hm)
        rw [this n]
        rfl

end Verif.ActGrammar
