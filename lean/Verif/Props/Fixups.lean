import Verif.Proofs.Fixups

/-! # Fix-ups (C40, C41, C42, C60) -/

namespace Verif.Props

open Verif.Spec

/-! ## C40: replacing the content of a line -/

/-- A line with a part for each character. -/
def fineLine (s : Str) : Line := ⟨s.map fun c => ⟨5, [c], false⟩, 0⟩

/-- C40. Whenever a replacement succeeds, exactly one line was wanted: it has the text, the lines before it have the texts given,
and no other line is like that. All others are kept. An empty replacement removes the line; otherwise one line takes its place,
whose text is the replacement, except for an ending common with the old text that begins inside the last part of the line. -/
theorem replaced_line {needle replacement : Str} {prev : Option (List Str)} {body out : List Line}
    (h : replaceLineContent needle replacement prev body = .ok out) :
    ∃ before l after mid, body = before ++ l :: after ∧ out = before ++ mid ++ after ∧ Wanted needle prev before l ∧
      (∀ p x q, before = p ++ x :: q → ¬ Wanted needle prev p x) ∧
      (∀ p x q, after = p ++ x :: q → ¬ Wanted needle prev (before ++ mid ++ p) x) ∧
      (replacement = [] → mid = []) ∧
      (replacement ≠ [] → ∃ r lost, mid = [r] ∧ r.content ++ lost = replacement ∧
        (lost ≠ [] → InsideLastPart l (needle.length - lost.length) ∧ ∃ front, needle = front ++ lost)) := by
  obtain ⟨r, hr, h⟩ := resBind_ok (show (replaceLoop needle replacement prev [] 0 body >>= fun r => checkCount r.1 r.2) =
    .ok out from h)
  obtain ⟨h1, rfl⟩ := checkCount_ok h
  obtain ⟨-, -, h2⟩ := replaceLoop_count hr
  obtain ⟨before, l, after, mid, k1, k2, k3, k4, k5, k6, k7⟩ := h2 (by omega)
  refine ⟨before, l, after, mid, k1, by simpa using k2, by simpa using k3, ?_, ?_, k6, ?_⟩
  · intro p x q he
    simpa using k4 p x q he
  · intro p x q he
    simpa using k5 p x q he
  · intro hne
    obtain ⟨r, hm, hrl⟩ := k7 hne
    obtain ⟨lost, h3, h4, -⟩ := replacedLine_text (l := l) k3.1 hrl
    exact ⟨r, lost, hm, h3, h4⟩

example : replaceLineContent (py"abXcd") (py"abYZcd") (some [py"prev"]) [fineLine (py"abXcd"), fineLine (py"prev"),
      fineLine (py"abXcd"), fineLine (py"x")] =
    .ok [fineLine (py"abXcd"), fineLine (py"prev"),
      ⟨[⟨5, py"a", false⟩, ⟨5, py"b", false⟩, ⟨5, py"YZ", false⟩, ⟨5, py"c", false⟩, ⟨5, py"d", false⟩], 0⟩,
      fineLine (py"x")] := by decide +kernel

/-- C40. A replacement with a text that is not empty changes exactly one line, the only one with the given text, whose text
becomes exactly the replacement, if the last parts of lines are not cut: the last part of a line with this text is not longer
than one character. (`_partial`: see `replacement_loses_text` and `empty_replacement`.) -/
theorem replacement_exact_partial {needle replacement : Str} {body out : List Line}
    (h : replaceLineContent needle replacement none body = .ok out) (hne : replacement ≠ [])
    (hfine : ∀ l ∈ body, l.content = needle → ∀ p, l.parts.getLast? = some p → p.content.length ≤ 1) :
    ∃ before l after r, body = before ++ l :: after ∧ OnlyLine needle before l after ∧ out = before ++ r :: after ∧
      r.content = replacement := by
  obtain ⟨before, l, after, mid, k1, k2, k3, k4, k5, -, k7⟩ := replaced_line h
  obtain ⟨r, lost, rfl, h1, h2⟩ := k7 hne
  refine ⟨before, l, after, r, k1, ⟨k3.1, fun x hx hc => ?_⟩, by simpa using k2, ?_⟩
  · rcases List.mem_append.mp hx with hx | hx
    · obtain ⟨p, q, he⟩ := List.append_of_mem hx
      exact k4 p x q he ⟨hc, fun _ h => by cases h⟩
    · obtain ⟨p, q, he⟩ := List.append_of_mem hx
      exact k5 p x q he ⟨hc, fun _ h => by cases h⟩
  · by_cases hl : lost = []
    · simpa [hl] using h1
    · exfalso
      obtain ⟨⟨pre, last, hp, h3, h4⟩, -⟩ := h2 hl
      have := hfine l (by rw [k1]; simp) k3.1 last (by rw [hp]; simp)
      have hlen : l.content.length = (pre.flatMap (·.content)).length + last.content.length := by
        simp [Line.content, hp]
      omega

/-- C40. If there is exactly one line with the text and it can be cut anywhere, the replacement succeeds. -/
theorem replacement_succeeds {needle replacement : Str} {before after : List Line} {l : Line}
    (h : OnlyLine needle before l after) (hb : ∀ k ≤ l.content.length, Border l k) (hi : ∀ k, ¬ InsideLastPart l k) :
    ∃ out, replaceLineContent needle replacement none (before ++ l :: after) = .ok out := by
  obtain ⟨r, hr⟩ := replacedLine_succeeds replacement h.1 hb hi
  unfold replaceLineContent
  rw [replaceLoop_before fun x hx => h.2 x (List.mem_append_left _ hx), replaceLoop]
  have hw : ¬ (l.content ≠ needle ∨ prevLinesAreSame none ([] ++ before) = false) := by
    simp [h.1, prevLinesAreSame]
  rw [if_neg hw]
  have ha : ∀ x ∈ after, x.content ≠ needle := fun x hx => h.2 x (List.mem_append_right _ hx)
  by_cases hne : replacement ≠ []
  · rw [if_pos hne, hr]
    simp only [Bind.bind, Except.bind]
    rw [replaceLoop_none ha]
    exact ⟨_, rfl⟩
  · rw [if_neg hne, replaceLoop_none ha]
    exact ⟨_, rfl⟩

example : OnlyLine (py"ab") [fineLine (py"x")] (fineLine (py"ab")) [fineLine (py"y")] := by
  refine ⟨by decide, ?_⟩
  decide

/-- C40. The code violates the property: the common ending is lost if it begins inside the last part of the line. -/
theorem replacement_loses_text : replaceLineContent (py"abcd") (py"abXd") none [⟨[⟨0, py"ab", false⟩, ⟨9, py"cd", false⟩], 0⟩] =
    .ok [⟨[⟨0, py"ab", false⟩, ⟨9, py"X", false⟩], 0⟩] := by decide +kernel

/-- C40. The code violates the property: an empty replacement does not give a line with the empty text but removes the line. -/
theorem empty_replacement : replaceLineContent (py"ab") [] none [fineLine (py"x"), fineLine (py"ab")] =
    .ok [fineLine (py"x")] := by decide +kernel

/-! ## C41: deleting lines and adding empty lines -/

/-- C41. Deleting a line succeeds exactly if the text is that of exactly one line, and removes this line only. -/
theorem deletion {needle : Str} {body out : List Line} : deleteLine needle body = .ok out ↔
    ∃ before l after, body = before ++ l :: after ∧ OnlyLine needle before l after ∧ out = before ++ after := by
  unfold deleteLine
  simp only [deleteLoop_eq, List.nil_append, Nat.zero_add]
  have key : ∀ {before after : List Line} {l : Line}, OnlyLine needle before l after →
      (before ++ l :: after).filter (·.content ≠ needle) = before ++ after := by
    intro before after l h
    rw [List.filter_append, List.filter_cons_of_neg (by simpa using h.1), ← List.filter_append, List.filter_eq_self]
    intro x hx
    simpa using h.2 x hx
  constructor
  · intro h
    obtain ⟨h1, h2⟩ := checkCount_ok h
    obtain ⟨before, l, after, rfl, ho⟩ := onlyLine_of_count h1
    exact ⟨before, l, after, rfl, ho, h2.trans (key ho)⟩
  · rintro ⟨before, l, after, rfl, ho, rfl⟩
    rw [count_of_onlyLine ho, key ho]
    rfl

example : deleteLine (py"b") [fineLine (py"a"), fineLine (py"b"), fineLine (py"c")] =
    .ok [fineLine (py"a"), fineLine (py"c")] := by decide +kernel

/-- C41. Adding an empty line after a text succeeds exactly if it is that of exactly one line, and adds one empty line after
it. -/
theorem insertion {needle : Str} {body out : List Line} : addEmptyLineAfter needle body = .ok out ↔
    ∃ before l after, body = before ++ l :: after ∧ OnlyLine needle before l after ∧
      out = before ++ l :: emptyLine :: after := by
  unfold addEmptyLineAfter
  simp only [emptyLineLoop_eq, List.nil_append, Nat.zero_add]
  have key : ∀ {before after : List Line} {l : Line}, OnlyLine needle before l after →
      (before ++ l :: after).flatMap (fun l => if l.content = needle then [l, emptyLine] else [l]) =
        before ++ l :: emptyLine :: after := by
    intro before after l h
    rw [List.flatMap_append, List.flatMap_cons, if_pos h.1,
      flatMap_others fun x hx => h.2 x (List.mem_append_left _ hx),
      flatMap_others fun x hx => h.2 x (List.mem_append_right _ hx)]
    rfl
  constructor
  · intro h
    obtain ⟨h1, h2⟩ := checkCount_ok h
    obtain ⟨before, l, after, rfl, ho⟩ := onlyLine_of_count h1
    exact ⟨before, l, after, rfl, ho, h2.trans (key ho)⟩
  · rintro ⟨before, l, after, rfl, ho, rfl⟩
    rw [count_of_onlyLine ho, key ho]
    rfl

example : addEmptyLineAfter (py"b") [fineLine (py"a"), fineLine (py"b"), fineLine (py"c")] =
    .ok [fineLine (py"a"), fineLine (py"b"), emptyLine, fineLine (py"c")] := by decide +kernel

/-! ## C42: running fix-ups -/

/-- The registrations, starting from no fix-ups. -/
def registrations (history : List (Str × FixupFn)) : Fixups := history.foldl (fun f e => addFixup f e.1 e.2) []

/-- C42. Running the fix-ups of an act gives a body exactly if the fix-ups registered for this act, in order of registration,
give it one after the other. -/
theorem fixups_in_order {history : List (Str × FixupFn)} {lawId : Str} {body out : List Line} :
    doAllFixups (registrations history) lawId body = .ok out ↔ Applied (registered history lawId) body out := by
  rw [doAllFixups_eq, registrations, history_find, fixupLoop_iff]
  simp [Fixups.find]

/-- C42. Otherwise it is a `ValueError`. -/
theorem fixups_fail {history : List (Str × FixupFn)} {lawId : Str} {body : List Line} :
    (¬ ∃ out, Applied (registered history lawId) body out) ↔
      doAllFixups (registrations history) lawId body = .error .valueError := by
  constructor
  · intro h
    cases hd : doAllFixups (registrations history) lawId body with
    | ok out => exact absurd ⟨out, fixups_in_order.mp hd⟩ h
    | error e =>
      rw [doAllFixups_eq] at hd
      rw [fixupLoop_error hd]
  · rintro h ⟨out, ho⟩
    rw [fixups_in_order.mpr ho] at h
    cases h

/-- C42. The body of an act without fix-ups is unchanged. -/
theorem no_fixups {history : List (Str × FixupFn)} {lawId : Str} (h : ∀ e ∈ history, e.1 ≠ lawId) (body : List Line) :
    doAllFixups (registrations history) lawId body = .ok body := by
  rw [fixups_in_order]
  have : registered history lawId = [] := by
    unfold registered
    rw [List.filter_eq_nil_iff.mpr]
    · rfl
    · intro e he
      simpa using h e he
  rw [this]
  exact .none _

/-- C42. Fix-ups of other acts have no effect, wherever they are registered. -/
theorem other_fixups {before after others : List (Str × FixupFn)} {lawId : Str} (h : ∀ e ∈ others, e.1 ≠ lawId)
    (body : List Line) : doAllFixups (registrations (before ++ others ++ after)) lawId body =
      doAllFixups (registrations (before ++ after)) lawId body := by
  rw [doAllFixups_eq, doAllFixups_eq, registrations, registrations, history_find, history_find]
  have : others.filter (fun e => e.1 = lawId) = [] := List.filter_eq_nil_iff.mpr fun e he => by simpa using h e he
  simp [registered, this]

example : doAllFixups (registrations [(py"A", deleteLine (py"b")), (py"B", deleteLine (py"a")),
      (py"A", addEmptyLineAfter (py"a"))]) (py"A") [fineLine (py"a"), fineLine (py"b")] =
    .ok [fineLine (py"a"), emptyLine] := by decide +kernel

/-! ## C60: titles above the numbers of articles -/

theorem dropWhile_eq_drop {α : Type} (p : α → Bool) : ∀ xs : List α, xs.dropWhile p = xs.drop (xs.takeWhile p).length
  | [] => rfl
  | x :: xs => by
    by_cases h : p x = true
    · simp [h, dropWhile_eq_drop p xs]
    · simp [h]

theorem upToEnd_iff (s t : Str) : upToEnd s = some t ↔ ∃ nl, s = t ++ nl ∧ '\n' ∉ t ∧ MaybeNewline nl := by
  unfold upToEnd
  constructor
  · intro h
    by_cases hl : s.getLast? = some '\n'
    · simp only [hl, if_true] at h
      split at h
      · cases h
      · cases h
        rename_i hn
        have hne : s ≠ [] := by rintro rfl; simp at hl
        refine ⟨['\n'], ?_, hn, .inr rfl⟩
        have := List.dropLast_concat_getLast hne
        rw [List.getLast?_eq_some_getLast hne] at hl
        rw [Option.some.inj hl] at this
        exact this.symm
    · simp only [hl, if_false] at h
      split at h
      · cases h
      · cases h
        rename_i hn
        exact ⟨[], by simp, hn, .inl rfl⟩
  · rintro ⟨nl, rfl, hn, rfl | rfl⟩
    · have : ¬ ((t ++ []).getLast? = some '\n') := by
        rw [List.append_nil]
        exact fun h => hn (List.mem_of_getLast? h)
      rw [if_neg this]
      simp [hn]
    · simp [hn]

theorem ptkeTitle_iff (s t : Str) : ptkeTitle s = some t ↔ BracketedTitle s t := by
  unfold ptkeTitle
  constructor
  · intro h
    cases hu : upToEnd s with
    | none => rw [hu] at h; cases h
    | some u =>
      rw [hu] at h
      obtain ⟨nl, rfl, hn, hnl⟩ := (upToEnd_iff s u).mp hu
      cases u with
      | nil => cases h
      | cons o u =>
        simp only at h
        cases hl : u.getLast? with
        | none => rw [hl] at h; cases h
        | some c =>
          rw [hl] at h
          simp only at h
          split at h
          · rename_i hoc
            cases h
            have hne : u ≠ [] := by rintro rfl; simp at hl
            have he := List.dropLast_concat_getLast hne
            rw [List.getLast?_eq_some_getLast hne] at hl
            rw [Option.some.inj hl] at he
            refine ⟨o, c, nl, ?_, hoc.1, hoc.2, fun h => hn (List.mem_cons_of_mem _ (List.dropLast_subset _ h)), hnl⟩
            conv => lhs; rw [← he]
            simp
          · cases h
  · rintro ⟨o, c, nl, rfl, ho, hc, ht, hnl⟩
    have hu : upToEnd (o :: (t ++ c :: nl)) = some (o :: (t ++ [c])) := by
      refine (upToEnd_iff _ _).mpr ⟨nl, by simp, ?_, hnl⟩
      simp only [List.mem_cons, List.mem_append, List.not_mem_nil, or_false, not_or]
      refine ⟨?_, ht, ?_⟩
      · rcases ho with rfl | rfl <;> decide
      · rcases hc with rfl | rfl <;> decide
    rw [hu]
    simp only [List.getLast?_append, List.getLast?_singleton, Option.some_or, List.dropLast_concat]
    rw [if_pos ⟨ho, hc⟩]

theorem ptkeArticle_iff (s : Str) (k : Nat) : ptkeArticle s = some k ↔ ∃ n r, NumberedArticle s n r ∧ k = n.length := by
  unfold ptkeArticle
  constructor
  · intro h
    simp only at h
    split at h
    · rename_i hc
      cases h
      obtain ⟨h1, h2, h3⟩ := hc
      obtain ⟨r, hr⟩ := Option.isSome_iff_exists.mp h3
      obtain ⟨nl, he, hn, hnl⟩ := (upToEnd_iff _ _).mp hr
      have hs : s.takeWhile isAsciiDigit ++ s.drop (s.takeWhile isAsciiDigit).length = s := by
        conv => rhs; rw [← List.takeWhile_append_dropWhile (p := isAsciiDigit) (l := s)]
        congr 1
        exact (dropWhile_eq_drop isAsciiDigit s).symm
      refine ⟨s.takeWhile isAsciiDigit ++ py". § ", r ++ nl, ⟨_, r, nl, ?_, ?_, rfl, ?_, rfl, hn, hnl⟩, by simp⟩
      · intro h; rw [h] at h1; simp at h1
      · intro c hc
        have := List.all_eq_true.mp (List.all_takeWhile (p := isAsciiDigit) (l := s)) c hc
        simpa [isAsciiDigit] using this
      · rw [← he, List.append_assoc, ← h2, ← List.drop_drop, List.take_append_drop, hs]
    · cases h
  · rintro ⟨n, r, ⟨ds, r', nl, hne, hd, rfl, rfl, rfl, hn, hnl⟩, rfl⟩
    have htw : (ds ++ (py". § ") ++ (r' ++ nl)).takeWhile isAsciiDigit = ds := by
      have hds : ∀ c ∈ ds, isAsciiDigit c = true := fun c hc => by simpa [isAsciiDigit] using hd c hc
      rw [List.append_assoc, List.takeWhile_append_of_pos hds]
      simp [isAsciiDigit]
    simp only [htw]
    rw [if_pos]
    · simp
    · refine ⟨by simpa using hne, by simp, ?_⟩
      rw [show (ds ++ (py". § ") ++ (r' ++ nl)).drop (ds.length + 4) = r' ++ nl from by
        rw [show ds.length + 4 = (ds ++ (py". § ")).length from by simp]; simp]
      exact Option.isSome_iff_exists.mpr ⟨r', (upToEnd_iff _ _).mpr ⟨nl, rfl, hn, hnl⟩⟩

theorem ptke_cut {l a b : Line} {n r : Str} (hn : NumberedArticle l.content n r) (ha : l.slice 0 (some n.length) = .ok a)
    (hb : l.slice n.length = .ok b) : a.content = n ∧ b.content = r := by
  obtain ⟨ds, -, -, -, -, hd, he, -⟩ := hn
  have hlen : n.length ≤ l.content.length := by rw [he]; simp
  have hpos : 0 < n.length := by rw [hd]; simp
  have hz : ¬ InsideLastPart l 0 := fun ⟨_, _, _, h, _⟩ => by omega
  have hbo : Border l n.length := by
    apply Classical.byContradiction
    intro h
    have := (slice_succeeds_iff l 0 n.length hpos hlen hz).2 fun hb => h hb.2
    rw [show l.slice ((0 : Nat) : Int) (some (n.length : Int)) = .ok a from ha] at this
    cases this
  have hi : ¬ InsideLastPart l n.length := by
    rintro ⟨pre, last, hp, h1, h2⟩
    obtain ⟨xs, ys, hx, hk⟩ := hbo
    rcases List.eq_nil_or_concat ys with rfl | ⟨zs, z, rfl⟩
    · rw [List.append_nil] at hx
      rw [Line.content, hx] at h2
      omega
    · rw [hx, List.concat_eq_append, ← List.append_assoc] at hp
      have := (List.append_inj' hp rfl).1
      rw [← this] at h1
      simp only [List.flatMap_append, List.length_append] at h1
      omega
  have hz : ¬ InsideLastPart l (pyBound l.content.length 0) := by
    rintro ⟨pre, last, -, h, -⟩
    rw [pyBound_eq] at h
    simp at h
  have hn : ¬ InsideLastPart l (pyBound l.content.length n.length) := by
    rw [pyBound_eq, if_neg (by omega)]
    rw [show min (n.length : Int).toNat l.content.length = n.length from by omega]
    exact hi
  have b0 : pyBound l.content.length 0 = 0 := by rw [pyBound_eq]; simp
  have bn : pyBound l.content.length (n.length : Int) = n.length := by rw [pyBound_eq, if_neg (by omega)]; omega
  have bl : pyBound l.content.length (l.content.length : Int) = l.content.length := by rw [pyBound_eq, if_neg (by omega)]; omega
  constructor
  · rw [slice_text_partial l a _ _ ha hz]
    unfold pySlice
    rw [Option.getD_some, b0, bn, he]
    simp
  · rw [slice_text_partial l b _ _ hb hn]
    unfold pySlice
    rw [Option.getD_none, bl, bn, he, List.take_length]
    simp

theorem ptkeLoop_moved : ∀ (body result : List Line) (prev : Option Line) (out : List Line),
    ptkeLoop result prev body = .ok out → ∃ tail, out = result ++ tail ∧ TitlesMoved (prev.toList ++ body) tail
  | [], result, prev, out, h => by
    unfold ptkeLoop at h
    cases h
    refine ⟨_, rfl, ?_⟩
    cases prev with
    | none => exact .nil
    | some p => exact .keep (fun _ _ _ _ _ h => by cases h) .nil
  | l :: ls, result, none, out, h => by
    unfold ptkeLoop at h
    exact ptkeLoop_moved ls result (some l) out h
  | l :: ls, result, some p, out, h => by
    have stay : (∀ t n r, ¬ (BracketedTitle p.content t ∧ NumberedArticle l.content n r)) →
        ptkeLoop (result ++ [p]) (some l) ls = .ok out → ∃ tail, out = result ++ tail ∧ TitlesMoved (p :: l :: ls) tail := by
      intro hno h
      obtain ⟨tail, rfl, ht⟩ := ptkeLoop_moved ls _ _ _ h
      refine ⟨p :: tail, by simp, .keep ?_ ht⟩
      rintro m rest t n r he
      cases he
      exact hno t n r
    unfold ptkeLoop at h
    cases ht : ptkeTitle p.content with
    | none =>
      rw [ht] at h
      refine stay (fun t n r hx => ?_) (by cases ha : ptkeArticle l.content <;> rw [ha] at h <;> exact h)
      rw [(ptkeTitle_iff _ _).mpr hx.1] at ht
      cases ht
    | some t =>
      cases ha : ptkeArticle l.content with
      | none =>
        rw [ht, ha] at h
        refine stay (fun t n r hx => ?_) h
        rw [(ptkeArticle_iff _ _).mpr ⟨n, r, hx.2, rfl⟩] at ha
        cases ha
      | some k =>
        rw [ht, ha] at h
        obtain ⟨n, r, hn, rfl⟩ := (ptkeArticle_iff _ _).mp ha
        obtain ⟨a, ha, h⟩ := resBind_ok h
        obtain ⟨b, hb, h⟩ := resBind_ok h
        obtain ⟨tail, rfl, htail⟩ := ptkeLoop_moved ls _ _ _ h
        obtain ⟨h1, h2⟩ := ptke_cut hn ha hb
        refine ⟨_, List.append_assoc .., .move ((ptkeTitle_iff _ _).mp ht) hn ?_ ?_ htail⟩
        · rw [joined_text]
          rw [List.flatMap_cons, h1]
          simp [Line.content]
        · rw [joined_text]
          simp [h2]

/-- C60. The fix-up moves the titles in brackets that stand above the number of an article behind it, and changes nothing else. -/
theorem ptke_titles_moved {body out : List Line} (h : ptkeArticleHeaderFixer body = .ok out) : TitlesMoved body out := by
  obtain ⟨tail, rfl, ht⟩ := ptkeLoop_moved body [] none out h
  simpa using ht

example : (ptkeArticleHeaderFixer [fineLine (py"(A)"), fineLine (py"[Cím)"), fineLine (py"2. § Ha"), fineLine (py"(B)"), fineLine (py"x")]).toOption.map
    (·.map Line.content) = some [py"(A)", py"2. § [Cím]", py"Ha", py"(B)", py"x"] := by decide +kernel

theorem ptkeLoop_ok : ∀ (body result : List Line) (prev : Option Line), (∀ l ∈ body, ∀ k ≤ l.content.length, Border l k) →
    (∀ l ∈ body, ∀ k, ¬ InsideLastPart l k) → ∃ out, ptkeLoop result prev body = .ok out
  | [], result, prev, _, _ => ⟨_, rfl⟩
  | l :: ls, result, none, hb, hf => by
    unfold ptkeLoop
    exact ptkeLoop_ok ls result (some l) (fun x hx => hb x (List.mem_cons_of_mem _ hx)) fun x hx => hf x (List.mem_cons_of_mem _ hx)
  | l :: ls, result, some p, hb, hf => by
    have ih := fun result prev => ptkeLoop_ok ls result prev (fun x hx => hb x (List.mem_cons_of_mem _ hx))
      fun x hx => hf x (List.mem_cons_of_mem _ hx)
    unfold ptkeLoop
    cases ht : ptkeTitle p.content with
    | none => cases ha : ptkeArticle l.content <;> exact ih _ _
    | some t =>
      cases ha : ptkeArticle l.content with
      | none => exact ih _ _
      | some k =>
        obtain ⟨n, r, hn, rfl⟩ := (ptkeArticle_iff _ _).mp ha
        have hin := hf l (List.mem_cons_self ..)
        obtain ⟨ds, _, _, hne, -, he, hl, -⟩ := hn
        have hlen : n.length ≤ l.content.length := by rw [hl]; simp
        have hpos : 0 < n.length := by rw [he]; simp
        have hbo := hb l (List.mem_cons_self ..)
        obtain ⟨a, ha⟩ := (slice_succeeds_iff l 0 n.length hpos hlen (hin 0)).1 ⟨hbo _ (by omega), hbo _ hlen⟩
        have hs : ∃ b, l.slice n.length = .ok b := by
          rcases Nat.lt_or_eq_of_le hlen with hlt | heq
          · exact (slice_succeeds_iff l n.length l.content.length hlt (Nat.le_refl _) (hin _)).1 ⟨hbo _ hlen, hbo _ (Nat.le_refl _)⟩
          · rw [Line.slice_eq]
            by_cases h1 : l.adjust n.length = 0 ∧ l.adjust ((none : Option Int).getD l.content.length) = l.content.length
            · exact ⟨_, by rw [if_pos h1]⟩
            · exact ⟨_, by rw [if_neg h1, if_pos (by simp [heq])]⟩
        obtain ⟨b, hb'⟩ := hs
        simp only
        rw [show l.slice 0 (some (n.length : Int)) = .ok a from ha, hb']
        exact ih _ _

/-- C60. It succeeds if the lines can be cut anywhere. -/
theorem ptke_succeeds {body : List Line} (hb : ∀ l ∈ body, ∀ k ≤ l.content.length, Border l k)
    (hf : ∀ l ∈ body, ∀ k, ¬ InsideLastPart l k) : ∃ out, ptkeArticleHeaderFixer body = .ok out := ptkeLoop_ok body [] none hb hf

end Verif.Props
