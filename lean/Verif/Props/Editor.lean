import Verif.Proofs.Editor

/-! # The editor of fix-ups (C65, C66) -/

namespace Verif.Props

open Verif.Spec

/-- The texts of lines. -/
abbrev texts (ls : List Line) : List Str := ls.map Line.content

theorem fineLine_cut (s : Str) : CutAnywhere (fineLine s) := by
  intro p hp
  obtain ⟨c, -, rfl⟩ := List.mem_map.mp hp
  exact Nat.le_refl 1

/-! ## C65: replacements from edited lines -/

/-- C65. If replacements are extracted, there is one for each changed line, in order, from its old to its new text. -/
theorem one_replacement_per_change {old new : List Str} {rs : List Replacement} (h : extractReplacements old new = .ok rs) :
    old.length = new.length ∧ rs.map (fun r => (r.needle, r.replacement)) = changes old new := by
  unfold extractReplacements at h
  split at h
  · cases h
  · rename_i hl
    exact ⟨by simpa using hl, extractLoop_changes h⟩

/-- C65. These are exactly the replacements that are extracted: a line is told apart by its text if no other line had it, and otherwise
by the fewest lines before it, nine at most, that are found with it once. -/
theorem context_taken {old new : List Str} {rs : List Replacement} : extractReplacements old new = .ok rs ↔
    old.length = new.length ∧ Both (Chosen old new) (placedChanges old new) rs := by
  unfold extractReplacements placedChanges
  by_cases hl : old.length = new.length
  · rw [if_neg (by simpa using hl), extractLoop_iff (by simp [hl])]
    simp [hl]
  · rw [if_pos hl]
    constructor
    · intro h; cases h
    · intro h; exact absurd h.1 hl

/-- Two lines of context are needed here, because the line before is the same at both places. -/
example : extractReplacements [py"x", py"y", py"a", py"z", py"y", py"a", py"c"] [py"x", py"y", py"a", py"z", py"y", py"b", py"c"] =
    .ok [⟨py"a", py"b", some [py"z", py"y"]⟩] := by decide +kernel

/-- C65. Otherwise it is a `ValueError`, and a line was added or removed, or one was changed whose text another line had. -/
theorem extraction_fails {old new : List Str} {e : Err} (h : extractReplacements old new = .error e) :
    e = .valueError ∧ (old.length ≠ new.length ∨ ∃ p ∈ changes old new, old.count p.1 ≠ 1) := by
  unfold extractReplacements at h
  split at h
  · rename_i hl
    cases h
    exact ⟨rfl, .inl hl⟩
  · obtain ⟨h1, p, hp, h2, h3⟩ := extractLoop_error h
    exact ⟨h1, .inr ⟨p, List.mem_filter.mpr ⟨hp, by simpa using h2⟩, h3⟩⟩

/-- C65. If the replacements that were extracted can be made one after the other, they give exactly the texts as edited.
(`_partial`: no line may be emptied, lines can be cut anywhere, and the last line is not changed or no other line had its text; see
`wrong_line_replaced` and `emptied_line_removed`.) -/
theorem replacements_give_edited_partial {body out : List Line} {new : List Str} {rs : List Replacement}
    (h : extractReplacements (texts body) new = .ok rs) (hcut : ∀ l ∈ body, CutAnywhere l)
    (hne : ∀ p ∈ changes (texts body) new, p.2 ≠ []) (hlast : LastLineAlone (texts body) new)
    (ha : Applied (rs.map Replacement.fixup) body out) : texts out = new := by
  have hl := (one_replacement_per_change h).1
  unfold extractReplacements at h
  rw [if_neg (by simpa using hl)] at h
  have := extracted_sound body new [] [] rs out (by simpa using hl.symm) rfl (by simpa using h) hcut
    (fun p hp hpne => hne p (List.mem_filter.mpr ⟨hp, by simpa using hpne⟩)) 
    (fun p hp hpne => by simpa using hlast p hp hpne) (by simpa using ha)
  simpa using this

/-- C65. The replacements that were extracted can be made and give exactly the texts as edited. (`_partial`: as before, and each
new text is fresh, and no changed line had the text of the last one if other lines had it; see `swapped_lines_fail`,
`like_last_line_fails`, `first_line_fails` and `like_line_above_fails`.) -/
theorem replacements_apply_partial {body : List Line} {new : List Str} {rs : List Replacement}
    (h : extractReplacements (texts body) new = .ok rs) (hcut : ∀ l ∈ body, CutAnywhere l)
    (hne : ∀ p ∈ changes (texts body) new, p.2 ≠ []) (hfresh : FreshTexts (texts body) new)
    (hlast : UnlikeLast (texts body) new) :
    ∃ out, Applied (rs.map Replacement.fixup) body out ∧ texts out = new := by
  have hl := (one_replacement_per_change h).1
  have h' := h
  unfold extractReplacements at h'
  rw [if_neg (by simpa using hl)] at h'
  have mem : ∀ p ∈ (texts body).zip new, p.1 ≠ p.2 → p ∈ changes (texts body) new := fun p hp hpne =>
    List.mem_filter.mpr ⟨hp, by simpa using hpne⟩
  obtain ⟨out, ho⟩ := extracted_complete body new [] [] rs (by simpa using hl.symm) rfl (by simpa using h') hcut
    (fun p hp hpne => ⟨hne p (mem p hp hpne), (hfresh p (mem p hp hpne)).1, (hfresh p (mem p hp hpne)).2,
      hlast p (mem p hp hpne)⟩) (by simp)
  refine ⟨out, by simpa using ho, replacements_give_edited_partial h hcut hne (fun p hp hpne => ?_) (by simpa using ho)⟩
  have hm : p ∈ (texts body).zip new := List.mem_of_getLast? hp
  rcases hlast p (mem p hm hpne) with hc | hc
  · exact hc
  · refine absurd ?_ hc
    rw [List.getLast?_eq_getElem?, List.getElem?_zip_eq_some] at hp
    rw [List.getLast?_eq_getElem?]
    rw [List.length_zip, hl, Nat.min_self] at hp
    rw [hl]
    exact hp.1

/-- A body in which a line occurs twice, to be changed at the second place. -/
def editorBody : List Line := [fineLine (py"b"), fineLine (py"ab"), fineLine (py"c"), fineLine (py"ab"), fineLine (py"d")]

example : extractReplacements (texts editorBody) [py"b", py"ab", py"xc", py"aé", py"d"] =
    .ok [⟨py"c", py"xc", none⟩, ⟨py"ab", py"aé", some [py"xc"]⟩] := by decide +kernel

example : (∀ p ∈ changes (texts editorBody) [py"b", py"ab", py"xc", py"aé", py"d"], p.2 ≠ []) ∧
    FreshTexts (texts editorBody) [py"b", py"ab", py"xc", py"aé", py"d"] ∧
    UnlikeLast (texts editorBody) [py"b", py"ab", py"xc", py"aé", py"d"] ∧
    ∀ l ∈ editorBody, CutAnywhere l := by
  refine ⟨by decide, by unfold FreshTexts; decide, by unfold UnlikeLast; decide, ?_⟩
  intro l hl
  simp only [editorBody, List.mem_cons, List.not_mem_nil, or_false] at hl
  rcases hl with rfl | rfl | rfl | rfl | rfl <;> exact fineLine_cut _

/-- C65. The code violates the property: of three equal lines the last is changed, and the replacement changes the second one
without complaint, because `count_sublists` does not look at the end. -/
theorem wrong_line_replaced : ∃ rs out, extractReplacements [py"a", py"a", py"a"] [py"a", py"a", py"x"] = .ok rs ∧
    fixupLoop (rs.map Replacement.fixup) [fineLine (py"a"), fineLine (py"a"), fineLine (py"a")] = .ok out ∧
    texts out = [py"a", py"x", py"a"] :=
  ⟨[⟨py"a", py"x", some [py"a"]⟩], [fineLine (py"a"), ⟨[⟨5, py"x", false⟩], 0⟩, fineLine (py"a")],
    by decide +kernel, by decide +kernel, by decide +kernel⟩

/-- C65. The code violates the property: a line whose text becomes empty is removed. -/
theorem emptied_line_removed : ∃ rs out, extractReplacements [py"a", py"b"] [[], py"b"] = .ok rs ∧
    fixupLoop (rs.map Replacement.fixup) [fineLine (py"a"), fineLine (py"b")] = .ok out ∧ texts out = [py"b"] :=
  ⟨[⟨py"a", [], none⟩], [fineLine (py"b")], by decide +kernel, by decide +kernel, by decide +kernel⟩

/-- C65. The code violates the property: if two lines are swapped the replacements fail, because the text of the second line is
counted in the lines before the changes. -/
theorem swapped_lines_fail : ∃ rs, extractReplacements [py"a", py"b"] [py"b", py"a"] = .ok rs ∧
    fixupLoop (rs.map Replacement.fixup) [fineLine (py"a"), fineLine (py"b")] = .error .valueError :=
  ⟨[⟨py"a", py"b", none⟩, ⟨py"b", py"a", none⟩], by decide +kernel, by decide +kernel⟩

/-- C65. The code violates the property: the last line is not counted, so the replacement of a line like it fails. -/
theorem like_last_line_fails : ∃ rs, extractReplacements [py"x", py"a", py"x", py"a"] [py"x", py"b", py"x", py"a"] = .ok rs ∧
    fixupLoop (rs.map Replacement.fixup) [fineLine (py"x"), fineLine (py"a"), fineLine (py"x"), fineLine (py"a")] =
      .error .valueError :=
  ⟨[⟨py"a", py"b", some [py"x"]⟩], by decide +kernel, by decide +kernel⟩

/-- C65. The code violates the property: the first line has no lines before it, and a negative index gives an empty context. -/
theorem first_line_fails : ∃ rs, extractReplacements [py"a", py"b", py"a"] [py"x", py"b", py"a"] = .ok rs ∧
    fixupLoop (rs.map Replacement.fixup) [fineLine (py"a"), fineLine (py"b"), fineLine (py"a")] = .error .valueError :=
  ⟨[⟨py"a", py"x", some []⟩], by decide +kernel, by decide +kernel⟩

/-- C65. The code violates the property: a line that gets the text of the line above it becomes the context of the next line. -/
theorem like_line_above_fails : ∃ rs, extractReplacements [py"p", py"a", py"a", py"c"] [py"p", py"p", py"a", py"c"] = .ok rs ∧
    fixupLoop (rs.map Replacement.fixup) [fineLine (py"p"), fineLine (py"a"), fineLine (py"a"), fineLine (py"c")] =
      .error .valueError :=
  ⟨[⟨py"a", py"p", some [py"p"]⟩], by decide +kernel, by decide +kernel⟩

/-- C65. Saving replacements changes the fix-ups of their act only. -/
theorem other_acts_kept {saved : Replacements} (hk : saved.keys.Nodup) (byHand : List (Str × FixupFn)) {identifier : Str}
    (rs : List Replacement) {other : Str} (hne : other ≠ identifier) (body : List Line) :
    doAllFixups (loadFixups byHand (saveReplacements saved identifier rs)) other body =
      doAllFixups (loadFixups byHand saved) other body := by
  unfold loadFixups
  rw [doAllFixups_eq, doAllFixups_eq, history_find, history_find, saved_registrations hk, if_neg hne, List.append_nil]

/-- C65. Saved replacements are made after everything that was registered for the act before, in order. -/
theorem saved_after_earlier {saved : Replacements} (hk : saved.keys.Nodup) (byHand : List (Str × FixupFn)) (identifier : Str)
    (rs : List Replacement) {body fixed out : List Line}
    (hb : doAllFixups (loadFixups byHand saved) identifier body = .ok fixed) :
    doAllFixups (loadFixups byHand (saveReplacements saved identifier rs)) identifier body = .ok out ↔
      Applied (rs.map Replacement.fixup) fixed out := by
  unfold loadFixups at hb ⊢
  rw [doAllFixups_eq, history_find, fixupLoop_iff] at hb ⊢
  rw [saved_registrations hk, if_pos rfl]
  exact applied_append (by simpa [Fixups.find] using hb)

/-- C65. After a round of editing the fix-ups of the act give its lines with the texts as edited. (`_partial`: see
`replacements_apply_partial`.) -/
theorem round_gives_edited_partial {byHand : List (Str × FixupFn)} {edit : Str → Nat → Res Str} {saved saved' : Replacements}
    {identifier : Str} {body : List Line} (hk : saved.keys.Nodup)
    (h : editRound byHand edit saved identifier body = .ok saved') :
    ∃ fixed edited, doAllFixups (loadFixups byHand saved) identifier body = .ok fixed ∧
      doFileEditing edit fixed = .ok edited ∧
      ((∀ l ∈ fixed, CutAnywhere l) → (∀ p ∈ changes (texts fixed) edited, p.2 ≠ []) →
        FreshTexts (texts fixed) edited → UnlikeLast (texts fixed) edited →
        ∃ out, doAllFixups (loadFixups byHand saved') identifier body = .ok out ∧ texts out = edited) := by
  unfold editRound at h
  obtain ⟨fixed, h1, h⟩ := resBind_ok h
  obtain ⟨edited, h2, h⟩ := resBind_ok h
  obtain ⟨rs, h3, h⟩ := resBind_ok h
  cases h
  refine ⟨fixed, edited, h1, h2, fun hcut hne hfresh hlast => ?_⟩
  obtain ⟨out, ho, ht⟩ := replacements_apply_partial h3 hcut hne hfresh hlast
  exact ⟨out, (saved_after_earlier hk byHand identifier rs h1).mpr ho, ht⟩

/-- An editor that changes the letter `b` to `x`. -/
def bToX : Str → Nat → Res Str := fun file _ => .ok (file.map fun c => if c = 'b' then 'x' else c)

example : editRound textFixups bToX [(py"A", [⟨py"c", py"b", none⟩])] (py"A") [fineLine (py"a"), fineLine (py"c")] =
    .ok [(py"A", [⟨py"c", py"b", none⟩, ⟨py"b", py"x", none⟩])] := by decide +kernel

/-! ## C66: the file to edit -/

/-- C66. The texts are read back from the file that was edited: behind the first five characters of each line, without the spaces
around. -/
theorem edited_texts_read {edit : Str → Nat → Res Str} {body : List Line} {file edited : Str} {new : List Str}
    (hw : writeEditLines (iterateWithQuoteLevel body false).yields = .ok file)
    (he : edit file (openAtLine (iterateWithQuoteLevel body false).yields + 1) = .ok edited) (h : EditedFile edited new) :
    doFileEditing edit body = .ok new := by
  unfold doFileEditing
  simp only [hw, he, Bind.bind, Except.bind, editedFile_read h]

theorem levels_map (body : List Line) : (iterateWithQuoteLevel body false).yields.map (·.2) = body := by
  apply List.ext_getElem?
  intro j
  rw [List.getElem?_map, iterateWithQuoteLevel, levels_get]
  cases body[j]? <;> rfl

theorem levels_of (body : List Line) {y : Int × Line} (h : y ∈ (iterateWithQuoteLevel body false).yields) :
    ∃ j, j < body.length ∧ y.1 = openQuotes (body.take j) ∧ y.2 ∈ body := by
  obtain ⟨j, hj⟩ := List.mem_iff_getElem?.mp h
  rw [iterateWithQuoteLevel, levels_get] at hj
  cases hb : body[j]? with
  | none => rw [hb] at hj; cases hj
  | some l =>
    rw [hb] at hj
    cases hj
    exact ⟨j, (List.getElem?_eq_some_iff.mp hb).1, by simp, List.mem_of_getElem? hb⟩

/-- C66. A file that is not changed in the editor gives the texts of the lines. (`_partial`: lines have no line ends inside, and
the number of open quotes has five characters at most; see `many_quotes_break`.) -/
theorem unedited_texts_partial {edit : Str → Nat → Res Str} {body : List Line} (hid : ∀ file n, edit file n = .ok file)
    (hs : ∀ l ∈ body, NoSpaceAround l.content) (hl : ∀ l ∈ body, OnOneLine l.content)
    (hq : ∀ j < body.length, -9999 ≤ openQuotes (body.take j) ∧ openQuotes (body.take j) ≤ 99999) :
    doFileEditing edit body = .ok (texts body) := by
  have strip : ∀ y ∈ (iterateWithQuoteLevel body false).yields, pyStrip y.2.content = y.2.content := by
    intro y hy
    obtain ⟨j, -, -, hm⟩ := levels_of body hy
    have := pyStrip_around (a := []) (b := []) (fun c hc => by cases hc) (fun c hc => by cases hc) (hs y.2 hm)
    simpa using this
  have he := written_edited strip fun y hy => by
    obtain ⟨j, hj, h1, hm⟩ := levels_of body hy
    rw [h1]
    exact ⟨hl y.2 hm, hq j hj⟩
  have ht : ((iterateWithQuoteLevel body false).yields.map fun y => y.2.content) = texts body := by
    conv => rhs; rw [texts, ← levels_map body, List.map_map]
    rfl
  rw [ht] at he
  exact edited_texts_read (writeEditLines_iff.mpr ⟨strip, rfl⟩) (hid _ _) he

/-- C66. A line with spaces around its text is refused before the editor is started. -/
theorem spaces_refused {edit : Str → Nat → Res Str} {body : List Line} (h : ∃ l ∈ body, ¬ NoSpaceAround l.content) :
    doFileEditing edit body = .error .assertionError := by
  obtain ⟨l, hl, hn⟩ := h
  have fail : ∀ ys : List (Int × Line), (∃ y ∈ ys, pyStrip y.2.content ≠ y.2.content) →
      writeEditLines ys = .error .assertionError := by
    intro ys
    induction ys with
    | nil => simp
    | cons y ys ih =>
      rintro ⟨z, hz, hzs⟩
      unfold writeEditLines
      by_cases hy : pyStrip y.2.content = y.2.content
      · rw [if_neg (by simpa using hy), ih ?_]
        · rfl
        · rcases List.mem_cons.mp hz with rfl | hz
          · exact absurd hy hzs
          · exact ⟨z, hz, hzs⟩
      · rw [if_pos hy]
  unfold doFileEditing
  rw [← levels_map body] at hl
  obtain ⟨y, hy, rfl⟩ := List.mem_map.mp hl
  simp only [fail _ ⟨y, hy, fun e => hn (noSpaceAround_of_strip e)⟩, Bind.bind, Except.bind]

/-- C66. The editor is opened at the first line before which more quotes were closed than opened; if there is none, at the last
line before which all quotes were closed. -/
theorem opened_at (body : List Line) (i : Nat) (h : i = openAtLine (iterateWithQuoteLevel body false).yields) :
    body = [] ∧ i = 0 ∨ i < body.length ∧
      (openQuotes (body.take i) < 0 ∧ (∀ j < i, 0 ≤ openQuotes (body.take j)) ∨
      (∀ j < body.length, 0 ≤ openQuotes (body.take j)) ∧ openQuotes (body.take i) = 0 ∧
        ∀ j, i < j → j < body.length → openQuotes (body.take j) ≠ 0) := by
  cases body with
  | nil => left; exact ⟨rfl, h⟩
  | cons l ls =>
    right
    generalize hb : l :: ls = body at *
    have hpos : 0 < body.length := by rw [← hb]; simp
    have get : ∀ {j : Nat} {y : Int × Line}, (iterateWithQuoteLevel body false).yields[j]? = some y →
        j < body.length ∧ y.1 = openQuotes (body.take j) := by
      intro j y hj
      rw [iterateWithQuoteLevel, levels_get] at hj
      cases hx : body[j]? with
      | none => rw [hx] at hj; cases hj
      | some x =>
        rw [hx] at hj
        cases hj
        exact ⟨(List.getElem?_eq_some_iff.mp hx).1, by simp⟩
    have at' : ∀ {j : Nat}, j < body.length → ∃ y : Int × Line, (iterateWithQuoteLevel body false).yields[j]? = some y ∧
        y.1 = openQuotes (body.take j) := by
      intro j hj
      rw [iterateWithQuoteLevel, levels_get, List.getElem?_eq_getElem hj]
      exact ⟨_, rfl, by simp⟩
    unfold openAtLine at h
    obtain ⟨-, h2, h3⟩ := markLines_spec (iterateWithQuoteLevel body false).yields 0 none none _ _ rfl
    generalize hm : markLines 0 none none (iterateWithQuoteLevel body false).yields = r at h h2 h3
    obtain ⟨a, b⟩ := r
    rcases h2 rfl with ⟨rfl, e2⟩ | ⟨j, y, rfl, e2, e3, e4⟩
    · have all : ∀ j < body.length, 0 ≤ openQuotes (body.take j) := by
        intro j hj
        obtain ⟨y, h5, h6⟩ := at' hj
        rw [← h6]
        exact e2 y (List.mem_of_getElem? h5)
      rcases h3 with ⟨rfl, e3⟩ | ⟨j, y, rfl, e3, e4, e5⟩
      · obtain ⟨y, h5, h6⟩ := at' hpos
        exact absurd (by rw [h6]; simp [openQuotes]) (e3 y (List.mem_of_getElem? h5))
      · simp only [Nat.zero_add] at h
        subst h
        obtain ⟨g1, g2⟩ := get e3
        refine ⟨g1, .inr ⟨all, by rw [← g2]; exact e4, fun k hk hkl => ?_⟩⟩
        obtain ⟨z, h5, h6⟩ := at' hkl
        rw [← h6]
        exact e5 k z hk h5
    · simp only [Nat.zero_add] at h
      subst h
      obtain ⟨g1, g2⟩ := get e2
      refine ⟨g1, .inl ⟨by rw [← g2]; exact e3, fun k hk => ?_⟩⟩
      obtain ⟨z, h5, h6⟩ := at' (Nat.lt_trans hk g1)
      rw [← h6]
      exact e4 k z hk h5

/-- Lines with quotes. -/
def quotedBody : List Line := [fineLine (py"a„b"), fineLine (py"c”"), fineLine (py"”d"), fineLine (py"e")]

example : (∀ l ∈ quotedBody, NoSpaceAround l.content) ∧ (∀ l ∈ quotedBody, OnOneLine l.content) ∧
    ∀ j < quotedBody.length, -9999 ≤ openQuotes (quotedBody.take j) ∧ openQuotes (quotedBody.take j) ≤ 99999 := by
  refine ⟨?_, ?_, by decide +kernel⟩
  · intro l hl
    exact noSpaceAround_of_strip ((by decide +kernel : ∀ l ∈ quotedBody, pyStrip l.content = l.content) l hl)
  · unfold OnOneLine
    decide +kernel

example : writeEditLines (iterateWithQuoteLevel quotedBody false).yields =
    .ok (py"   0   a„b\n   1   c”\n   0   ”d\n  -1   e\n") := by decide +kernel

example : openAtLine (iterateWithQuoteLevel quotedBody false).yields = 3 := by decide +kernel

example : openAtLine (iterateWithQuoteLevel (quotedBody.take 2) false).yields = 0 := by decide +kernel

example : EditedFile (py"  0  a b \n") [py"a b"] :=
  .line (py"  0  ") [] (py"a b") [' '] rfl (by unfold Spaces; decide) (by unfold Spaces; decide)
    (noSpaceAround_of_strip (by decide)) (by unfold OnOneLine; decide) .nil

example : ∃ l ∈ [fineLine (py" a")], ¬ NoSpaceAround l.content :=
  ⟨_, List.mem_singleton.mpr rfl, fun h => by have := h.1 ' ' rfl; revert this; decide⟩

/-- C66. The code violates the property: below a hundred thousand open quotes a digit of their number becomes part of the text. -/
theorem many_quotes_break {edit : Str → Nat → Res Str} (hid : ∀ file n, edit file n = .ok file) :
    ∃ first, NoSpaceAround first ∧
      doFileEditing edit [⟨[⟨0, first, false⟩], 0⟩, fineLine (py"x")] = .ok [first, py"0   x"] := by
  refine ⟨List.replicate 100000 '„', ?_, ?_⟩
  · constructor
    · intro c hc
      rw [(List.mem_replicate.mp (List.mem_of_head? hc)).2]; decide
    · intro c hc
      rw [(List.mem_replicate.mp (List.mem_of_getLast? hc)).2]; decide
  generalize hf : List.replicate 100000 '„' = first
  have mem : ∀ c ∈ first, c = '„' := fun c hc => by rw [← hf] at hc; exact (List.mem_replicate.mp hc).2
  have hns : NoSpaceAround first := ⟨fun c hc => by rw [mem c (List.mem_of_head? hc)]; decide,
    fun c hc => by rw [mem c (List.mem_of_getLast? hc)]; decide⟩
  have hdiff : quoteLevelDiff first = 100000 := by
    rw [← hf]
    unfold quoteLevelDiff
    rw [List.count_replicate_self, List.count_replicate, List.count_replicate]
    decide
  have hc : (⟨[⟨0, first, false⟩], 0⟩ : Line).content = first := by simp [Line.content]
  have hy : (iterateWithQuoteLevel [⟨[⟨0, first, false⟩], 0⟩, fineLine (py"x")] false).yields =
      [(0, ⟨[⟨0, first, false⟩], 0⟩), (100000, fineLine (py"x"))] := by
    simp only [iterateWithQuoteLevel, quoteLevelLoop, hc, hdiff, Bool.false_and, Bool.false_eq_true, if_false]
    rfl
  have hstrip : pyStrip first = first := by
    have := pyStrip_around (a := []) (b := []) (fun c hc => by cases hc) (fun c hc => by cases hc) hns
    simpa using this
  have hw := writeEditLines_iff.mpr (show (∀ y ∈ (iterateWithQuoteLevel [⟨[⟨0, first, false⟩], 0⟩, fineLine (py"x")] false).yields,
      pyStrip y.2.content = y.2.content) ∧ _ from ⟨by
    rw [hy]
    intro y hm
    simp only [List.mem_cons, List.not_mem_nil, or_false] at hm
    rcases hm with rfl | rfl
    · rw [hc]; exact hstrip
    · decide, rfl⟩)
  refine edited_texts_read hw (hid _ _) ?_
  rw [hy]
  have h2 : EditedFile (editLine 100000 (fineLine (py"x"))) [py"0   x"] := by
    rw [show editLine 100000 (fineLine (py"x")) = (py"10000") ++ [] ++ (py"0   x") ++ [] ++ '\n' :: [] from by decide +kernel]
    exact .line (py"10000") [] (py"0   x") [] rfl (by unfold Spaces; decide) (by unfold Spaces; decide)
      (noSpaceAround_of_strip (by decide)) (by unfold OnOneLine; decide) .nil
  have h1 := editLine_edited (level := 0) (l := ⟨[⟨0, first, false⟩], 0⟩) (by decide) (by decide) (by rw [hc]; exact hstrip)
    (by
      rw [hc]
      exact ⟨fun hm => by have := mem _ hm; revert this; decide, fun hm => by have := mem _ hm; revert this; decide⟩) h2
  rw [hc] at h1
  simpa using h1

end Verif.Props
