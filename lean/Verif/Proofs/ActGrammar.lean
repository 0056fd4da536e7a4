import Verif.Model.ActGrammar
import Verif.Proofs.Peg
import Verif.Proofs.Canonical

/-! # What the rules of the grammar read -/

namespace Verif.ActGrammar

open Peg Spec

/-! ## Simple tokens -/

theorem bare_eq {w : Str} (h : ∀ c ∈ w, isSpace c = false) : squeeze w = w := by
  unfold squeeze
  rw [List.filter_eq_self]
  intro c hc
  rw [h c hc]
  rfl

theorem bare_bare (w : Str) : squeeze (squeeze w) = squeeze w := by
  unfold squeeze
  rw [List.filter_filter]
  simp

theorem not_space_of_range {c : Char} (h : (0x21 ≤ c.toNat ∧ c.toNat ≤ 0x7e) ∨ (0xa1 ≤ c.toNat ∧ c.toNat ≤ 0x167f)) : isSpace c = false := by
  unfold isSpace
  simp only [List.any_cons, List.any_nil, Bool.or_false, Bool.or_eq_false_iff, Bool.and_eq_false_iff, decide_eq_false_iff_not]
  omega

theorem digit_not_space {c : Char} (h : isAsciiDigit c = true) : isSpace c = false :=
  not_space_of_range (by have := (isAsciiDigit_iff c).mp h; omega)

theorem lower_not_space {c : Char} (h : isLowerAz c = true) : isSpace c = false :=
  not_space_of_range (by have := (isLowerAz_iff c).mp h; omega)

theorem upper_not_space {c : Char} (h : isUpperAz c = true) : isSpace c = false :=
  not_space_of_range (by have := (isUpperAz_iff c).mp h; omega)

theorem contains_not_space {c : Char} {l : Str} (h : l.contains c = true) (hl : l.all (fun c => !isSpace c) = true) : isSpace c = false := by
  rw [List.contains_iff_mem] at h
  simpa using List.all_eq_true.mp hl c h

theorem isLowerHun_iff {c : Char} : isLowerHun c = true ↔ hunLower c := by
  simp [isLowerHun, hunLower]

theorem lowerHun_not_space {c : Char} (h : isLowerHun c = true) : isSpace c = false := by
  rcases Bool.or_eq_true .. ▸ h with h | h
  · exact lower_not_space h
  · exact contains_not_space h (by decide +kernel)

theorem upperHun_not_space {c : Char} (h : isUpperHun c = true) : isSpace c = false := by
  rcases Bool.or_eq_true .. ▸ h with h | h
  · exact upper_not_space h
  · exact contains_not_space h (by decide +kernel)

/-- A pattern whose matches have no spaces in them. -/
theorem tells_pattern_bare {s : Str} {r : Regex} {Q : Str → Prop} (h : ∀ a, Matches r a → Q a ∧ ∀ c ∈ a, isSpace c = false) :
    Says s (pattern r) fun a w => w = a ∧ Q a := by
  refine (tells_pattern r).mono ?_
  rintro a i j _ _ ⟨h1, h2⟩
  obtain ⟨h3, h4⟩ := h a h1
  exact ⟨by rw [h2, bare_eq h4], h3⟩

theorem tells_number {s : Str} : Says s number fun a w => w = a ∧ Digits a := by
  unfold number
  refine tells_rule (tells_pattern_bare fun a h => ?_)
  obtain ⟨h1, h2⟩ := matches_plus h
  exact ⟨⟨h1, h2⟩, fun c hc => digit_not_space (h2 c hc)⟩

theorem tells_roman {s : Str} : Says s roman fun a w => w = a ∧ RomanDigits a := by
  unfold roman
  refine tells_rule (tells_pattern_bare fun a h => ?_)
  obtain ⟨h1, h2⟩ := matches_plus h
  refine ⟨⟨h1, fun c hc => ?_⟩, fun c hc => ?_⟩
  · simpa using h2 c hc
  · exact contains_not_space (h2 c hc) (by decide +kernel)

theorem tells_word {s : Str} : Says s word fun a w => w = a ∧ a ≠ [] := by
  unfold word
  refine tells_rule (tells_pattern_bare fun a h => ?_)
  obtain ⟨h1, h2⟩ := matches_plus h
  refine ⟨h1, fun c hc => ?_⟩
  have := h2 c hc
  simp only [Bool.or_eq_true, beq_iff_eq] at this
  rcases this with (h | h) | h
  · exact lowerHun_not_space h
  · exact upperHun_not_space h
  · subst h
    decide +kernel

theorem tells_az {s : Str} : Says s az fun _ w => w = py"a" ∨ w = py"az" := by
  unfold az
  refine tells_rule ((tells_pattern _).mono ?_)
  rintro a i j _ _ ⟨h, h'⟩
  cases h with
  | seq h1 h2 =>
    cases h2 with
    | seq h2 h3 =>
      rw [matches_char h1, matches_char h3] at h'
      cases h2 with
      | some h2 =>
        rw [matches_char h2] at h'
        rw [h']
        right
        decide +kernel
      | none =>
        rw [h']
        left
        decide +kernel

theorem tells_dash {s : Str} : Says s dash fun _ w => Dash w := by
  unfold dash
  refine tells_rule ((tells_tokens _).mono ?_)
  rintro a i j _ _ ⟨h1, h2⟩
  have : ∀ a ∈ [py"−", py"–", py"-"], squeeze a ∈ [py"−", py"–", py"-"] := by decide +kernel
  rw [h2]
  exact this a h1

theorem tells_listSeparator {s : Str} : Says s listSeparator fun _ w => ∃ c o, w = c ++ o ∧ c ∈ [py"", py",", py";"] ∧
    o ∈ [py"", py"és", py"valamint", py"illetve", py"vagy"] ∧ ¬(c = [] ∧ o = []) := by
  unfold listSeparator
  refine tells_rule (tells_or ?_ ?_)
  · refine tells_bind (tells_opt (R := fun _ w => w ∈ [py"", py",", py";"]) (tells_tokens _) (by simp) ?_) fun a u hu =>
      tells_bind (tells_tokens _) fun b v hv => tells_pure ?_
    · rintro a w ⟨h1, rfl⟩
      revert a
      decide +kernel
    · obtain ⟨h1, rfl⟩ := hv
      refine ⟨u, squeeze b, by simp, hu, ?_⟩
      revert b
      intro b hb
      have : ∀ b ∈ [py"és", py"valamint", py"illetve", py"vagy"], squeeze b = b ∧ b ≠ [] := by decide +kernel
      rw [(this b hb).1]
      exact ⟨List.mem_cons_of_mem _ hb, fun h => (this b hb).2 h.2⟩
  · refine tells_bind (tells_tokens _) fun b v hv => tells_pure ?_
    obtain ⟨h1, rfl⟩ := hv
    refine ⟨squeeze b, [], by simp, ?_, by simp, ?_⟩
    · revert b
      decide +kernel
    · revert b
      decide +kernel

theorem tells_separated {s : Str} : Says s separated fun _ w => Separator w := by
  unfold separated
  have h : Says s (do let _ ← listSeparator; opt az : Peg (Option Str)) fun _ w => Separator w := by
    refine tells_bind tells_listSeparator fun a u hu => ?_
    obtain ⟨c, o, rfl, hc, ho, hn⟩ := hu
    refine tells_opt tells_az ?_ ?_
    · exact ⟨c, o, [], rfl, hc, ho, by simp, fun _ _ => rfl⟩
    · intro a w hw
      refine ⟨c, o, w, rfl, hc, ho, ?_, fun h1 h2 => absurd ⟨h1, h2⟩ hn⟩
      rcases hw with rfl | rfl <;> simp
  refine tells_bind (tells_opt (R := fun _ w => Separator w) h ?_ fun _ _ h => h) fun a u hu => tells_pure ?_
  · exact ⟨[], [], [], rfl, by simp, by simp, by simp, fun _ _ => rfl⟩
  · simpa using hu

theorem tells_suffix {s : Str} {t : Str} (ht : ∀ c ∈ t, isSpace c = false) : Says s (suffix t) fun _ w => Inflected t w := by
  unfold suffix
  refine tells_rule (reads_or' ((tells_pattern _).mono ?_) ((tells_token _).mono ?_))
  · rintro a i j _ _ ⟨h1, h2⟩
    cases h1 with
    | seq hu hv =>
      have h3 := matches_str hu
      obtain ⟨h4, h5⟩ := matches_plus hv
      subst h3
      refine ⟨_, ?_, fun c hc => isLowerHun_iff.mp (h5 c hc)⟩
      rw [h2, bare_eq]
      intro c hc
      rcases List.mem_append.mp hc with hc | hc
      · exact ht c hc
      · exact lowerHun_not_space (h5 c hc)
  · rintro a i j _ _ ⟨_, h⟩
    exact ⟨[], by rw [h, bare_eq ht]; simp, by simp⟩

theorem tells_articleSuffix {s : Str} : Says s articleSuffix fun _ w => ArticleSign w := by
  unfold articleSuffix
  refine tells_rule (reads_or' ((tells_pattern _).mono ?_) ((tells_token _).mono ?_))
  · rintro a i j _ _ ⟨h1, h2⟩
    cases h1 with
    | seq hu hv =>
      have h3 := matches_str hu
      obtain ⟨h4, h5⟩ := matches_plus hv
      subst h3
      refine Or.inr ⟨_, ?_, fun c hc => isLowerHun_iff.mp (h5 c hc)⟩
      rw [h2, bare_eq]
      intro c hc
      rcases List.mem_append.mp hc with hc | hc
      · have : ∀ c ∈ py"§-", isSpace c = false := by decide +kernel
        exact this c hc
      · exact lowerHun_not_space (h5 c hc)
  · rintro a i j _ _ ⟨_, h⟩
    exact Or.inl (by rw [h]; decide +kernel)

/-! ## Identifiers -/

theorem tells_letter {s : Str} {p : Char → Bool} (hp : ∀ c, p c = true → isSpace c = false) :
    Says s (pattern (.set p)) fun a w => w = a ∧ ∃ c, p c = true ∧ a = [c] := by
  refine tells_pattern_bare fun a h => ?_
  cases h with
  | set h => exact ⟨⟨_, h, rfl⟩, fun c hc => by simp only [List.mem_singleton] at hc; exact hc ▸ hp _ h⟩

theorem tells_articleIdPieces {s : Str} : Says s articleIdPieces fun a w => w = a.flatten ∧ ArticleNumber w := by
  unfold articleIdPieces
  have h1 : Says s (do let n ← number; let c ← token (py":"); pure [n, c] : Peg (List Str)) fun a w =>
      w = a.flatten ∧ ∃ d, Digits d ∧ w = d ++ py":" := by
    refine tells_bind tells_number fun n u hu => tells_bind (tells_token _) fun c v hv => tells_pure ?_
    obtain ⟨rfl, hu⟩ := hu
    obtain ⟨rfl, rfl⟩ := hv
    exact ⟨by simp; decide +kernel, _, hu, by simp; decide +kernel⟩
  have h2 : Says s (do let x ← token (py"/"); let l ← pattern (.set isUpperAz); pure [x, l] : Peg (List Str)) fun a w =>
      w = a.flatten ∧ ∃ c, isUpperAz c = true ∧ w = ['/', c] := by
    refine tells_bind (tells_token _) fun x u hu => tells_bind (tells_letter fun c => upper_not_space) fun c v hv => tells_pure ?_
    obtain ⟨rfl, rfl⟩ := hu
    obtain ⟨rfl, c, hc, rfl⟩ := hv
    have : squeeze (py"/") = py"/" := by decide +kernel
    exact ⟨by simp [this], c, hc, by simp [this]⟩
  refine tells_bind (tells_opt (R := fun o w => w = (o.getD []).flatten ∧ (w = [] ∨ ∃ d, Digits d ∧ w = d ++ py":")) h1
    ⟨rfl, Or.inl rfl⟩ fun a w h => ⟨h.1, Or.inr h.2⟩) fun b u hu => ?_
  refine tells_bind tells_number fun n v hv => ?_
  refine tells_bind (tells_opt (R := fun o w => w = (o.getD []).flatten ∧ (w = [] ∨ ∃ c, isUpperAz c = true ∧ w = ['/', c])) h2
    ⟨rfl, Or.inl rfl⟩ fun a w h => ⟨h.1, Or.inr h.2⟩) fun l t ht => tells_pure ?_
  obtain ⟨rfl, hv⟩ := hv
  refine ⟨?_, u, v, t, by simp, hu.2, hv, ht.2⟩
  rw [hu.1, ht.1]
  simp

theorem tells_articleId {s : Str} : Says s articleId fun a w => w = a ∧ ArticleNumber a := by
  unfold articleId
  refine tells_rule (tells_bind tells_articleIdPieces fun p u hu => tells_pure ?_)
  obtain ⟨rfl, hu⟩ := hu
  exact ⟨by simp, hu⟩

theorem tells_paragraphId {s : Str} : Says s paragraphId fun a w => w = a ∧ Identifies .paragraph a := by
  unfold paragraphId
  refine tells_rule (tells_bind tells_number fun n u hu => tells_bind
    (tells_opt (R := fun o w => w = o.getD [] ∧ (w = [] ∨ ∃ c, isLowerAz c = true ∧ w = [c])) (tells_letter fun c => lower_not_space)
      ⟨rfl, Or.inl rfl⟩ ?_) fun l v hv => tells_pure ?_)
  · rintro a w ⟨rfl, c, hc, rfl⟩
    exact ⟨rfl, Or.inr ⟨c, hc, rfl⟩⟩
  · obtain ⟨rfl, hu⟩ := hu
    obtain ⟨rfl, hv⟩ := hv
    exact ⟨by simp, u, _, rfl, hu, hv⟩

theorem tells_alphabeticPointId {s : Str} : Says s alphabeticPointId fun a w => w = a ∧ Identifies .alphabeticPoint a := by
  unfold alphabeticPointId
  refine tells_rule (reads_or' ((tells_tokens _).mono ?_) ((tells_letter fun c => lower_not_space).mono ?_))
  · rintro a i j _ _ ⟨h1, h2⟩
    rw [h2]
    simp only [List.mem_cons, List.not_mem_nil, or_false] at h1
    rcases h1 with rfl | rfl
    · exact ⟨by decide +kernel, Or.inl rfl⟩
    · exact ⟨by decide +kernel, Or.inr (Or.inl rfl)⟩
  · rintro a i j _ _ ⟨h1, h2⟩
    exact ⟨h1, Or.inr (Or.inr h2)⟩

theorem tells_numericPointId {s : Str} : Says s numericPointId fun a w => w = a ∧ Identifies .numericPoint a := by
  unfold numericPointId
  have h : Says s (do let x ← opt (token (py"/")); let l ← pattern (.set isLowerAz); pure (x.getD [] ++ l) : Peg Str) fun a w =>
      w = a ∧ ∃ c, isLowerAz c = true ∧ (w = [c] ∨ w = ['/', c]) := by
    refine tells_bind (tells_opt (R := fun o w => w = o.getD [] ∧ (w = [] ∨ w = py"/")) (tells_token _) ⟨rfl, Or.inl rfl⟩ ?_) fun x u hu =>
      tells_bind (tells_letter fun c => lower_not_space) fun l v hv => tells_pure ?_
    · rintro a w ⟨rfl, rfl⟩
      exact ⟨by decide +kernel, Or.inr (by decide +kernel)⟩
    · obtain ⟨rfl, hu⟩ := hu
      obtain ⟨rfl, c, hc, rfl⟩ := hv
      refine ⟨by simp, c, hc, ?_⟩
      rcases hu with h | h
      · exact Or.inl (by rw [h]; rfl)
      · exact Or.inr (by rw [h]; rfl)
  refine tells_rule (tells_bind tells_number fun n u hu => tells_bind
    (tells_opt (R := fun o w => w = o.getD [] ∧ (w = [] ∨ ∃ c, isLowerAz c = true ∧ (w = [c] ∨ w = ['/', c]))) h
      ⟨rfl, Or.inl rfl⟩ ?_) fun l v hv => tells_pure ?_)
  · rintro a w ⟨rfl, c, hc, h⟩
    exact ⟨rfl, Or.inr ⟨c, hc, h⟩⟩
  · obtain ⟨rfl, hu⟩ := hu
    obtain ⟨rfl, hv⟩ := hv
    exact ⟨by simp, u, _, rfl, hu, hv⟩

theorem tells_alphabeticSubpointId {s : Str} : Says s alphabeticSubpointId fun a w => w = a ∧ Identifies .alphabeticSubpoint a := by
  unfold alphabeticSubpointId
  refine tells_rule (tells_pattern_bare fun a h => ?_)
  cases h with
  | seq h1 h2 =>
    cases h1 with
    | set h1 => cases h2 with
      | some h2 => cases h2 with
        | set h2 =>
          refine ⟨Or.inr ⟨_, _, h1, h2, rfl⟩, ?_⟩
          intro c hc
          simp only [List.cons_append, List.nil_append, List.mem_cons, List.not_mem_nil, or_false] at hc
          rcases hc with rfl | rfl
          · exact lower_not_space h1
          · exact lower_not_space h2
      | none =>
        refine ⟨Or.inl ⟨_, h1, rfl⟩, ?_⟩
        intro c hc
        simp only [List.append_nil, List.mem_singleton] at hc
        exact hc ▸ lower_not_space h1

theorem tells_numericSubpointId {s : Str} : Says s numericSubpointId fun a w => w = a ∧ Identifies .numericSubpoint a := by
  unfold numericSubpointId
  exact tells_rule tells_number

/-! ## Items -/

theorem tells_mark {s : Str} (t : Str) (ht : squeeze t = t := by decide +kernel) : Says s (token t) fun _ w => w = t := by
  refine (tells_token t).mono ?_
  rintro a i j _ _ ⟨_, h⟩
  rw [h, ht]

theorem tells_articleRange {s : Str} : Says s articleRange fun a w => RangeWritten .article a.1 a.2 w := by
  unfold articleRange
  have h : Says s (do let _ ← token (py"."); articleSuffix : Peg Str) fun _ w => ∃ e, w = (py".") ++ e ∧ ArticleSign e := by
    refine tells_bind (tells_mark _) fun _ u hu => tells_articleSuffix.mono ?_
    rintro a i j _ _ h
    exact ⟨_, by rw [hu], h⟩
  refine tells_bind tells_articleId fun x u hu => tells_bind
    (tells_opt (R := fun _ w => w = [] ∨ ∃ e, w = (py".") ++ e ∧ ArticleSign e) h (Or.inl rfl) fun _ _ h => Or.inr h) fun _ m hm =>
    tells_bind tells_dash fun _ d hd => tells_bind tells_articleId fun y v hv => tells_bind (tells_mark _) fun _ e he => tells_pure ?_
  obtain ⟨rfl, hu⟩ := hu
  obtain ⟨rfl, hv⟩ := hv
  subst he
  exact ⟨hu, hv, d, hd, m, hm, by simp⟩

theorem tells_articleSingle {s : Str} : Says s articleSingle fun a w => SingleWritten .article a w := by
  unfold articleSingle
  refine tells_bind tells_articleId fun x u hu => tells_bind (tells_mark _) fun _ e he => tells_pure ?_
  obtain ⟨rfl, hu⟩ := hu
  subst he
  exact ⟨hu, by simp⟩

theorem tells_paragraphRange {s : Str} : Says s paragraphRange fun a w => RangeWritten .paragraph a.1 a.2 w := by
  unfold paragraphRange
  refine tells_bind (tells_mark _) fun _ a ha => tells_bind tells_paragraphId fun x u hu => tells_bind (tells_mark _) fun _ b hb =>
    tells_bind tells_dash fun _ d hd => tells_bind (tells_mark _) fun _ c hc => tells_bind tells_paragraphId fun y v hv =>
    tells_bind (tells_mark _) fun _ e he => tells_pure ?_
  obtain ⟨rfl, hu⟩ := hu
  obtain ⟨rfl, hv⟩ := hv
  subst ha hb hc he
  exact ⟨hu, hv, d, hd, by simp⟩

theorem tells_paragraphSingle {s : Str} : Says s paragraphSingle fun a w => SingleWritten .paragraph a w := by
  unfold paragraphSingle
  refine tells_bind (tells_mark _) fun _ a ha => tells_bind tells_paragraphId fun x u hu => tells_bind (tells_mark _) fun _ e he =>
    tells_pure ?_
  obtain ⟨rfl, hu⟩ := hu
  subst ha he
  exact ⟨hu, by simp⟩

theorem tells_alphabeticPointRange {s : Str} : Says s alphabeticPointRange fun a w => RangeWritten .alphabeticPoint a.1 a.2 w := by
  unfold alphabeticPointRange
  refine tells_bind tells_alphabeticPointId fun x u hu => tells_bind
    (tells_opt (R := fun _ w => w = [] ∨ w = py")") (tells_mark _) (Or.inl rfl) fun _ _ h => Or.inr h) fun _ m hm =>
    tells_bind tells_dash fun _ d hd => tells_bind tells_alphabeticPointId fun y v hv => tells_bind (tells_mark _) fun _ e he =>
    tells_pure ?_
  obtain ⟨rfl, hu⟩ := hu
  obtain ⟨rfl, hv⟩ := hv
  subst he
  exact ⟨hu, hv, d, hd, m, hm, by simp⟩

theorem tells_alphabeticPointSingle {s : Str} : Says s alphabeticPointSingle fun a w => SingleWritten .alphabeticPoint a w := by
  unfold alphabeticPointSingle
  refine tells_bind tells_alphabeticPointId fun x u hu => tells_bind (tells_mark _) fun _ e he => tells_pure ?_
  obtain ⟨rfl, hu⟩ := hu
  subst he
  exact ⟨hu, by simp⟩

theorem tells_numericPointRange {s : Str} : Says s numericPointRange fun a w => RangeWritten .numericPoint a.1 a.2 w := by
  unfold numericPointRange
  refine tells_bind tells_numericPointId fun x u hu => tells_bind tells_dash fun _ d hd => tells_bind tells_numericPointId fun y v hv =>
    tells_bind (tells_mark _) fun _ e he => tells_pure ?_
  obtain ⟨rfl, hu⟩ := hu
  obtain ⟨rfl, hv⟩ := hv
  subst he
  exact ⟨hu, hv, d, hd, by simp⟩

theorem tells_numericPointSingle {s : Str} : Says s numericPointSingle fun a w => SingleWritten .numericPoint a w := by
  unfold numericPointSingle
  refine tells_bind tells_numericPointId fun x u hu => tells_bind (tells_mark _) fun _ e he => tells_pure ?_
  obtain ⟨rfl, hu⟩ := hu
  subst he
  exact ⟨hu, by simp⟩

theorem tells_alphabeticSubpointRange {s : Str} : Says s alphabeticSubpointRange fun a w => RangeWritten .alphabeticSubpoint a.1 a.2 w := by
  unfold alphabeticSubpointRange
  refine tells_bind tells_alphabeticSubpointId fun x u hu => tells_bind (tells_mark _) fun _ m hm => tells_bind tells_dash fun _ d hd =>
    tells_bind tells_alphabeticSubpointId fun y v hv => tells_bind (tells_mark _) fun _ e he => tells_pure ?_
  obtain ⟨rfl, hu⟩ := hu
  obtain ⟨rfl, hv⟩ := hv
  subst hm he
  exact ⟨hu, hv, d, hd, by simp⟩

theorem tells_alphabeticSubpointSingle {s : Str} : Says s alphabeticSubpointSingle fun a w => SingleWritten .alphabeticSubpoint a w := by
  unfold alphabeticSubpointSingle
  refine tells_bind tells_alphabeticSubpointId fun x u hu => tells_bind (tells_mark _) fun _ e he => tells_pure ?_
  obtain ⟨rfl, hu⟩ := hu
  subst he
  exact ⟨hu, by simp⟩

theorem tells_numericSubpointRange {s : Str} : Says s numericSubpointRange fun a w => RangeWritten .numericSubpoint a.1 a.2 w := by
  unfold numericSubpointRange
  refine tells_bind tells_numericSubpointId fun x u hu => tells_bind tells_dash fun _ d hd => tells_bind tells_numericSubpointId fun y v hv =>
    tells_bind (tells_mark _) fun _ e he => tells_pure ?_
  obtain ⟨rfl, hu⟩ := hu
  obtain ⟨rfl, hv⟩ := hv
  subst he
  exact ⟨hu, hv, d, hd, by simp⟩

theorem tells_numericSubpointSingle {s : Str} : Says s numericSubpointSingle fun a w => SingleWritten .numericSubpoint a w := by
  unfold numericSubpointSingle
  refine tells_bind tells_numericSubpointId fun x u hu => tells_bind (tells_mark _) fun _ e he => tells_pure ?_
  obtain ⟨rfl, hu⟩ := hu
  subst he
  exact ⟨hu, by simp⟩

/-! ## Lists -/

theorem single_ne_nil {k : PartKind} {id w : Str} (h : SingleWritten k id w) : w ≠ [] := by
  obtain ⟨_, h⟩ := h
  cases k <;> (simp only at h; rw [h]; simp)

theorem range_ne_nil {k : PartKind} {x y w : Str} (h : RangeWritten k x y w) : w ≠ [] := by
  obtain ⟨_, _, d, _, h⟩ := h
  cases k <;> simp only at h
  · obtain ⟨m, _, h⟩ := h
    rw [h]
    simp
  · rw [h]
    simp
  · obtain ⟨m, _, h⟩ := h
    rw [h]
    simp
  all_goals
    rw [h]
    simp

theorem reads_item {s : Str} {k : PartKind} {range : Peg (Str × Str)} {single : Peg Str}
    (hr : Says s range fun a w => RangeWritten k a.1 a.2 w) (hs : Says s single fun a w => SingleWritten k a w) :
    Scans s (item (or (do let x ← located range; pure (Sum.inl x)) (do let x ← located single; pure (Sum.inr x)) : Peg Item))
      fun x i j => ItemWritten s k x ∧ ∃ b c : Nat, x.place = (↑b, ↑c) ∧ i ≤ b ∧ told s i b = [] ∧ c ≤ j ∧ Separator (told s c j) := by
  have h1 : Scans s (or (do let x ← located range; pure (Sum.inl x)) (do let x ← located single; pure (Sum.inr x)) : Peg Item)
      fun x i j => ItemWritten s k x ∧ ∃ b : Nat, x.place = (↑b, ↑j) ∧ i ≤ b ∧ told s i b = [] := by
    refine reads_or' ((reads_bind (reads_located hr) fun x => reads_pure _).mono ?_)
      ((reads_bind (reads_located hs) fun x => reads_pure _).mono ?_)
    · rintro x i j _ hj ⟨r, m, _, _, ⟨n, h1, h2, h3, h4, h5⟩, rfl, rfl⟩
      have h6 := lt_of_told (range_ne_nil h5)
      exact ⟨⟨n, m, h4, h6, hj, h5⟩, n, h4, h1, h3⟩
    · rintro x i j _ hj ⟨r, m, _, _, ⟨n, h1, h2, h3, h4, h5⟩, rfl, rfl⟩
      have h6 := lt_of_told (single_ne_nil h5)
      exact ⟨⟨n, m, h4, h6, hj, h5⟩, n, h4, h1, h3⟩
  unfold item
  refine (reads_bind h1 fun x => reads_bind tells_separated fun _ => reads_pure x).mono ?_
  rintro x i j _ hj ⟨y, m, h1, h2, ⟨h3, b, h4, h5, h6⟩, _, l, h7, h8, h9, rfl, rfl⟩
  exact ⟨h3, b, m, h4, h5, h6, h7, h9⟩

theorem items_of_chain {s : Str} {k : PartKind} {xs : List Item} {i j : Nat}
    (h : Chain (fun x i j => ItemWritten s k x ∧ ∃ b c : Nat, x.place = (↑b, ↑c) ∧ i ≤ b ∧ told s i b = [] ∧ c ≤ j ∧
      Separator (told s c j)) xs i j) : ItemsWritten s k xs i j := by
  induction h with
  | nil => exact .nil _
  | cons h _ _ _ ih =>
    obtain ⟨h1, b, c, h2, h3, h4, h5, h6⟩ := h
    exact .cons h1 h2 h3 h4 h5 h6 ih

theorem reads_referencePart {s : Str} {k : PartKind} {range : Peg (Str × Str)} {single suffix : Peg Str}
    (hr : Says s range fun a w => RangeWritten k a.1 a.2 w) (hs : Says s single fun a w => SingleWritten k a w)
    (he : Says s suffix fun _ w => ListEnd k w ∧ w ≠ []) :
    Scans s (referencePart k range single suffix) fun p i j => ∃ n, i ≤ n ∧ told s i n = [] ∧ p.kind = k ∧ PartWritten s p n j := by
  unfold referencePart
  refine (reads_rule (reads_bind (reads_many1 (reads_item hr hs)) fun xs => reads_bind he fun _ => reads_pure _)).mono ?_
  rintro p i j _ hj ⟨n, h1, h2, h3, xs, m, h4, h5, ⟨h6, h7⟩, _, l, h8, h9, ⟨h10, h11⟩, rfl, rfl⟩
  exact ⟨n, h1, h3, rfl, xs, m, h6, rfl, rfl, items_of_chain h7, lt_of_told h11, hj, h10⟩

theorem tells_suffix' {s : Str} (t : Str) (ht : ∀ c ∈ t, isSpace c = false := by decide +kernel) (hn : t ≠ [] := by decide) :
    Says s (suffix t) fun _ w => Inflected t w ∧ w ≠ [] := by
  refine (tells_suffix ht).mono ?_
  rintro a i j _ _ ⟨e, h1, h2⟩
  refine ⟨⟨e, h1, h2⟩, ?_⟩
  rw [h1]
  simp [hn]

/-- A list of this level. -/
def ReadsPart (s : Str) (p : Peg ParsedPart) (K : PartKind → Prop) : Prop :=
  Scans s p fun x i j => ∃ n, i ≤ n ∧ told s i n = [] ∧ K x.kind ∧ PartWritten s x n j

theorem reads_articleReference {s : Str} : ReadsPart s articleReference (PartKind.depth · = 0) := by
  unfold articleReference
  refine (reads_referencePart tells_articleRange tells_articleSingle (tells_articleSuffix.mono ?_)).mono ?_
  · rintro a i j _ _ h
    refine ⟨h, ?_⟩
    rcases h with h | ⟨e, h, _⟩ <;> rw [h] <;> simp
  · rintro p i j _ _ ⟨n, h1, h2, h3, h4⟩
    exact ⟨n, h1, h2, by rw [h3]; rfl, h4⟩

theorem reads_paragraphReference {s : Str} : ReadsPart s paragraphReference (PartKind.depth · = 1) := by
  unfold paragraphReference
  refine (reads_referencePart tells_paragraphRange tells_paragraphSingle (tells_suffix' _)).mono ?_
  rintro p i j _ _ ⟨n, h1, h2, h3, h4⟩
  exact ⟨n, h1, h2, by rw [h3]; rfl, h4⟩

theorem reads_anyPoint {s : Str} : ReadsPart s anyPoint (PartKind.depth · = 2) := by
  unfold anyPoint alphabeticPointReference numericPointReference
  refine reads_or' ((reads_referencePart tells_alphabeticPointRange tells_alphabeticPointSingle (tells_suffix' _)).mono ?_)
    ((reads_referencePart tells_numericPointRange tells_numericPointSingle (tells_suffix' _)).mono ?_)
  · rintro p i j _ _ ⟨n, h1, h2, h3, h4⟩
    exact ⟨n, h1, h2, by rw [h3]; rfl, h4⟩
  · rintro p i j _ _ ⟨n, h1, h2, h3, h4⟩
    exact ⟨n, h1, h2, by rw [h3]; rfl, h4⟩

theorem reads_anySubpoint {s : Str} : ReadsPart s anySubpoint (PartKind.depth · = 3) := by
  unfold anySubpoint alphabeticSubpointReference numericSubpointReference
  refine reads_or' ((reads_referencePart tells_alphabeticSubpointRange tells_alphabeticSubpointSingle (tells_suffix' _)).mono ?_)
    ((reads_referencePart tells_numericSubpointRange tells_numericSubpointSingle (tells_suffix' _)).mono ?_)
  · rintro p i j _ _ ⟨n, h1, h2, h3, h4⟩
    exact ⟨n, h1, h2, by rw [h3]; rfl, h4⟩
  · rintro p i j _ _ ⟨n, h1, h2, h3, h4⟩
    exact ⟨n, h1, h2, by rw [h3]; rfl, h4⟩

/-! ## References -/

/-- Lists one after the other without gaps, from this level down. -/
def ReadsParts (s : Str) (p : Peg (List ParsedPart)) (d : Nat) : Prop :=
  Scans s p fun ps i j => PartsWritten s NoGap ps i j ∧ (∀ x ∈ ps, d ≤ PartKind.depth x.kind) ∧
    (ps.map fun x => PartKind.depth x.kind).Pairwise (· < ·) ∧ told s i j ≠ []

theorem items_le {s : Str} {k : PartKind} {xs : List Item} {a b : Nat} (h : ItemsWritten s k xs a b) : a ≤ b := by
  induction h with
  | nil => exact Nat.le_refl _
  | cons hx hp ha _ hd _ _ ih =>
    obtain ⟨a', b', e, h, _⟩ := hx
    rw [hp, Prod.mk.injEq] at e
    omega

theorem part_told {s : Str} {p : ParsedPart} {a b : Nat} (h : PartWritten s p a b) : a < b ∧ told s a b ≠ [] := by
  obtain ⟨items, m, h1, _, _, h2, h3, _, h4⟩ := h
  have h5 := items_le h2
  refine ⟨by omega, ?_⟩
  rw [told_append s h5 (Nat.le_of_lt h3)]
  have : told s m b ≠ [] := by
    generalize told s m b = w at h4
    unfold ListEnd at h4
    cases hk : p.kind <;> rw [hk] at h4 <;> simp only at h4
    · rcases h4 with h | ⟨e, h, _⟩ <;> rw [h] <;> simp
    all_goals
      obtain ⟨e, h, _⟩ := h4
      rw [h]
      simp
  simp [this]

theorem readsParts_single {s : Str} {p : Peg ParsedPart} {d : Nat} (hp : ReadsPart s p (PartKind.depth · = d)) :
    ReadsParts s (do let x ← p; pure [x]) d := by
  refine (reads_bind hp fun x => reads_pure _).mono ?_
  rintro ps i j _ _ ⟨x, m, _, _, ⟨n, h1, h2, h3, h4⟩, rfl, rfl⟩
  have h5 := part_told h4
  refine ⟨.cons h1 h2 h4 (.nil _), by simp [h3], by simp, ?_⟩
  rw [told_append s h1 (Nat.le_of_lt h5.1), h2]
  exact h5.2

theorem partsWritten_cons {s : Str} {p : ParsedPart} {ps : List ParsedPart} {d e i m j : Nat} (hp : ∃ n, i ≤ n ∧ told s i n = [] ∧
      PartKind.depth p.kind = d ∧ PartWritten s p n m) (hde : d < e) (hmj : m ≤ j)
    (hs : PartsWritten s NoGap ps m j ∧ (∀ x ∈ ps, e ≤ PartKind.depth x.kind) ∧
      (ps.map fun x => PartKind.depth x.kind).Pairwise (· < ·)) :
    PartsWritten s NoGap (p :: ps) i j ∧ (∀ x ∈ p :: ps, d ≤ PartKind.depth x.kind) ∧
      ((p :: ps).map fun x => PartKind.depth x.kind).Pairwise (· < ·) ∧ told s i j ≠ [] := by
  obtain ⟨n, h1, h2, h3, h4⟩ := hp
  obtain ⟨h5, h6, h7⟩ := hs
  have h8 := part_told h4
  refine ⟨.cons h1 h2 h4 h5, ?_, ?_, ?_⟩
  · intro x hx
    rcases List.mem_cons.mp hx with rfl | hx
    · omega
    · have := h6 x hx
      omega
  · rw [List.map_cons, List.pairwise_cons]
    refine ⟨?_, h7⟩
    intro k hk
    obtain ⟨x, hx, rfl⟩ := List.mem_map.mp hk
    have := h6 x hx
    omega
  · rw [told_append s h1 (by omega : n ≤ j), told_append s (Nat.le_of_lt h8.1) hmj]
    simp [h8.2]

theorem readsParts_opt {s : Str} {p : Peg ParsedPart} {q : Peg (List ParsedPart)} {d e : Nat} (hp : ReadsPart s p (PartKind.depth · = d))
    (hq : ReadsParts s q e) (h : d < e) : ReadsParts s (do let x ← p; let more ← opt q; pure (x :: more.getD [])) d := by
  refine (reads_bind hp fun x => reads_bind (reads_opt hq) fun more => reads_pure _).mono ?_
  rintro ps i j _ _ ⟨x, m, _, hmj, h1, more, l, _, _, h2, rfl, rfl⟩
  refine partsWritten_cons h1 h hmj ?_
  rcases h2 with ⟨rfl, rfl⟩ | ⟨qs, rfl, h2, h3, h4, _⟩
  · exact ⟨.nil _, by simp, by simp⟩
  · exact ⟨h2, h3, h4⟩

theorem readsParts_cons {s : Str} {p : Peg ParsedPart} {q : Peg (List ParsedPart)} {d e : Nat} (hp : ReadsPart s p (PartKind.depth · = d))
    (hq : ReadsParts s q e) (h : d < e) : ReadsParts s (do let x ← p; let more ← q; pure (x :: more)) d := by
  refine (reads_bind hp fun x => reads_bind hq fun more => reads_pure _).mono ?_
  rintro ps i j _ _ ⟨x, m, _, hmj, h1, more, l, _, _, ⟨h2, h3, h4, _⟩, rfl, rfl⟩
  exact partsWritten_cons h1 h hmj ⟨h2, h3, h4⟩

theorem readsParts_mono {s : Str} {p : Peg (List ParsedPart)} {d : Nat} (h : ReadsParts s p d) : ReadsParts s p 0 :=
  h.mono fun _ _ _ _ _ ⟨h1, _, h3, h4⟩ => ⟨h1, fun _ _ => Nat.zero_le _, h3, h4⟩

theorem reads_refWithSubpoint {s : Str} : ReadsParts s refWithSubpoint 3 := readsParts_single reads_anySubpoint

theorem reads_refWithPoint {s : Str} : ReadsParts s refWithPoint 2 := readsParts_opt reads_anyPoint reads_refWithSubpoint (by decide)

theorem reads_refWithParagraph {s : Str} : ReadsParts s refWithParagraph 1 :=
  readsParts_opt reads_paragraphReference reads_refWithPoint (by decide)

theorem reads_reference {s : Str} : Scans s reference fun r i j => ∃ n, i ≤ n ∧ told s i n = [] ∧ r.2 = (↑n, ↑j) ∧ n < j ∧
    RefWritten s NoGap r := by
  unfold reference
  have h := (reads_or' (readsParts_cons reads_articleReference reads_refWithParagraph (by decide : 0 < 1))
    (reads_or' (readsParts_opt reads_articleReference reads_refWithPoint (by decide : 0 < 2))
      (reads_or' (readsParts_mono reads_refWithParagraph)
        (reads_or' (readsParts_mono reads_refWithPoint) (readsParts_mono (s := s) reads_refWithSubpoint)))))
  refine (reads_located h).mono ?_
  rintro r i j _ hj ⟨n, h1, h2, h3, h4, h5, _, h6, h7⟩
  have h8 := lt_of_told h7
  exact ⟨n, h1, h3, h4, h8, n, j, j, h4, h8, Nat.le_refl _, hj, h5, told_self .., h6⟩

/-- References to be listed are written. -/
theorem reads_listedReference {s : Str} : Scans s listedReference fun r i j => RefWritten s NoGap r ∧ i < j := by
  unfold listedReference item
  refine (reads_bind reads_reference fun r => reads_bind tells_separated fun _ => reads_pure r).mono ?_
  rintro r i j _ _ ⟨r', m, h1, h2, ⟨n, h3, _, _, h4, h5⟩, _, l, h6, h7, _, rfl, rfl⟩
  exact ⟨h5, by omega⟩

theorem chain_all {α : Type} {P : α → Nat → Nat → Prop} {Q : α → Prop} (h : ∀ a i j, P a i j → Q a) {as : List α} {i j : Nat}
    (hc : Chain P as i j) : ∀ a ∈ as, Q a := by
  induction hc with
  | nil => simp
  | cons hp _ _ _ ih =>
    intro x hx
    rcases List.mem_cons.mp hx with rfl | hx
    · exact h _ _ _ hp
    · exact ih x hx

/-! ## Acts -/

theorem abbreviated_of_matches {w : Str} (h : Matches (.seq (.set isUpperHun) (.seq (.plus isLowerHun) (.seq (.opt (.char '.'))
    (.seq (.opt (.char ' ')) (.alt (.str (py"tv.")) (.str (py"vhr."))))))) w ∨
      Matches (.seq (.set isUpperHun) (.seq (.plus isLowerHun) (.char '.'))) w) : Abbreviated w := by
  rcases h with h | h
  · obtain ⟨u, v, rfl, h1, g2⟩ := matches_seq h
    obtain ⟨e, r, rfl, h2, g3⟩ := matches_seq g2
    obtain ⟨x, t, rfl, h3, g4⟩ := matches_seq g3
    obtain ⟨y, z, rfl, h4, h5⟩ := matches_seq g4
    obtain ⟨h6, h7⟩ := matches_plus h2
    obtain ⟨c, hc, rfl⟩ := matches_set h1
    refine ⟨c, e, x ++ y ++ z, by simp, by simpa [isUpperHun] using hc, h6, fun x hx => isLowerHun_iff.mp (h7 x hx),
      Or.inr ⟨x, y, z, rfl, ?_, ?_, ?_⟩⟩
    · rcases matches_opt h3 with rfl | h3
      · simp
      · rw [matches_char h3]
        simp
    · rcases matches_opt h4 with rfl | h4
      · simp
      · rw [matches_char h4]
        simp
    · rcases matches_alt h5 with h5 | h5 <;> rw [matches_str h5] <;> simp
  · obtain ⟨u, v, rfl, h1, g2⟩ := matches_seq h
    obtain ⟨e, r, rfl, h2, h3⟩ := matches_seq g2
    obtain ⟨h6, h7⟩ := matches_plus h2
    obtain ⟨c, hc, rfl⟩ := matches_set h1
    exact ⟨c, e, r, by simp, by simpa [isUpperHun] using hc, h6, fun x hx => isLowerHun_iff.mp (h7 x hx), Or.inl (matches_char h3)⟩

theorem abbreviated_ne_nil {w : Str} (h : Abbreviated w) : w ≠ [] := by
  obtain ⟨c, e, r, rfl, _⟩ := h
  simp

theorem lt_of_slice {s : Str} {a b : Nat} (h : slice s a b ≠ []) : a < b := by
  rcases Nat.lt_or_ge a b with h' | h'
  · exact h'
  · simp [slice, Nat.sub_eq_zero_of_le h'] at h

theorem reads_abbreviation {s : Str} : Scans s abbreviation fun x i j => ∃ n, i ≤ n ∧ told s i n = [] ∧ x.2 = (↑n, ↑j) ∧ n < j ∧
    Abbreviated x.1 ∧ slice s n j = x.1 := by
  unfold abbreviation
  refine (reads_located (reads_or (reads_pattern _) (reads_pattern _))).mono ?_
  rintro x i j _ _ ⟨n, h1, h2, h3, h4, h5⟩
  have h6 : Abbreviated x.1 := abbreviated_of_matches (h5.imp And.left And.left)
  have h7 : slice s n j = x.1 := h5.elim And.right And.right
  exact ⟨n, h1, h3, h4, lt_of_slice (h7 ▸ abbreviated_ne_nil h6), h6, h7⟩

theorem tells_actSuffix {s : Str} : Says s actSuffix fun _ w => ActWord w ∧ w ≠ [] := by
  unfold actSuffix
  refine tells_rule (tells_or ((tells_mark _).mono ?_) (tells_or ((tells_pattern _).mono ?_) ((tells_mark _).mono ?_)))
  · rintro a i j _ _ h
    rw [h]
    exact ⟨Or.inr ⟨py"y", rfl, by simp [hunLower]; decide +kernel⟩, by simp⟩
  · rintro a i j _ _ ⟨h1, h2⟩
    cases h1 with
    | seq hu hv =>
      have h3 := matches_str hu
      obtain ⟨h4, h5⟩ := matches_plus hv
      subst h3
      rw [h2, bare_eq]
      · exact ⟨Or.inr ⟨_, rfl, fun c hc => isLowerHun_iff.mp (h5 c hc)⟩, by simp⟩
      · intro c hc
        rcases List.mem_append.mp hc with hc | hc
        · have : ∀ c ∈ py"törvén", isSpace c = false := by decide +kernel
          exact this c hc
        · exact lowerHun_not_space (h5 c hc)
  · rintro a i j _ _ h
    rw [h]
    exact ⟨Or.inl rfl, by simp⟩

theorem reads_actId {s : Str} : Scans s actId fun x i j => ∃ n, i ≤ n ∧ told s i n = [] ∧ x.2 = (↑n, ↑j) ∧ n < j ∧
    Digits x.1.1 ∧ RomanDigits x.1.2 ∧ ∃ e, ActWord e ∧ told s n j = x.1.1 ++ (py".évi") ++ x.1.2 ++ (py".") ++ e := by
  unfold actId
  have h : Says s (do
      let year ← number
      let _ ← token (py".")
      let _ ← token (py"évi")
      let number ← roman
      let _ ← token (py".")
      let _ ← actSuffix
      pure (year, number) : Peg (Str × Str)) fun x w => Digits x.1 ∧ RomanDigits x.2 ∧ ∃ e, ActWord e ∧
        w = x.1 ++ (py".évi") ++ x.2 ++ (py".") ++ e := by
    refine tells_bind tells_number fun y u hu => tells_bind (tells_mark _) fun _ a ha => tells_bind (tells_mark _) fun _ b hb =>
      tells_bind tells_roman fun n v hv => tells_bind (tells_mark _) fun _ c hc => tells_bind tells_actSuffix fun _ e he => tells_pure ?_
    obtain ⟨rfl, hu⟩ := hu
    obtain ⟨rfl, hv⟩ := hv
    subst ha hb hc
    exact ⟨hu, hv, e, he.1, by simp⟩
  refine (reads_located h).mono ?_
  rintro x i j _ _ ⟨n, h1, h2, h3, h4, h5, h6, e, h7, h8⟩
  refine ⟨n, h1, h3, h4, lt_of_told (s := s) ?_, h5, h6, e, h7, h8⟩
  rw [h8]
  simp

theorem reads_fromNowOn {s : Str} : Scans s fromNowOn fun t i j => Abbreviated t ∧ ∃ z w, i ≤ z ∧ z + t.length ≤ j ∧
    slice s z (z + t.length) = t ∧ told s i z ∈ [py"(atovábbiakban", py"(atovábbiakban:"] ∧ w ∈ [py")", py"törvény)"] ∧
    told s (z + t.length) j = w := by
  unfold fromNowOn
  refine (reads_rule (reads_bind (tells_mark (py"(")) fun _ => reads_bind (tells_mark (py"a")) fun _ =>
    reads_bind (tells_mark (py"továbbiakban")) fun _ => reads_bind (reads_opt (tells_mark (py":"))) fun _ =>
    reads_bind reads_abbreviation fun a => reads_bind (reads_opt (tells_mark (py"törvény"))) fun _ =>
    reads_bind (tells_mark (py")")) fun _ => reads_pure a.1)).mono ?_
  rintro t i j _ hj ⟨n, hn1, hn2, hn3, _, m1, _, _, w1, _, m2, _, _, w2, _, m3, _, _, w3, o, m4, _, _, w4, a, m5, _, _, w5, p, m6, _, _, w6,
    _, m7, _, _, w7, rfl, rfl⟩
  obtain ⟨l, h1, h2, h3, h4, h5, h6⟩ := w5
  have hl : l + a.1.length = m5 := by
    rw [← h6]
    simp only [slice, List.length_take, List.length_drop]
    omega
  refine ⟨h5, l, told s m5 m7, by omega, by omega, by rw [hl]; exact h6, ?_, ?_, by rw [hl]⟩
  · rw [told_append s (by omega : i ≤ n) (by omega : n ≤ l), hn3, told_append s (by omega : n ≤ m1) (by omega : m1 ≤ l), w1,
      told_append s (by omega : m1 ≤ m2) (by omega : m2 ≤ l), w2, told_append s (by omega : m2 ≤ m3) (by omega : m3 ≤ l), w3,
      told_append s (by omega : m3 ≤ m4) (by omega : m4 ≤ l), h2]
    rcases w4 with ⟨_, rfl⟩ | ⟨_, _, w4⟩
    · rw [told_self]
      simp
    · rw [w4]
      simp
  · rw [told_append s (by omega : m5 ≤ m6) (by omega : m6 ≤ m7), w7]
    rcases w6 with ⟨_, rfl⟩ | ⟨_, _, w6⟩
    · rw [told_self]
      simp
    · rw [w6]
      simp

/-- Something is read, whatever it is. -/
abbrev Goes {α : Type} (s : Str) (p : Peg α) : Prop := Scans s p fun _ _ _ => True

theorem Goes.of {α : Type} {s : Str} {p : Peg α} {P : α → Nat → Nat → Prop} (h : Scans s p P) : Goes s p :=
  h.mono fun _ _ _ _ _ _ => trivial

theorem Goes.bind {α β : Type} {s : Str} {p : Peg α} {f : α → Peg β} (hp : Goes s p) (hf : ∀ a, Goes s (f a)) : Goes s (p >>= f) :=
  .of (reads_bind hp hf)

theorem goes_pure {α : Type} {s : Str} (a : α) : Goes s (pure a : Peg α) := .of (reads_pure a)

theorem Goes.or {α : Type} {s : Str} {p q : Peg α} (hp : Goes s p) (hq : Goes s q) : Goes s (Peg.or p q) := reads_or' hp hq

theorem Goes.rule {α : Type} {s : Str} {p : Peg α} (hp : Goes s p) : Goes s (Peg.rule p) := .of (reads_rule hp)

theorem Goes.opt {α : Type} {s : Str} {p : Peg α} (hp : Goes s p) : Goes s (Peg.opt p) := .of (reads_opt hp)

theorem Goes.many {α : Type} {s : Str} {p : Peg α} (hp : Goes s p) : Goes s (Peg.many p) := .of (reads_many hp)

theorem Goes.many1 {α : Type} {s : Str} {p : Peg α} (hp : Goes s p) : Goes s (Peg.many1 p) := .of (reads_many1 hp)

theorem goes_token {s : Str} (t : Str) : Goes s (token t) := .of (reads_token t)

theorem goes_fromNowOnLong {s : Str} : Goes s fromNowOnLong := by
  unfold fromNowOnLong
  refine Goes.rule (Goes.bind (goes_token _) fun _ => Goes.bind (goes_token _) fun _ => Goes.bind (goes_token _) fun _ =>
    Goes.bind (Goes.opt (goes_token _)) fun _ => Goes.bind (Goes.or ?_ ?_) fun _ => Goes.bind (goes_token _) fun _ => goes_pure _)
  · exact Goes.bind (.of reads_actId) fun _ => goes_pure _
  · exact Goes.bind (Goes.many1 (.of tells_word)) fun _ => goes_pure _

theorem reads_actReference {s : Str} : Scans s actReference fun a i j => i < j ∧ ActWritten s a := by
  unfold actReference
  have h1 : Scans s (do let a ← abbreviation; pure { abbreviation := some a } : Peg ParsedActRef) fun a i j => i < j ∧ ActWritten s a := by
    refine (reads_bind reads_abbreviation fun a => reads_pure _).mono ?_
    rintro a i j _ hj ⟨x, m, h1, h2, ⟨n, h3, h4, h5, h6, h7, h8⟩, rfl, rfl⟩
    refine ⟨by omega, Or.inr ⟨x.1, n, m, rfl, rfl, ?_, h6, hj, h7, h8⟩⟩
    rw [← h5]
  have h2 : Scans s (or (do let s ← fromNowOn; pure (some s)) (do fromNowOnLong; pure none) : Peg (Option Str)) fun o i j =>
      ∀ t, o = some t → Abbreviated t ∧ ∃ z w, i ≤ z ∧ z + t.length ≤ j ∧
        slice s z (z + t.length) = t ∧ told s i z ∈ [py"(atovábbiakban", py"(atovábbiakban:"] ∧ w ∈ [py")", py"törvény)"] ∧
        told s (z + t.length) j = w := by
    refine reads_or' ((reads_bind reads_fromNowOn fun a => reads_pure _).mono ?_)
      ((reads_bind goes_fromNowOnLong fun a => reads_pure _).mono ?_)
    · rintro o i j _ _ ⟨t, m, _, _, h, rfl, rfl⟩ t' ht
      injection ht with ht
      exact ht ▸ h
    · rintro o i j _ _ ⟨t, m, _, _, h, rfl, rfl⟩ t' ht
      cases ht
  refine (reads_rule (reads_or' h1 ((reads_bind reads_actId fun a => reads_bind (reads_opt h2) fun f => reads_pure _).mono
    (Q := fun a i j => i < j ∧ ActWritten s a) ?_))).mono ?_
  · rintro a i j _ hj ⟨x, m, h1, h2, ⟨n, h3, h4, h5, h6, h7, h8, e, h9, h10⟩, f, l, h11, h12, h13, rfl, rfl⟩
    refine ⟨by omega, Or.inl ⟨x.1.1, x.1.2, e, n, m, ?_, rfl, h6, by omega, h7, h8, h9, h10, ?_⟩⟩
    · rw [← h5]
    · intro t ht
      rcases h13 with ⟨rfl, rfl⟩ | ⟨o, rfl, h13⟩
      · cases ht
      · obtain ⟨h14, z, w, h15, h16, h17, h18, h19, h20⟩ := h13 t ht
        exact ⟨h14, z, l, w, h15, h16, hj, h17, h18, h19, h20⟩
  · rintro a i j _ _ ⟨n, h1, _, _, h2, h3⟩
    exact ⟨by omega, h3⟩

/-! ## Quotations -/

/-- There is a quotation mark or nothing here. -/
def QuoteStop (s : Str) (i : Nat) : Prop := ∀ c, (s.drop i).head? = some c → c = '„' ∨ c = '”'

theorem stop_of_told {s : Str} {i k : Nat} (h : QuoteStop s i) (hk : i ≤ k) (hl : k ≤ s.length) (ht : told s i k = []) : i = k := by
  rcases Nat.lt_or_eq_of_le hk with hlt | rfl
  · exfalso
    have hi : i < s.length := by omega
    have h1 := h s[i] (by rw [List.head?_drop]; exact List.getElem?_eq_getElem hi)
    have h2 : s[i] ∈ slice s i k := by
      unfold slice
      rw [List.drop_eq_getElem_cons hi, show k - i = (k - i - 1) + 1 by omega, List.take_succ_cons]
      exact List.mem_cons_self ..
    unfold told squeeze at ht
    have h3 := List.filter_eq_nil_iff.mp ht _ h2
    rcases h1 with h1 | h1 <;> rw [h1] at h3 <;> exact h3 (by decide +kernel)
  · rfl

theorem reads_unquoted {s : Str} : Scans s unquoted fun t i j => slice s i j = t ∧ QuoteStop s j := by
  intro i t j hi h
  obtain ⟨h1, h2, _, h3⟩ := reads_pattern _ i t j hi h
  refine ⟨h1, h2, h3, ?_⟩
  intro c hc
  unfold unquoted pattern Regex.ends at h
  rw [List.range_succ, List.reverse_append] at h
  simp only [List.reverse_cons, List.reverse_nil, List.nil_append, List.cons_append, List.head?_cons] at h
  injection h with h
  injection h with _ h
  subst h
  rw [← h1.rest, At.move] at hc
  simp only at hc
  generalize i.rest = l at hc
  clear h1 h2 h3
  induction l with
  | nil => simp at hc
  | cons x l ih =>
    rw [List.takeWhile_cons] at hc
    split at hc
    · exact ih (by simpa using hc)
    · rename_i hx
      simp only [List.length_nil, List.drop_zero, List.head?_cons, Option.some.injEq] at hc
      subst hc
      simp only [bne_iff_ne, Bool.and_eq_true, ne_eq, not_and, Decidable.not_not] at hx
      by_cases hx' : x = '„'
      · exact Or.inl hx'
      · exact Or.inr (hx hx')

theorem reads_quoteIn {s : Str} (n : Nat) : Scans s (quoteIn n) fun q i j => ∃ k, i ≤ k ∧ told s i k = [] ∧ QuoteWritten s q k j := by
  induction n with
  | zero =>
    intro i q j _ h
    cases h
  | succ n ih =>
    unfold quoteIn
    have h1 : Scans s (do let q ← quoteIn n; let t ← unquoted; pure (QuoteTree.list [.list q, .text t]) : Peg QuoteTree) fun x i j =>
        QuoteStop s j ∧ (QuoteStop s i → slice s i j = quoteText x) := by
      refine (reads_bind ih fun q => reads_bind reads_unquoted fun t => reads_pure _).mono ?_
      rintro x i j _ hj ⟨q, m, h1, h2, ⟨k, h3, h4, h5⟩, t, l, h6, h7, ⟨h8, h9⟩, rfl, rfl⟩
      refine ⟨h9, fun h => ?_⟩
      have h10 := stop_of_told h h3 (by have := h5.1; have := h5.2.1; omega) h4
      subst h10
      rw [slice_append s h1 h2, h5.2.2.1, h8]
      simp [quoteText, quotesText]
    have h2 : ∀ (xs : List QuoteTree) (i j : Nat), Chain (fun x i j => QuoteStop s j ∧ (QuoteStop s i → slice s i j = quoteText x)) xs i j →
        QuoteStop s i → QuoteStop s j ∧ slice s i j = quotesText xs := by
      intro xs i j h
      induction h with
      | nil => exact fun h => ⟨h, by simp [slice, quotesText]⟩
      | cons h h1 h2 _ ih =>
        intro h3
        obtain ⟨h4, h5⟩ := ih h.1
        refine ⟨h4, ?_⟩
        rw [slice_append s h1 h2, h.2 h3, h5]
        rfl
    refine (reads_rule (reads_bind (reads_token _) fun o => reads_bind reads_unquoted fun t => reads_bind (reads_many h1) fun inner =>
      reads_bind (reads_token _) fun c => reads_pure _)).mono ?_
    rintro q i j _ hj ⟨k, hk1, hk2, hk3, o, m1, _, _, ⟨rfl, n1, a1, a2, a3, a4⟩, t, m2, b1, b2, ⟨b3, b4⟩, inner, m3, c1, c2, c3, c, m4, d1,
      d2, ⟨rfl, n2, e1, e2, e3, e4⟩, rfl, rfl⟩
    obtain ⟨f1, f2⟩ := h2 _ _ _ c3 b4
    have f3 := stop_of_told f1 e1 (by omega) e3
    subst f3
    refine ⟨n1, by omega, ?_, ?_, hj, ?_, [.text t, .list inner], rfl⟩
    · rw [told_append s hk1 a1, hk3, a3]
      rfl
    · have : n1 < m1 := lt_of_slice (s := s) (by rw [a4]; simp)
      omega
    · rw [slice_append s a2 (by omega : m1 ≤ m4), a4, slice_append s b1 (by omega : m2 ≤ m4), b3, slice_append s c1 d1, f2, e4]
      simp [quotesText, quoteText]

theorem reads_quote {s : Str} : Scans s quote fun q i j => ∃ k, i ≤ k ∧ told s i k = [] ∧ QuoteWritten s q k j := by
  intro i q j hi h
  exact reads_quoteIn _ i q j hi h

theorem tells_quote {s : Str} : Says s quote fun q w => w = squeeze (quotesText q) ∧ ∃ inner, q = .text (py"„") :: inner ++ [.text (py"”")] := by
  refine reads_quote.mono ?_
  rintro q i j _ _ ⟨k, h1, h2, h3, _, h4, h5⟩
  refine ⟨?_, h5⟩
  rw [told_append s h1 (by omega : k ≤ j), h2, told, h4]
  rfl

/-! ## Structural references -/

theorem tells_articles {s : Str} : Says s (opt az) fun _ w => w ∈ articles := by
  refine tells_opt tells_az (by simp [articles]) ?_
  rintro _ w (rfl | rfl) <;> simp [articles]

theorem tells_oneOf {s : Str} (ts : List Str) (h : ts.all (fun t => squeeze t == t) = true := by decide +kernel) :
    Says s (tokens ts) fun a w => w = a ∧ a ∈ ts := by
  refine (tells_tokens ts).mono ?_
  rintro a i j _ _ ⟨h1, h2⟩
  exact ⟨by rw [h2]; simpa using List.all_eq_true.mp h a h1, h1⟩

theorem tells_besideArticle {s : Str} (words : List Str) (hw : words.all (fun t => squeeze t == t) = true) :
    Says s (besideArticle words) fun id w => ∃ a g e, w = a ++ id.flatten ++ (py".") ++ g ++ e ∧ ArticleNumber id.flatten ∧ a ∈ articles ∧
      ArticleSign g ∧ e ∈ words := by
  unfold besideArticle
  refine tells_rule (tells_bind tells_articles fun _ a ha => tells_bind tells_articleIdPieces fun id u hu =>
    tells_bind (tells_mark _) fun _ d hd => tells_bind tells_articleSuffix fun _ g hg => tells_bind (tells_oneOf words hw) fun _ e he =>
    tells_pure ?_)
  obtain ⟨rfl, hu⟩ := hu
  obtain ⟨rfl, he⟩ := he
  subst hd
  exact ⟨a, g, _, by simp, hu, ha, hg, he⟩

theorem tells_afterArticle {s : Str} : Says s afterArticle StructWritten := by
  unfold afterArticle
  refine tells_bind (tells_besideArticle _ (by decide +kernel)) fun id u hu => tells_pure ?_
  obtain ⟨a, g, e, rfl, h1, h2, h3, h4⟩ := hu
  rw [List.append_nil]
  exact .after h1 h2 h3 h4

theorem tells_beforeArticle {s : Str} : Says s beforeArticle StructWritten := by
  unfold beforeArticle
  refine tells_bind (tells_besideArticle _ (by decide +kernel)) fun id u hu => tells_pure ?_
  obtain ⟨a, g, e, rfl, h1, h2, h3, h4⟩ := hu
  rw [List.append_nil]
  exact .before h1 h2 h3 h4

theorem squeeze_append (u v : Str) : squeeze (u ++ v) = squeeze u ++ squeeze v := List.filter_append ..

theorem squeeze_of_says {w a : Str} (h : w = a) (ha : squeeze a = a) : w = squeeze a := by rw [h, ha]

theorem tells_anyToken {s : Str} : Says s anyToken fun a w => w = squeeze a ∧ a ≠ [] := by
  unfold anyToken word number
  refine tells_rule (tells_or (tells_rule ((tells_pattern _).mono ?_)) (tells_or (tells_rule ((tells_pattern _).mono ?_))
    ((tells_pattern _).mono ?_)))
  · rintro a i j _ _ ⟨h1, h2⟩
    exact ⟨h2, (matches_plus h1).1⟩
  · rintro a i j _ _ ⟨h1, h2⟩
    exact ⟨h2, (matches_plus h1).1⟩
  · rintro a i j _ _ ⟨h1, h2⟩
    obtain ⟨c, _, rfl⟩ := matches_set h1
    exact ⟨h2, by simp⟩

theorem tells_subtitleTitle {s : Str} : Says s subtitleTitle StructWritten := by
  unfold subtitleTitle
  have h : Says s (do
      let words ← many (do
        Peg.not (token (py"alcíme"))
        Peg.not (token (py"című"))
        anyToken)
      pure (ParsedStructRef.subtitleTitle (some words) none) : Peg ParsedStructRef) fun r w =>
      (∃ raw, r = .subtitleTitle (some raw) none ∧ w = squeeze raw.flatten) ∨
        ∃ inner q, r = .subtitleTitle none (some q) ∧ q = .text (py"„") :: inner ++ [.text (py"”")] ∧ w = squeeze (quotesText q) := by
    have h1 : Says s (do
        Peg.not (token (py"alcíme"))
        Peg.not (token (py"című"))
        anyToken : Peg Str) fun a w => w = squeeze a := by
      refine (reads_bind reads_not fun _ => reads_bind reads_not fun _ => tells_anyToken).mono ?_
      rintro a i j _ _ ⟨_, m, _, _, rfl, _, l, _, _, rfl, h, _⟩
      exact h
    have h2 : ∀ (xs : List Str) (i j : Nat), Chain (fun a i j => told s i j = squeeze a) xs i j → told s i j = squeeze xs.flatten := by
      intro xs i j h
      induction h with
      | nil => rw [told_self]; rfl
      | cons h h3 h4 _ ih => rw [told_append s h3 h4, h, ih, List.flatten_cons, squeeze_append]
    refine (reads_bind (reads_many h1) fun words => reads_pure _).mono ?_
    rintro r i j _ _ ⟨words, m, _, _, h3, rfl, rfl⟩
    exact Or.inl ⟨words, rfl, h2 _ _ _ h3⟩
  refine tells_rule (tells_bind (tells_or (tells_bind tells_quote fun q u hu => tells_pure ?_) h) fun r u hu =>
    tells_bind (tells_opt (R := fun _ w => w ∈ [py"", py"című"]) (tells_mark _) (by simp) ?_) fun _ c hc =>
    tells_bind (tells_mark _) fun _ e he => tells_pure ?_)
  · obtain ⟨h1, inner, h2⟩ := hu
    exact Or.inr ⟨inner, q, rfl, h2, by simpa using h1⟩
  · rintro _ w rfl
    simp
  · subst he
    rw [List.append_nil, ← List.append_assoc]
    rcases hu with ⟨raw, rfl, rfl⟩ | ⟨inner, q, rfl, hq, rfl⟩
    · exact .words hc
    · exact .quoted hq hc

theorem tells_lettered {s : Str} {p : Peg Str} {N : Str → Prop} (hp : Says s p fun a w => w = a ∧ N a) :
    Says s (lettered p) fun id w => w = id.flatten ∧ Lettered N id.flatten := by
  unfold lettered
  have h : Says s (do let x ← opt (token (py"/")); let l ← pattern (.set isUpperAz); pure (x.toList ++ [l]) : Peg (List Str)) fun a w =>
      w = a.flatten ∧ ∃ c, isUpperAz c = true ∧ (w = [c] ∨ w = ['/', c]) := by
    refine tells_bind (tells_opt (R := fun o w => w = o.toList.flatten ∧ (w = [] ∨ w = py"/")) (tells_token _) ⟨rfl, Or.inl rfl⟩ ?_)
      fun x u hu => tells_bind (tells_letter fun c => upper_not_space) fun l v hv => tells_pure ?_
    · rintro a w ⟨rfl, rfl⟩
      exact ⟨by decide +kernel, Or.inr (by decide +kernel)⟩
    · obtain ⟨hu', hu⟩ := hu
      obtain ⟨rfl, c, hc, rfl⟩ := hv
      refine ⟨by rw [hu']; simp, c, hc, ?_⟩
      rcases hu with h | h
      · exact Or.inl (by rw [h]; rfl)
      · exact Or.inr (by rw [h]; rfl)
  refine tells_bind hp fun n u hu => tells_bind
    (tells_opt (R := fun o w => w = (o.getD []).flatten ∧ (w = [] ∨ ∃ c, isUpperAz c = true ∧ (w = [c] ∨ w = ['/', c]))) h
      ⟨rfl, Or.inl rfl⟩ ?_) fun l v hv => tells_pure ?_
  · rintro a w ⟨rfl, c, hc, h⟩
    exact ⟨rfl, Or.inr ⟨c, hc, h⟩⟩
  · obtain ⟨rfl, hu⟩ := hu
    obtain ⟨hv', hv⟩ := hv
    have : (u :: l.getD []).flatten = u ++ v := by rw [hv']; simp
    rw [this]
    exact ⟨by simp, u, v, rfl, hu, hv⟩

theorem tells_subtitleNumber {s : Str} : Says s subtitleNumber StructWritten := by
  unfold subtitleNumber
  refine tells_rule (tells_bind (tells_lettered tells_number) fun id u hu => tells_bind (tells_mark _) fun _ d hd =>
    tells_bind (tells_suffix' _) fun _ e he => tells_pure ?_)
  obtain ⟨rfl, hu⟩ := hu
  subst hd
  rw [List.append_nil, ← List.append_assoc]
  exact .subtitle hu he.1

theorem tells_chapterNumber {s : Str} : Says s chapterNumber StructWritten := by
  unfold chapterNumber
  refine tells_rule (tells_bind (tells_lettered tells_roman) fun id u hu => tells_bind (tells_mark _) fun _ d hd =>
    tells_bind (tells_suffix' _) fun _ e he => tells_pure ?_)
  obtain ⟨rfl, hu⟩ := hu
  subst hd
  rw [List.append_nil, ← List.append_assoc]
  exact .chapter hu he.1

theorem tells_capitalOrdinal {s : Str} : Says s hungarianOrdinalCapital fun a w => w = a ∧ CapitalOrdinal a := by
  unfold hungarianOrdinalCapital
  exact tells_rule (tells_oneOf _)

theorem tells_ofBook {s : Str} : Says s ofBook BookWritten := by
  unfold ofBook
  refine tells_opt (tells_bind (Q := fun b w => CapitalOrdinal b ∧ w = b ++ py"Könyv") tells_capitalOrdinal fun b u hu =>
    tells_bind (tells_mark _) fun _ k hk => tells_pure ?_) (Or.inl ⟨rfl, rfl⟩) fun b w h => Or.inr ⟨b, rfl, h⟩
  obtain ⟨rfl, hu⟩ := hu
  subst hk
  exact ⟨hu, by simp⟩

theorem tells_partNumber {s : Str} : Says s partNumber StructWritten := by
  unfold partNumber
  refine tells_rule (tells_bind tells_ofBook fun b u hu => tells_bind tells_capitalOrdinal fun id v hv =>
    tells_bind (tells_suffix' _) fun _ e he => tells_pure ?_)
  obtain ⟨rfl, hv⟩ := hv
  rw [List.append_nil, ← List.append_assoc]
  exact .part hu hv he.1

theorem tells_titleNumber {s : Str} : Says s titleNumber StructWritten := by
  unfold titleNumber
  refine tells_rule (tells_bind tells_ofBook fun b u hu => tells_bind (tells_lettered tells_roman) fun id v hv =>
    tells_bind (tells_mark _) fun _ d hd => tells_bind (tells_suffix' _) fun _ e he => tells_pure ?_)
  obtain ⟨rfl, hv⟩ := hv
  subst hd
  have := StructWritten.title hu hv he.1
  simpa using this

theorem tells_structuralAlternatives {s : Str} : Says s structuralAlternatives StructWritten :=
  tells_or tells_subtitleNumber (tells_or tells_subtitleTitle (tells_or tells_chapterNumber (tells_or tells_partNumber tells_titleNumber)))

theorem tells_anyStructuralReference {s : Str} : Says s anyStructuralReference StructWritten := tells_rule tells_structuralAlternatives

theorem tells_insertionToken {s : Str} : Says s insertionToken fun _ w => w = py"akövetkező" := by
  unfold insertionToken
  refine tells_rule ((tells_token _).mono ?_)
  rintro a i j _ _ ⟨_, h⟩
  rw [h]
  decide +kernel

theorem tells_titleInsertionWithBook {s : Str} : Says s titleInsertionWithBook StructWritten := by
  unfold titleInsertionWithBook
  refine tells_rule (tells_bind tells_capitalOrdinal fun b u hu => tells_bind (tells_mark _) fun _ k hk =>
    tells_bind tells_insertionToken fun _ t ht => tells_bind (tells_lettered tells_roman) fun id v hv =>
    tells_bind (tells_mark _) fun _ d hd => tells_bind (tells_suffix' _) fun _ e he => tells_pure ?_)
  obtain ⟨rfl, hu⟩ := hu
  obtain ⟨rfl, hv⟩ := hv
  subst hk ht hd
  have := StructWritten.newTitle hu hv he.1
  simpa using this

theorem reads_structuralPosition {s : Str} : Scans s structuralPosition fun r i j => ∃ n, i ≤ n ∧ StructWritten r (told s n j) := by
  unfold structuralPosition
  refine reads_or' ((reads_bind (Goes.of (reads_opt tells_chapterNumber)) fun _ => tells_afterArticle).mono ?_)
    (reads_or' ((reads_bind (Goes.of (reads_opt tells_chapterNumber)) fun _ => tells_beforeArticle).mono ?_)
      (tells_structuralAlternatives.mono ?_))
  · rintro r i j _ _ ⟨_, m, h1, _, _, h2⟩
    exact ⟨m, h1, h2⟩
  · rintro r i j _ _ ⟨_, m, h1, _, _, h2⟩
    exact ⟨m, h1, h2⟩
  · rintro r i j _ _ h
    exact ⟨i, Nat.le_refl _, h⟩

/-! ## What is inserted -/

theorem parts_snoc {s : Str} {gap : Str → Prop} {ps : List ParsedPart} {p : ParsedPart} {a b n c : Nat} (h : PartsWritten s gap ps a b)
    (hn : b ≤ n) (hg : gap (told s b n)) (hp : PartWritten s p n c) : PartsWritten s gap (ps ++ [p]) a c := by
  induction h with
  | nil => exact .cons hn hg hp (.nil _)
  | cons ha hg' hp' _ ih => exact .cons ha hg' hp' (ih hn hg)

theorem parts_mono {s : Str} {gap gap' : Str → Prop} (hg : ∀ w, gap w → gap' w) {ps : List ParsedPart} {a b : Nat}
    (h : PartsWritten s gap ps a b) : PartsWritten s gap' ps a b := by
  induction h with
  | nil => exact .nil _
  | cons ha hg' hp' _ ih => exact .cons ha (hg _ hg') hp' ih

theorem parts_le {s : Str} {gap : Str → Prop} {ps : List ParsedPart} {a b : Nat} (h : PartsWritten s gap ps a b) : a ≤ b := by
  induction h with
  | nil => exact Nat.le_refl _
  | cons ha _ hp _ ih =>
    have := (part_told hp).1
    omega

theorem noGap_insertion {w : Str} (h : NoGap w) : InsertionGap w := ⟨[], [], by rw [h]; rfl, by simp, by simp⟩

/-- Something may be said before the first of the lists. -/
theorem parts_after {s : Str} {p : ParsedPart} {ps : List ParsedPart} {i m j : Nat} (h : PartsWritten s NoGap (p :: ps) m j) (him : i ≤ m)
    (hg : InsertionGap (told s i m)) : PartsWritten s InsertionGap (p :: ps) i j := by
  cases h with
  | cons ha hg' hp h =>
    refine .cons (Nat.le_trans him ha) ?_ hp (parts_mono (fun _ => noGap_insertion) h)
    rw [told_append s him ha, hg', List.append_nil]
    exact hg

/-- The lists before the one that is new. -/
def Before (s : Str) (ps : List ParsedPart) (d i j : Nat) : Prop :=
  PartsWritten s InsertionGap ps i j ∧ (∀ x ∈ ps, PartKind.depth x.kind < d) ∧ (ps.map fun x => PartKind.depth x.kind).Pairwise (· < ·)

theorem Before.snoc {s : Str} {ps : List ParsedPart} {p : ParsedPart} {d i j n k : Nat} (h : Before s ps d i j) (hn : j ≤ n)
    (hg : InsertionGap (told s j n)) (hd : PartKind.depth p.kind = d) (hp : PartWritten s p n k) : Before s (ps ++ [p]) (d + 1) i k := by
  refine ⟨parts_snoc h.1 hn hg hp, ?_, ?_⟩
  · intro x hx
    rcases List.mem_append.mp hx with hx | hx
    · have := h.2.1 x hx
      omega
    · rw [List.mem_singleton] at hx
      subst hx
      omega
  · rw [List.map_append, List.pairwise_append]
    refine ⟨h.2.2, by simp, ?_⟩
    intro x hx y hy
    obtain ⟨z, hz, rfl⟩ := List.mem_map.mp hx
    simp only [List.map_cons, List.map_nil, List.mem_singleton] at hy
    subst hy
    have := h.2.1 z hz
    omega

theorem reads_article {s : Str} : Scans s (do let a ← articleReference; pure [a] : Peg (List ParsedPart)) fun xs i j =>
    ∃ p ps, xs = p :: ps ∧ PartsWritten s NoGap xs i j ∧ (∀ x ∈ xs, PartKind.depth x.kind < 1) ∧
      (xs.map fun x => PartKind.depth x.kind).Pairwise (· < ·) := by
  refine (reads_bind reads_articleReference fun x => reads_pure _).mono ?_
  rintro ps i j _ _ ⟨x, m, _, _, ⟨n, h1, h2, h3, h4⟩, rfl, rfl⟩
  exact ⟨x, [], rfl, .cons h1 h2 h4 (.nil _), by simp [h3], by simp⟩

theorem reads_articleAndParagraph {s : Str} : Scans s articleAndParagraph fun xs i j =>
    ∃ p ps, xs = p :: ps ∧ PartsWritten s NoGap xs i j ∧ (∀ x ∈ xs, PartKind.depth x.kind < 2) ∧
      (xs.map fun x => PartKind.depth x.kind).Pairwise (· < ·) := by
  unfold articleAndParagraph
  refine (reads_bind reads_articleReference fun x => reads_bind (reads_opt reads_paragraphReference) fun p => reads_pure _).mono ?_
  rintro ps i j _ _ ⟨x, m, _, _, ⟨n, h1, h2, h3, h4⟩, p, l, _, _, h5, rfl, rfl⟩
  rcases h5 with ⟨rfl, rfl⟩ | ⟨y, rfl, k, h6, h7, h8, h9⟩
  · exact ⟨x, [], rfl, .cons h1 h2 h4 (.nil _), by simp [h3], by simp⟩
  · exact ⟨x, [y], rfl, .cons h1 h2 h4 (.cons h6 h7 h9 (.nil _)), by simp [h3, h8], by simp [h3, h8]⟩

theorem tells_tokensTo {s : Str} (ts es : List Str) (h : ts.map squeeze = es := by decide +kernel) : Says s (tokens ts) fun _ w => w ∈ es := by
  refine (tells_tokens ts).mono ?_
  rintro a i j _ _ ⟨h1, h2⟩
  rw [h2, ← h]
  exact List.mem_map_of_mem h1

theorem tells_tokenTo {s : Str} (t e : Str) (h : squeeze t = e := by decide +kernel) : Says s (token t) fun _ w => w = e := by
  refine (tells_token t).mono ?_
  rintro a i j _ _ ⟨_, h2⟩
  rw [h2, h]

theorem gap_article {w : Str} (h : w ∈ articles) : InsertionGap w := by
  refine ⟨w, [], by simp, ?_, by simp⟩
  simp only [articles, List.mem_cons, List.not_mem_nil, or_false] at h
  rcases h with rfl | rfl | rfl <;> simp

theorem reads_insertedInto {s : Str} {p : Peg (List ParsedPart)} {d : Nat} (words : List Str)
    (hw : ∀ w ∈ words, squeeze w ∈ [py"", py"a", py"az", py"a§", py"abekezdés"])
    (hp : Scans s p fun xs i j => ∃ p ps, xs = p :: ps ∧ PartsWritten s NoGap xs i j ∧ (∀ x ∈ xs, PartKind.depth x.kind < d) ∧
      (xs.map fun x => PartKind.depth x.kind).Pairwise (· < ·)) :
    Scans s (insertedInto p words) fun ps i j => ∃ b, b ≤ j ∧ Before s ps d i b ∧
      told s b j ∈ [py"", py"a", py"az", py"a§", py"abekezdés"] := by
  unfold insertedInto
  have h1 : Scans s (do let _ ← opt az; p : Peg (List ParsedPart)) fun ps i j => ∃ b, b ≤ j ∧ Before s ps d i b ∧
      told s b j ∈ [py"", py"a", py"az", py"a§", py"abekezdés"] := by
    refine (reads_bind tells_articles fun _ => hp).mono ?_
    rintro ps i j _ _ ⟨_, m, h1, _, h2, q, qs, rfl, h3, h4, h5⟩
    exact ⟨j, Nat.le_refl _, ⟨parts_after h3 h1 (gap_article h2), h4, h5⟩, by rw [told_self]; simp⟩
  have h2 : Scans s (do let _ ← tokens words; pure [] : Peg (List ParsedPart)) fun ps i j => ∃ b, b ≤ j ∧ Before s ps d i b ∧
      told s b j ∈ [py"", py"a", py"az", py"a§", py"abekezdés"] := by
    refine (reads_bind (tells_tokens words) fun _ => reads_pure _).mono ?_
    rintro ps i j _ _ ⟨t, m, h1, _, ⟨h2, h3⟩, rfl, rfl⟩
    exact ⟨i, h1, ⟨.nil _, by simp, by simp⟩, by rw [h3]; exact hw t h2⟩
  refine (reads_bind (reads_opt (reads_or' h1 h2)) fun ps => reads_pure _).mono ?_
  rintro ps i j _ _ ⟨o, m, _, _, h3, rfl, rfl⟩
  rcases h3 with ⟨rfl, rfl⟩ | ⟨ps, rfl, h3⟩
  · exact ⟨i, Nat.le_refl _, ⟨.nil _, by simp, by simp⟩, by rw [told_self]; simp⟩
  · exact h3

/-- The new one comes after `a következő`. -/
theorem before_inserted {s : Str} {ps : List ParsedPart} {p : ParsedPart} {d i b k m n j : Nat} (h : Before s ps d i b) (hb : b ≤ k)
    (hx : told s b k ∈ [py"", py"a", py"az", py"a§", py"abekezdés"]) (hk : k ≤ m) (ht : told s k m = py"akövetkező") (hm : m ≤ n)
    (hn : told s m n = []) (hd : PartKind.depth p.kind = d) (hp : PartWritten s p n j) : Before s (ps ++ [p]) (d + 1) i j := by
  refine h.snoc (by omega) ?_ hd hp
  refine ⟨_, py"akövetkező", ?_, hx, by simp⟩
  rw [told_append s (by omega : b ≤ m) hm, told_append s hb hk, ht, hn, List.append_nil]

theorem reads_insertionReference {s : Str} : Scans s insertionReference fun r i j => i < j ∧ RefWritten s InsertionGap r := by
  unfold insertionReference
  have key : ∀ {ps : List ParsedPart} {d i j : Nat}, Before s ps d i j → ps ≠ [] → told s i j ≠ [] := by
    intro ps d i j h hne
    have h1 := h.1
    cases h1 with
    | nil => exact absurd rfl hne
    | cons ha _ hp h' =>
      have h2 := part_told hp
      have h3 := parts_le h'
      rw [told_append s ha (by omega), told_append s (Nat.le_of_lt h2.1) h3]
      simp [h2.2]
  have h1 : Scans s (do let _ ← insertionToken; articleAndParagraph : Peg (List ParsedPart)) fun ps i j => Before s ps 4 i j ∧ ps ≠ [] := by
    refine (reads_bind tells_insertionToken fun _ => reads_articleAndParagraph).mono ?_
    rintro ps i j _ _ ⟨_, m, h1, _, h2, q, qs, rfl, h3, h4, h5⟩
    refine ⟨⟨parts_after h3 h1 ⟨[], py"akövetkező", h2, by simp, by simp⟩, ?_, h5⟩, by simp⟩
    intro x hx
    have := h4 x hx
    omega
  have h2 : Scans s (do
      let ps ← insertedInto (do let a ← articleReference; pure [a]) [py"a §"]
      let _ ← insertionToken
      let p ← paragraphReference
      pure (ps ++ [p]) : Peg (List ParsedPart)) fun ps i j => Before s ps 4 i j ∧ ps ≠ [] := by
    refine (reads_bind (reads_insertedInto _ (by decide +kernel) reads_article) fun ps => reads_bind tells_insertionToken fun _ =>
      reads_bind reads_paragraphReference fun p => reads_pure _).mono ?_
    rintro ps i j _ _ ⟨qs, k, _, _, ⟨b, h1, h2, h3⟩, _, m, h4, _, h5, p, l, _, _, ⟨n, h6, h7, h8, h9⟩, rfl, rfl⟩
    have h := before_inserted h2 h1 h3 h4 h5 h6 h7 h8 h9
    exact ⟨⟨h.1, fun x hx => Nat.lt_of_lt_of_le (h.2.1 x hx) (by decide), h.2.2⟩, by simp⟩
  have h3 : Scans s (do
      let ps ← insertedInto articleAndParagraph [py"a §", py"a bekezdés"]
      let _ ← insertionToken
      let p ← anyPoint
      pure (ps ++ [p]) : Peg (List ParsedPart)) fun ps i j => Before s ps 4 i j ∧ ps ≠ [] := by
    refine (reads_bind (reads_insertedInto _ (by decide +kernel) reads_articleAndParagraph) fun ps => reads_bind tells_insertionToken fun _ =>
      reads_bind reads_anyPoint fun p => reads_pure _).mono ?_
    rintro ps i j _ _ ⟨qs, k, _, _, ⟨b, h1, h2, h3⟩, _, m, h4, _, h5, p, l, _, _, ⟨n, h6, h7, h8, h9⟩, rfl, rfl⟩
    have h := before_inserted h2 h1 h3 h4 h5 h6 h7 h8 h9
    exact ⟨⟨h.1, fun x hx => Nat.lt_of_lt_of_le (h.2.1 x hx) (by decide), h.2.2⟩, by simp⟩
  have h4 : Scans s (do
      let _ ← opt az
      let ps ← articleAndParagraph
      let p ← anyPoint
      let _ ← insertionToken
      let s ← anySubpoint
      pure (ps ++ [p, s]) : Peg (List ParsedPart)) fun ps i j => Before s ps 4 i j ∧ ps ≠ [] := by
    refine (reads_bind tells_articles fun _ => reads_bind reads_articleAndParagraph fun ps => reads_bind reads_anyPoint fun p =>
      reads_bind tells_insertionToken fun _ => reads_bind reads_anySubpoint fun q => reads_pure _).mono ?_
    rintro ps i j _ _ ⟨_, k, g1, _, g2, qs, b, _, _, ⟨x, xs, rfl, g3, g4, g5⟩, p, m, _, _, ⟨n, h1, h2, h3, h4⟩, _, l, h5, _, h6, q, z, _, _,
      ⟨y, h7, h8, h9, h10⟩, rfl, rfl⟩
    have g : Before s (x :: xs) 2 i b := ⟨parts_after g3 g1 (gap_article g2), g4, g5⟩
    have h := g.snoc h1 (noGap_insertion h2) h3 h4
    have h' := before_inserted h (Nat.le_refl _) (by rw [told_self]; simp) h5 h6 h7 h8 h9 h10
    rw [List.append_assoc] at h'
    exact ⟨h', by simp⟩
  refine (reads_located (reads_or' h1 (reads_or' h2 (reads_or' h3 h4)))).mono ?_
  rintro r i j _ hj ⟨n, g1, g2, g3, g4, g5, g6⟩
  have g7 := key g5 g6
  have g8 := lt_of_told g7
  exact ⟨by omega, n, j, j, g4, g8, Nat.le_refl _, hj, g5.1, noGap_insertion (told_self ..), g5.2.2⟩

theorem tells_subtitleToken {s : Str} : Says s subtitleToken fun _ w => w ≠ [] := by
  unfold subtitleToken
  refine tells_rule (tells_or (tells_bind (tells_tokensTo _ _ rfl) fun _ u hu => tells_pure ?_)
    (tells_bind (tells_mark _) fun _ u hu => tells_bind (tells_opt (R := fun _ _ => True) (tells_pattern _) trivial fun _ _ _ => trivial)
      fun _ v hv => tells_pure ?_))
  · rw [List.append_nil]
    rintro rfl
    revert hu
    decide +kernel
  · rw [hu]
    simp

theorem reads_referenceWithSubtitle {s : Str} : Scans s referenceWithSubtitle fun r i j => i < j ∧ RefWritten s (fun _ => True) r := by
  unfold referenceWithSubtitle
  have h1 : Scans s (do
      subtitleToken
      let _ ← token (py"és")
      let a ← articleReference
      pure [a] : Peg (List ParsedPart)) fun ps i j => i < j ∧ ∃ b, b ≤ j ∧ PartsWritten s (fun _ => True) ps i b ∧
        (ps.map fun x => PartKind.depth x.kind).Pairwise (· < ·) := by
    refine (reads_bind tells_subtitleToken fun _ => reads_bind (goes_token _) fun _ => reads_bind reads_articleReference fun a =>
      reads_pure _).mono ?_
    rintro ps i j _ _ ⟨_, m, a1, a2, a3, _, l, a4, a5, _, a, k, a6, a7, ⟨n, a8, _, _, a9⟩, rfl, rfl⟩
    have := lt_of_told a3
    exact ⟨by omega, _, Nat.le_refl _, .cons (by omega) trivial a9 (.nil _), by simp⟩
  have h2 : Scans s (do
      let a ← articleReference
      let _ ← token (py"és")
      let _ ← az
      let _ ← opt (tokens [py"azt", py"azokat"])
      let _ ← token (py"megelőző")
      subtitleToken
      pure [a] : Peg (List ParsedPart)) fun ps i j => i < j ∧ ∃ b, b ≤ j ∧ PartsWritten s (fun _ => True) ps i b ∧
        (ps.map fun x => PartKind.depth x.kind).Pairwise (· < ·) := by
    refine (reads_bind reads_articleReference fun a => reads_bind (goes_token _) fun _ => reads_bind tells_az fun _ =>
      reads_bind (reads_opt (tells_tokens _)) fun _ => reads_bind (goes_token _) fun _ => reads_bind tells_subtitleToken fun _ =>
      reads_pure _).mono ?_
    rintro ps i j _ _ ⟨a, m, _, _, ⟨n, a1, _, _, a2⟩, _, l1, _, _, _, _, l2, _, _, _, _, l3, _, _, _, _, l4, _, _, _, _, l5, _, _, _, rfl, rfl⟩
    have := (part_told a2).1
    exact ⟨by omega, m, by omega, .cons a1 trivial a2 (.nil _), by simp⟩
  have h3 : Scans s (do
      subtitleToken
      pure [] : Peg (List ParsedPart)) fun ps i j => i < j ∧ ∃ b, b ≤ j ∧ PartsWritten s (fun _ => True) ps i b ∧
        (ps.map fun x => PartKind.depth x.kind).Pairwise (· < ·) := by
    refine (reads_bind tells_subtitleToken fun _ => reads_pure _).mono ?_
    rintro ps i j _ _ ⟨_, m, a1, a2, a3, rfl, rfl⟩
    exact ⟨lt_of_told a3, i, a1, .nil _, by simp⟩
  refine (reads_located (reads_or' h1 (reads_or' h2 h3))).mono ?_
  rintro r i j _ hj ⟨n, g1, g2, g3, g4, g5, b, g6, g7, g8⟩
  exact ⟨by omega, n, b, j, g4, g5, g6, hj, g7, trivial, g8⟩

/-! ## The ends of sentences -/

theorem tells_andColon {α : Type} {s : Str} {p : Peg α} {es : List Str} (hp : Says s p fun _ w => w ∈ es) :
    Says s (andColon p) fun _ w => w ∈ es.map (· ++ py":") := by
  unfold andColon
  refine tells_bind hp fun _ u hu => tells_bind (tells_mark _) fun _ v hv => tells_pure ?_
  rw [hv, List.append_nil]
  exact List.mem_map_of_mem hu

theorem tells_amendmentSuffix {s : Str} : Says s amendmentSuffix fun _ w =>
    w ∈ [py"helyébeakövetkezőrendelkezéslép", py"helyébeakövetkezőrendelkezéseklépnek", py"akövetkezőszöveggelléphatályba"] := by
  unfold amendmentSuffix
  refine tells_rule (tells_or (tells_bind (tells_tokenTo _ _ rfl) fun _ u hu => tells_bind (tells_tokensTo _ _ rfl) fun _ v hv => tells_pure ?_)
    (tells_bind (tells_tokenTo _ _ rfl) fun _ u hu => tells_pure ?_))
  · rw [hu, List.append_nil]
    have : ∀ v ∈ [py"rendelkezés lép", py"rendelkezések lépnek"].map squeeze, squeeze (py"helyébe a következő") ++ v ∈
        [py"helyébeakövetkezőrendelkezéslép", py"helyébeakövetkezőrendelkezéseklépnek", py"akövetkezőszöveggelléphatályba"] := by
      decide +kernel
    exact this v hv
  · rw [hu]
    decide +kernel

theorem tells_amendmentEnd {s : Str} : Says s (andColon amendmentSuffix) fun _ w => w ∈ amendmentEnds := tells_andColon tells_amendmentSuffix

theorem tells_insertionEnd {s : Str} : Says s (andColon insertionSuffix) fun _ w => w ∈ insertionEnds := by
  refine tells_andColon (es := [py"egészülki", py"kiegészülveléphatályba"]) ?_
  unfold insertionSuffix
  exact tells_rule (tells_tokensTo _ _)

theorem tells_optTokensTo {s : Str} (ts es : List Str) (h : ts.map squeeze = es := by decide +kernel) :
    Says s (opt (tokens ts)) fun _ w => w ∈ [] :: es :=
  tells_opt (tells_tokensTo ts es h) (by simp) fun _ _ h => List.mem_cons_of_mem _ h

theorem tells_optToken {s : Str} (t : Str) : Says s (opt (token t)) fun _ w => w ∈ [[], squeeze t] :=
  tells_opt (tells_tokenTo t _ rfl) (by simp) fun _ w h => by simp [h]

theorem tells_subtitleEnd {s : Str} : Says s (andColon amendmentSuffixWithSubtitle) fun _ w => w ∈ amendmentEnds ++ subtitleEnds := by
  unfold andColon amendmentSuffixWithSubtitle
  refine tells_bind (P := fun _ w => w ++ py":" ∈ subtitleEnds) (tells_rule (tells_bind (tells_tokenTo _ _ rfl) fun _ a ha =>
    tells_bind (tells_optToken _) fun _ b hb => tells_bind (tells_tokenTo _ _ rfl) fun _ c hc =>
    tells_bind (tells_optToken _) fun _ d hd => tells_bind (tells_tokensTo _ _ rfl) fun _ e he => tells_pure ?_)) fun _ u hu =>
    tells_bind (tells_mark _) fun _ v hv => tells_pure ?_
  · have : ∀ b ∈ [[], squeeze (py"rendelkezés és")], ∀ d ∈ [[], squeeze (py"és rendelkezés")], ∀ e ∈ [py"lép", py"lépnek"].map squeeze,
        (squeeze (py"helyébe a következő") ++ (b ++ (squeeze (py"alcím") ++ (d ++ (e ++ []))))) ++ py":" ∈ subtitleEnds := by
      decide +kernel
    rw [ha, hc]
    exact this b hb d hd e he
  · rw [hv, List.append_nil]
    exact List.mem_append_right _ hu

theorem tells_structureEnd {s : Str} : Says s (andColon amendmentSuffixWithStructural) fun _ w => w ∈ amendmentEnds ++ structureEnds := by
  unfold andColon amendmentSuffixWithStructural
  refine tells_bind (P := fun _ w => w ++ py":" ∈ structureEnds) (tells_rule (tells_bind (tells_tokenTo _ _ rfl) fun _ a ha =>
    tells_bind (tells_optTokensTo _ _ rfl) fun _ b hb => tells_bind (tells_tokenTo _ _ rfl) fun _ c hc => tells_pure ?_)) fun _ u hu =>
    tells_bind (tells_mark _) fun _ v hv => tells_pure ?_
  · have : ∀ b ∈ [] :: [py"cím", py"fejezet", py"rész"].map squeeze,
        (squeeze (py"helyébe a következő") ++ (b ++ (squeeze (py"lép") ++ []))) ++ py":" ∈ structureEnds := by
      decide +kernel
    rw [ha, hc]
    exact this b hb
  · rw [hv, List.append_nil]
    exact List.mem_append_right _ hu

theorem told_whole (s : Str) : told s 0 s.length = squeeze s := by simp [told, slice]

theorem endsIn_of {s : Str} {ends : List Str} {m j : Nat} (hm : m ≤ j) (hj : j ≤ s.length) (h : told s m j ∈ ends)
    (he : told s j s.length = []) : EndsIn s ends := by
  refine ⟨_, h, told s 0 m, ?_⟩
  rw [← told_whole, told_append s (Nat.zero_le m) (by omega : m ≤ s.length), told_append s hm hj, he, List.append_nil]

theorem beginsWith_of {s : Str} {bs : List Str} {i m : Nat} (hi : i ≤ m) (hm : m ≤ s.length) (h : told s i m ∈ bs)
    (hb : told s 0 i = []) : BeginsWith s bs := by
  refine ⟨_, h, told s m s.length, ?_⟩
  rw [← told_whole, told_append s (Nat.zero_le i) (by omega : i ≤ s.length), told_append s hi hm, hb, List.nil_append]

theorem endsIn_mono {s : Str} {es fs : List Str} (h : ∀ e ∈ es, e ∈ fs) : EndsIn s es → EndsIn s fs := fun ⟨e, h1, h2⟩ => ⟨e, h e h1, h2⟩

/-! ## Dates -/

theorem tells_date {s : Str} : Says s date DateWritten := by
  unfold date month
  refine tells_rule (tells_bind tells_number fun y u hu => tells_bind (tells_mark _) fun _ d hd =>
    tells_bind (tells_rule (tells_oneOf _)) fun m v hv => tells_bind tells_number fun n x hx =>
    tells_bind (tells_tokensTo _ [py"-án", py"-jén", py"-én", py".napján"]) fun _ e he => tells_pure ?_)
  obtain ⟨rfl, hu⟩ := hu
  obtain ⟨rfl, hv⟩ := hv
  obtain ⟨rfl, hx⟩ := hx
  subst hd
  exact ⟨hu, hv, hx, e, he, by simp⟩

theorem tells_hungarianOrdinal {s : Str} : Says s hungarianOrdinal fun a w => w = a ∧ Ordinal a := by
  unfold hungarianOrdinal
  exact tells_rule (tells_oneOf _)

theorem tells_numberWithDot {s : Str} : Says s numberWithDot fun a w => Digits a ∧ w = a ++ py"." := by
  unfold numberWithDot
  refine tells_rule (tells_bind tells_number fun n u hu => tells_bind (tells_mark _) fun _ d hd => tells_pure ?_)
  obtain ⟨rfl, hu⟩ := hu
  subst hd
  exact ⟨hu, by simp⟩

theorem tells_afterItsPublication {s : Str} : Says s afterItsPublication fun _ w => AfterPublicationWritten w := by
  unfold afterItsPublication
  refine tells_bind (tells_optTokensTo _ [py"a", py"etörvény"]) fun _ a ha =>
    tells_bind (tells_tokensTo _ [py"kihirdetését", py"kihirdetést"]) fun _ k hk => tells_bind (tells_mark _) fun _ e he => tells_pure ?_
  subst he
  exact ⟨a, k, by simp, ha, hk⟩

theorem tells_afterPublication {s : Str} {d : ParsedEnforcementDate} (h1 : d.exactDate = none) (h2 : d.dayInMonth = none) :
    Says s afterPublication fun p w => TimeWritten { d with afterPublication := some p } w := by
  unfold afterPublication
  have h : Says s (or (do let t ← hungarianOrdinal; pure { asText := some t }) (do let n ← numberWithDot; pure { asNumber := some n }) :
      Peg ParsedAfterPublication) fun p w => CountWritten p.asNumber p.asText w := by
    refine tells_or (tells_bind tells_hungarianOrdinal fun t u hu => tells_pure ?_) (tells_bind tells_numberWithDot fun n u hu => tells_pure ?_)
    · obtain ⟨rfl, hu⟩ := hu
      exact Or.inl ⟨rfl, u, rfl, hu, by simp⟩
    · exact Or.inr ⟨rfl, n, rfl, hu.1, by simp [hu.2]⟩
  refine tells_rule (tells_bind tells_afterItsPublication fun _ u hu =>
    tells_bind (tells_opt (R := fun o w => (o = none ∧ w = []) ∨ ∃ p, o = some p ∧ CountWritten p.asNumber p.asText w) h (Or.inl ⟨rfl, rfl⟩)
      fun p w h => Or.inr ⟨p, rfl, h⟩) fun o v hv => tells_bind (tells_mark _) fun _ e he => tells_pure ?_)
  subst he
  rcases hv with ⟨rfl, rfl⟩ | ⟨p, rfl, hv⟩
  · exact TimeWritten.nextDay h1 rfl h2 hu
  · have := TimeWritten.days (d := { d with afterPublication := some p }) h1 rfl h2 hu hv
    simpa using this

theorem tells_dayInMonth {s : Str} {d : ParsedEnforcementDate} (h1 : d.exactDate = none) (h2 : d.afterPublication = none) :
    Says s dayInMonth fun p w => TimeWritten { d with dayInMonth := some p } w := by
  unfold dayInMonth
  refine tells_rule (tells_bind tells_afterItsPublication fun _ u hu =>
    tells_bind (tells_opt (R := fun o w => (o = none ∧ w = []) ∨ ∃ t, o = some t ∧ Ordinal t ∧ w = t) tells_hungarianOrdinal (Or.inl ⟨rfl, rfl⟩)
      fun p w h => Or.inr ⟨p, rfl, h.2, h.1⟩) fun m v hv => tells_bind (tells_mark _) fun _ k hk =>
    tells_bind (P := fun p w => p.month = m ∧ CountWritten p.dayAsNumber p.dayAsText w) (tells_or
      (tells_bind tells_hungarianOrdinal fun t x hx => tells_pure ?_) (tells_bind tells_numberWithDot fun n x hx => tells_pure ?_))
    fun p x hx => tells_bind (tells_mark _) fun _ e he => tells_pure ?_)
  · obtain ⟨rfl, hx⟩ := hx
    exact ⟨rfl, Or.inl ⟨rfl, x, rfl, hx, by simp⟩⟩
  · exact ⟨rfl, Or.inr ⟨rfl, n, rfl, hx.1, by simp [hx.2]⟩⟩
  · subst hk he
    obtain ⟨hm, hx⟩ := hx
    have := TimeWritten.dayInMonth (d := { d with dayInMonth := some p }) h1 h2 rfl hu (by rw [hm]; exact hv) hx
    simpa using this

/-! ## Sentences -/

/-- All that a sentence says is written in it. -/
def Sentence (s : Str) (p : Peg ParseTree) : Prop :=
  Scans s p fun t i j => told s 0 i = [] → told s j s.length = [] → ∀ n ∈ treeNodes t, NodeWritten s n

theorem sentence_rule {s : Str} {p : Peg ParseTree} (h : Sentence s p) : Sentence s (rule p) := by
  refine (reads_rule h).mono ?_
  rintro t i j _ _ ⟨n, h1, h2, h3, h4⟩ h5 h6
  exact h4 (by rw [told_append s (Nat.zero_le i) h1, h5, h3]; rfl) h6

theorem sentence_or {s : Str} {p q : Peg ParseTree} (hp : Sentence s p) (hq : Sentence s q) : Sentence s (or p q) := reads_or' hp hq

theorem nodes_withAct {s : Str} {a : ParsedActRef} {n : GrammarNode} (ha : ActWritten s a) (hn : NodeWritten s n) :
    ∀ x ∈ treeNodes (withAct a n), NodeWritten s x := by
  intro x hx
  simp only [withAct, treeNodes, treesNodes, List.append_nil, List.nil_append, List.cons_append, List.mem_cons, List.not_mem_nil,
    or_false] at hx
  rcases hx with rfl | rfl
  · exact ha
  · exact hn

theorem goes_actTitle {s : Str} : Goes s actTitle := by
  unfold actTitle
  refine Goes.rule (Goes.many (Goes.bind (.of reads_not) fun _ => .of tells_anyToken))

theorem reads_amendedAct {s : Str} : Scans s amendedAct fun a _ _ => ActWritten s a := by
  unfold amendedAct
  refine (reads_bind (Goes.of (reads_pattern _)) fun _ => reads_bind goes_actTitle fun _ => reads_actReference).mono ?_
  rintro a i j _ _ ⟨_, _, _, _, _, _, _, _, _, _, h⟩
  exact h.2

theorem sentence_blockAmendment {s : Str} : Sentence s blockAmendment := by
  unfold blockAmendment
  refine sentence_rule ((reads_bind reads_amendedAct fun a => reads_bind (Goes.of (reads_opt reads_structuralPosition)) fun _ =>
    (?_ : Scans s _ fun t i j => ActWritten s a → told s j s.length = [] → ∀ n ∈ treeNodes t, NodeWritten s n)).mono ?_)
  · refine reads_or' ((reads_bind reads_reference fun r => reads_bind tells_amendmentEnd fun _ => reads_pure _).mono ?_)
      (reads_or' ((reads_bind reads_insertionReference fun r => reads_bind tells_insertionEnd fun _ => reads_pure _).mono ?_)
      ((reads_bind reads_reference fun r => reads_bind (Goes.of tells_amendmentSuffix) fun _ => reads_bind (Goes.opt (goes_token _)) fun _ =>
        reads_bind (Goes.of (tells_tokens _)) fun _ => reads_bind reads_insertionReference fun i => reads_bind tells_insertionEnd fun _ =>
        reads_pure _).mono ?_))
    · rintro t i j _ hj ⟨r, m, _, _, ⟨n, _, _, _, _, h1⟩, _, l, h2, _, h3, rfl, rfl⟩ ha he
      exact nodes_withAct ha ⟨ha, by simpa using h1, by simp, Or.inl ⟨by simp, rfl, endsIn_of h2 hj h3 he⟩⟩
    · rintro t i j _ hj ⟨r, m, _, _, h1, _, l, h2, _, h3, rfl, rfl⟩ ha he
      exact nodes_withAct ha ⟨ha, by simp, by simpa using h1.2, Or.inr ⟨by simp, endsIn_of h2 hj h3 he⟩⟩
    · rintro t i j _ hj ⟨r, m, _, _, ⟨n, _, _, _, _, h1⟩, _, _, _, _, _, _, _, _, _, _, _, _, _, _, _, k, m', _, _, h4, _, l, h2, _, h3, rfl, rfl⟩ ha he
      exact nodes_withAct ha ⟨ha, by simpa using h1, by simpa using h4.2, Or.inr ⟨by simp, endsIn_of h2 hj h3 he⟩⟩
  · rintro t i j _ hj ⟨a, m, _, _, h1, _, l, _, _, _, h2⟩ _ he
    exact h2 h1 he

theorem sentence_blockAmendmentWithSubtitle {s : Str} : Sentence s blockAmendmentWithSubtitle := by
  unfold blockAmendmentWithSubtitle
  refine sentence_rule ((reads_bind reads_amendedAct fun a => reads_bind (reads_opt reads_structuralPosition) fun o =>
    (?_ : Scans s _ fun t i j => ActWritten s a → (∀ x ∈ o, ∃ i j, StructWritten x (told s i j)) → told s j s.length = [] →
      ∀ n ∈ treeNodes t, NodeWritten s n)).mono ?_)
  · refine reads_or' ((reads_bind reads_referenceWithSubtitle fun r => reads_bind tells_amendmentEnd fun _ => reads_pure _).mono ?_)
      (reads_or' ((reads_bind reads_referenceWithSubtitle fun r => reads_bind tells_subtitleEnd fun _ => reads_pure _).mono ?_)
      ((reads_bind (Goes.of tells_insertionToken) fun _ => reads_bind reads_referenceWithSubtitle fun i => reads_bind tells_insertionEnd fun _ =>
        reads_pure _).mono ?_))
    · rintro t i j _ hj ⟨r, m, _, _, h1, _, l, h2, _, h3, rfl, rfl⟩ ha ho he
      exact nodes_withAct ha ⟨ha, ho, by simpa using h1.2, by simp, Or.inl ⟨by simp, rfl,
        endsIn_of h2 hj (List.mem_append_left _ h3) he⟩⟩
    · rintro t i j _ hj ⟨r, m, _, _, h1, _, l, h2, _, h3, rfl, rfl⟩ ha ho he
      exact nodes_withAct ha ⟨ha, ho, by simpa using h1.2, by simp, Or.inl ⟨by simp, rfl, endsIn_of h2 hj h3 he⟩⟩
    · rintro t i j _ hj ⟨_, _, _, _, _, r, m, _, _, h1, _, l, h2, _, h3, rfl, rfl⟩ ha ho he
      exact nodes_withAct ha ⟨ha, ho, by simp, by simpa using h1.2, Or.inr ⟨rfl, by simp, endsIn_of h2 hj h3 he⟩⟩
  · rintro t i j _ hj ⟨a, m, _, _, h1, o, l, _, _, h3, h2⟩ _ he
    refine h2 h1 ?_ he
    intro x hx
    rcases h3 with ⟨rfl, _⟩ | ⟨y, rfl, n, _, h3⟩
    · cases hx
    · cases hx
      exact ⟨_, _, h3⟩

theorem sentence_blockAmendmentStructural {s : Str} : Sentence s blockAmendmentStructural := by
  unfold blockAmendmentStructural
  refine sentence_rule ((reads_bind reads_amendedAct fun a =>
    (?_ : Scans s _ fun t i j => ActWritten s a → told s j s.length = [] → ∀ n ∈ treeNodes t, NodeWritten s n)).mono ?_)
  · refine reads_or' ((reads_bind tells_anyStructuralReference fun r => reads_bind tells_amendmentEnd fun _ => reads_pure _).mono ?_)
      (reads_or' ((reads_bind tells_anyStructuralReference fun r => reads_bind tells_structureEnd fun _ => reads_pure _).mono ?_)
      (reads_or' ((reads_bind (Goes.of tells_insertionToken) fun _ => reads_bind tells_anyStructuralReference fun r =>
        reads_bind tells_insertionEnd fun _ => reads_pure _).mono ?_)
      ((reads_bind tells_titleInsertionWithBook fun r => reads_bind tells_insertionEnd fun _ => reads_pure _).mono ?_)))
    · rintro t i j _ hj ⟨r, m, _, _, h1, _, l, h2, _, h3, rfl, rfl⟩ ha he
      exact nodes_withAct ha ⟨ha, by simpa using ⟨_, _, h1⟩, by simp, Or.inl ⟨by simp, rfl, endsIn_of h2 hj (List.mem_append_left _ h3) he⟩⟩
    · rintro t i j _ hj ⟨r, m, _, _, h1, _, l, h2, _, h3, rfl, rfl⟩ ha he
      exact nodes_withAct ha ⟨ha, by simpa using ⟨_, _, h1⟩, by simp, Or.inl ⟨by simp, rfl, endsIn_of h2 hj h3 he⟩⟩
    · rintro t i j _ hj ⟨_, _, _, _, _, r, m, _, _, h1, _, l, h2, _, h3, rfl, rfl⟩ ha he
      exact nodes_withAct ha ⟨ha, by simp, by simpa using ⟨_, _, h1⟩, Or.inr ⟨rfl, by simp, endsIn_of h2 hj h3 he⟩⟩
    · rintro t i j _ hj ⟨r, m, _, _, h1, _, l, h2, _, h3, rfl, rfl⟩ ha he
      exact nodes_withAct ha ⟨ha, by simp, by simpa using ⟨_, _, h1⟩, Or.inr ⟨rfl, by simp, endsIn_of h2 hj h3 he⟩⟩
  · rintro t i j _ hj ⟨a, m, _, _, h1, h2⟩ _ he
    exact h2 h1 he

theorem time_with {d : ParsedEnforcementDate} {w : Str} (h : TimeWritten d w) (rs : List ParsedRef) (xs : List ParsedRef)
    (r : Option ParsedDate) : TimeWritten { d with references := rs, exceptionReferences := xs, inlineRepeal := r } w := by
  cases h with
  | date h ha hm he => exact .date h ha hm he
  | nextDay h ha hm hu => exact .nextDay h ha hm hu
  | days h ha hm hu hn => exact .days h ha hm hu hn
  | dayInMonth h ha hm hu hv hx => exact .dayInMonth h ha hm hu hv hx

theorem tells_inlineRepeal {s : Str} : Says s inlineRepeal fun d w => ∃ e t v, DateWritten d v ∧
    e ∈ [py"", py"etörvény", py"ezatörvény"] ∧ t ∈ [py"", py"a"] ∧ w = (py",és") ++ e ++ v ++ t ++ py"hatályátveszti" := by
  unfold inlineRepeal
  refine tells_rule (tells_bind (tells_tokenTo _ (py",és")) fun _ c hc =>
    tells_bind (tells_opt (Q := fun _ w => w ∈ [py"etörvény", py"ezatörvény"]) (R := fun _ w => w ∈ [py"", py"etörvény", py"ezatörvény"])
      (tells_bind (tells_tokensTo _ [py"e", py"eza"]) fun _ x hx => (tells_mark _).mono ?_) (by simp) ?_) fun _ e he =>
    tells_bind tells_date fun d v hv => tells_bind (tells_optToken _) fun _ t ht =>
    tells_bind (tells_tokenTo _ (py"hatályátveszti")) fun _ y hy => tells_pure ?_)
  · rintro a i j _ _ h
    simp only [h]
    simp only [List.mem_cons, List.not_mem_nil, or_false] at hx
    rcases hx with rfl | rfl <;> simp
  · rintro a w h
    exact List.mem_cons_of_mem _ h
  · subst hc hy
    refine ⟨e, t, v, hv, he, ?_, by simp⟩
    have : squeeze (py"a") = py"a" := by decide +kernel
    rwa [this] at ht

theorem reads_exceptFor {s : Str} : Scans s exceptFor fun r _ _ => RefWritten s NoGap r := by
  unfold exceptFor
  refine (reads_bind (Goes.of tells_dash) fun _ => reads_bind (goes_token _) fun _ => reads_bind reads_reference fun r =>
    reads_bind (Goes.of (tells_tokens _)) fun _ => reads_bind (Goes.of (tells_tokens _)) fun _ => reads_bind (Goes.of tells_dash) fun _ =>
    reads_pure _).mono ?_
  rintro r i j _ _ ⟨_, _, _, _, _, _, _, _, _, _, r', _, _, _, ⟨_, _, _, _, _, h⟩, _, _, _, _, _, _, _, _, _, _, _, _, _, _, _, rfl, rfl⟩
  exact h

theorem sentence_enforcementDate {s : Str} : Sentence s enforcementDate := by
  unfold enforcementDate
  have h1 : Says s (or (do
      let _ ← tokens [py"E", py"Ez a"]
      let _ ← token (py"törvény")
      pure ()) (do
      let _ ← pattern (.seq (.char 'A') (.opt (.char 'z')))
      pure ()) : Peg Unit) fun _ w => ∃ u v, w = u ++ v ∧ u ∈ [py"Etörvény", py"Ezatörvény", py"A"] := by
    refine tells_or (tells_bind (tells_tokensTo _ [py"E", py"Eza"]) fun _ x hx => tells_bind (tells_mark _) fun _ y hy => tells_pure ?_)
      (tells_bind (tells_pattern _) fun _ x hx => tells_pure ?_)
    · subst hy
      refine ⟨_, [], by simp; rfl, ?_⟩
      simp only [List.mem_cons, List.not_mem_nil, or_false] at hx
      rcases hx with rfl | rfl <;> simp
    · obtain ⟨hm, rfl⟩ := hx
      obtain ⟨u, v, rfl, h1, h2⟩ := matches_seq hm
      rw [matches_char h1]
      refine ⟨py"A", squeeze v, ?_, by simp⟩
      rw [List.append_nil, squeeze_append]
      rfl
  have h2 : Says s (or (do let e ← date; pure { exactDate := some e }) (or (do let p ← afterPublication; pure { afterPublication := some p })
      (do let m ← dayInMonth; pure { dayInMonth := some m })) : Peg ParsedEnforcementDate) TimeWritten := by
    refine tells_or (tells_bind tells_date fun e u hu => tells_pure ?_) (tells_or
      (tells_bind (tells_afterPublication (d := {}) rfl rfl) fun e u hu => tells_pure ?_)
      (tells_bind (tells_dayInMonth (d := {}) rfl rfl) fun e u hu => tells_pure ?_))
    · rw [List.append_nil]
      exact .date rfl rfl rfl hu
    · rw [List.append_nil]
      exact hu
    · rw [List.append_nil]
      exact hu
  refine sentence_rule ((reads_bind h1 fun _ => reads_bind (reads_opt reads_exceptFor) fun x => reads_bind (reads_many reads_listedReference)
    fun rs => reads_bind h2 fun d => reads_bind (tells_tokenTo _ (py"léphatályba")) fun _ => reads_bind (reads_opt tells_inlineRepeal) fun r =>
    reads_bind (tells_mark _) fun _ => reads_pure _).mono ?_)
  rintro t i j _ hj ⟨_, m1, a1, a2, ⟨u, v, a3, a4⟩, x, m2, b1, b2, b3, rs, m3, c1, c2, c3, d, m4, d1, d2, d3, _, m5, e1, e2, e3, r, m6, f1, f2,
    f3, _, m7, g1, g2, g3, rfl, rfl⟩ hb he n hn
  simp only [treeNodes, treesNodes, List.nil_append, List.mem_singleton] at hn
  subst hn
  refine ⟨?_, ?_, ⟨u, a4, ?_⟩, _, time_with d3 _ _ _, ?_⟩
  · exact chain_all (fun _ _ _ h => h.1) c3
  · intro y hy
    rcases b3 with ⟨rfl, _⟩ | ⟨z, rfl, b3⟩
    · cases hy
    · simp only [Option.toList_some, List.mem_singleton] at hy
      subst hy
      exact b3
  · obtain ⟨b, hb', w, hw⟩ := beginsWith_of a1 (by omega) (List.mem_singleton.mpr rfl) hb
    rw [List.mem_singleton] at hb'
    rw [← hw, hb', a3, List.append_assoc]
    exact ⟨_, rfl⟩
  · have hd : told s m3 m7 = told s m3 m4 ++ (py"léphatályba") ++ told s m5 m6 ++ py"." := by
      rw [told_append s d1 (by omega : m4 ≤ m7), told_append s e1 (by omega : m5 ≤ m7), told_append s f1 g1, e3, g3]
      simp
    rcases f3 with ⟨rfl, rfl⟩ | ⟨rd, rfl, e, t, v', f4, f5, f6, f7⟩
    · refine Or.inl ⟨rfl, endsIn_of (by omega : m3 ≤ m7) hj ?_ he⟩
      rw [hd, told_self]
      simp
    · refine Or.inr ⟨rd, e, t, v', rfl, f4, f5, f6, endsIn_of (by omega : m3 ≤ m7) hj ?_ he⟩
      rw [hd, f7]
      simp

theorem reads_replacement {s : Str} : Scans s replacement fun p _ _ => ReplacementWritten s p := by
  unfold replacement
  refine (reads_bind (Goes.of tells_articles) fun _ => reads_bind reads_quote fun p => reads_bind (tells_tokensTo _ _ rfl) fun _ =>
    reads_bind (tells_tokensTo _ _ rfl) fun _ => reads_bind tells_articles fun _ => reads_bind reads_quote fun q => reads_pure _).mono ?_
  rintro r i j _ _ ⟨_, m1, _, _, _, p, m2, _, _, ⟨k, _, _, a1⟩, _, m3, b1, b2, b3, _, m4, c1, c2, c3, _, m5, d1, d2, d3, q, m6, _, _,
    ⟨l, e1, e2, e3⟩, rfl, rfl⟩
  refine ⟨k, m2, l, m6, a1, e3, by omega, told s m2 m3, ?_, told s m3 m4, ?_, told s m4 m5, d3, ?_⟩
  · have : [py"szövegrészek", py"szövegrész"].map squeeze = [py"szövegrészek", py"szövegrész"] := by decide +kernel
    rwa [this] at b3
  · have : [py"helyébe", py"helyett"].map squeeze = [py"helyébe", py"helyett"] := by decide +kernel
    rwa [this] at c3
  · rw [told_append s b1 (by omega : m3 ≤ l), told_append s c1 (by omega : m4 ≤ l), told_append s d1 e1, e2]
    simp

theorem reads_item' {α : Type} {s : Str} {p : Peg α} {P : α → Prop} (h : Scans s p fun a _ _ => P a) : Scans s (item p) fun a _ _ => P a := by
  unfold item
  refine (reads_bind h fun a => reads_bind (Goes.of tells_separated) fun _ => reads_pure a).mono ?_
  rintro b i j _ _ ⟨a, _, _, _, h, _, _, _, _, _, rfl, _⟩
  exact h

theorem reads_textAmendmentPart {s : Str} : Scans s textAmendmentPart fun p _ _ => ReplacementWritten s p := by
  unfold textAmendmentPart
  refine (reads_rule (reads_bind reads_replacement fun p => reads_bind (Goes.or (.of reads_ahead)
    (Goes.bind (.of (tells_tokens _)) fun _ => goes_pure _)) fun _ => reads_pure p)).mono ?_
  rintro p i j _ _ ⟨_, _, _, _, a, _, _, _, h, _, _, _, _, _, rfl, _⟩
  exact h

theorem tells_takesEffect {s : Str} : Says s takesEffect fun _ w => w ∈ [py"lép.", py"léphatályba."] := by
  unfold takesEffect
  refine tells_bind (tells_mark _) fun _ a ha => tells_bind (tells_optToken _) fun _ b hb => tells_bind (tells_mark _) fun _ c hc => tells_pure ?_
  subst ha hc
  have : ∀ b ∈ [[], squeeze (py"hatályba")], (py"lép") ++ (b ++ ((py".") ++ [])) ∈ [py"lép.", py"léphatályba."] := by decide +kernel
  exact this b hb

theorem sentence_textAmendment {s : Str} : Sentence s textAmendment := by
  unfold textAmendment
  refine sentence_rule ((reads_bind reads_amendedAct fun a => reads_bind (reads_many1 reads_listedReference) fun rs =>
    reads_bind (reads_many1 (reads_item' reads_textAmendmentPart)) fun ps => reads_bind tells_takesEffect fun _ => reads_pure _).mono ?_)
  rintro t i j _ hj ⟨a, m1, _, _, h1, rs, m2, _, _, ⟨h2, h3⟩, ps, m3, _, _, ⟨h4, h5⟩, _, m4, h6, h7, h8, rfl, rfl⟩ _ he
  exact nodes_withAct h1 ⟨h1, h2, chain_all (fun _ _ _ h => h.1) h3, h4, chain_all (Q := ReplacementWritten s) (fun _ _ _ h => h) h5, endsIn_of h6 hj h8 he⟩

theorem reads_singleArticleReference {s : Str} : Scans s singleArticleReference fun r _ _ =>
    ∃ a b g, r.2 = (Int.ofNat a, Int.ofNat b) ∧ a < b ∧ b ≤ s.length ∧ ArticleNumber r.1.flatten ∧ ArticleSign g ∧
        told s a b = r.1.flatten ++ (py".") ++ g := by
  unfold singleArticleReference
  have h : Says s (do
      let pieces ← articleIdPieces
      let _ ← token (py".")
      let _ ← articleSuffix
      pure pieces : Peg (List Str)) fun id w => ∃ g, w = id.flatten ++ (py".") ++ g ∧ ArticleNumber id.flatten ∧ ArticleSign g := by
    refine tells_bind tells_articleIdPieces fun id u hu => tells_bind (tells_mark _) fun _ d hd => tells_bind tells_articleSuffix fun _ g hg =>
      tells_pure ?_
    obtain ⟨rfl, hu⟩ := hu
    subst hd
    exact ⟨g, by simp, hu, hg⟩
  refine (reads_located h).mono ?_
  rintro r i j _ hj ⟨n, h1, h2, h3, h4, g, h5, h6, h7⟩
  refine ⟨n, j, g, h4, lt_of_told (s := s) ?_, hj, h6, h7, h5⟩
  rw [h5]
  simp

theorem sentence_articleTitleAmendment {s : Str} : Sentence s articleTitleAmendment := by
  unfold articleTitleAmendment
  refine sentence_rule ((reads_bind reads_amendedAct fun a => reads_bind reads_singleArticleReference fun r =>
    reads_bind (Goes.rule (.of (reads_pattern _))) fun _ => reads_bind reads_replacement fun p => reads_bind (Goes.of (tells_tokens _)) fun _ =>
    reads_bind tells_takesEffect fun _ => reads_pure _).mono ?_)
  rintro t i j _ hj ⟨a, _, _, _, h1, r, _, _, _, h2, _, _, _, _, _, p, _, _, _, h3, _, _, _, _, _, _, _, h4, _, h5, rfl, rfl⟩ _ he
  exact nodes_withAct h1 ⟨h1, h2, h3, endsIn_of h4 hj h5 he⟩

theorem reads_repealedAct {s : Str} : Scans s repealedAct fun a i _ => ActWritten s a ∧
    (told s 0 i = [] → BeginsWith s [py"Nemléphatályba", py"Hatályátveszti"]) := by
  unfold repealedAct
  refine (reads_bind (tells_tokensTo _ [py"Nemléphatályba", py"Hatályátveszti"]) fun _ => reads_bind (Goes.of tells_az) fun _ =>
    reads_bind goes_actTitle fun _ => reads_actReference).mono ?_
  rintro a i j _ hj ⟨_, m, h1, h2, h3, _, _, _, _, _, _, _, _, _, _, _, h⟩
  exact ⟨h, fun hb => beginsWith_of h1 (by omega) h3 hb⟩

theorem reads_repealedText {s : Str} : Scans s repealedText fun q _ _ => ∃ a b, QuoteWritten s q a b := by
  unfold repealedText
  refine (reads_bind (Goes.of tells_articles) fun _ => reads_bind reads_quote fun q => reads_bind (Goes.opt (goes_token _)) fun _ =>
    reads_pure _).mono ?_
  rintro q i j _ _ ⟨_, _, _, _, _, _, _, _, _, ⟨k, _, _, h⟩, _, _, _, _, _, rfl, _⟩
  exact ⟨_, _, h⟩

theorem sentence_repeal {s : Str} : Sentence s repeal := by
  unfold repeal
  refine sentence_rule ((reads_bind reads_repealedAct fun a => reads_bind (reads_many1 reads_listedReference) fun rs =>
    reads_bind (reads_many (reads_item' reads_repealedText)) fun ps => reads_bind (tells_mark _) fun _ => reads_pure _).mono ?_)
  rintro t i j _ hj ⟨a, m1, _, _, h1, rs, m2, _, _, ⟨h2, h3⟩, ps, m3, _, _, h5, _, m4, h6, h7, h8, rfl, rfl⟩ hb he
  exact nodes_withAct h1.1 ⟨h1.1, h2, chain_all (fun _ _ _ h => h.1) h3, chain_all (Q := fun q => ∃ a b, QuoteWritten s q a b) (fun _ _ _ h => h) h5, h1.2 hb,
    endsIn_of h6 hj (by rw [h8]; simp) he⟩

theorem sentence_structuralRepeal {s : Str} : Sentence s structuralRepeal := by
  unfold structuralRepeal
  refine sentence_rule ((reads_bind reads_repealedAct fun a => reads_bind reads_structuralPosition fun r =>
    reads_bind (Goes.opt (.of tells_subtitleToken)) fun _ => reads_bind (tells_mark _) fun _ => reads_pure _).mono ?_)
  rintro t i j _ hj ⟨a, m1, _, _, h1, r, m2, _, _, ⟨n, _, h2⟩, _, m3, _, _, _, _, m4, h6, h7, h8, rfl, rfl⟩ hb he
  exact nodes_withAct h1.1 ⟨h1.1, ⟨_, _, h2⟩, h1.2 hb, endsIn_of h6 hj (by rw [h8]; simp) he⟩

theorem reads_compoundReference {s : Str} : Scans s compoundReference fun t _ _ => ∀ n ∈ treeNodes t, NodeWritten s n := by
  unfold compoundReference
  refine (reads_rule (reads_or' ((reads_bind reads_actReference fun a => reads_bind (reads_many reads_listedReference) fun rs =>
    reads_pure _).mono (Q := fun t _ _ => ∀ n ∈ treeNodes t, NodeWritten s n) ?_) ((reads_bind reads_reference fun r => reads_pure _).mono ?_))).mono ?_
  · rintro t i j _ _ ⟨a, _, _, _, h1, rs, _, _, _, h2, rfl, rfl⟩
    refine nodes_withAct h1.2 ⟨?_, chain_all (fun _ _ _ h => h.1) h2⟩
    rintro x hx
    cases hx
    exact h1.2
  · rintro t i j _ _ ⟨r, _, _, _, ⟨_, _, _, _, _, h⟩, rfl, rfl⟩ n hn
    simp only [treeNodes, treesNodes, List.nil_append, List.mem_singleton] at hn
    subst hn
    exact ⟨by simp, by simpa using h⟩
  · rintro t i j _ _ ⟨_, _, _, _, h⟩
    exact h

theorem nodes_other {s : Str} : ∀ n ∈ treeNodes (.node .other []), NodeWritten s n := by
  intro n hn
  simp only [treeNodes, treesNodes, List.nil_append, List.mem_singleton] at hn
  subst hn
  trivial

theorem reads_anySimpleExpression {s : Str} : Scans s anySimpleExpression fun t _ _ => ∀ n ∈ treeNodes t, NodeWritten s n := by
  unfold anySimpleExpression
  have other : ∀ {α : Type} {p : Peg α}, Goes s p → Scans s (do let _ ← p; pure (ParseTree.node .other []) : Peg ParseTree)
      fun t _ _ => ∀ n ∈ treeNodes t, NodeWritten s n := by
    intro α p hp
    refine (reads_bind hp fun _ => reads_pure _).mono ?_
    rintro t i j _ _ ⟨_, _, _, _, _, rfl, _⟩
    exact nodes_other
  refine (reads_rule (reads_or' (other (.of reads_quote)) (reads_or' reads_compoundReference (reads_or' (other (.of reads_abbreviation))
    (other (.of tells_anyToken)))))).mono ?_
  rintro t i j _ _ ⟨_, _, _, _, h⟩
  exact h

theorem mem_treesNodes {ts : List ParseTree} {n : GrammarNode} (h : n ∈ treesNodes ts) : ∃ t ∈ ts, n ∈ treeNodes t := by
  induction ts with
  | nil => cases h
  | cons t ts ih =>
    rw [treesNodes, List.mem_append] at h
    rcases h with h | h
    · exact ⟨t, List.mem_cons_self .., h⟩
    · obtain ⟨t', h1, h2⟩ := ih h
      exact ⟨t', List.mem_cons_of_mem _ h1, h2⟩

theorem sentence_whole {s : Str} {p : Peg ParseTree} (h : Sentence s p) :
    Scans s (whole p) fun t i _ => told s 0 i = [] → ∀ n ∈ treeNodes t, NodeWritten s n := by
  unfold whole
  refine (reads_bind h fun t => reads_bind reads_eof fun _ => reads_pure t).mono ?_
  rintro t i j _ _ ⟨t', m, _, _, h1, _, l, _, _, ⟨h2, h3⟩, rfl, rfl⟩ hb
  subst h3
  exact h1 hb h2

theorem sentence_all {s : Str} (ps : List (Peg ParseTree)) (h : ∀ p ∈ ps, Sentence s p) :
    Scans s (sentence ps) fun t i _ => told s 0 i = [] → ∀ n ∈ treeNodes t, NodeWritten s n := by
  induction ps with
  | nil =>
    refine sentence_whole ((reads_bind (reads_many1 reads_anySimpleExpression) fun ts => reads_pure _).mono ?_)
    rintro t i j _ _ ⟨ts, _, _, _, ⟨_, h1⟩, rfl, rfl⟩ _ _ n hn
    rw [treeNodes, List.mem_append, List.mem_singleton] at hn
    rcases hn with hn | rfl
    · obtain ⟨t, ht, hn⟩ := mem_treesNodes hn
      exact chain_all (Q := fun t => ∀ n ∈ treeNodes t, NodeWritten s n) (fun _ _ _ h => h) h1 t ht n hn
    · trivial
  | cons p ps ih =>
    exact reads_or' (sentence_whole (h p (List.mem_cons_self ..))) (ih fun q hq => h q (List.mem_cons_of_mem _ hq))

/-- What the nodes of a parsed sentence say is written in it. -/
theorem parse_written {s : Str} {t : ParseTree} (h : parse s = some t) : ∀ n ∈ treeNodes t, NodeWritten s n := by
  unfold parse at h
  obtain ⟨x, hx, rfl⟩ := Option.map_eq_some_iff.mp h
  have hs : Scans s startDefault fun t i _ => told s 0 i = [] → ∀ n ∈ treeNodes t, NodeWritten s n := by
    refine (reads_rule (sentence_all specialSentences ?_)).mono ?_
    · simp only [specialSentences, List.mem_cons, List.not_mem_nil, or_false]
      rintro p (rfl | rfl | rfl | rfl | rfl | rfl | rfl | rfl)
      · exact sentence_blockAmendment
      · exact sentence_blockAmendmentWithSubtitle
      · exact sentence_blockAmendmentStructural
      · exact sentence_textAmendment
      · exact sentence_articleTitleAmendment
      · exact sentence_enforcementDate
      · exact sentence_repeal
      · exact sentence_structuralRepeal
    · rintro t i j _ _ ⟨n, h1, _, h2, h3⟩ h4
      exact h3 (by rw [told_append s (Nat.zero_le i) h1, h4, h2]; rfl)
  exact (hs ⟨0, s⟩ x.1 x.2 ⟨Nat.zero_le _, rfl⟩ hx).2.2 (told_self ..)

end Verif.ActGrammar
