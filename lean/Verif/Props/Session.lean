import Verif.Spec.Session
import Verif.Props.Editor
import Verif.Proofs.Editor

/-! # Sessions of the fix-up editor (C93) -/

namespace Verif.Props
open Spec

variable {byHand : List (Str × FixupFn)} {analyze : Analyzer} {raw : LawRawText}

theorem extractable_iff {saved : Replacements} {fixed : List Line}
    (h : doAllFixups (loadFixups byHand saved) raw.identifier raw.body = .ok fixed) :
    Extractable byHand analyze saved raw ↔ ∃ a, tryParsing analyze raw fixed = .ok a := by
  unfold tryParsing
  constructor
  · rintro ⟨read, c, body, a, b, c', h1, h2, h3, h4, -⟩
    have := h1.symm.trans h
    cases this
    refine ⟨c', ?_⟩
    rw [h2]
    show (do let act ← parseBlockAmendments analyze a; addSemantics analyze act) = _
    rw [show parseBlockAmendments analyze a = .ok b from h3]
    exact h4
  · rintro ⟨c, hc⟩
    obtain ⟨a, h1, hc⟩ := resBind_ok hc
    obtain ⟨b, h2, hc⟩ := resBind_ok hc
    exact ⟨fun _ => .error .eofError, c, fixed, a, b, c, h, h1, h2, hc, rfl⟩

/-- C93. The editor is not opened for an act that the program makes: nothing is asked and nothing is changed. -/
theorem session_not_needed {saved : Replacements} (h : Extractable byHand analyze saved raw) (visits : List Visit) :
    detectErrorsAndTryFix byHand analyze raw visits saved = .ok (saved, .parsed, visits) := by
  have hf : ∃ fixed, doAllFixups (loadFixups byHand saved) raw.identifier raw.body = .ok fixed := by
    obtain ⟨_, _, body, _, _, _, h1, -⟩ := h
    exact ⟨body, h1⟩
  obtain ⟨fixed, hf⟩ := hf
  obtain ⟨a, ha⟩ := (extractable_iff hf).mp h
  cases visits <;> rw [detectErrorsAndTryFix, hf] <;> show (match tryParsing analyze raw fixed with | .ok _ => _ | .error _ => _) = _ <;>
    rw [ha]

/-- C93. Otherwise an answer is asked for. If it is not one of the six that mean yes, the session ends and nothing is changed; if it is,
there is a round of editing (C65) and the act is tried again with what was saved. -/
theorem session_asks {saved : Replacements} (h : ¬ Extractable byHand analyze saved raw) {fixed : List Line}
    (hf : doAllFixups (loadFixups byHand saved) raw.identifier raw.body = .ok fixed) :
    detectErrorsAndTryFix byHand analyze raw [] saved = .error .eofError ∧
    ∀ (v : Visit) (more : List Visit),
      (v.answer ∉ [[], py"y", py"Y", py"yes", py"YES", py"Yes"] →
        detectErrorsAndTryFix byHand analyze raw (v :: more) saved = .ok (saved, .leftBroken, more)) ∧
      (v.answer ∈ [[], py"y", py"Y", py"yes", py"YES", py"Yes"] →
        detectErrorsAndTryFix byHand analyze raw (v :: more) saved =
          (do let saved' ← editRound byHand v.edit saved raw.identifier raw.body
              detectErrorsAndTryFix byHand analyze raw more saved')) := by
  have ht : ∃ e, tryParsing analyze raw fixed = .error e := by
    cases hp : tryParsing analyze raw fixed with
    | error e => exact ⟨e, rfl⟩
    | ok a => exact absurd ((extractable_iff hf).mpr ⟨a, hp⟩) h
  obtain ⟨e, ht⟩ := ht
  refine ⟨?_, fun v more => ⟨fun hv => ?_, fun hv => ?_⟩⟩
  · rw [detectErrorsAndTryFix, hf]
    show (match tryParsing analyze raw fixed with | .ok _ => _ | .error _ => _) = _
    rw [ht]
  · rw [detectErrorsAndTryFix, hf]
    show (match tryParsing analyze raw fixed with | .ok _ => _ | .error _ => _) = _
    rw [ht]
    exact if_pos hv
  · rw [detectErrorsAndTryFix, hf]
    show (match tryParsing analyze raw fixed with | .ok _ => _ | .error _ => _) = _
    rw [ht]
    show (if v.answer ∉ goOnAnswers then _ else _) = _
    rw [if_neg (fun hn => hn hv)]
    unfold editRound
    rw [hf]
    show _ = (do let saved' ← (do
        let edited ← doFileEditing v.edit fixed
        let replacements ← extractReplacements (fixed.map Line.content) edited
        .ok (saveReplacements saved raw.identifier replacements)); _)
    cases doFileEditing v.edit fixed with
    | error e => rfl
    | ok edited =>
      cases hx : extractReplacements (fixed.map Line.content) edited with
      | error e => simp [bind, Except.bind, hx]
      | ok rs => simp [bind, Except.bind, hx]

/-- C93. If fix-ups fail, so does the session. -/
theorem session_fixups_fail {saved : Replacements} {e : Err}
    (hf : doAllFixups (loadFixups byHand saved) raw.identifier raw.body = .error e) (visits : List Visit) :
    detectErrorsAndTryFix byHand analyze raw visits saved = .error e := by
  cases visits <;> rw [detectErrorsAndTryFix, hf] <;> rfl

/-- A session, step by step. -/
theorem session_induction {P : List Visit → Replacements → Replacements → SessionEnd → List Visit → Prop}
    (parsed : ∀ visits saved, Extractable byHand analyze saved raw → P visits saved saved .parsed visits)
    (broken : ∀ v more saved, ¬ Extractable byHand analyze saved raw → v.answer ∉ goOnAnswers →
      P (v :: more) saved saved .leftBroken more)
    (round : ∀ v more saved rs saved' e rest, v.answer ∈ goOnAnswers → ¬ Extractable byHand analyze saved raw →
      P more (saveReplacements saved raw.identifier rs) saved' e rest → P (v :: more) saved saved' e rest) :
    ∀ (visits : List Visit) (saved saved' : Replacements) (e : SessionEnd) (rest : List Visit),
      detectErrorsAndTryFix byHand analyze raw visits saved = .ok (saved', e, rest) → P visits saved saved' e rest := by
  intro visits
  induction visits with
  | nil =>
    intro saved saved' e rest h
    by_cases hx : Extractable byHand analyze saved raw
    · rw [session_not_needed hx] at h
      cases h
      exact parsed _ _ hx
    · cases hf : doAllFixups (loadFixups byHand saved) raw.identifier raw.body with
      | error e => rw [session_fixups_fail hf] at h; cases h
      | ok fixed => rw [(session_asks hx hf).1] at h; cases h
  | cons v more ih =>
    intro saved saved' e rest h
    by_cases hx : Extractable byHand analyze saved raw
    · rw [session_not_needed hx] at h
      cases h
      exact parsed _ _ hx
    · cases hf : doAllFixups (loadFixups byHand saved) raw.identifier raw.body with
      | error e => rw [session_fixups_fail hf] at h; cases h
      | ok fixed =>
        by_cases hv : v.answer ∈ goOnAnswers
        · rw [((session_asks hx hf).2 v more).2 hv] at h
          obtain ⟨s1, h1, h⟩ := resBind_ok h
          unfold editRound at h1
          obtain ⟨_, -, h1⟩ := resBind_ok h1
          obtain ⟨_, -, h1⟩ := resBind_ok h1
          obtain ⟨rs, -, h1⟩ := resBind_ok h1
          cases h1
          exact round v more saved rs saved' e rest hv hx (ih _ _ _ _ h)
        · rw [((session_asks hx hf).2 v more).1 hv] at h
          cases h
          exact broken v more saved hx hv

/-- C93. When a session ends, it says that the act is parsed exactly if the program makes an act of the text with the fix-ups as they
are saved. -/
theorem session_tells {visits rest : List Visit} {saved saved' : Replacements} {e : SessionEnd}
    (h : detectErrorsAndTryFix byHand analyze raw visits saved = .ok (saved', e, rest)) :
    e = .parsed ↔ Extractable byHand analyze saved' raw :=
  session_induction (P := fun _ _ saved' e _ => e = .parsed ↔ Extractable byHand analyze saved' raw)
    (fun _ _ hx => ⟨fun _ => hx, fun _ => rfl⟩) (fun _ _ _ hx _ => ⟨fun h => (by cases h), fun h => absurd h hx⟩)
    (fun _ _ _ _ _ _ _ _ _ ih => ih) visits saved saved' e rest h

/-- C93. It adds replacements for its act after those that were saved, and changes no others. -/
theorem session_adds {visits rest : List Visit} {saved saved' : Replacements} {e : SessionEnd} (hk : saved.keys.Nodup)
    (h : detectErrorsAndTryFix byHand analyze raw visits saved = .ok (saved', e, rest)) :
    saved'.keys.Nodup ∧ (∃ more, savedFor saved' raw.identifier = savedFor saved raw.identifier ++ more) ∧
      ∀ other, other ≠ raw.identifier → savedFor saved' other = savedFor saved other := by
  refine session_induction (byHand := byHand) (analyze := analyze) (raw := raw) (P := fun _ saved saved' _ _ => saved.keys.Nodup →
    saved'.keys.Nodup ∧ (∃ more, savedFor saved' raw.identifier = savedFor saved raw.identifier ++ more) ∧
      ∀ other, other ≠ raw.identifier → savedFor saved' other = savedFor saved other) ?_ ?_ ?_ visits saved saved' e rest h hk
  · exact fun _ saved _ hk => ⟨hk, ⟨[], (List.append_nil _).symm⟩, fun _ _ => rfl⟩
  · exact fun _ _ saved _ _ hk => ⟨hk, ⟨[], (List.append_nil _).symm⟩, fun _ _ => rfl⟩
  · intro v more saved rs saved' e rest _ _ ih hk
    obtain ⟨h1, ⟨m, h2⟩, h3⟩ := ih (saveReplacements_nodup hk _ _)
    refine ⟨h1, ⟨rs ++ m, ?_⟩, fun other hne => ?_⟩
    · rw [h2]
      unfold savedFor
      rw [saveReplacements_get hk, if_pos rfl, List.append_assoc]
    · rw [h3 other hne]
      unfold savedFor
      rw [saveReplacements_get hk, if_neg hne, List.append_nil]

/-- C93. All answers that were taken mean yes, except the last one if the act is left as it is. -/
theorem session_answers {visits rest : List Visit} {saved saved' : Replacements} {e : SessionEnd}
    (h : detectErrorsAndTryFix byHand analyze raw visits saved = .ok (saved', e, rest)) :
    ∃ yes last, visits = yes ++ last ++ rest ∧ (∀ v ∈ yes, v.answer ∈ [[], py"y", py"Y", py"yes", py"YES", py"Yes"]) ∧
      (e = .parsed → last = []) ∧
      (e = .leftBroken → ∃ v, last = [v] ∧ v.answer ∉ [[], py"y", py"Y", py"yes", py"YES", py"Yes"]) := by
  refine session_induction (byHand := byHand) (analyze := analyze) (raw := raw) (P := fun visits _ _ e rest =>
    ∃ yes last, visits = yes ++ last ++ rest ∧ (∀ v ∈ yes, v.answer ∈ [[], py"y", py"Y", py"yes", py"YES", py"Yes"]) ∧
      (e = .parsed → last = []) ∧
      (e = .leftBroken → ∃ v, last = [v] ∧ v.answer ∉ [[], py"y", py"Y", py"yes", py"YES", py"Yes"])) ?_ ?_ ?_ visits saved saved' e rest h
  · exact fun _ _ _ => ⟨[], [], rfl, by simp, fun _ => rfl, fun h => (by cases h)⟩
  · exact fun v _ _ _ hv => ⟨[], [v], rfl, by simp, fun h => (by cases h), fun _ => ⟨v, rfl, hv⟩⟩
  · rintro v more saved rs saved' e rest hv - ⟨yes, last, rfl, h1, h2, h3⟩
    refine ⟨v :: yes, last, rfl, ?_, h2, h3⟩
    intro x hx
    rcases List.mem_cons.mp hx with rfl | hx
    · exact hv
    · exact h1 x hx

theorem doAllFixups_saved {saved saved' : Replacements} (hk : saved.keys.Nodup) (hk' : saved'.keys.Nodup) {identifier : Str}
    (h : savedFor saved' identifier = savedFor saved identifier) (body : List Line) :
    doAllFixups (loadFixups byHand saved') identifier body = doAllFixups (loadFixups byHand saved) identifier body := by
  unfold loadFixups
  unfold savedFor at h
  rw [doAllFixups_eq, doAllFixups_eq, history_find, history_find, registered_append, registered_append, registered_saved hk,
    registered_saved hk', h]

theorem extractable_saved {saved saved' : Replacements} (hk : saved.keys.Nodup) (hk' : saved'.keys.Nodup)
    (h : savedFor saved' raw.identifier = savedFor saved raw.identifier) :
    Extractable byHand analyze saved' raw ↔ Extractable byHand analyze saved raw := by
  have := doAllFixups_saved (byHand := byHand) hk hk' h raw.body
  unfold Extractable Produces savedSources
  dsimp only
  rw [this]

/-- C93. Editing all acts of an issue adds replacements for these acts only, and if their identifiers are different, an act is said
to be parsed exactly if the program makes it with what is saved at the end. -/
theorem issue_edited {raws : List LawRawText} {visits : List Visit} {saved saved' : Replacements} {ends : List SessionEnd}
    (hk : saved.keys.Nodup) (hd : (raws.map (·.identifier)).Nodup)
    (h : editAll byHand analyze raws saved visits = .ok (saved', ends)) :
    saved'.keys.Nodup ∧ (∀ identifier, ∃ more, savedFor saved' identifier = savedFor saved identifier ++ more ∧
      (identifier ∉ raws.map (·.identifier) → more = [])) ∧
    Both (fun raw e => e = .parsed ↔ Extractable byHand analyze saved' raw) raws ends := by
  induction raws generalizing saved visits ends with
  | nil =>
    cases h
    exact ⟨hk, fun _ => ⟨[], by simp, fun _ => rfl⟩, .nil⟩
  | cons raw raws ih =>
    rw [editAll] at h
    obtain ⟨⟨s1, e1, rest⟩, h1, h⟩ := resBind_ok h
    obtain ⟨⟨s2, es⟩, h2, h⟩ := resBind_ok h
    cases h
    rw [List.map_cons, List.nodup_cons] at hd
    obtain ⟨k1, ⟨m, k2⟩, k3⟩ := session_adds hk h1
    obtain ⟨g1, g2, g3⟩ := ih k1 hd.2 h2
    refine ⟨g1, ?_, .cons ?_ g3⟩
    · intro identifier
      obtain ⟨more, a1, a2⟩ := g2 identifier
      by_cases hi : identifier = raw.identifier
      · subst hi
        exact ⟨m ++ more, by rw [a1, k2, List.append_assoc], fun hn => absurd List.mem_cons_self hn⟩
      · refine ⟨more, by rw [a1, k3 identifier hi], fun hn => a2 fun hm => hn (List.mem_cons_of_mem _ hm)⟩
    · rw [session_tells h1]
      obtain ⟨more, a1, a2⟩ := g2 raw.identifier
      rw [a2 hd.1, List.append_nil] at a1
      exact (extractable_saved k1 g1 a1).symm

/-- C93. Other acts are made as before. -/
theorem others_as_before {raws : List LawRawText} {visits : List Visit} {saved saved' : Replacements} {ends : List SessionEnd}
    (hk : saved.keys.Nodup) (hd : (raws.map (·.identifier)).Nodup)
    (h : editAll byHand analyze raws saved visits = .ok (saved', ends)) {other : LawRawText}
    (ho : other.identifier ∉ raws.map (·.identifier)) (read : Issue → Res PdfOfLines) (o : Extracted) :
    Produces (savedSources read byHand analyze saved') .act other o ↔ Produces (savedSources read byHand analyze saved) .act other o := by
  obtain ⟨h1, h2, -⟩ := issue_edited hk hd h
  obtain ⟨more, a1, a2⟩ := h2 other.identifier
  rw [a2 ho, List.append_nil] at a1
  have := doAllFixups_saved (byHand := byHand) hk h1 a1 other.body
  unfold Produces savedSources
  dsimp only
  rw [this]

/-- An act with an article sign that cannot be read, and an editor that repairs it. -/
def brokenAct : LawRawText := ⟨py"2020. évi I. törvény", ⟨2020, 1, 1⟩, py"x", [fineLine (py"1. x Szöveg."), fineLine (py"2. x Szöveg.")]⟩

def repair : Visit := ⟨py"y", fun file _ => .ok (file.map fun c => if c = 'x' then '§' else c)⟩

/-- An analyser that finds nothing. -/
def findsNothing : Analyzer := fun _ => .ok {}

example : (detectErrorsAndTryFix textFixups findsNothing brokenAct [repair, repair] []).toOption.map (fun r => (r.1, r.2.1, r.2.2.length)) =
    some ([(py"2020. évi I. törvény", [⟨py"1. x Szöveg.", py"1. § Szöveg.", none⟩, ⟨py"2. x Szöveg.", py"2. § Szöveg.", none⟩])], .parsed, 1) := by
  decide +kernel

example : (editAll textFixups findsNothing [brokenAct] [] [⟨py"n", fun f _ => .ok f⟩]) = .ok ([], [.leftBroken]) := by
  decide +kernel

end Verif.Props
