import Verif.Spec.Gazette
import Verif.Proofs.HeaderLines
import Verif.Proofs.ParsedText

/-! # Lemmas about the gazette extractors -/

namespace Verif
open Spec

theorem startsWith_iff {s p : Str} : startsWith s p = true ↔ ∃ t, s = p ++ t := by
  unfold startsWith
  rw [List.isPrefixOf_iff_prefix]
  exact ⟨fun ⟨t, h⟩ => ⟨t, h.symm⟩, fun ⟨t, h⟩ => ⟨t, h.symm⟩⟩

theorem actFooter_iff {s : Str} : actFooter s = true ↔ Signature s := by
  unfold actFooter Signature
  rw [Bool.or_eq_true, startsWith_iff, startsWith_iff]
  constructor
  · rintro (⟨t, rfl⟩ | ⟨t, rfl⟩)
    · exact ⟨[], t, .inl rfl, rfl⟩
    · exact ⟨_, t, .inr rfl, rfl⟩
  · rintro ⟨al, t, rfl | rfl, rfl⟩
    · exact .inl ⟨t, rfl⟩
    · exact .inr ⟨t, rfl⟩

theorem isEmptyLine_iff {l : Line} : l.isEmptyLine = true ↔ l.parts = [] := by
  unfold Line.isEmptyLine
  exact List.isEmpty_iff

theorem romanTorveny_iff : ∀ {s : Str}, romanTorveny s = true ↔
    ∃ roman f rest, roman ≠ [] ∧ (∀ x ∈ roman, x ∈ ['I', 'V', 'X', 'L', 'C']) ∧ f ≠ '\n' ∧
      s = roman ++ f :: (py" törvény") ++ rest
  | [] => by
    constructor
    · intro h
      cases h
    · rintro ⟨roman, f, rest, h, -, -, hs⟩
      cases roman with
      | nil => exact absurd rfl h
      | cons => cases hs
  | c :: cs => by
    rw [romanTorveny.eq_def]
    dsimp only
    rw [Bool.and_eq_true, Bool.or_eq_true, romanTorveny_iff (s := cs), List.contains_iff_mem]
    constructor
    · rintro ⟨hc, h | ⟨roman, f, rest, h1, h2, h3, rfl⟩⟩
      · cases cs with
        | nil => cases h
        | cons d ds =>
          simp only [Bool.and_eq_true, bne_iff_ne, startsWith_iff] at h
          obtain ⟨hd, t, rfl⟩ := h
          exact ⟨[c], d, t, by simp, by rintro x hx; rw [List.mem_singleton.mp hx]; exact hc, hd, rfl⟩
      · refine ⟨c :: roman, f, rest, by simp, ?_, h3, rfl⟩
        intro x hx
        rcases List.mem_cons.mp hx with h | h
        · rw [h]
          exact hc
        · exact h2 x h
    · rintro ⟨roman, f, rest, h1, h2, h3, hs⟩
      cases roman with
      | nil => exact absurd rfl h1
      | cons r roman =>
        injection hs with hr hs
        subst hr
        refine ⟨h2 c List.mem_cons_self, ?_⟩
        by_cases hroman : roman = []
        · left
          subst hroman hs
          show (f != '\n' && startsWith ((py" törvény") ++ rest) (py" törvény")) = true
          rw [Bool.and_eq_true, bne_iff_ne]
          exact ⟨h3, startsWith_iff.mpr ⟨rest, rfl⟩⟩
        · right
          exact ⟨roman, f, rest, hroman, fun x hx => h2 x (List.mem_cons_of_mem _ hx), h3, hs⟩

theorem headerStarting_iff {s : Str} : headerStarting s = true ↔ ActTitle s := by
  constructor
  · intro h
    match s, h with
    | a :: b :: c :: d :: e :: rest, h =>
      simp only [headerStarting, Bool.and_eq_true, Bool.or_eq_true, beq_iff_eq, bne_iff_ne, startsWith_iff] at h
      obtain ⟨⟨⟨⟨⟨⟨ha, hb⟩, hc⟩, hd⟩, he⟩, t, rfl⟩, hr⟩ := h
      obtain ⟨roman, f, rest, h1, h2, h3, ht⟩ := romanTorveny_iff.mp hr
      have ht : t = roman ++ f :: (py" törvény") ++ rest := by simpa using ht
      subst ht
      exact ⟨a, b, c, d, e, f, roman, rest, ha, hb, hc, hd, he, h1, h2, h3, by simp⟩
  · rintro ⟨a, b, c, d, e, f, roman, rest, ha, hb, hc, hd, he, h1, h2, h3, rfl⟩
    simp only [List.cons_append, headerStarting, Bool.and_eq_true, Bool.or_eq_true, beq_iff_eq, bne_iff_ne, startsWith_iff]
    refine ⟨⟨⟨⟨⟨⟨ha, hb⟩, hc⟩, hd⟩, he⟩, roman ++ f :: (py" törvény") ++ rest, by simp⟩, ?_⟩
    exact romanTorveny_iff.mpr ⟨roman, f, rest, h1, h2, h3, by simp⟩

theorem spaced_concat (texts : List Str) (t : Str) (h : texts ≠ []) : spaced (texts ++ [t]) = spaced texts ++ ' ' :: t := by
  induction texts with
  | nil => exact absurd rfl h
  | cons s rest ih =>
    cases rest with
    | nil => rfl
    | cons u rest =>
      have := ih (by simp)
      simp only [List.cons_append, spaced] at this ⊢
      rw [this]
      simp

/-! ## Cutting acts out -/

theorem Spec.CutOut.cons {P : LawRawText → List Line → Prop} {lines acts} (h : CutOut P lines acts) (l : Line) : CutOut P (l :: lines) acts := by
  cases h with
  | rest => exact .rest _
  | @act between _ _ _ _ h hs => exact CutOut.act (between := l :: between) h hs

theorem Spec.CutOut.mono {P Q : LawRawText → List Line → Prop} {lines acts} (hPQ : ∀ a seg, List.Sublist seg lines → P a seg → Q a seg)
    (h : CutOut P lines acts) : CutOut Q lines acts := by
  induction h with
  | rest => exact .rest _
  | @act between seg rest a acts h hs ih =>
    refine CutOut.act (hPQ _ _ ?_ h) (ih fun a s hs => hPQ a s ?_)
    · exact (List.sublist_append_right _ _).trans (List.sublist_append_left _ _)
    · exact hs.trans (List.sublist_append_right _ _)

/-- What the machine has seen of an act when it is in a state. -/
def Reached (m : LawMachine) (seen : List Line) : Prop :=
  match m.state with
  | .waitingForHeaderNewline => m = {} ∧ seen = []
  | .waitingForHeader => m = { state := .waitingForHeader } ∧ seen = []
  | .header => m.body = [] ∧ ∃ title subject, seen = title :: subject ∧ ActTitle title.content ∧ m.identifier = title.content ∧
      m.subject = spaced (subject.map Line.content) ∧ (subject ≠ [] → m.subject ≠ [])
  | .bodyBeforeAsteriskFooter => ∃ title subject, seen = title :: subject ++ m.body ∧ ActTitle title.content ∧
      m.identifier = title.content ∧ subject ≠ [] ∧ m.subject ++ ['*'] = spaced (subject.map Line.content)
  | .bodyAfterAsteriskFooter => ∃ title subject raw, seen = title :: subject ++ raw ∧ ActTitle title.content ∧
      m.identifier = title.content ∧ subject ≠ [] ∧ m.subject ++ ['*'] = spaced (subject.map Line.content) ∧
      Footnoted raw m.body

theorem Spec.Footnoted.concat {raw body} (h : Footnoted raw body) (l : Line) : Footnoted (raw ++ [l]) (body ++ [l]) := by
  cases h with
  | same => exact .same _
  | removed hb h hn h' =>
    rw [List.append_assoc _ _ [l], List.append_assoc _ _ [l]]
    exact .removed hb h hn h'

/-- The last three of at least four lines. -/
theorem last_three {body : List Line} (h : 3 ≤ body.length) (line : Line) :
    ∃ p x y, body = p ++ [x, y] ∧ (body ++ [line]).length = p.length + 3 ∧ p ≠ [] ∧
      (body ++ [line])[(body ++ [line]).length - 3]? = some x ∧ (body ++ [line])[(body ++ [line]).length - 2]? = some y ∧
      (body ++ [line]).take ((body ++ [line]).length - 3) = p := by
  obtain ⟨b, y, rfl⟩ : ∃ b y, body = b ++ [y] := by
    refine ⟨body.dropLast, body.getLast (by rintro rfl; simp at h), ?_⟩
    rw [List.dropLast_concat_getLast]
  obtain ⟨p, x, rfl⟩ : ∃ p x, b = p ++ [x] := by
    refine ⟨b.dropLast, b.getLast (by rintro rfl; simp at h), ?_⟩
    rw [List.dropLast_concat_getLast]
  have hl : (p ++ [x] ++ [y] ++ [line]).length = p.length + 3 := by simp
  refine ⟨p, x, y, by simp, hl, by rintro rfl; simp at h, ?_, ?_, ?_⟩
  · rw [hl, show p.length + 3 - 3 = p.length by omega]
    simp
  · rw [hl, show p.length + 3 - 2 = p.length + 1 by omega]
    simp
  · rw [hl, show p.length + 3 - 3 = p.length by omega]
    simp

/-- The three ways in which `feedAfter` can end. -/
theorem feedAfter_cases (m : LawMachine) (date : Date) (line : Line) :
    (m.feedAfter date line = ({ m with body := m.body ++ [line] }, none) ∧
      ∀ p x y, m.body = p ++ [x, y] → p ≠ [] → x.parts = [] → ¬ Signature line.content) ∨
    ∃ p x y, m.body = p ++ [x, y] ∧ p ≠ [] ∧ x.parts = [] ∧ Signature line.content ∧
      m.feedAfter date line = ({}, some ⟨m.identifier, date, m.subject, p⟩) := by
  unfold LawMachine.feedAfter
  by_cases hl : (m.body ++ [line]).length < 4
  · left
    simp only [if_pos hl, true_and]
    intro p x y hb hp
    rw [hb] at hl
    simp at hl
    exact absurd (List.length_eq_zero_iff.mp (by omega)) hp
  · simp only [if_neg hl]
    obtain ⟨p, x, y, hb, hlen, hp, h1, h2, h3⟩ := last_three (body := m.body) (by simp at hl; omega) line
    rw [h1, h3, Option.any_some]
    by_cases hc : x.isEmptyLine && actFooter line.content
    · rw [if_pos hc]
      rw [Bool.and_eq_true, isEmptyLine_iff, actFooter_iff] at hc
      exact .inr ⟨p, x, y, hb, hp, hc.1, hc.2, rfl⟩
    · rw [if_neg hc]
      refine .inl ⟨rfl, ?_⟩
      intro p' x' y' hb' _ hx hs
      rw [hb] at hb'
      have := List.append_inj' hb' rfl
      have hxx : x = x' := by simpa using (List.cons.inj this.2).1
      subst hxx
      exact hc (by rw [Bool.and_eq_true, isEmptyLine_iff, actFooter_iff]; exact ⟨hx, hs⟩)

/-- The ways in which `feedBefore` can end. -/
theorem feedBefore_cases (m : LawMachine) (date : Date) (line : Line) :
    (m.feedBefore date line = .ok (m.feedAfter date line) ∧
      (∀ p x y, m.body = p ++ [x, y] → p ≠ [] → x.parts = [] → line.parts = [] → y.content.head? ≠ some '*')) ∨
    (∃ p x y, m.body = p ++ [x, y] ∧ p ≠ [] ∧ x.parts = [] ∧ line.parts = [] ∧ y.content.head? = some '*' ∧
      m.feedBefore date line = .ok ({ m with body := p ++ [emptyLine], state := .bodyAfterAsteriskFooter }, none)) ∨
    (∃ p x y, m.body = p ++ [x, y] ∧ p ≠ [] ∧ x.parts = [] ∧ line.parts = [] ∧ y.content = [] ∧
      m.feedBefore date line = .error .indexError) := by
  unfold LawMachine.feedBefore
  by_cases hl : (m.body ++ [line]).length < 4
  · left
    simp only [if_neg (show ¬ (4 ≤ (m.body ++ [line]).length ∧
      ((m.body ++ [line])[(m.body ++ [line]).length - 3]?.any Line.isEmptyLine) = true ∧ line.isEmptyLine = true) from
        fun h => by omega), true_and]
    intro p x y hb hp
    rw [hb] at hl
    simp at hl
    exact absurd (List.length_eq_zero_iff.mp (by omega)) hp
  · obtain ⟨p, x, y, hb, hlen, hp, h1, h2, h3⟩ := last_three (body := m.body) (by simp at hl; omega) line
    have huniq : ∀ p' x' y', m.body = p' ++ [x', y'] → x' = x ∧ y' = y := by
      intro p' x' y' hb'
      rw [hb] at hb'
      have := (List.append_inj' hb' rfl).2
      simp at this
      exact ⟨this.1.symm, this.2.symm⟩
    simp only [h1, h2, h3, Option.any_some, Option.bind_some]
    by_cases hc : 4 ≤ (m.body ++ [line]).length ∧ x.isEmptyLine = true ∧ line.isEmptyLine = true
    · rw [if_pos hc]
      obtain ⟨-, hx, hline⟩ := hc
      rw [isEmptyLine_iff] at hx hline
      cases hy : y.content with
      | nil => exact .inr (.inr ⟨p, x, y, hb, hp, hx, hline, hy, by simp⟩)
      | cons c cs =>
        by_cases hcs : c = '*'
        · exact .inr (.inl ⟨p, x, y, hb, hp, hx, hline, by simp [hy, hcs], by simp [hcs]⟩)
        · refine .inl ⟨by simp [hcs], ?_⟩
          intro p' x' y' hb' _ _ _
          rw [(huniq p' x' y' hb').2, hy]
          simpa using hcs
    · rw [if_neg hc]
      refine .inl ⟨rfl, ?_⟩
      intro p' x' y' hb' _ hx hline
      rw [(huniq p' x' y' hb').1] at hx
      exact absurd ⟨by omega, isEmptyLine_iff.mpr hx, isEmptyLine_iff.mpr hline⟩ hc

theorem feedAfter_reached {m : LawMachine} {date : Date} {line : Line} {title : Line} {subject raw : List Line}
    (ht : ActTitle title.content) (hi : m.identifier = title.content) (hs : subject ≠ [])
    (hj : m.subject ++ ['*'] = spaced (subject.map Line.content)) (hf : Footnoted raw m.body) :
    (m.feedAfter date line = ({ m with body := m.body ++ [line] }, none)) ∨
    ∃ a, m.feedAfter date line = ({}, some a) ∧ ActLines Footnoted date a (title :: subject ++ raw ++ [line]) := by
  rcases feedAfter_cases m date line with h | ⟨p, x, y, hb, hp, hx, hsig, h⟩
  · exact .inl h.1
  · refine .inr ⟨_, h, title, subject, raw ++ [line], x, y, line, by simp, ht, hi, rfl, hs, hj.symm, hp, hx, hsig, ?_⟩
    rw [hb] at hf
    have := hf.concat line
    simpa using this

/-- One line: the act goes on, or it ends with a result and the machine is as at the start. -/
theorem feed_reached {m m' : LawMachine} {date : Date} {line : Line} {seen : List Line} {r : Option LawRawText}
    (hm : Reached m seen) (h : m.feed date line = .ok (m', r)) :
    (r = none ∧ (Reached m' (seen ++ [line]) ∨ (seen = [] ∧ Reached m' []))) ∨
    ∃ a, r = some a ∧ m' = {} ∧ seen ≠ [] ∧ ActLines Footnoted date a (seen ++ [line]) := by
  unfold LawMachine.feed at h
  unfold Reached at hm
  cases hstate : m.state with
  | waitingForHeaderNewline =>
    simp only [hstate] at h hm
    obtain ⟨rfl, rfl⟩ := hm
    injection h with h
    injection h with h1 h2
    refine .inl ⟨h2.symm, .inr ⟨rfl, ?_⟩⟩
    by_cases hl : line.isEmptyLine
    · rw [if_pos hl] at h1
      subst h1
      exact ⟨rfl, rfl⟩
    · rw [if_neg hl] at h1
      subst h1
      exact ⟨rfl, rfl⟩
  | waitingForHeader =>
    simp only [hstate] at h hm
    obtain ⟨rfl, rfl⟩ := hm
    injection h with h
    injection h with h1 h2
    refine .inl ⟨h2.symm, ?_⟩
    by_cases hl : headerStarting line.content
    · rw [if_pos hl] at h1
      subst h1
      exact .inl ⟨rfl, line, [], rfl, headerStarting_iff.mp hl, rfl, rfl, fun h => absurd rfl h⟩
    · rw [if_neg hl] at h1
      subst h1
      exact .inr ⟨rfl, rfl, rfl⟩
  | header =>
    simp only [hstate] at h hm
    obtain ⟨hb, title, subject, rfl, ht, hi, hj, hne⟩ := hm
    obtain ⟨m1, hm1, h2⟩ := resBind_ok h
    injection h2 with h2
    injection h2 with h2 h3
    subst h2
    refine .inl ⟨h3.symm, .inl ?_⟩
    have hsub : (if m.subject ≠ [] then m.subject ++ ' ' :: line.content else line.content) =
        spaced ((subject ++ [line]).map Line.content) := by
      rw [List.map_append]
      by_cases hs : subject = []
      · subst hs
        rw [hj]
        simp [spaced]
      · rw [if_pos (hne hs), List.map_cons, List.map_nil, spaced_concat _ _ (by simpa using hs), hj]
    unfold LawMachine.feedHeader at hm1
    rw [hsub] at hm1
    generalize hg : spaced ((subject ++ [line]).map Line.content) = s at hm1
    cases hl : s.getLast? with
    | none => simp [hl] at hm1
    | some c =>
      have hsn : s ≠ [] := by
        rintro rfl
        cases hl
      by_cases hc : c = '*'
      · simp only [hl, if_pos hc] at hm1
        injection hm1 with hm1
        subst hm1
        refine ⟨title, subject ++ [line], by simp [hb], ht, hi, by simp, ?_⟩
        rw [hg]
        subst hc
        have := List.dropLast_concat_getLast hsn
        rw [List.getLast?_eq_some_getLast hsn] at hl
        injection hl with hl
        rw [hl] at this
        exact this
      · simp only [hl, if_neg hc] at hm1
        injection hm1 with hm1
        subst hm1
        simp only [Reached, hstate]
        exact ⟨hb, title, subject ++ [line], rfl, ht, hi, hg.symm, fun _ => hsn⟩
  | bodyBeforeAsteriskFooter =>
    simp only [hstate] at h hm
    obtain ⟨title, subject, rfl, ht, hi, hs, hj⟩ := hm
    rcases feedBefore_cases m date line with hc | ⟨p, x, y, hb, hp, hx, hline, hy, hc⟩ | ⟨p, x, y, -, -, -, -, -, hc⟩
    · rw [hc.1] at h
      injection h with h
      rcases feedAfter_reached (date := date) (line := line) ht hi hs hj (.same m.body) with h1 | ⟨a, h1, h2⟩
      · rw [h1] at h
        injection h with h2 h3
        subst h2
        refine .inl ⟨h3.symm, .inl ?_⟩
        simp only [Reached, hstate]
        exact ⟨title, subject, by simp, ht, hi, hs, hj⟩
      · rw [h1] at h
        injection h with h3 h4
        exact .inr ⟨a, h4.symm, h3.symm, by simp, h2⟩
    · rw [hc] at h
      injection h with h
      injection h with h2 h3
      subst h2
      refine .inl ⟨h3.symm, .inl ?_⟩
      refine ⟨title, subject, m.body ++ [line], by simp, ht, hi, hs, hj, ?_⟩
      rw [hb]
      have := Footnoted.removed (after := []) hp hx hy hline
      simpa using this
    · rw [hc] at h
      cases h
  | bodyAfterAsteriskFooter =>
    simp only [hstate] at h hm
    obtain ⟨title, subject, raw, rfl, ht, hi, hs, hj, hf⟩ := hm
    injection h with h
    rcases feedAfter_reached (date := date) (line := line) ht hi hs hj hf with h1 | ⟨a, h1, h2⟩
    · rw [h1] at h
      injection h with h2 h3
      subst h2
      refine .inl ⟨h3.symm, .inl ?_⟩
      simp only [Reached, hstate]
      exact ⟨title, subject, raw ++ [line], by simp, ht, hi, hs, hj, hf.concat line⟩
    · rw [h1] at h
      injection h with h3 h4
      exact .inr ⟨a, h4.symm, h3.symm, by simp, h2⟩

/-- What is extracted from the lines of one act, if they follow a blank line. -/
def Alone (date : Date) (act : LawRawText) (lines : List Line) : Prop :=
  lawExtractor ⟨date, emptyLine :: lines⟩ = ⟨[act], none⟩

theorem lawLoop_cons_ok {date : Date} {m m' : LawMachine} {line : Line} {r : Option LawRawText}
    (h : m.feed date line = .ok (m', r)) (lines : List Line) : lawLoop date m (line :: lines) =
      ⟨r.toList ++ (lawLoop date m' lines).yields, (lawLoop date m' lines).stop⟩ := by
  rw [lawLoop]
  simp only [h]

theorem lawLoop_cut (date : Date) : ∀ (lines : List Line) (m : LawMachine) (seen : List Line), Reached m seen →
    (seen ≠ [] → ∀ rest, lawLoop date {} (emptyLine :: seen ++ rest) = lawLoop date m rest) →
    CutOut (fun a seg => ActLines Footnoted date a seg ∧ Alone date a seg) (seen ++ lines) (lawLoop date m lines).yields
  | [], m, seen, _, _ => .rest _
  | line :: lines, m, seen, hm, ha => by
    cases hf : m.feed date line with
    | error e =>
      rw [lawLoop]
      simp only [hf]
      exact .rest _
    | ok r =>
      obtain ⟨m', r⟩ := r
      rw [lawLoop_cons_ok hf]
      rcases feed_reached hm hf with ⟨rfl, h | ⟨rfl, h⟩⟩ | ⟨a, rfl, rfl, hne, h⟩
      · have := lawLoop_cut date lines m' (seen ++ [line]) h ?_
        · simpa using this
        · intro _ rest
          by_cases hs : seen = []
          · subst hs
            cases hst : m.state with
            | waitingForHeaderNewline =>
              simp only [Reached, hst] at hm
              obtain ⟨rfl, -⟩ := hm
              simp only [LawMachine.feed] at hf
              injection hf with hf
              injection hf with hf _
              by_cases hl : line.isEmptyLine
              · rw [if_pos hl] at hf
                subst hf
                simp only [Reached] at h
                exact absurd h.2 (by simp)
              · rw [if_neg hl] at hf
                subst hf
                simp only [Reached] at h
                exact absurd h.2 (by simp)
            | waitingForHeader =>
              simp only [Reached, hst] at hm
              obtain ⟨rfl, -⟩ := hm
              have h1 : LawMachine.feed {} date emptyLine = .ok ({ state := .waitingForHeader }, none) := rfl
              rw [show emptyLine :: ([] ++ [line]) ++ rest = emptyLine :: line :: rest by simp, lawLoop_cons_ok h1,
                lawLoop_cons_ok hf]
              simp
            | header =>
              simp only [Reached, hst] at hm
              obtain ⟨-, _, _, h, _⟩ := hm
              cases h
            | bodyBeforeAsteriskFooter =>
              simp only [Reached, hst] at hm
              obtain ⟨_, _, h, _⟩ := hm
              cases h
            | bodyAfterAsteriskFooter =>
              simp only [Reached, hst] at hm
              obtain ⟨_, _, _, h, _⟩ := hm
              cases h
          · rw [show emptyLine :: (seen ++ [line]) ++ rest = emptyLine :: seen ++ (line :: rest) by simp, ha hs,
              lawLoop_cons_ok hf]
            simp
      · have := lawLoop_cut date lines m' [] h (fun h => absurd rfl h)
        simpa using CutOut.cons this line
      · have := lawLoop_cut date lines {} [] ⟨rfl, rfl⟩ (fun h => absurd rfl h)
        have h1 := CutOut.act (P := fun a seg => ActLines Footnoted date a seg ∧ Alone date a seg) (between := [])
          (lines := seen ++ [line]) ⟨h, ?_⟩ this
        · simpa using h1
        · unfold Alone lawExtractor
          have := ha hne [line]
          rw [show emptyLine :: seen ++ [line] = emptyLine :: (seen ++ [line]) by simp] at this
          rw [this, lawLoop_cons_ok hf]
          rfl

/-! ## Acts that are found -/

/-- The machine skips lines that are not blank until an act may begin. -/
theorem lawLoop_skip (date : Date) (between rest : List Line) (h : ∀ l ∈ between, l.parts ≠ []) :
    lawLoop date {} (between ++ rest) = lawLoop date {} rest := by
  induction between with
  | nil => rfl
  | cons l between ih =>
    have h1 : LawMachine.feed {} date l = .ok ({}, none) := by
      simp only [LawMachine.feed]
      rw [if_neg]
      rw [isEmptyLine_iff]
      exact h l List.mem_cons_self
    rw [List.cons_append, lawLoop_cons_ok h1, ih fun x hx => h x (List.mem_cons_of_mem _ hx)]
    rfl

theorem spaced_cons (s : Str) (texts : List Str) : spaced (s :: texts) = s ++ texts.flatMap (' ' :: ·) := by
  induction texts generalizing s with
  | nil => simp [spaced]
  | cons t texts ih => rw [spaced, ih, List.flatMap_cons, List.cons_append]

theorem lawLoop_subject_step (date : Date) {i s : Str} {b : List Line} {l : Line} (rest : List Line) (hs : s ≠ [])
    (hl : l.content.getLast? ≠ some '*') :
    lawLoop date ⟨i, s, b, .header⟩ (l :: rest) = lawLoop date ⟨i, s ++ ' ' :: l.content, b, .header⟩ rest := by
  have hlast : ∃ c, (s ++ ' ' :: l.content).getLast? = some c ∧ c ≠ '*' := by
    rw [List.getLast?_append, List.getLast?_cons, Option.some_or]
    refine ⟨_, rfl, ?_⟩
    intro h
    cases hc : l.content.getLast? with
    | none =>
      rw [hc] at h
      simp at h
    | some c =>
      rw [hc] at h hl
      exact hl (by rw [← h]; rfl)
  obtain ⟨c, hc, hcs⟩ := hlast
  have h1 : LawMachine.feed ⟨i, s, b, .header⟩ date l = .ok (⟨i, s ++ ' ' :: l.content, b, .header⟩, none) := by
    simp only [LawMachine.feed, LawMachine.feedHeader, if_pos hs, hc, if_neg hcs]
    rfl
  rw [lawLoop_cons_ok h1]
  rfl

theorem lawLoop_subject_run (date : Date) {i : Str} {b : List Line} (rest : List Line) : ∀ (front : List Line) (s : Str), s ≠ [] →
    (∀ l ∈ front, l.content.getLast? ≠ some '*') → lawLoop date ⟨i, s, b, .header⟩ (front ++ rest) =
      lawLoop date ⟨i, s ++ (front.map Line.content).flatMap (' ' :: ·), b, .header⟩ rest
  | [], s, _, _ => by simp
  | l :: front, s, hs, h => by
    rw [List.cons_append, lawLoop_subject_step date _ hs (h l List.mem_cons_self),
      lawLoop_subject_run date rest front _ (by simp) fun x hx => h x (List.mem_cons_of_mem _ hx)]
    simp

theorem lawLoop_subject (date : Date) {i subject : Str} {lines : List Line} (h : SubjectLines lines subject) (rest : List Line) :
    lawLoop date ⟨i, [], [], .header⟩ (lines ++ rest) = lawLoop date ⟨i, subject, [], .bodyBeforeAsteriskFooter⟩ rest := by
  obtain ⟨front, last, rfl, hfirst, hfront, hlast, hsub⟩ := h
  have hfin : ∀ s : Str, (if s ≠ [] then s ++ ' ' :: last.content else last.content) = subject ++ ['*'] →
      lawLoop date ⟨i, s, [], .header⟩ (last :: rest) = lawLoop date ⟨i, subject, [], .bodyBeforeAsteriskFooter⟩ rest := by
    intro s hs
    have h1 : LawMachine.feed ⟨i, s, [], .header⟩ date last = .ok (⟨i, subject, [], .bodyBeforeAsteriskFooter⟩, none) := by
      simp only [LawMachine.feed, LawMachine.feedHeader]
      rw [hs]
      simp only [List.getLast?_concat, if_true, List.dropLast_concat]
      rfl
    rw [lawLoop_cons_ok h1]
    rfl
  cases front with
  | nil =>
    refine hfin [] ?_
    simpa [spaced] using hsub
  | cons l front =>
    have hl : l.content ≠ [] := hfirst l rfl
    have hstep : lawLoop date ⟨i, [], [], .header⟩ (l :: (front ++ [last] ++ rest)) =
        lawLoop date ⟨i, l.content, [], .header⟩ (front ++ [last] ++ rest) := by
      have h1 : LawMachine.feed ⟨i, [], [], .header⟩ date l = .ok (⟨i, l.content, [], .header⟩, none) := by
        obtain ⟨c, hc⟩ : ∃ c, l.content.getLast? = some c := ⟨_, List.getLast?_eq_some_getLast hl⟩
        have hcs : c ≠ '*' := by
          rintro rfl
          exact hfront l List.mem_cons_self hc
        simp only [LawMachine.feed, LawMachine.feedHeader, ne_eq, not_true, if_false, hc, if_neg hcs]
        rfl
      rw [lawLoop_cons_ok h1]
      rfl
    rw [show l :: front ++ [last] ++ rest = l :: (front ++ [last] ++ rest) from rfl, hstep, List.append_assoc,
      lawLoop_subject_run date _ front _ hl fun x hx => hfront x (List.mem_cons_of_mem _ hx)]
    refine hfin _ ?_
    rw [if_pos (by simp [hl]), ← hsub, List.cons_append, List.map_cons, spaced_cons]
    simp

theorem lawLoop_plain (date : Date) {i s : Str} (rest : List Line) : ∀ (lines body : List Line), Plain (body ++ lines) →
    lawLoop date ⟨i, s, body, .bodyBeforeAsteriskFooter⟩ (lines ++ rest) =
      lawLoop date ⟨i, s, body ++ lines, .bodyBeforeAsteriskFooter⟩ rest
  | [], body, _ => by simp
  | l :: lines, body, h => by
    have h1 : LawMachine.feed ⟨i, s, body, .bodyBeforeAsteriskFooter⟩ date l =
        .ok (⟨i, s, body ++ [l], .bodyBeforeAsteriskFooter⟩, none) := by
      show LawMachine.feedBefore ⟨i, s, body, .bodyBeforeAsteriskFooter⟩ date l = _
      have hno : ∀ p x y, body = p ++ [x, y] → p ≠ [] → x.parts = [] → l.parts ≠ [] ∧ ¬ Signature l.content := by
        intro p x y hb hp hx
        exact h p x y l lines (by simp [hb]) hp hx
      rcases feedBefore_cases ⟨i, s, body, .bodyBeforeAsteriskFooter⟩ date l with hc | ⟨p, x, y, hb, hp, hx, hl, -⟩ |
        ⟨p, x, y, hb, hp, hx, hl, -⟩
      · rw [hc.1]
        rcases feedAfter_cases ⟨i, s, body, .bodyBeforeAsteriskFooter⟩ date l with hd | ⟨p, x, y, hb, hp, hx, hsig, -⟩
        · rw [hd.1]
        · exact absurd hsig (hno p x y hb hp hx).2
      · exact absurd hl (hno p x y hb hp hx).1
      · exact absurd hl (hno p x y hb hp hx).1
    rw [List.cons_append, lawLoop_cons_ok h1, lawLoop_plain date rest lines _ (by simpa using h)]
    simp

theorem lawLoop_unsigned (date : Date) {i s : Str} (rest : List Line) : ∀ (lines body : List Line), Unsigned (body ++ lines) →
    lawLoop date ⟨i, s, body, .bodyAfterAsteriskFooter⟩ (lines ++ rest) =
      lawLoop date ⟨i, s, body ++ lines, .bodyAfterAsteriskFooter⟩ rest
  | [], body, _ => by simp
  | l :: lines, body, h => by
    have h1 : LawMachine.feed ⟨i, s, body, .bodyAfterAsteriskFooter⟩ date l =
        .ok (⟨i, s, body ++ [l], .bodyAfterAsteriskFooter⟩, none) := by
      show Except.ok (LawMachine.feedAfter ⟨i, s, body, .bodyAfterAsteriskFooter⟩ date l) = _
      rcases feedAfter_cases ⟨i, s, body, .bodyAfterAsteriskFooter⟩ date l with hd | ⟨p, x, y, hb, hp, hx, hsig, -⟩
      · rw [hd.1]
      · exact absurd hsig (h p x y l lines (by simp [show body = p ++ [x, y] from hb]) hp hx)
    rw [List.cons_append, lawLoop_cons_ok h1, lawLoop_unsigned date rest lines _ (by simpa using h)]
    simp

theorem feedAfter_end {m : LawMachine} {date : Date} {body : List Line} {blank names signature : Line}
    (hb : m.body = body ++ [blank, names]) (hne : body ≠ []) (hblank : blank.parts = [])
    (hsig : Signature signature.content) :
    m.feedAfter date signature = ({}, some ⟨m.identifier, date, m.subject, body⟩) := by
  rcases feedAfter_cases m date signature with h | ⟨p, x, y, hb', hp, hx, -, h⟩
  · exact absurd hsig (h.2 body blank names hb hne hblank)
  · rw [hb] at hb'
    rw [h, (List.append_inj' hb' rfl).1]

theorem signature_not_blank {l : Line} (h : Signature l.content) : l.parts ≠ [] := by
  intro hp
  obtain ⟨al, rest, -, h⟩ := h
  have := congrArg List.length h
  simp [Line.content, hp] at this

theorem lawLoop_title (date : Date) {blank title : Line} (hb : blank.parts = []) (ht : ActTitle title.content) (rest : List Line) :
    lawLoop date {} (blank :: title :: rest) = lawLoop date ⟨title.content, [], [], .header⟩ rest := by
  have h1 : LawMachine.feed {} date blank = .ok ({ state := .waitingForHeader }, none) := by
    simp only [LawMachine.feed]
    rw [if_pos (isEmptyLine_iff.mpr hb)]
  have h2 : LawMachine.feed { state := .waitingForHeader } date title = .ok (⟨title.content, [], [], .header⟩, none) := by
    simp only [LawMachine.feed]
    rw [if_pos (headerStarting_iff.mpr ht)]
  rw [lawLoop_cons_ok h1, lawLoop_cons_ok h2]
  rfl

/-! ## Sections -/

/-- The objects for the sections. -/
def lawsSections (date : Date) (sections : List (Str × List (List Line))) : List LawsSection :=
  sections.flatMap fun s => sectionOf date s.1 (sectionLines s.1 s.2)

theorem sectionLoop_empty {date : Date} {current : Option Str} {content : List Line} {page : PageWithHeader}
    {pages : List PageWithHeader} (h : page.lines = []) :
    sectionLoop date current content (page :: pages) = sectionLoop date current content pages := by
  cases current <;> (rw [sectionLoop]; simp only [h])

theorem sectionLoop_same {date : Date} {t : Str} {content lines : List Line} {line : Line} {page : PageWithHeader}
    {pages : List PageWithHeader} (h : page.lines = line :: lines) (ht : line.content = t ∨ line.content ∉ sectionTypes)
    (hm : t ∈ sectionTypes) :
    sectionLoop date (some t) content (page :: pages) =
      sectionLoop date (some t) (content ++ sectionLines t [page.lines]) pages := by
  rw [sectionLoop]
  simp only [h]
  rcases ht with ht | ht
  · rw [if_pos (ht ▸ hm), if_pos (by rw [ht])]
    simp [sectionLines, ht]
  · rw [if_neg ht]
    have : line.content ≠ t := fun he => ht (he ▸ hm)
    simp [sectionLines, this]

theorem sectionLoop_some (date : Date) : ∀ (pages : List PageWithHeader) (t : Str) (content : List Line), t ∈ sectionTypes →
    ∃ others later sections, (pages.map (·.lines)).filter (· ≠ []) = others ++ later ∧
      (∀ p ∈ others, ∃ l, p.head? = some l ∧ (l.content = t ∨ l.content ∉ sectionTypes)) ∧
      Sections (· ∈ sectionTypes) later sections ∧ (∀ s ∈ sections.head?, s.1 ≠ t) ∧
      sectionLoop date (some t) content pages =
        ⟨sectionOf date t (content ++ sectionLines t others) ++ lawsSections date sections, none⟩
  | [], t, content, _ => ⟨[], [], [], rfl, by simp, .none, by simp, by simp [sectionLoop, sectionLines, lawsSections]⟩
  | page :: pages, t, content, ht => by
    cases hp : page.lines with
    | nil =>
      rw [sectionLoop_empty hp, List.map_cons, hp, List.filter_cons_of_neg (by simp)]
      exact sectionLoop_some date pages t content ht
    | cons line lines =>
      by_cases hc : line.content = t ∨ line.content ∉ sectionTypes
      · obtain ⟨others, later, sections, h1, h2, h3, h4, h5⟩ := sectionLoop_some date pages t
          (content ++ sectionLines t [page.lines]) ht
        refine ⟨(line :: lines) :: others, later, sections, ?_, ?_, h3, h4, ?_⟩
        · rw [List.map_cons, hp, List.filter_cons_of_pos (by simp), h1]
          rfl
        · intro p hpm
          rcases List.mem_cons.mp hpm with rfl | hpm
          · exact ⟨line, rfl, hc⟩
          · exact h2 p hpm
        · rw [sectionLoop_same hp hc ht, h5, hp]
          simp [sectionLines]
      · rw [not_or, Decidable.not_not] at hc
        obtain ⟨others, later, sections, h1, h2, h3, h4, h5⟩ := sectionLoop_some date pages line.content
          (lines ++ [emptyLine]) hc.2
        refine ⟨[], (line :: lines) :: others ++ later, (line.content, (line :: lines) :: others) :: sections, ?_, by simp,
          Sections.first hc.2 rfl h2 h3 h4, ?_, ?_⟩
        · rw [List.map_cons, hp, List.filter_cons_of_pos (by simp), h1]
          rfl
        · intro s hs
          injection hs with hs
          subst hs
          exact hc.1
        · rw [sectionLoop]
          simp only [hp]
          rw [if_pos hc.2, if_neg (by simpa using fun h => hc.1 h.symm)]
          simp only [h5]
          simp [lawsSections, sectionLines]

end Verif
