import Verif.Proofs.Ordinals
import Verif.Proofs.Roman
import Verif.Proofs.ParsedArticle

/-! # Structural elements and whole acts -/

namespace Verif

open Verif.Spec

/-! ## Structural elements -/

theorem matchSubtitle_shape {s i : Str} (h : matchSubtitle s = some i) : (∃ t, s = i ++ py". " ++ t) ∧ '.' ∉ i := by
  unfold matchSubtitle at h
  simp only at h
  have hsplit := takeWhile_append_dropWhile' isAsciiDigit s
  have hd : '.' ∉ s.takeWhile isAsciiDigit := by
    intro hx
    have : isAsciiDigit '.' = true := List.all_eq_true.mp List.all_takeWhile _ hx
    revert this; decide
  split at h
  · cases h
  · split at h
    · rename_i t he
      obtain rfl := Option.some.inj h
      rw [he] at hsplit
      exact ⟨⟨t, hsplit.symm.trans (by simp)⟩, hd⟩
    · rename_i c t he
      split at h
      · rename_i hc
        obtain rfl := Option.some.inj h
        rw [he] at hsplit
        refine ⟨⟨t, hsplit.symm.trans (by simp)⟩, ?_⟩
        intro hx
        rcases List.mem_append.mp hx with hx | hx
        · exact hd hx
        · simp only [List.mem_cons, List.not_mem_nil, or_false] at hx
          rcases hx with hx | rfl
          · revert hx; decide
          · revert hc; decide
      · cases h
    · cases h

theorem joinLoop_prefix (ss : List Str) : ∀ r, ∃ t, joinLoop r ss = r ++ t := by
  induction ss with
  | nil => intro r; exact ⟨[], by simp [joinLoop]⟩
  | cons s ss ih =>
    intro r
    rw [joinLoop]
    obtain ⟨t, ht⟩ := ih ((if r ≠ [] ∧ r.getLast? ≠ some '-' then r ++ [' '] else r) ++ s)
    rw [ht]
    split
    · exact ⟨[' '] ++ s ++ t, by simp⟩
    · exact ⟨s ++ t, by simp⟩

theorem joinLines_prefix {first : Line} {rest : List Line} (h : first.isEmptyLine = false) :
    ∃ t, joinLines (first :: rest) = first.content ++ t := by
  unfold joinLines joinLineStrs
  rw [List.filter_cons_of_pos (by simp [h]), List.map_cons, joinLoop]
  obtain ⟨t, ht⟩ := joinLoop_prefix ((rest.filter fun l => !l.isEmptyLine).map (·.content)) first.content
  exact ⟨t, by simpa using ht⟩

theorem specialPartId_some {s i : Str} (h : specialPartId s = some i) :
    ∃ k, Spec.namedParts[k]? = some s ∧ i = natStr (k + 1) := by
  unfold specialPartId at h
  cases hf : specialParts.findIdx? (· == s) with
  | none => rw [hf] at h; cases h
  | some k =>
    rw [hf, Option.map_some] at h
    obtain rfl := Option.some.inj h
    obtain ⟨hk, h1, _⟩ := List.findIdx?_eq_some_iff_getElem.mp hf
    refine ⟨k, ?_, rfl⟩
    rw [show Spec.namedParts = specialParts from rfl, List.getElem?_eq_getElem hk]
    simpa using h1

theorem final_newline (s : Str) : ∃ nl, s = beforeFinalNewline s ++ nl ∧ (nl = [] ∨ nl = ['\n']) := by
  unfold beforeFinalNewline
  split
  · rename_i h
    exact ⟨['\n'], content_last h, .inr rfl⟩
  · exact ⟨[], by simp, .inl rfl⟩

theorem matchSuffix_shape {eq : Str → Str → Bool} {suffix s g : Str} (h : matchSuffix eq suffix s = some g) :
    ∃ name nl, s = g ++ name ++ nl ∧ (nl = [] ∨ nl = ['\n']) ∧ eq name suffix = true := by
  unfold matchSuffix at h
  simp only at h
  split at h
  · rename_i hc
    rw [Bool.and_eq_true] at hc
    obtain rfl := Option.some.inj h
    obtain ⟨nl, h1, h2⟩ := final_newline s
    exact ⟨_, nl, by rw [List.take_append_drop]; exact h1, h2, hc.1⟩
  · cases h

theorem lowerChar_of {c d : Char} (h : (if isUpperAz c then Char.ofNat (c.toNat + 0x20) else c) = d)
    (hd : d ∈ py". fejezet") : lowerChar c = d := by
  by_cases hu : isUpperAz c = true
  · rw [if_pos hu] at h
    unfold lowerChar
    have : (0x41 ≤ c.toNat && c.toNat ≤ 0x5a) = true := by
      simp only [isUpperAz, Bool.and_eq_true, decide_eq_true_eq] at hu ⊢
      have h1 : 'A'.val ≤ c.val := hu.1
      have h2 : c.val ≤ 'Z'.val := hu.2
      exact ⟨UInt32.le_iff_toNat_le.mp h1, UInt32.le_iff_toNat_le.mp h2⟩
    simp only [this, Bool.true_or, if_true]
    exact h
  · rw [if_neg hu] at h
    subst h
    simp only [List.mem_cons, List.not_mem_nil, or_false] at hd
    rcases hd with rfl | rfl | rfl | rfl | rfl | rfl | rfl | rfl | rfl <;> decide

theorem ignoreCase_lower {name : Str} (h : ignoreCaseEq name (py". fejezet") = true) : lower name = py". fejezet" := by
  unfold ignoreCaseEq at h
  have h' : name.map (fun c => if isUpperAz c then Char.ofNat (c.toNat + 0x20) else c) = py". fejezet" := by
    simpa using h
  rw [← h']
  unfold lower
  apply List.map_congr_left
  intro c hc
  refine lowerChar_of rfl ?_
  rw [← h']
  exact List.mem_map.mpr ⟨c, hc, rfl⟩

theorem StructKind.extract_cases {k : StructKind} {line : Line} {i : Str} (h : k.extractIdentifier line = .ok (some i))
    (hp : (if k = .part then specialPartId line.content else none) = none) :
    ∃ g, k.matchHeader line.content = some g ∧ k.identifierFromString g = .ok i := by
  unfold StructKind.extractIdentifier at h
  rw [hp] at h
  simp only at h
  cases hm : k.matchHeader line.content with
  | none => simp [hm] at h
  | some g =>
    simp only [hm] at h
    cases hg : k.identifierFromString g with
    | ok j =>
      simp only [hg, Except.ok.injEq, Option.some.injEq] at h
      exact ⟨g, rfl, by rw [h] at hg; exact hg⟩
    | error e =>
      simp only [hg] at h
      split at h <;> cases h

theorem struct_reads {k : StructKind} {lines : List Line} {n : Node} (h : k.parse lines = .ok n) :
    ∃ e, n = .structural e ∧ e.kind = k ∧ Reads lines n := by
  cases lines with
  | nil => cases h
  | cons first rest =>
    simp only [StructKind.parse] at h
    by_cases hk : k = .subtitle
    · rw [if_pos hk] at h
      subst hk
      obtain ⟨r, hr, h⟩ := resBind_ok h
      cases r with
      | none =>
        obtain rfl := Except.ok.inj h
        refine ⟨_, rfl, rfl, ?_⟩
        simp only [Reads, if_true, List.nil_append]
        rw [ink_joinLines]
      | some i =>
        simp only at h
        obtain ⟨g, hg, hi⟩ := StructKind.extract_cases hr rfl
        obtain rfl := Except.ok.inj hi
        obtain ⟨⟨t, ht⟩, hdot⟩ := matchSubtitle_shape hg
        have hne : first.isEmptyLine = false := by
          apply nonempty_of_content
          rw [ht]; simp
        obtain ⟨u, hu⟩ := joinLines_prefix (rest := rest) hne
        have hfind : strFind (py". ") (joinLines (first :: rest)) = some g.length := by
          rw [hu, ht, List.append_assoc, List.append_assoc]
          rw [show (py". ") = '.' :: [' '] from rfl, strFind_skip '.' [' '] _ _ hdot, strFind_here _ _ (by decide)]
          simp
        rw [hfind] at h
        obtain rfl := Except.ok.inj h
        refine ⟨_, rfl, rfl, ?_⟩
        have hgne : g ≠ [] := by
          rintro rfl
          have hg' : matchSubtitle first.content = some [] := hg
          unfold matchSubtitle at hg'
          simp only at hg'
          rw [ht] at hg'
          simp [isAsciiDigit] at hg'
        simp only [Reads, if_true, if_neg hgne]
        rw [← ink_joinLines]
        have hdrop : joinLines (first :: rest) = g ++ py". " ++ (joinLines (first :: rest)).drop (g.length + 2) := by
          conv => lhs; rw [hu, ht]
          rw [hu, ht]
          have : g.length + 2 = (g ++ py". ").length := by simp
          rw [List.append_assoc (g ++ py". "), this, List.drop_left]
        have h1 : ink (py". ") = ink (py".") := by decide
        conv => lhs; rw [hdrop]
        simp only [ink_append, h1]
    · rw [if_neg hk] at h
      cases hp : (if k = .part then specialPartId first.content else none) with
      | some i =>
        simp only [hp] at h
        obtain rfl := Except.ok.inj h
        refine ⟨_, rfl, rfl, ?_⟩
        by_cases hkp : k = .part
        · rw [if_pos hkp] at hp
          obtain ⟨j, h1, h2⟩ := specialPartId_some hp
          simp only [Reads, if_neg hk, if_true]
          exact ⟨first, rest, j, rfl, h1, h2, trivial⟩
        · rw [if_neg hkp] at hp; cases hp
      | none =>
        simp only [hp] at h
        obtain ⟨r, hr, h⟩ := resBind_ok h
        cases r with
        | none => cases h
        | some i =>
          obtain rfl := Except.ok.inj h
          refine ⟨_, rfl, rfl, ?_⟩
          simp only [Reads, if_neg hk, Bool.false_eq_true, if_false]
          refine ⟨first, rest, rfl, ?_, (ink_joinLines rest).symm⟩
          obtain ⟨g, hg, hi⟩ := StructKind.extract_cases hr hp
          cases k with
          | subtitle => exact absurd rfl hk
          | book =>
            obtain ⟨name, nl, h1, h2, h3⟩ := matchSuffix_shape hg
            obtain ⟨m, hm, hi⟩ := resBind_ok hi
            exact ⟨g, name, nl, h1, h2, by simpa using h3, m, (textToIntHun_ok _ _).mp hm, (Except.ok.inj hi).symm⟩
          | part =>
            obtain ⟨name, nl, h1, h2, h3⟩ := matchSuffix_shape hg
            obtain ⟨m, hm, hi⟩ := resBind_ok hi
            exact ⟨g, name, nl, h1, h2, by simpa using h3, m, (textToIntHun_ok _ _).mp hm, (Except.ok.inj hi).symm⟩
          | title =>
            obtain ⟨name, nl, h1, h2, h3⟩ := matchSuffix_shape hg
            exact ⟨g, name, nl, h1, h2, by simpa using h3, romanToArabic_iff.mp hi⟩
          | chapter =>
            obtain ⟨name, nl, h1, h2, h3⟩ := matchSuffix_shape hg
            exact ⟨g, name, nl, h1, h2, ignoreCase_lower h3, romanToArabic_iff.mp hi⟩

/-! ## The loop over the body -/

/-- The variables of the loop after the lines `seen` if there was a header; `pre` are the lines before it. -/
def BodyIn (pi : Bool) (pre seen : List Line) (v : BodyLoop) : Prop :=
  ∃ (blocks : List (List Line)) (p : BodyParser), v.parser = some p ∧ seen = pre ++ blocks.flatten ++ v.current ∧
    Both (fun b e => ∃ q : BodyParser, q.parse b pi = .ok e) blocks v.elements ∧
    Levels (openQuotes pre) (blocks ++ [v.current])

/-- The same if there was no header. -/
def BodyBefore (seen : List Line) (v : BodyLoop) : Prop := v.parser = none ∧ v.elements = [] ∧ v.current = seen

theorem Levels.snoc_line {level : Int} {bs : List (List Line)} {b : List Line} (l : Line) (h : Levels level (bs ++ [b])) :
    Levels level (bs ++ [b ++ [l]]) := by
  induction bs generalizing level with
  | nil => exact ⟨h.1, trivial⟩
  | cons c cs ih => exact ⟨h.1, ih h.2⟩

theorem bodyStep_in {strict pi : Bool} {pre seen : List Line} {v v' : BodyLoop} {l : Line} (hi : BodyIn pi pre seen v)
    (h : bodyStep strict pi v (openQuotes seen) l = .ok v') : BodyIn pi pre (seen ++ [l]) v' := by
  obtain ⟨blocks, q, a, b, c, d⟩ := hi
  unfold bodyStep at h
  by_cases hl : openQuotes seen ≠ 0
  · rw [if_pos hl] at h
    obtain rfl := Except.ok.inj h
    exact ⟨blocks, q, a, by simp [b], c, d.snoc_line l⟩
  · rw [if_neg hl] at h
    have hl' : openQuotes seen = 0 := by simpa using hl
    obtain ⟨r, hr, h⟩ := resBind_ok h
    cases r with
    | none =>
      obtain rfl := Except.ok.inj h
      exact ⟨blocks, q, a, by simp [b], c, d.snoc_line l⟩
    | some p =>
      simp only at h
      obtain ⟨elements, he, h⟩ := resBind_ok h
      obtain ⟨state, hs, h⟩ := resBind_ok h
      obtain rfl := Except.ok.inj h
      unfold finishElement at he
      rw [a] at he
      obtain ⟨e, hq, h⟩ := resBind_ok he
      obtain rfl := Except.ok.inj h
      refine ⟨blocks ++ [v.current], p, rfl, by simp [b], c.append (.cons ⟨q, hq⟩ .nil), d.snoc ?_⟩
      rw [b] at hl'
      simpa [openQuotes_append, Int.add_assoc] using hl'

theorem bodyStep_before {strict pi : Bool} {seen : List Line} {v v' : BodyLoop} {l : Line} (hi : BodyBefore seen v)
    (h : bodyStep strict pi v (openQuotes seen) l = .ok v') :
    (BodyBefore (seen ++ [l]) v' ∧ ∀ p, openQuotes seen = 0 →
      headerParser strict v.state l v.previous bodyParsers ≠ .ok (some p)) ∨
    BodyIn pi seen (seen ++ [l]) v' := by
  obtain ⟨a, b, c⟩ := hi
  unfold bodyStep at h
  by_cases hl : openQuotes seen ≠ 0
  · rw [if_pos hl] at h
    obtain rfl := Except.ok.inj h
    exact .inl ⟨⟨a, b, by simp [c]⟩, fun p hz => absurd hz hl⟩
  · rw [if_neg hl] at h
    have hl' : openQuotes seen = 0 := by simpa using hl
    obtain ⟨r, hr, h⟩ := resBind_ok h
    cases r with
    | none =>
      obtain rfl := Except.ok.inj h
      exact .inl ⟨⟨a, b, by simp [c]⟩, fun p _ h' => by rw [hr] at h'; cases h'⟩
    | some p =>
      simp only at h
      obtain ⟨elements, he, h⟩ := resBind_ok h
      obtain ⟨state, hs, h⟩ := resBind_ok h
      obtain rfl := Except.ok.inj h
      unfold finishElement at he
      rw [a] at he
      obtain rfl := Except.ok.inj he
      exact .inr ⟨[], p, rfl, by simp, by rw [b]; exact .nil, ⟨hl', trivial⟩⟩

theorem bodyLoop_in (strict pi : Bool) (ls : List Line) : ∀ (pre seen : List Line) (v v' : BodyLoop),
    BodyIn pi pre seen v → (quoteLevelLoop true (openQuotes seen) ls).stop = none →
    bodyLoop strict pi v (quoteLevelLoop true (openQuotes seen) ls).yields = .ok v' →
    BodyIn pi pre (seen ++ ls) v' := by
  induction ls with
  | nil =>
    intro pre seen v v' hi h0 h
    obtain rfl := Except.ok.inj h
    simpa using hi
  | cons l ls ih =>
    intro pre seen v v' hi h0 h
    simp only [quoteLevelLoop] at h0 h
    by_cases hneg : openQuotes seen + quoteLevelDiff l.content < 0
    · simp [hneg] at h0
    · simp only [hneg, decide_false, Bool.and_false, Bool.false_eq_true, if_false] at h0 h
      rw [bodyLoop] at h
      obtain ⟨v1, hstep, h⟩ := resBind_ok h
      have hlev : openQuotes seen + quoteLevelDiff l.content = openQuotes (seen ++ [l]) := by
        rw [openQuotes_append, openQuotes_one]
      rw [hlev] at h0 h
      have := ih pre (seen ++ [l]) v1 v' (bodyStep_in hi hstep) h0 h
      simpa using this

theorem bodyLoop_before (strict pi : Bool) (ls : List Line) : ∀ (seen : List Line) (v v' : BodyLoop),
    BodyBefore seen v → (quoteLevelLoop true (openQuotes seen) ls).stop = none →
    bodyLoop strict pi v (quoteLevelLoop true (openQuotes seen) ls).yields = .ok v' →
    BodyBefore (seen ++ ls) v' ∨ ∃ pre, BodyIn pi pre (seen ++ ls) v' ∧
      ∀ l p, ls.head? = some l → openQuotes seen = 0 →
        headerParser strict v.state l v.previous bodyParsers = .ok (some p) → pre = seen := by
  induction ls with
  | nil =>
    intro seen v v' hi h0 h
    obtain rfl := Except.ok.inj h
    exact .inl (by simpa using hi)
  | cons l ls ih =>
    intro seen v v' hi h0 h
    simp only [quoteLevelLoop] at h0 h
    by_cases hneg : openQuotes seen + quoteLevelDiff l.content < 0
    · simp [hneg] at h0
    · simp only [hneg, decide_false, Bool.and_false, Bool.false_eq_true, if_false] at h0 h
      rw [bodyLoop] at h
      obtain ⟨v1, hstep, h⟩ := resBind_ok h
      have hlev : openQuotes seen + quoteLevelDiff l.content = openQuotes (seen ++ [l]) := by
        rw [openQuotes_append, openQuotes_one]
      rw [hlev] at h0 h
      rcases bodyStep_before hi hstep with ⟨hb, hno⟩ | hin
      · rcases ih (seen ++ [l]) v1 v' hb h0 h with h1 | ⟨pre, h1, _⟩
        · exact .inl (by simpa using h1)
        · refine .inr ⟨pre, by simpa using h1, ?_⟩
          intro x p hx hz hp
          obtain rfl := Option.some.inj hx
          exact absurd hp (hno p hz)
      · exact .inr ⟨seen, by simpa using bodyLoop_in strict pi ls seen (seen ++ [l]) v1 v' hin h0 h, by simp⟩

theorem parseElements_spec {strict pi : Bool} {lines : List Line} {es : List Node}
    (h : parseElements strict lines pi = .ok es) :
    openQuotes lines = 0 ∧ ∃ pre blocks, lines = pre ++ blocks.flatten ∧ Levels (openQuotes pre) blocks ∧
      Both (fun b e => ∃ q : BodyParser, q.parse b pi = .ok e) blocks es ∧
      ∀ l p, lines.head? = some l → headerParser strict {} l emptyLine bodyParsers = .ok (some p) → pre = [] := by
  unfold parseElements at h
  simp only at h
  obtain ⟨v, hl, h⟩ := resBind_ok h
  cases hs : (iterateWithQuoteLevel lines).stop with
  | some e => simp [hs] at h
  | none =>
    simp only [hs] at h
    refine ⟨balanced_of_stop hs, ?_⟩
    rcases bodyLoop_before strict pi lines [] {} v ⟨rfl, rfl, rfl⟩ hs hl with ⟨a, _⟩ | ⟨pre, ⟨blocks, p, a, b, c, d⟩, hp⟩
    · rw [a] at h; cases h
    · rw [a] at h
      obtain ⟨e, he, h⟩ := resBind_ok h
      obtain rfl := Except.ok.inj h
      rw [List.nil_append] at b
      exact ⟨pre, blocks ++ [v.current], by rw [b]; simp, d, c.append (.cons ⟨p, he⟩ .nil), fun l p hl hh => hp l p hl rfl hh⟩

/-! ## The first header is found again -/

theorem headerParser_previous {l previous : Line} {p : BodyParser}
    (h : headerParser true {} l previous bodyParsers = .ok (some p)) :
    headerParser true {} l emptyLine bodyParsers = .ok (some p) := by
  have sub : ∀ b, subtitleIsHeader true (py"0") l previous = .ok b → b = true →
      subtitleIsHeader true (py"0") l emptyLine = .ok true := by
    rintro b hb rfl
    unfold subtitleIsHeader at hb ⊢
    split
    · rename_i hbold; rw [if_pos hbold] at hb; cases hb
    · rename_i hbold
      rw [if_neg hbold] at hb
      simp only [Bool.not_true, Bool.false_eq_true, if_false] at hb ⊢
      rw [if_pos (show emptyLine.isEmptyLine = true from rfl)]
      cases he : previous.isEmptyLine with
      | true => rw [he] at hb; exact hb
      | false =>
        simp only [he, Bool.false_eq_true, if_false] at hb
        have : l.content ≠ [] := by
          intro hc
          unfold StructKind.isHeaderBase StructKind.extractIdentifier at hb
          rw [hc] at hb
          revert hb
          decide
        unfold beginsUppercase
        cases hc : l.content with
        | nil => exact absurd hc this
        | cons c t =>
          simp only [bind, Except.bind]
          split
          · rfl
          · exact hb
  unfold bodyParsers at h ⊢
  have skip : ∀ (q : BodyParser) (qs : List BodyParser), q ≠ .struct .subtitle →
      (headerParser true {} l previous qs = .ok (some p) → headerParser true {} l emptyLine qs = .ok (some p)) →
      headerParser true {} l previous (q :: qs) = .ok (some p) →
      headerParser true {} l emptyLine (q :: qs) = .ok (some p) := by
    intro q qs hq hqs h
    have hsame : q.isHeader true {} l previous = q.isHeader true {} l emptyLine := by
      cases q with
      | article => rfl
      | struct k => cases k <;> first | rfl | exact absurd rfl hq
    rw [headerParser] at h ⊢
    rw [← hsame]
    obtain ⟨b, hb, h⟩ := resBind_ok h
    rw [hb]
    cases b with
    | true => exact h
    | false => exact hqs (by simpa using h)
  refine skip _ _ (by decide) ?_ h
  refine skip _ _ (by decide) ?_
  refine skip _ _ (by decide) ?_
  refine skip _ _ (by decide) ?_
  refine skip _ _ (by decide) ?_
  intro h
  rw [headerParser] at h ⊢
  obtain ⟨b, hb, h⟩ := resBind_ok h
  cases b with
  | true =>
    have : BodyParser.isHeader (.struct .subtitle) true {} l emptyLine = .ok true := sub true hb rfl
    rw [this]
    exact h
  | false =>
    have : headerParser true {} l previous [] = .ok (some p) := by simpa using h
    cases this

theorem preambleLength_spec (lines : List Line) : ∀ (previous : Line) (n : Nat),
    preambleLength previous lines = .ok n →
    lines.drop n = [] ∨ ∃ l rest p, lines.drop n = l :: rest ∧ headerParser true {} l emptyLine bodyParsers = .ok (some p) := by
  induction lines with
  | nil => intro previous n h; exact .inl (by simp)
  | cons l ls ih =>
    intro previous n h
    rw [preambleLength] at h
    obtain ⟨r, hr, h⟩ := resBind_ok h
    cases r with
    | some p =>
      obtain rfl := Except.ok.inj h
      exact .inr ⟨l, ls, p, rfl, headerParser_previous hr⟩
    | none =>
      obtain ⟨m, hm, h⟩ := resBind_ok h
      obtain rfl := Except.ok.inj h
      exact ih l m hm

/-! ## Acts -/

theorem parseAct_spec {identifier subject : Str} {date : Date} {lines : List Line} {act : Act}
    (h : parseAct identifier date subject lines = .ok act) :
    ∃ pre blocks, lines = pre ++ blocks.flatten ∧ act.preamble = joinLines pre ∧ openQuotes blocks.flatten = 0 ∧
      Levels 0 blocks ∧ Both (fun b e => ∃ q : BodyParser, q.parse b true = .ok e) blocks act.children := by
  unfold parseAct at h
  cases hr : (do
    let (preamble, rest) ← parsePreamble lines
    let elements ← parseElements true rest true
    Except.ok (preamble, elements) : Res (Str × List Node)) with
  | error e => rw [hr] at h; cases h
  | ok r =>
    rw [hr] at h
    obtain ⟨preamble, elements⟩ := r
    obtain rfl := Except.ok.inj h
    obtain ⟨⟨preamble', rest⟩, hp, hr⟩ := resBind_ok hr
    obtain ⟨elements', he, hr⟩ := resBind_ok hr
    simp only [Except.ok.injEq, Prod.mk.injEq] at hr
    obtain ⟨rfl, rfl⟩ := hr
    unfold parsePreamble at hp
    obtain ⟨n, hn, hp⟩ := resBind_ok hp
    simp only [Except.ok.injEq, Prod.mk.injEq] at hp
    obtain ⟨rfl, rfl⟩ := hp
    rcases preambleLength_spec lines emptyLine n hn with hd | ⟨l, rest, p, hd, hh⟩
    · rw [hd] at he
      simp [parseElements, iterateWithQuoteLevel, quoteLevelLoop, bodyLoop, bind, Except.bind] at he
    · rw [hd] at he
      obtain ⟨h0, pre, blocks, h1, h2, h3, h4⟩ := parseElements_spec he
      obtain rfl := h4 l p rfl hh
      rw [List.nil_append] at h1
      refine ⟨lines.take n, blocks, ?_, rfl, by rw [← h1]; exact h0, h2, h3⟩
      rw [← h1, ← hd, List.take_append_drop]

theorem LongTitle.wider {a b c : List Line} (h : LongTitle b) : LongTitle (a ++ b ++ c) := by
  obtain ⟨before, x, y, z, after, rfl, rest⟩ := h
  exact ⟨a ++ before, x, y, z, after ++ c, by simp, rest⟩

theorem mem_flatten_split {b : List Line} {blocks : List (List Line)} (h : b ∈ blocks) :
    ∃ x y, blocks.flatten = x ++ b ++ y := by
  obtain ⟨s, t, rfl⟩ := List.append_of_mem h
  exact ⟨s.flatten, t.flatten, by simp⟩

/-- One element of the body. -/
theorem body_reads {q : BodyParser} {b : List Line} {e : Node} {pi : Bool} (h : q.parse b pi = .ok e)
    (hf : ∀ l ∈ b, FineEnd l) (hno : ¬ LongTitle b) : Reads b e := by
  cases q with
  | article =>
    obtain ⟨i, t, ps, rfl, facts⟩ := parseArticle_spec h
    exact article_text facts hf hno
  | struct k =>
    obtain ⟨e', rfl, _, hr⟩ := struct_reads h
    exact hr

theorem body_divided {q : BodyParser} {b : List Line} {e : Node} {pi : Bool} (h : q.parse b pi = .ok e)
    (hf : ∀ l ∈ b, FineEnd l) (h0 : openQuotes b = 0) {before : List Line} (hb : openQuotes before = 0) :
    Divided before b e := by
  cases q with
  | article =>
    obtain ⟨i, t, ps, rfl, facts⟩ := parseArticle_spec h
    exact article_divided facts hf h0 hb
  | struct k =>
    obtain ⟨e', rfl, _, hr⟩ := struct_reads h
    exact .structural hb hr

theorem body_dividedL {pi : Bool} {blocks : List (List Line)} {es : List Node}
    (h : Both (fun b e => ∃ q : BodyParser, q.parse b pi = .ok e) blocks es) :
    ∀ (before : List Line), (∀ b ∈ blocks, ∀ l ∈ b, FineEnd l) → Levels (openQuotes before) blocks →
      openQuotes before + openQuotes blocks.flatten = 0 → DividedL before blocks es := by
  induction h with
  | nil => intro before _ _ _; exact .nil _
  | @cons b e bs es hq tail ih =>
    intro before hf hl h0
    obtain ⟨q, hq⟩ := hq
    have hz : openQuotes b = 0 := by
      have h1 := hl.1
      cases bs with
      | nil => simp only [List.flatten_cons, List.flatten_nil, List.append_nil] at h0; omega
      | cons c cs => have := hl.2.1; omega
    refine .cons (body_divided hq (hf b (by simp)) hz hl.1) (ih (before ++ b) (fun c hc => hf c (by simp [hc])) ?_ ?_)
    · rw [openQuotes_append]; exact hl.2
    · rw [openQuotes_append]
      rw [List.flatten_cons, openQuotes_append] at h0
      omega

end Verif
