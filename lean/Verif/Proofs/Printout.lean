import Verif.Proofs.Txt
import Verif.Proofs.Amendments
import Verif.Proofs.Built
import Verif.Spec.Printout
import Verif.Spec.Semantics

/-! # Lemmas about what exactly a text file says -/

namespace Verif

open Spec

theorem Spec.Named.child {n c : Node} (h : Named n) (hc : c ∈ n.children) : Named c := fun k d cs hm => h k d cs (.deeper hc hm)

theorem Spec.Introduced.child {n c : Node} (h : Introduced n) (hc : c ∈ n.children) : Introduced c :=
  fun k d cs hm => h k d cs (.deeper hc hm)

theorem truthy_notBlank {s : Option Str} (h : NotBlank s) : truthy s = s := by
  cases s with
  | none => rfl
  | some t =>
    cases t with
    | nil => exact absurd rfl (h [] rfl)
    | cons c t => rfl

theorem truthy_named {s : Option Str} (h : s ≠ some []) : truthy s = s := by
  cases s with
  | none => rfl
  | some t =>
    cases t with
    | nil => exact absurd rfl h
    | cons c t => rfl

theorem filledAll_iff {cs : List Node} : FilledAll cs ↔ ∀ c ∈ cs, Filled c := by
  induction cs with
  | nil => simp [FilledAll]
  | cons c cs ih => simp [FilledAll, ih]

theorem wrapped_exact {wrap : Wrap} (hw : KeepsText wrap) {s indent : Str} {width : Int} {file : Option Dest}
    (h : (wrappedPrint wrap s indent width file).stop = none) (hs : noSpaces s ≠ [] ∨ noSpaces indent = []) :
    printedText (wrappedPrint wrap s indent width file).yields = noSpaces indent ++ noSpaces s := by
  by_cases he : noSpaces s = []
  · have hi := hs.resolve_left (fun h => h he)
    unfold wrappedPrint at h ⊢
    by_cases hz : width = 0
    · rw [if_pos hz]
      simp [printTo, printedText, noSpaces_append]
    · rw [if_neg hz] at h ⊢
      obtain ⟨ls, hl, -, e⟩ := using_ended h
      rw [e, printLines_text, hw s _ ls hl, hi]
      split <;> rfl
  · exact (wrapped_shows hw h).1 he

/-- A text in the brackets given by a function. -/
theorem ifAny_exact {wrap : Wrap} (hw : KeepsText wrap) {s : Option Str} {f : Str → Str} {indent : Str} {width : Int}
    (h : (printIfAny wrap s f indent width).stop = none) (hi : noSpaces indent = []) :
    printedText (printIfAny wrap s f indent width).yields = match truthy s with
      | some t => noSpaces (f t)
      | none => [] := by
  unfold printIfAny at h ⊢
  cases ht : truthy s with
  | none => rfl
  | some t =>
    rw [ht] at h
    simp only at h ⊢
    rw [wrapped_exact hw h (.inr hi), hi, List.nil_append]

/-- The intro or title takes the indent, otherwise what follows gets it. -/
theorem ifAny_then {wrap : Wrap} (hw : KeepsText wrap) {s : Option Str} {f : Str → Str} {indent : Str} {width : Int}
    (hf : ∀ t, s = some t → noSpaces (f t) ≠ []) (h : (printIfAny wrap s f indent width).stop = none) {u v : Str}
    (hu : u = noSpaces (if (truthy s).isSome then blank indent else indent) ++ v) :
    printedText (printIfAny wrap s f indent width).yields ++ u = noSpaces indent ++ (match truthy s with
      | some t => noSpaces (f t)
      | none => []) ++ v := by
  subst hu
  unfold printIfAny at h ⊢
  cases ht : truthy s with
  | none => simp [printedText, noSpaces]
  | some t =>
    rw [ht] at h
    simp only [Option.isSome_some, if_true] at h ⊢
    rw [wrapped_exact hw h (.inl (hf t (truthy_some ht).1)), noSpaces_blankIndent, List.nil_append]

theorem brackets_exact {o c p q : Str} (ho : noSpaces o = noSpaces p) (hc : noSpaces c = noSpaces q) (s : Option Str) :
    (match truthy s with
      | some t => noSpaces (p ++ t ++ q)
      | none => []) = noSpaces (inBrackets o c s) := by
  cases s with
  | none => rfl
  | some t =>
    cases t with
    | nil => rfl
    | cons x t =>
      show noSpaces (p ++ (x :: t) ++ q) = noSpaces (o ++ (x :: t) ++ c)
      simp only [noSpaces_append, ho, hc]

theorem getD_exact (s : Option Str) : (match truthy s with
      | some t => noSpaces (id t)
      | none => []) = noSpaces (s.getD []) := by
  cases s with
  | none => rfl
  | some t => cases t <;> rfl

theorem structural_exact {wrap : Wrap} (hw : KeepsText wrap) {e : StructuralElement} {indent : Str} {width : Int}
    (hi : noSpaces indent = []) (h : (writeStructural wrap e indent width).stop = none) :
    printedText (writeStructural wrap e indent width).yields = noSpaces (shown (.structural e)) := by
  unfold writeStructural at h ⊢
  obtain ⟨i, he, h, eq⟩ := using_ended h
  rw [eq, shown, he]
  simp only [Except.toOption, Option.getD_some, noSpaces_append]
  by_cases hk : e.kind = .subtitle
  · rw [if_pos hk] at h ⊢
    rw [wrapped_exact hw h (.inr hi), hi, List.nil_append, noSpaces_strip, noSpaces_append]
    cases i with
    | nil => rfl
    | cons c i =>
      simp only [List.isEmpty_cons, Bool.false_eq_true, if_false]
      rw [noSpaces_append]
      have : noSpaces (py" ") = [] := by decide
      rw [this, List.append_nil]
  · rw [if_neg hk] at h ⊢
    obtain ⟨h1, h2, e1⟩ := andThen_ended h
    rw [e1, printedText_append, wrapped_exact hw h1 (.inr hi), ifAny_exact hw h2 (noSpaces_blankIndent _), hi, List.nil_append,
      getD_exact]
    rfl

theorem quoted_exact {lines : List Line} {indent : Str} (h : (writeQuoted lines indent).stop = none) :
    printedText (writeQuoted lines indent).yields = noSpaces indent ++ noSpaces (shown (.quoted lines)) := by
  unfold writeQuoted at h ⊢
  obtain ⟨h1, h2, e1⟩ := andThen_ended h
  obtain ⟨b, hb, h3, e2⟩ := using_ended h2
  rw [e1, printedText_append, e2, printedText_append, shown]
  have hl : printedText (printQuoted (blank indent) b lines) = noSpaces (linesText lines) := by
    clear h h1 h2 h3 e1 e2 hb
    induction lines with
    | nil => rfl
    | cons l ls ih =>
      simp only [printQuoted, List.map_cons, linesText, List.flatMap_cons] at ih ⊢
      rw [printed_cons, ih, noSpaces_append]
      simp only [printedText, List.flatMap_cons, List.flatMap_nil, List.append_nil, noSpaces_append, noSpaces_blankIndent, noSpaces_spaces,
        List.nil_append]
  rw [hl]
  simp only [printedText, printTo, List.flatMap_cons, List.flatMap_nil, List.append_nil, noSpaces_append, noSpaces_blankIndent,
    List.nil_append, List.append_assoc]

theorem heading_exact {k : SaeKind} {identifier : Option Str} {indent indent' : Str} (hk : k ≠ .blockAmendmentContainer)
    (hn : identifier ≠ some []) (h : (match truthy identifier with
      | some i => (k.headerPrefix (some i)).map fun h => indent ++ padRight 5 h
      | none => .ok (indent ++ List.replicate 5 ' ')) = Except.ok indent') :
    noSpaces indent' = noSpaces indent ++ noSpaces (heading k identifier) := by
  rw [truthy_named hn] at h
  cases identifier with
  | none =>
    cases h
    rw [noSpaces_append, noSpaces_spaces]
    rfl
  | some i =>
    have e1 : noSpaces (py") ") = noSpaces (py")") := by decide
    have e2 : noSpaces (py". ") = noSpaces (py".") := by decide
    cases k <;> first
      | exact absurd rfl hk
      | (cases h
         simp only [noSpaces_append, noSpaces_padRight, heading, Option.getD_some, e1, e2])

/-- What is printed of an object, apart from spaces. -/
theorem writeNode_exact {wrap : Wrap} (hw : KeepsText wrap) {width : Int} (n : Node) : ∀ {indent : Str}, Built n → Filled n →
    Named n → Introduced n → (noSpaces indent = [] ∨ (∀ k, n.type ≠ .structural k) ∧ n.type ≠ .sae .blockAmendmentContainer) →
    (writeNode wrap width indent n).stop = none →
    printedText (writeNode wrap width indent n).yields = noSpaces indent ++ noSpaces (shown n) := by
  have list : ∀ cs : List Node, (∀ c ∈ cs, ∀ {indent : Str}, Built c → Filled c → Named c → Introduced c →
      (noSpaces indent = [] ∨ (∀ k, c.type ≠ .structural k) ∧ c.type ≠ .sae .blockAmendmentContainer) →
      (writeNode wrap width indent c).stop = none →
      printedText (writeNode wrap width indent c).yields = noSpaces indent ++ noSpaces (shown c)) →
      ∀ {keep : Bool} {indent : Str}, (∀ c ∈ cs, Built c) → FilledAll cs → (∀ c ∈ cs, Named c) → (∀ c ∈ cs, Introduced c) →
      (noSpaces indent = [] ∨ keep = false ∧ cs ≠ [] ∧
        ∀ c ∈ cs, (∀ k, c.type ≠ .structural k) ∧ c.type ≠ .sae .blockAmendmentContainer) →
      (writeNodes wrap width keep indent cs).stop = none →
      printedText (writeNodes wrap width keep indent cs).yields = noSpaces indent ++ noSpaces (shownL cs) := by
    intro cs
    induction cs with
    | nil =>
      intro _ keep indent _ _ _ _ hi h
      rcases hi with hi | ⟨-, hi, -⟩
      · rw [hi]
        rfl
      · exact absurd rfl hi
    | cons c cs ih =>
      intro hc keep indent hb hf hn hin hi h
      rw [writeNodes] at h ⊢
      obtain ⟨h1, h2, e⟩ := andThen_ended h
      have hrest : noSpaces (if keep = true then indent else blank indent) = [] := by
        rcases hi with hi | ⟨hi, -, -⟩
        · split
          · exact hi
          · exact noSpaces_blankIndent _
        · rw [if_neg (by rw [hi]; decide)]
          exact noSpaces_blankIndent _
      rw [e, printedText_append, hc c (by simp) (hb c (by simp)) hf.1 (hn c (by simp)) (hin c (by simp))
        (hi.imp_right fun h => h.2.2 c (by simp)) h1,
        ih (fun c h => hc c (by simp [h])) (fun c h => hb c (by simp [h])) hf.2 (fun c h => hn c (by simp [h]))
        (fun c h => hin c (by simp [h])) (.inl hrest) h2, hrest, shownL, noSpaces_append]
      simp
  induction n using Node.ind with
  | structural e =>
    intro indent _ _ _ _ hi h
    have hi := hi.resolve_right fun h => h.1 e.kind rfl
    rw [writeNode] at h ⊢
    rw [structural_exact hw hi h, hi, List.nil_append]
  | quoted l =>
    intro indent _ _ _ _ _ h
    rw [writeNode] at h ⊢
    exact quoted_exact h
  | article i t cs ih =>
    intro indent hb hf hn hin _ h
    rw [writeNode] at h ⊢
    obtain ⟨h1, h2, e⟩ := andThen_ended h
    have hkid := list cs ih (built_article hb).1 hf.2.2 (fun c hc => Named.child hn hc)
      (fun c hc => Introduced.child hin hc) (.inr ⟨rfl, hf.2.1, fun c hc => by
      rw [(built_article hb).2.1 c hc]
      exact ⟨by simp, by simp⟩⟩) h2
    rw [e, printedText_append, ifAny_then hw (fun t _ => by rw [noSpaces_append]; simp [show noSpaces (py"]") ≠ [] by decide]) h1 hkid,
      brackets_exact (o := py"[") (c := py"]") (by decide) rfl]
    have e1 : noSpaces (py". §") = noSpaces (py".§") := by decide
    simp only [shown, noSpaces_append, noSpaces_padRight, List.append_assoc, e1]
  | sae k d cs ih =>
    intro indent hb hf hn hin hi h
    obtain ⟨hbc, hwf⟩ := built_sae hb
    have hnc : ∀ c ∈ cs, Named c := fun c hc => Named.child hn hc
    have hic : ∀ c ∈ cs, Introduced c := fun c hc => Introduced.child hin hc
    by_cases hk : k = .blockAmendmentContainer
    · subst hk
      have hi := hi.resolve_right fun h => h.2 rfl
      rw [writeNode] at h ⊢
      obtain ⟨h1, h2, e1⟩ := andThen_ended h
      obtain ⟨h3, h4, e2⟩ := andThen_ended h2
      by_cases hcs : cs.isEmpty = true
      · rw [if_pos hcs] at h4
        cases h4
      rw [if_neg hcs] at h4 e1 e2
      rw [if_neg hcs]
      obtain ⟨h5, h6, e3⟩ := andThen_ended h4
      obtain ⟨h7, h8, e4⟩ := andThen_ended h6
      have hkid := list cs ih hbc hf.2.2 hnc hic (.inl (by rw [noSpaces_append, hi, noSpaces_spaces]; rfl)) h5
      rw [e1, e2, e3, e4]
      simp only [printedText_append]
      rw [hkid, ifAny_exact hw h1 hi, ifAny_exact hw h8 hi, brackets_exact (o := py"(") (c := py")") rfl rfl,
        brackets_exact (o := py"(") (c := py")") rfl rfl, shown, if_pos rfl]
      simp only [printedText, printTo, List.flatMap_cons, List.flatMap_nil, List.append_nil, noSpaces_append, hi, noSpaces_spaces,
        List.nil_append, List.append_assoc]
    · rw [writeNode_sae hk] at h ⊢
      obtain ⟨indent', hi', h, e⟩ := using_ended h
      rw [e, shown, if_neg hk]
      have hid := heading_exact hk (hn _ _ _ (.self _)) hi'
      have key : ∀ x : Str, noSpaces indent' ++ x = noSpaces indent ++ (noSpaces (heading k d.identifier) ++ x) := by
        intro x
        rw [hid, List.append_assoc]
      cases ht : truthy d.text with
      | some t =>
        rw [ht] at h
        simp only at h ⊢
        have htx := (truthy_some ht).1
        obtain ⟨w1, w2, w3⟩ := hwf.1 (by rw [htx]; simp)
        rw [wrapped_exact hw h (.inl (notBlank_truthy hf.1 ht)), key, htx, w1, w2, w3]
        simp [noSpaces_append, shownL]
      | none =>
        rw [ht] at h
        simp only at h ⊢
        obtain ⟨h1, h2, e1⟩ := andThen_ended h
        by_cases hcs : cs.isEmpty = true
        · rw [if_pos hcs] at h2
          cases h2
        rw [if_neg hcs] at h2 e1 ⊢
        obtain ⟨h3, h4, e2⟩ := andThen_ended h2
        have hkid := list cs ih hbc hf.2.2 hnc hic (by
          by_cases hint : (truthy d.intro).isSome = true
          · rw [if_pos hint]
            exact .inl (noSpaces_blankIndent _)
          · refine .inr ⟨rfl, by simpa using hcs, fun c hc => ⟨fun s hs => ?_, fun hs => ?_⟩⟩
            · have := hwf.2.1 c hc
              rw [hs] at this
              cases this
              exact hk rfl
            · refine hin k d cs (.self _) c hc hs ?_
              rw [truthy_notBlank hf.2.1] at hint
              simpa using hint) h3
        rw [e1, e2]
        simp only [printedText_append]
        rw [hkid, List.append_assoc, ifAny_then hw (fun t ht => by simpa using hf.2.1 t ht) h1 rfl,
          ifAny_exact hw h4 (noSpaces_blankIndent _), getD_exact, getD_exact, truthy_none ht, List.append_assoc, key]
        simp [noSpaces_append]

theorem actChildren_exact {wrap : Wrap} (hw : KeepsText wrap) {width : Int} : ∀ (cs : List Node) {indent : Str},
    noSpaces indent = [] → (∀ c ∈ cs, Built c) → FilledAll cs → (∀ c ∈ cs, Named c) → (∀ c ∈ cs, Introduced c) →
    (writeActChildren wrap width indent cs).stop = none →
    printedText (writeActChildren wrap width indent cs).yields = noSpaces (shownL cs)
  | [], _, _, _, _, _, _, _ => rfl
  | c :: cs, indent, hi, hb, hf, hn, hin, h => by
    rw [writeActChildren] at h ⊢
    obtain ⟨h1, h2, e1⟩ := andThen_ended h
    obtain ⟨h3, h4, e2⟩ := andThen_ended h2
    rw [e1, e2, printedText_append, printedText_append, shownL, noSpaces_append,
      writeNode_exact hw c (hb c (by simp)) hf.1 (hn c (by simp)) (hin c (by simp)) (.inl hi) h1, hi,
      actChildren_exact hw cs (noSpaces_blankIndent _) (fun c h => hb c (by simp [h])) hf.2 (fun c h => hn c (by simp [h]))
        (fun c h => hin c (by simp [h])) h4]
    rfl

theorem act_exact {wrap : Wrap} (hw : KeepsText wrap) {width : Int} {a : Act} {indent : Str} (hi : noSpaces indent = [])
    (hb : ∀ c ∈ a.children, Built c) (hf : FilledAll a.children) (hn : ∀ c ∈ a.children, Named c)
    (hin : ∀ c ∈ a.children, Introduced c) (h : (writeAct wrap a indent width).stop = none) :
    printedText (writeAct wrap a indent width).yields =
      noSpaces (py"====" ++ a.identifier ++ py"-" ++ a.subject ++ py"=====" ++ a.preamble ++ shownL a.children) := by
  unfold writeAct at h ⊢
  obtain ⟨h1, h2, e1⟩ := andThen_ended h
  obtain ⟨h3, h4, e2⟩ := andThen_ended h2
  have t1 : noSpaces (py"==== ") = noSpaces (py"====") := by decide
  have t2 : noSpaces (py" - ") = noSpaces (py"-") := by decide
  have t3 : noSpaces (py" =====\n") = noSpaces (py"=====") := by decide
  have ht : printedText (printTo .file (titleLine a.identifier a.subject)).yields =
      noSpaces (py"====") ++ noSpaces a.identifier ++ noSpaces (py"-") ++ noSpaces a.subject ++ noSpaces (py"=====") := by
    rw [← t1, ← t2, ← t3]
    simp only [printedText, printTo, titleLine, noSpaces_append, List.flatMap_cons, List.flatMap_nil, List.append_nil,
      List.append_assoc]
  rw [e1, e2, printedText_append, printedText_append, ht, wrapped_exact hw h3 (.inr rfl),
    actChildren_exact hw a.children hi hb hf hn hin h4]
  simp only [noSpaces_append, noSpaces_nil, List.nil_append, List.append_assoc]

/-! ## What is parsed -/

mutual
/-- An element as it is parsed before amendments are looked for. -/
def Proper : Node → Prop
  | .sae k d cs => k ≠ .blockAmendmentContainer ∧ d.identifier ≠ some [] ∧ (cs = [] ∨ d.intro ≠ none) ∧ ProperL cs
  | .article _ _ cs => ProperL cs
  | .quoted _ => True
  | .structural _ => False

/-- The same for siblings. -/
def ProperL : List Node → Prop
  | [] => True
  | c :: cs => Proper c ∧ ProperL cs
end

theorem properL_iff {cs : List Node} : ProperL cs ↔ ∀ c ∈ cs, Proper c := by
  induction cs with
  | nil => simp [ProperL]
  | cons c cs ih => simp [ProperL, ih]

theorem parsed_proper {ls : List Line} {n : Node} (h : Parsed ls n) : Proper n := by
  refine Parsed.rec (motive_1 := fun _ n _ => Proper n) (motive_2 := fun _ cs _ => ProperL cs) ?_ ?_ ?_ ?_ ?_ h
  · intro _ _ _ _ _ header
    exact ⟨header.kind, header.full, .inl rfl, trivial⟩
  · intro _ _ _ _ _ _ _ _ _ _ header _ _ _ _ _ _ _ ih
    exact ⟨header.kind, header.full, .inr (by simp), ih⟩
  · intro _ _ raw
    cases raw <;> trivial
  · trivial
  · intro _ _ _ _ _ _ h1 h2
    exact ⟨h1, h2⟩

theorem parsedL_proper {bs : List (List Line)} {cs : List Node} (h : ParsedL bs cs) : ProperL cs := by
  induction cs generalizing bs with
  | nil => trivial
  | cons c cs ih =>
    cases h with
    | cons head tail => exact ⟨parsed_proper head, ih tail⟩

theorem article_proper {lines : List Line} {i : Str} {t : Option Str} {ps : List Node} (h : ArticleFacts lines i t ps) :
    Proper (.article i t ps) := by
  obtain ⟨first, rest, number, cut, title, blocks, rfl, _, _, _, _, _, _, hps, _, _, _⟩ := h.parts
  exact parsedL_proper hps

/-- A parsed child of an act or of an amendment of structure. -/
theorem body_proper {q : BodyParser} {b : List Line} {e : Node} {pi : Bool} (h : q.parse b pi = .ok e) :
    (∃ s, e = .structural s) ∨ (∃ i t ps, e = .article i t ps) ∧ Proper e := by
  cases q with
  | article =>
    obtain ⟨i, t, ps, rfl, facts⟩ := parseArticle_spec h
    exact .inr ⟨⟨i, t, ps, rfl⟩, article_proper facts⟩
  | struct k =>
    obtain ⟨e', rfl, _, hr⟩ := struct_reads h
    exact .inl ⟨_, rfl⟩

theorem parseElement_proper {P : ElementParser} {kids : ChildReader} (hkind : P.kind ≠ .blockAmendmentContainer)
    (hfull : ∀ s, P.header s ≠ some [])
    (hk : ∀ lines i pi intro cs w, kids lines i pi = .ok (intro, cs, w) → (∀ j, i = some j → ∃ s, P.header s = some j) →
      lines ≠ [] → intro ≠ none ∧ ProperL cs)
    {ls : List Line} {pi : Bool} {n : Node} (h : parseElement P kids ls pi = .ok n) : Proper n := by
  cases ls with
  | nil => simp [parseElement] at h
  | cons first rest =>
    simp only [parseElement] at h
    obtain ⟨p, hp, h⟩ := resBind_ok h
    cases hs : startsWith first.content p with
    | false => simp [hs] at h
    | true =>
      simp only [hs, Bool.not_true, Bool.false_eq_true, if_false] at h
      obtain ⟨first', hf, h⟩ := resBind_ok h
      cases hr : kids (first' :: rest) (P.header first.content) pi with
      | ok r =>
        obtain ⟨intro, cs, w⟩ := r
        simp only [hr] at h
        obtain ⟨h1, h2⟩ := hk _ _ _ _ _ _ hr (fun j hj => ⟨_, hj⟩) (by simp)
        obtain ⟨rfl, -⟩ := mkSae_ok h
        exact ⟨hkind, hfull _, .inr h1, h2⟩
      | error e =>
        have : mkSae P.kind { identifier := P.header first.content, text := some (joinLines (first' :: rest)) } none =
            .ok n := by
          simp only [hr] at h
          cases e <;> first | exact h | cases h
        obtain ⟨rfl, -⟩ := mkSae_ok this
        exact ⟨hkind, hfull _, .inl rfl, trivial⟩

theorem sound_proper {P : ElementParser} {kids : ChildReader} (hP : P.Sound) (hk : KidsSound P kids) {ls : List Line} {pi : Bool}
    {n : Node} (h : parseElement P kids ls pi = .ok n) : Proper n :=
  parseElement_proper hP.kind hP.full (fun lines i pi intro cs w h hi hl => by
    obtain ⟨m, blocks, wl, -, rfl, -, -, h5, -⟩ := hk lines i pi intro cs w h hi hl
    exact ⟨by simp, parsedL_proper h5⟩) h

theorem blockParser_proper {r : Reference} {P : BlockParser} {expected : Str} (hp : blockParser r = .ok (P, expected))
    {b : List Line} {e : Node} (h : P.parse b = .ok e) : Proper e := by
  have fin : ∀ {Q : ElementParser} {kids : ChildReader}, Q.Sound → KidsSound Q kids → P = Q.asBlock kids → Proper e := by
    rintro Q kids hQ hk rfl
    exact sound_proper hQ hk h
  unfold blockParser at hp
  obtain ⟨⟨i, t⟩, _, hp⟩ := resBind_ok hp
  cases i with
  | none => simp at hp
  | some i =>
    cases t with
    | none => simp at hp
    | some t =>
      simp only at hp
      cases t with
      | act => cases hp
      | article =>
        obtain ⟨rfl, rfl⟩ := Prod.mk.inj (Except.ok.inj hp)
        obtain ⟨i, t, ps, rfl, facts⟩ := parseArticle_spec h
        exact article_proper facts
      | paragraph =>
        exact fin paragraph_sound paragraphKids_sound (Prod.mk.inj (Except.ok.inj hp)).1.symm
      | alphabeticPoint =>
        exact fin alphabeticPoint_sound alphabeticPointKids_sound (Prod.mk.inj (Except.ok.inj hp)).1.symm
      | numericPoint =>
        exact fin numericPoint_sound numericPointKids_sound (Prod.mk.inj (Except.ok.inj hp)).1.symm
      | numericSubpoint =>
        exact fin numericSubpoint_sound (subpointKids_sound _) (Prod.mk.inj (Except.ok.inj hp)).1.symm
      | alphabeticSubpoint =>
        have hP := (Prod.mk.inj (Except.ok.inj hp)).1
        subst hP
        refine parseElement_proper (P := alphabeticSubpointParser _) (kids := subpointKids) (by show SaeKind.alphabeticSubpoint ≠ _; decide)
          (fun s => matchLettered_full) (pi := false) (fun lines i pi intro cs w hk => ?_) h
        cases hk

theorem blockChildren_proper {position : Position} {lines : List Line} {cs : List Node}
    (h : blockChildren position lines = .ok cs) : ∀ c ∈ cs, (∃ s, c = .structural s) ∨ Proper c := by
  intro c hc
  cases position with
  | struct s =>
    obtain ⟨_, pre, blocks, h1, _, h3, h4⟩ := parseElements_spec (show parseElements false lines false = .ok cs from h)
    obtain ⟨b, -, q, hq⟩ := h3.mem_right hc
    exact (body_proper hq).imp_right (·.2)
  | ref r =>
    obtain ⟨⟨P, expected⟩, hP, h⟩ := resBind_ok (show (blockParser r >>= fun x => parseBlocks x.1 x.2 lines) = .ok cs from h)
    obtain ⟨blocks, h1, h2, h3, h4⟩ := parseBlocks_spec h
    obtain ⟨b, -, hb⟩ := h2.mem_right hc
    exact .inr (blockParser_proper hP hb)

theorem proper_inside {m n : Node} (h : Inside m n) : Proper n → Proper m := by
  induction h with
  | self => exact id
  | deeper hc _ ih =>
    intro hn
    apply ih
    rename_i n _
    cases n with
    | sae k d cs => exact properL_iff.1 hn.2.2.2 _ hc
    | article i t cs => exact properL_iff.1 hn _ hc
    | _ => cases hc

theorem proper_named {n : Node} (h : Proper n) : Named n := fun _ _ _ hm => (proper_inside hm h).2.1

theorem proper_introduced {n : Node} (h : Proper n) : Introduced n := by
  intro k d cs hm c hc ht
  have hp := proper_inside hm h
  have := properL_iff.1 hp.2.2.2 c hc
  cases c with
  | sae k' d' cs' =>
    cases ht
    exact absurd rfl this.1
  | _ => cases ht

theorem inBrackets_notBlank {o c : Str} {s : Option Str} (h : NotBlank s) : inBrackets o c s = match s with
    | none => []
    | some t => o ++ t ++ c := by
  cases s with
  | none => rfl
  | some t =>
    cases t with
    | nil => exact absurd rfl (h [] rfl)
    | cons x t => rfl

theorem shown_printed {n : Node} : Proper n → Filled n → shown n = printed n := by
  have list : ∀ cs : List Node, (∀ c ∈ cs, Proper c → Filled c → shown c = printed c) → ProperL cs → FilledAll cs →
      shownL cs = printedL cs := by
    intro cs
    induction cs with
    | nil => intros; rfl
    | cons c cs ih =>
      intro hc hp hf
      rw [shownL, printedL, hc c (by simp) hp.1 hf.1, ih (fun c h => hc c (by simp [h])) hp.2 hf.2]
  induction n using Node.ind with
  | structural e => intro h; cases h
  | quoted ls => intros; rfl
  | article i t cs ih =>
    intro hp hf
    rw [shown, printed.eq_def, list cs ih hp hf.2.2, inBrackets_notBlank hf.1]
    cases t <;> rfl
  | sae k d cs ih =>
    intro hp hf
    rw [shown, printed, if_neg hp.1, list cs ih hp.2.2.2 hf.2.2]

theorem shownL_printed {cs : List Node} : ProperL cs → FilledAll cs → shownL cs = printedL cs := by
  induction cs with
  | nil => intros; rfl
  | cons c cs ih =>
    intro hp hf
    rw [shownL, printedL, shown_printed hp.1 hf.1, ih hp.2 hf.2]

/-! ## Ink -/

theorem inkOnly_append (a b : Str) : inkOnly (a ++ b) = inkOnly a ++ inkOnly b := by
  rw [inkOnly, ink_append, noSpaces_append]
  rfl

theorem inkOnly_noSpaces (s : Str) : inkOnly (noSpaces s) = inkOnly s := by
  induction s with
  | nil => rfl
  | cons c s ih =>
    have h1 : inkOnly (c :: s) = inkOnly [c] ++ inkOnly s := inkOnly_append [c] s
    have h2 : noSpaces (c :: s) = noSpaces [c] ++ noSpaces s := noSpaces_append [c] s
    rw [h1, h2, inkOnly_append, ih]
    congr 1
    by_cases hc : isSpace c = true
    · have e : noSpaces [c] = [] := by simp [noSpaces, hc]
      rw [e]
      have hq : c ≠ '“' := by
        rintro rfl
        revert hc
        decide
      by_cases hs : c = ' '
      · subst hs
        rfl
      · have : ink [c] = [c] := by simp [ink, hs, hq]
        show _ = noSpaces (ink [c])
        rw [this, e]
        rfl
    · have e : noSpaces [c] = [c] := by simp [noSpaces, hc]
      rw [e]

theorem inkOnly_of_ink {s t : Str} (h : ink s = ink t) : inkOnly s = inkOnly t := by rw [inkOnly, h, inkOnly]

theorem inkFolded_append (a b : Str) : inkFolded (a ++ b) = inkFolded a ++ inkFolded b := by
  rw [inkFolded, inkOnly_append, List.map_append]
  rfl

theorem inkFolded_of_ink {s t : Str} (h : ink s = ink t) : inkFolded s = inkFolded t := by
  rw [inkFolded, inkOnly_of_ink h, inkFolded]

theorem inkFolded_noSpaces (s : Str) : inkFolded (noSpaces s) = inkFolded s := by rw [inkFolded, inkOnly_noSpaces, inkFolded]

theorem inkFolded_blank {s : Str} (h : noSpaces s = []) : inkFolded s = [] := by rw [← inkFolded_noSpaces, h]; rfl

theorem inkFolded_brackets {o c : Char} (h : (o = '(' ∧ c = ')') ∨ (o = '[' ∧ c = ']')) (s : Str) :
    inkFolded (o :: (s ++ [c])) = inkFolded (py"(" ++ s ++ py")") := by
  rw [← List.singleton_append, inkFolded_append, inkFolded_append, inkFolded_append, inkFolded_append, List.append_assoc]
  rcases h with ⟨rfl, rfl⟩ | ⟨rfl, rfl⟩ <;> rfl

/-! ## Semantic data are not printed -/

mutual
theorem writeNode_strip (wrap : Wrap) (width : Int) : ∀ (indent : Str) (n : Node),
    writeNode wrap width indent (strip n) = writeNode wrap width indent n
  | indent, .sae k d cs => by
    rw [strip]
    split
    · rfl
    · rename_i hk
      rw [writeNode_sae hk, writeNode_sae hk]
      have he : (stripL cs).isEmpty = cs.isEmpty := by cases cs <;> rfl
      simp only [he, writeNodes_strip]
  | _, .article .. => by rw [strip]; intros; simp_all
  | _, .quoted .. => by rw [strip]; intros; simp_all
  | _, .structural .. => by rw [strip]; intros; simp_all

theorem writeNodes_strip (wrap : Wrap) (width : Int) : ∀ (keep : Bool) (indent : Str) (cs : List Node),
    writeNodes wrap width keep indent (stripL cs) = writeNodes wrap width keep indent cs
  | _, _, [] => by rw [stripL]
  | keep, indent, c :: cs => by
    rw [stripL, writeNodes, writeNodes, writeNode_strip wrap width indent c, writeNodes_strip wrap width keep _ cs]
end

theorem writeNode_stripArticle (wrap : Wrap) (width : Int) (indent : Str) (n : Node) :
    writeNode wrap width indent (stripArticle n) = writeNode wrap width indent n := by
  cases n with
  | article i t ps => rw [stripArticle, writeNode, writeNode, writeNodes_strip]
  | _ => rfl

theorem writeAct_strip (wrap : Wrap) (width : Int) (indent : Str) (a : Act) :
    writeAct wrap (stripAct a) indent width = writeAct wrap a indent width := by
  have : ∀ (cs : List Node) (indent : Str),
      writeActChildren wrap width indent (cs.map stripArticle) = writeActChildren wrap width indent cs := by
    intro cs
    induction cs with
    | nil => intros; rfl
    | cons c cs ih =>
      intro indent
      rw [List.map_cons, writeActChildren, writeActChildren, writeNode_stripArticle, ih]
  simp only [writeAct, stripAct, this]

mutual
theorem filled_strip : ∀ n : Node, Filled (strip n) ↔ Filled n
  | .sae k d cs => by
    rw [strip]
    split
    · rfl
    · rw [Filled, Filled, filledAll_strip cs]
  | .article .. => by rw [strip]; intros; simp_all
  | .quoted .. => by rw [strip]; intros; simp_all
  | .structural .. => by rw [strip]; intros; simp_all

theorem filledAll_strip : ∀ cs : List Node, FilledAll (stripL cs) ↔ FilledAll cs
  | [] => by rw [stripL]
  | c :: cs => by rw [stripL, FilledAll, FilledAll, filled_strip c, filledAll_strip cs]
end

theorem filled_stripAct (a : Act) : FilledAll (stripAct a).children ↔ FilledAll a.children := by
  have : ∀ cs : List Node, FilledAll (cs.map stripArticle) ↔ FilledAll cs := by
    intro cs
    induction cs with
    | nil => rfl
    | cons c cs ih =>
      rw [List.map_cons, FilledAll, FilledAll, ih]
      cases c with
      | article i t ps =>
        have : stripL ps = [] ↔ ps = [] := by cases ps <;> simp [stripL]
        rw [stripArticle, Filled, Filled, filledAll_strip, ne_eq, this]
      | _ => rfl
  exact this a.children

mutual
theorem shown_strip : ∀ n : Node, shown (strip n) = shown n
  | .sae k d cs => by
    rw [strip]
    split
    · rfl
    · rw [shown, shown, shownL_strip cs]
  | .article .. => by rw [strip]; intros; simp_all
  | .quoted .. => by rw [strip]; intros; simp_all
  | .structural .. => by rw [strip]; intros; simp_all

theorem shownL_strip : ∀ cs : List Node, shownL (stripL cs) = shownL cs
  | [] => by rw [stripL]
  | c :: cs => by rw [stripL, shownL, shownL, shown_strip c, shownL_strip cs]
end

theorem shown_stripAct (a : Act) : shownL (stripAct a).children = shownL a.children := by
  have : ∀ cs : List Node, shownL (cs.map stripArticle) = shownL cs := by
    intro cs
    induction cs with
    | nil => rfl
    | cons c cs ih =>
      rw [List.map_cons, shownL, shownL, ih]
      cases c with
      | article i t ps => rw [stripArticle, shown, shown, shownL_strip]
      | _ => rfl
  exact this a.children

end Verif
