import Verif.Proofs.Html
import Verif.Spec.Txt

/-! # Lemmas about text output -/

namespace Verif

open Spec

/-! ## Where prints go -/

/-- Everything goes to the file. -/
def ToFile (g : Gen Printed) : Prop := ∀ p ∈ g.yields, p.dest = .file

theorem toFile_nil (e : Option Err) : ToFile { yields := [], stop := e } := by
  intro p hp
  cases hp

theorem toFile_print (s : Str) : ToFile (printTo .file s) := by
  intro p hp
  rcases List.mem_singleton.mp hp with rfl
  rfl

theorem ToFile.andThen {a b : Gen Printed} (ha : ToFile a) (hb : ToFile b) : ToFile (a.andThen b) := by
  unfold Gen.andThen
  split
  · exact ha
  · intro p hp
    rcases List.mem_append.mp hp with hp | hp
    · exact ha p hp
    · exact hb p hp

theorem toFile_using {β : Type} {x : Res β} {f : β → Gen Printed} (h : ∀ b, x = .ok b → ToFile (f b)) : ToFile (Gen.using x f) := by
  unfold Gen.using
  cases x with
  | ok b => exact h b rfl
  | error e => exact toFile_nil _

theorem printLines_dest (dest : Dest) : ∀ (ls : List Str) (indent : Str), ∀ p ∈ printLines dest indent ls, p.dest = dest
  | [], _, p, hp => by cases hp
  | l :: ls, indent, p, hp => by
    rw [printLines] at hp
    rcases List.mem_cons.mp hp with rfl | hp
    · rfl
    · exact printLines_dest dest ls _ p hp

theorem toFile_wrapped (wrap : Wrap) (s indent : Str) {width : Int} (hw : width ≠ 0) :
    ToFile (wrappedPrint wrap s indent width (some .file)) := by
  unfold wrappedPrint
  rw [if_neg hw]
  exact toFile_using fun ls _ => printLines_dest _ ls _

theorem toFile_ifAny (wrap : Wrap) (s : Option Str) (f : Str → Str) (indent : Str) {width : Int} (hw : width ≠ 0) :
    ToFile (printIfAny wrap s f indent width) := by
  unfold printIfAny
  split
  · exact toFile_wrapped _ _ _ hw
  · exact toFile_nil _

theorem toFile_quoted (lines : List Line) (indent : Str) : ToFile (writeQuoted lines indent) := by
  unfold writeQuoted
  refine (toFile_print _).andThen (toFile_using fun b _ => ?_)
  intro p hp
  rcases List.mem_append.mp hp with hp | hp
  · obtain ⟨l, -, rfl⟩ := List.mem_map.mp hp
    rfl
  · rcases List.mem_singleton.mp hp with rfl
    rfl

theorem toFile_structural (wrap : Wrap) (e : StructuralElement) (indent : Str) {width : Int} (hw : width ≠ 0) :
    ToFile (writeStructural wrap e indent width) := by
  unfold writeStructural
  refine toFile_using fun i _ => ?_
  split
  · exact toFile_wrapped _ _ _ hw
  · exact (toFile_wrapped _ _ _ hw).andThen (toFile_ifAny _ _ _ _ hw)

theorem writeNode_sae {wrap : Wrap} {width : Int} {indent : Str} {k : SaeKind} {d : SaeData} {cs : List Node}
    (hk : k ≠ .blockAmendmentContainer) : writeNode wrap width indent (.sae k d cs) =
    Gen.using (match truthy d.identifier with
      | some i => (k.headerPrefix (some i)).map fun h => indent ++ padRight 5 h
      | none => .ok (indent ++ List.replicate 5 ' ')) fun indent =>
    match truthy d.text with
    | some t => wrappedPrint wrap t indent width (some .file)
    | none =>
      let first := if (truthy d.intro).isSome then blank indent else indent
      (printIfAny wrap d.intro id indent width).andThen <|
      if cs.isEmpty then { yields := [], stop := some .assertionError }
      else (writeNodes wrap width false first cs).andThen (printIfAny wrap d.wrapUp id (blank indent) width) := by
  cases k <;> first | exact absurd rfl hk | (rw [writeNode]; all_goals first | rfl | exact hk | (intro h; cases h))

mutual
theorem toFile_node (wrap : Wrap) {width : Int} (hw : width ≠ 0) : ∀ (indent : Str) (n : Node), ToFile (writeNode wrap width indent n)
  | indent, .structural e => by rw [writeNode]; exact toFile_structural _ _ _ hw
  | indent, .quoted ls => by rw [writeNode]; exact toFile_quoted _ _
  | indent, .article i t cs => by
    rw [writeNode]
    exact (toFile_ifAny _ _ _ _ hw).andThen (toFile_nodes wrap hw _ _ cs)
  | indent, .sae k d cs => by
    by_cases hk : k = .blockAmendmentContainer
    · subst hk
      rw [writeNode]
      refine (toFile_ifAny _ _ _ _ hw).andThen ((toFile_print _).andThen ?_)
      split
      · exact toFile_nil _
      · exact (toFile_nodes wrap hw _ _ cs).andThen ((toFile_print _).andThen (toFile_ifAny _ _ _ _ hw))
    · rw [writeNode_sae hk]
      refine toFile_using fun indent _ => ?_
      split
      · exact toFile_wrapped _ _ _ hw
      · refine (toFile_ifAny _ _ _ _ hw).andThen ?_
        split
        · exact toFile_nil _
        · exact (toFile_nodes wrap hw _ _ cs).andThen (toFile_ifAny _ _ _ _ hw)

theorem toFile_nodes (wrap : Wrap) {width : Int} (hw : width ≠ 0) : ∀ (keep : Bool) (indent : Str) (cs : List Node),
    ToFile (writeNodes wrap width keep indent cs)
  | keep, indent, [] => by rw [writeNodes]; exact toFile_nil _
  | keep, indent, c :: cs => by
    rw [writeNodes]
    exact (toFile_node wrap hw indent c).andThen (toFile_nodes wrap hw keep _ cs)
end

theorem toFile_actChildren (wrap : Wrap) {width : Int} (hw : width ≠ 0) : ∀ (cs : List Node) (indent : Str),
    ToFile (writeActChildren wrap width indent cs)
  | [], _ => toFile_nil _
  | c :: cs, indent => by
    rw [writeActChildren]
    exact (toFile_node wrap hw indent c).andThen ((toFile_print _).andThen (toFile_actChildren wrap hw cs _))

theorem toFile_txt (wrap : Wrap) (o : TxtObject) (indent : Str) {width : Int} (hw : width ≠ 0) : ToFile (writeTxt wrap o indent width) := by
  cases o with
  | node n => exact toFile_node wrap hw indent n
  | act a => exact (toFile_print _).andThen ((toFile_wrapped _ _ _ hw).andThen (toFile_actChildren wrap hw _ _))
  | raw r =>
    refine (toFile_print _).andThen (toFile_using fun b _ => ?_)
    intro p hp
    rcases List.mem_append.mp hp with hp | hp
    · obtain ⟨l, -, rfl⟩ := List.mem_map.mp hp
      rfl
    · rcases List.mem_singleton.mp hp with rfl
      rfl
  | other t => exact toFile_print _

/-! ## What is printed -/

theorem andThen_ended {α : Type} {a b : Gen α} (h : (a.andThen b).stop = none) :
    a.stop = none ∧ b.stop = none ∧ (a.andThen b).yields = a.yields ++ b.yields := by
  unfold Gen.andThen at h ⊢
  split at h
  · rename_i e he
    rw [he] at h
    cases h
  · rename_i he
    exact ⟨he, h, rfl⟩

theorem using_ended {α β : Type} {x : Res β} {f : β → Gen α} (h : (Gen.using x f).stop = none) :
    ∃ b, x = .ok b ∧ (f b).stop = none ∧ Gen.using x f = f b := by
  unfold Gen.using at h ⊢
  cases x with
  | ok b => exact ⟨b, rfl, h, rfl⟩
  | error e => cases h

theorem printedText_append (a b : List Printed) : printedText (a ++ b) = printedText a ++ printedText b := by
  simp [printedText, noSpaces_append]

theorem printed_cons (p : Printed) (ps : List Printed) : printedText (p :: ps) = printedText [p] ++ printedText ps :=
  printedText_append [p] ps

theorem noSpaces_spaces (n : Nat) : noSpaces (List.replicate n ' ') = [] := by
  unfold noSpaces
  rw [List.filter_eq_nil_iff]
  intro c hc
  rw [(List.mem_replicate.mp hc).2]
  decide

theorem noSpaces_blankIndent (s : Str) : noSpaces (blank s) = [] := noSpaces_spaces _

theorem noSpaces_padRight (n : Nat) (s : Str) : noSpaces (padRight n s) = noSpaces s := by
  rw [padRight, noSpaces_append, noSpaces_spaces, List.append_nil]

theorem noSpaces_strip (s : Str) : noSpaces (pyStrip s) = noSpaces s := by
  have h : ∀ s : Str, noSpaces (s.dropWhile isSpace) = noSpaces s := by
    intro s
    induction s with
    | nil => rfl
    | cons c s ih =>
      rw [List.dropWhile_cons]
      split
      · rename_i hc
        rw [ih]
        simp [noSpaces, hc]
      · rfl
  have hr : ∀ s : Str, noSpaces s.reverse = (noSpaces s).reverse := by
    intro s
    simp [noSpaces]
  rw [pyStrip, hr, h, hr, List.reverse_reverse, h]

theorem Spec.Shows.trans {t : Str} {ts us : List Str} {s : Str} (h : Shows (t :: ts) s) (h' : Shows us t) : Shows (us ++ ts) s := by
  cases h with
  | @cons _ _ b a h =>
    have := (h'.append h).more a []
    simpa using this

theorem Spec.Shows.length {ts : List Str} {s : Str} (h : Shows ts s) : ts.flatten.length ≤ s.length := by
  induction h with
  | nil => simp
  | cons a h ih =>
    simp only [List.flatten_cons, List.length_append]
    omega

theorem noSpaces_nil : noSpaces [] = [] := rfl

theorem Spec.Shows.tail {t : Str} {ts : List Str} {s : Str} (h : Shows (t :: ts) s) : Shows ts s := h.trans (.nil t)

theorem Spec.Shows.head {ts : List Str} {s : Str} (h : Shows ts s) : Shows ([] :: ts) s := by
  have := Shows.empty.append h
  simpa using this

theorem printLines_text (dest : Dest) : ∀ (ls : List Str) (indent : Str),
    printedText (printLines dest indent ls) = (if ls = [] then [] else noSpaces indent) ++ noSpaces ls.flatten
  | [], _ => by simp [printLines, printedText, noSpaces]
  | l :: ls, indent => by
    rw [printLines, ← List.singleton_append, printedText_append, printLines_text dest ls (blank indent), noSpaces_blankIndent]
    simp [printedText, noSpaces_append]

theorem wrapped_shows {wrap : Wrap} (hw : KeepsText wrap) {s indent : Str} {width : Int} {file : Option Dest}
    (h : (wrappedPrint wrap s indent width file).stop = none) :
    (noSpaces s ≠ [] → printedText (wrappedPrint wrap s indent width file).yields = noSpaces indent ++ noSpaces s) ∧
    Shows [noSpaces s] (printedText (wrappedPrint wrap s indent width file).yields) := by
  unfold wrappedPrint at h ⊢
  by_cases hz : width = 0
  · rw [if_pos hz]
    have e : printedText (printTo .stdout (indent ++ s)).yields = noSpaces indent ++ noSpaces s := by
      simp [printTo, printedText, noSpaces_append]
    rw [e]
    refine ⟨fun _ => rfl, ?_⟩
    simpa using Shows.one (noSpaces indent) (noSpaces s) []
  · rw [if_neg hz] at h ⊢
    obtain ⟨ls, hl, -, e⟩ := using_ended h
    rw [e, printLines_text, hw s _ ls hl]
    constructor
    · intro hs
      rw [if_neg]
      rintro rfl
      exact hs (hw s _ [] hl).symm
    · simpa using Shows.one _ (noSpaces s) []

theorem ifAny_shows {wrap : Wrap} (hw : KeepsText wrap) {s : Option Str} {f : Str → Str} {indent : Str} {width : Int}
    (hf : ∀ t, Shows [noSpaces t] (noSpaces (f t))) (h : (printIfAny wrap s f indent width).stop = none) :
    Shows [noSpaces (s.getD [])] (printedText (printIfAny wrap s f indent width).yields) := by
  unfold printIfAny at h ⊢
  cases ht : truthy s with
  | none =>
    rw [truthy_none ht]
    exact .empty
  | some t =>
    rw [ht] at h
    rw [(truthy_some ht).1]
    have := (wrapped_shows hw h).2
    exact this.trans (hf t)

theorem structural_shows {wrap : Wrap} (hw : KeepsText wrap) {e : StructuralElement} {indent : Str} {width : Int}
    (h : (writeStructural wrap e indent width).stop = none) :
    Shows ((texts (.structural e)).map noSpaces) (printedText (writeStructural wrap e indent width).yields) := by
  unfold writeStructural at h ⊢
  obtain ⟨i, hi, h, eq⟩ := using_ended h
  rw [eq, texts, hi]
  simp only [Except.toOption, Option.getD_some, List.map_cons, List.map_nil]
  by_cases hk : e.kind = .subtitle
  · rw [if_pos hk] at h ⊢
    have key : noSpaces (pyStrip ((if i.isEmpty then [] else i ++ (py" ")) ++ e.title)) = noSpaces i ++ noSpaces e.title := by
      rw [noSpaces_strip, noSpaces_append]
      cases i with
      | nil => rfl
      | cons c i =>
        simp only [List.isEmpty_cons, Bool.false_eq_true, if_false]
        rw [noSpaces_append]
        have : noSpaces (py" ") = [] := by decide
        rw [this, List.append_nil]
    have := (wrapped_shows hw h).2
    rw [key] at this
    exact this.trans (us := [_, _]) ((Shows.self _).append (Shows.self _))
  · rw [if_neg hk] at h ⊢
    obtain ⟨h1, h2, e1⟩ := andThen_ended h
    rw [e1, printedText_append]
    exact (wrapped_shows hw h1).2.append (ifAny_shows hw (fun t => .self _) h2)

theorem quoted_shows {lines : List Line} {indent : Str} (h : (writeQuoted lines indent).stop = none) :
    Shows (noSpaces indent :: (lines.map Line.content).map noSpaces) (printedText (writeQuoted lines indent).yields) := by
  unfold writeQuoted at h ⊢
  obtain ⟨h1, h2, e1⟩ := andThen_ended h
  obtain ⟨b, hb, h3, e2⟩ := using_ended h2
  rw [e1, printedText_append, e2, printedText_append]
  have first : Shows [noSpaces indent] (printedText (printTo .file (indent ++ (py"„"))).yields) := by
    have : printedText (printTo .file (indent ++ (py"„"))).yields = [] ++ noSpaces indent ++ noSpaces (py"„") := by
      simp [printedText, printTo, noSpaces_append]
    rw [this]
    exact .one _ _ _
  refine Shows.append (ts := [noSpaces indent]) first ?_
  have := Shows.append (us := []) (s := printedText (printQuoted (blank indent) b lines)) (ts := (lines.map Line.content).map noSpaces)
    (u := printedText [⟨.file, blank indent ++ (py"”")⟩]) ?_ (.nil _)
  · simpa using this
  · clear h h1 h2 h3 e1 e2 hb first
    induction lines with
    | nil => exact .nil _
    | cons l ls ih =>
      simp only [printQuoted, List.map_cons] at ih ⊢
      rw [printed_cons]
      refine Shows.append (ts := [noSpaces l.content]) ?_ ih
      simp only [printedText, List.flatMap_cons, List.flatMap_nil, List.append_nil, noSpaces_append]
      generalize noSpaces (blank indent) ++ noSpaces (List.replicate 5 ' ') ++ _ = x
      simpa using Shows.one x (noSpaces l.content) []

theorem paren_shows (a b t : Str) : Shows [noSpaces t] (noSpaces (a ++ t ++ b)) := by
  rw [noSpaces_append, noSpaces_append]
  exact .one _ _ _

theorem header_noSpaces {k : SaeKind} {i h : Str} (hh : k.headerPrefix (some i) = .ok h) : Shows [noSpaces i] (noSpaces h) := by
  have := (headerPrefix_shows hh).noSpaces
  simpa using this

/-- The number of an element is in the indent. -/
theorem indent_shows {k : SaeKind} {identifier : Option Str} {indent indent' : Str}
    (h : (match truthy identifier with
      | some i => (k.headerPrefix (some i)).map fun h => indent ++ padRight 5 h
      | none => .ok (indent ++ List.replicate 5 ' ')) = Except.ok indent') :
    Shows [noSpaces indent, noSpaces (identifier.getD [])] (noSpaces indent') := by
  cases ht : truthy identifier with
  | none =>
    rw [ht] at h
    cases h
    rw [truthy_none ht, noSpaces_append, noSpaces_spaces]
    exact (Shows.self _).append Shows.empty
  | some i =>
    rw [ht] at h
    rw [(truthy_some ht).1]
    dsimp only at h
    cases hh : k.headerPrefix (some i) with
    | error e =>
      rw [hh] at h
      cases h
    | ok x =>
      rw [hh] at h
      cases h
      rw [noSpaces_append, noSpaces_padRight]
      exact (Shows.self _).append (header_noSpaces hh)

theorem notBlank_truthy {s : Option Str} {t : Str} (hs : NotBlank s) (h : truthy s = some t) : noSpaces t ≠ [] :=
  hs t (truthy_some h).1

/-- The intro or title takes the indent, otherwise what follows gets it. -/
theorem ifAny_indent {wrap : Wrap} (hw : KeepsText wrap) {s : Option Str} (hs : NotBlank s) {f : Str → Str} {indent : Str} {width : Int}
    (hf : ∀ t, Shows [noSpaces t] (noSpaces (f t))) (h : (printIfAny wrap s f indent width).stop = none) {us : List Str} {u : Str}
    (hu : Shows (noSpaces (if (truthy s).isSome then blank indent else indent) :: us) u) :
    Shows (noSpaces indent :: noSpaces (s.getD []) :: us) (printedText (printIfAny wrap s f indent width).yields ++ u) := by
  unfold printIfAny at h ⊢
  cases ht : truthy s with
  | none =>
    rw [ht] at hu
    simp only [Option.isSome_none, Bool.false_eq_true, if_false] at hu
    rw [truthy_none ht]
    have e : printedText (({ yields := [] } : Gen Printed)).yields = [] := rfl
    simp only [e, List.nil_append]
    have : Shows ([noSpaces indent] ++ [noSpaces []]) (noSpaces indent) := by
      simpa [noSpaces_nil] using (Shows.self (noSpaces indent)).append Shows.empty
    exact hu.trans this
  | some t =>
    rw [ht] at h hu
    rw [(truthy_some ht).1]
    have hb := notBlank_truthy hs ht
    have hft : noSpaces (f t) ≠ [] := by
      have := (hf t).length
      intro e
      rw [e] at this
      exact hb (by simpa using this)
    simp only at h ⊢
    rw [(wrapped_shows hw h).1 hft, List.append_assoc]
    exact (Shows.self (noSpaces indent)).append ((hf t).append hu.tail)

/-- What is printed of an object shows the texts of the object, and the indent unless it is structural. -/
theorem writeNode_shows {wrap : Wrap} (hw : KeepsText wrap) {width : Int} (n : Node) : ∀ {indent : Str}, Built n → Filled n →
    (writeNode wrap width indent n).stop = none →
    ((∀ k, n.type ≠ .structural k) →
      Shows (noSpaces indent :: (texts n).map noSpaces) (printedText (writeNode wrap width indent n).yields)) ∧
    Shows ((texts n).map noSpaces) (printedText (writeNode wrap width indent n).yields) := by
  have list : ∀ cs : List Node, (∀ c ∈ cs, ∀ {indent : Str}, Built c → Filled c → (writeNode wrap width indent c).stop = none →
      ((∀ k, c.type ≠ .structural k) →
        Shows (noSpaces indent :: (texts c).map noSpaces) (printedText (writeNode wrap width indent c).yields)) ∧
      Shows ((texts c).map noSpaces) (printedText (writeNode wrap width indent c).yields)) →
      ∀ {keep : Bool} {indent : Str}, (∀ c ∈ cs, Built c) → FilledAll cs → (writeNodes wrap width keep indent cs).stop = none →
      (cs ≠ [] → (∀ c ∈ cs, ∀ k, c.type ≠ .structural k) → Shows (noSpaces indent :: (textsAll cs).map noSpaces) (printedText (writeNodes wrap width keep indent cs).yields)) ∧
      Shows ((textsAll cs).map noSpaces) (printedText (writeNodes wrap width keep indent cs).yields) := by
    intro cs
    induction cs with
    | nil =>
      intro _ keep indent _ _ h
      exact ⟨fun h => absurd rfl h, .nil _⟩
    | cons c cs ih =>
      intro hc keep indent hb hf h
      rw [writeNodes] at h ⊢
      obtain ⟨h1, h2, e⟩ := andThen_ended h
      rw [e, printedText_append, textsAll, List.map_append]
      have k1 := hc c (by simp) (hb c (by simp)) hf.1 h1
      have k2 := (ih (fun c h => hc c (by simp [h])) (fun c h => hb c (by simp [h])) hf.2 h2).2
      exact ⟨fun _ hs => (k1.1 (hs c (by simp))).append k2, k1.2.append k2⟩
  have both : ∀ {indent : Str} {n : Node},
      Shows (noSpaces indent :: (texts n).map noSpaces) (printedText (writeNode wrap width indent n).yields) →
      ((∀ k, n.type ≠ .structural k) →
        Shows (noSpaces indent :: (texts n).map noSpaces) (printedText (writeNode wrap width indent n).yields)) ∧
      Shows ((texts n).map noSpaces) (printedText (writeNode wrap width indent n).yields) := fun h => ⟨fun _ => h, h.tail⟩
  induction n using Node.ind with
  | structural e =>
    intro indent _ hf h
    rw [writeNode] at h ⊢
    exact ⟨fun hn => absurd rfl (hn e.kind), structural_shows hw h⟩
  | quoted l =>
    intro indent _ hf h
    apply both
    rw [writeNode] at h ⊢
    exact quoted_shows h
  | article i t cs ih =>
    intro indent hb hf h
    apply both
    rw [writeNode] at h ⊢
    obtain ⟨h1, h2, e⟩ := andThen_ended h
    have hkid := (list cs ih (built_article hb).1 hf.2.2 h2).1 hf.2.1 fun c hc k hk => by
      rw [(built_article hb).2.1 c hc] at hk
      cases hk
    rw [e, printedText_append]
    have := ifAny_indent hw hf.1 (paren_shows _ _) h1 hkid
    have hi : Shows [noSpaces indent, noSpaces i] (noSpaces (indent ++ padRight 10 (i ++ (py". §")))) := by
      rw [noSpaces_append, noSpaces_padRight, noSpaces_append]
      exact (Shows.self (noSpaces indent)).append (by simpa using Shows.one [] (noSpaces i) _)
    exact this.trans hi
  | sae k d cs ih =>
    intro indent hb hf h
    apply both
    obtain ⟨hbc, hwf⟩ := built_sae hb
    by_cases hk : k = .blockAmendmentContainer
    · subst hk
      rw [writeNode] at h ⊢
      obtain ⟨h1, h2, e1⟩ := andThen_ended h
      obtain ⟨h3, h4, e2⟩ := andThen_ended h2
      by_cases hcs : cs.isEmpty = true
      · rw [if_pos hcs] at h4
        cases h4
      rw [if_neg hcs] at h4 e1 e2
      rw [if_neg hcs]
      obtain ⟨h5, h6, e3⟩ := andThen_ended h4
      obtain ⟨h7, h8, e4⟩ := andThen_ended h6
      rw [e1, e2, e3, e4]
      simp only [printedText_append]
      have htext : d.text = none := by
        cases ht : d.text with
        | none => rfl
        | some t =>
          have := (hwf.1 (by rw [ht]; simp)).2.2
          subst this
          exact absurd rfl hcs
      have hq : ∀ q : Str, Shows [noSpaces indent] (printedText (printTo .file (indent ++ q)).yields) := by
        intro q
        have : printedText (printTo .file (indent ++ q)).yields = [] ++ noSpaces indent ++ noSpaces q := by
          simp [printedText, printTo, noSpaces_append]
        rw [this]
        exact .one _ _ _
      have hkid := (list cs ih hbc hf.2.2 h5).2
      have hrest := hkid.append ((hq (py"”")).tail.append (ifAny_shows hw (s := d.wrapUp) (paren_shows _ _) h8))
      have hquote : ∀ {us : List Str} {u : Str}, Shows us u → Shows (noSpaces (if (truthy d.intro).isSome then blank indent else indent)
          :: us) (printedText (printTo .file (indent ++ (py"„"))).yields ++ u) := by
        intro us u hu
        split
        · rw [noSpaces_blankIndent]
          exact Shows.head ((hq (py"„")).tail.append hu)
        · exact (hq (py"„")).append hu
      have := ifAny_indent hw hf.2.1 (paren_shows _ _) h1 (hquote hrest)
      rw [texts, if_pos rfl, htext]
      have key := this.trans (us := [noSpaces indent, []]) (by simpa [noSpaces_nil] using (Shows.self (noSpaces indent)).append Shows.empty)
      simpa [noSpaces_nil] using key
    · rw [writeNode_sae hk] at h ⊢
      obtain ⟨indent', hi, h, e⟩ := using_ended h
      rw [e]
      have hid := indent_shows hi
      rw [texts, if_neg hk]
      have conv : (noSpaces indent :: ([d.identifier.getD []] ++ [d.text.getD [], d.intro.getD []] ++ textsAll cs ++
          [d.wrapUp.getD []]).map noSpaces) = [noSpaces indent, noSpaces (d.identifier.getD [])] ++ (noSpaces (d.text.getD []) ::
          noSpaces (d.intro.getD []) :: ((textsAll cs).map noSpaces ++ [noSpaces (d.wrapUp.getD [])])) := by simp
      rw [conv]
      refine Shows.trans ?_ hid
      cases ht : truthy d.text with
      | some t =>
        rw [ht] at h
        simp only at h ⊢
        have htx := (truthy_some ht).1
        obtain ⟨w1, w2, w3⟩ := hwf.1 (by rw [htx]; simp)
        rw [(wrapped_shows hw h).1 (notBlank_truthy hf.1 ht), htx, w1, w2, w3]
        have := (Shows.self (noSpaces indent')).append ((Shows.self (noSpaces t)).append (Shows.empty.append Shows.empty))
        simpa [textsAll, noSpaces_nil] using this
      | none =>
        rw [ht] at h
        simp only at h ⊢
        rw [truthy_none ht]
        obtain ⟨h1, h2, e1⟩ := andThen_ended h
        by_cases hcs : cs.isEmpty = true
        · rw [if_pos hcs] at h2
          cases h2
        rw [if_neg hcs] at h2 e1 ⊢
        obtain ⟨h3, h4, e2⟩ := andThen_ended h2
        rw [e1, e2]
        simp only [printedText_append]
        have hkid := (list cs ih hbc hf.2.2 h3).1 (by simpa using hcs) fun c hc s hs => by
          have := hwf.2.1 c hc
          rw [hs] at this
          cases this
          exact hk rfl
        have := ifAny_indent hw hf.2.1 (f := id) (fun t => .self _) h1
          (hkid.append (ifAny_shows hw (s := d.wrapUp) (f := id) (fun t => .self _) h4))
        have key := this.trans (us := [noSpaces indent', []]) (by simpa using (Shows.self (noSpaces indent')).append Shows.empty)
        simpa [noSpaces_nil] using key

theorem actChildren_shows {wrap : Wrap} (hw : KeepsText wrap) {width : Int} : ∀ (cs : List Node) {indent : Str},
    (∀ c ∈ cs, Built c) → FilledAll cs → (writeActChildren wrap width indent cs).stop = none →
    Shows ((textsAll cs).map noSpaces) (printedText (writeActChildren wrap width indent cs).yields)
  | [], _, _, _, _ => .nil _
  | c :: cs, indent, hb, hf, h => by
    rw [writeActChildren] at h ⊢
    obtain ⟨h1, h2, e1⟩ := andThen_ended h
    obtain ⟨h3, h4, e2⟩ := andThen_ended h2
    rw [e1, e2, printedText_append, printedText_append, textsAll, List.map_append]
    refine (writeNode_shows hw c (hb c (by simp)) hf.1 h1).2.append ?_
    have : printedText (printTo .file []).yields = [] := rfl
    rw [this, List.nil_append]
    exact actChildren_shows hw cs (fun c h => hb c (by simp [h])) hf.2 h4

theorem act_shows {wrap : Wrap} (hw : KeepsText wrap) {width : Int} {a : Act} {indent : Str} (hb : ∀ c ∈ a.children, Built c)
    (hf : FilledAll a.children) (h : (writeAct wrap a indent width).stop = none) :
    Shows ((actTexts a).map noSpaces) (printedText (writeAct wrap a indent width).yields) := by
  unfold writeAct at h ⊢
  obtain ⟨h1, h2, e1⟩ := andThen_ended h
  obtain ⟨h3, h4, e2⟩ := andThen_ended h2
  rw [e1, e2, printedText_append, printedText_append]
  have ht : Shows [noSpaces a.identifier, noSpaces a.subject] (printedText (printTo .file (titleLine a.identifier a.subject)).yields) := by
    have : printedText (printTo .file (titleLine a.identifier a.subject)).yields =
        (noSpaces (py"==== ") ++ noSpaces a.identifier ++ noSpaces (py" - ")) ++ ([] ++ noSpaces a.subject ++ noSpaces (py" =====\n")) := by
      simp only [printedText, printTo, titleLine, noSpaces_append, List.flatMap_cons, List.flatMap_nil, List.append_nil,
        List.append_assoc, List.nil_append]
    rw [this]
    exact (Shows.one _ _ _).append (.one _ _ _)
  have := ht.append ((wrapped_shows hw h3).2.append (actChildren_shows hw a.children hb hf h4))
  simpa [actTexts] using this

end Verif
