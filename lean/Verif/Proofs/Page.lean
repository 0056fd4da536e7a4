import Verif.Spec.Page
import Verif.Proofs.Html
import Verif.Proofs.Cli

/-! # Lemmas about the layout of pages -/

namespace Verif
open Spec

theorem shownByAll_append {as bs : List Cell} {es fs : List Elem} (h : ShownByAll as es) (g : ShownByAll bs fs) :
    ShownByAll (as ++ bs) (es ++ fs) := by
  induction as generalizing es with
  | nil => cases h; exact g
  | cons a as ih =>
    cases h with
    | cons h1 h2 => exact .cons h1 (ih h2)

theorem shownBy_div (cls t : Str) : ShownBy (.text cls t []) (.div cls (some t)) :=
  .text (.inl rfl) (by simp [textOf, textOfAll]) (by simp) (by simp [linksIn, linksFrom])

theorem shownBy_none (cls : Str) : ShownBy (.text cls [] []) (.div cls none) :=
  .text (.inl rfl) (by simp [textOf, textOfAll]) (by simp) (by simp [linksIn, linksFrom])

theorem shownBy_id (cls t : Str) (r : Reference) : ShownBy (.text cls t []) (idDiv cls r t) :=
  .text (.inr ⟨_, rfl⟩) (by simp [textOf, textOfAll]) (by simp) (by simp [linksIn, linksFrom])

/-- What `generate_text_with_ref_links` puts after the first text. -/
theorem linkLoop_anchors (text : Str) : ∀ (ls : List Link) (prev : Int) (first : Str) (links : List Elem),
    linkLoop text prev ls = .ok (first, links) →
    ∀ a ∈ links, ∃ address t after, a = .mk (py"a") [(py"href", address)] (some t) [] (some after)
  | [], prev, first, links, h => by
    simp only [linkLoop, Except.ok.injEq, Prod.mk.injEq] at h
    rw [← h.2]
    simp
  | (start, stop, href) :: ls, prev, first, links, h => by
    unfold linkLoop at h
    split at h
    · cases h
    · split at h
      · cases h
      · obtain ⟨⟨tail, rest⟩, hl, h⟩ := resBind_ok h
        simp only [Except.ok.injEq, Prod.mk.injEq] at h
        rw [← h.2]
        intro a ha
        rcases List.mem_cons.mp ha with rfl | ha
        · exact ⟨_, _, _, rfl⟩
        · exact linkLoop_anchors text ls stop tail rest hl a ha

theorem shownBy_linked {cls text : Str} {place : Reference} {references : List OutgoingReference} {e : Elem}
    (h : textWithRefLinks cls text place references = .ok e) :
    ShownBy (.text cls text (references.map fun o => (min o.startPos.toNat text.length,
      hrefForRef (o.reference.relativeTo place), between text o.startPos o.endPos))) e := by
  obtain ⟨h1, h2, -, -⟩ := textWithRefLinks_ok h
  unfold textWithRefLinks at h
  obtain ⟨⟨first, links⟩, hl, h⟩ := resBind_ok h
  simp only [Except.ok.injEq] at h
  subst h
  exact .text (.inl rfl) h1 (linkLoop_anchors _ _ _ _ _ hl) (by rw [List.map_map]; exact h2)

theorem quotedDivs_shown (base : Rat) (n : Nat) : ∀ (lines : List Line) (i : Nat), i + lines.length = n →
    Both (QuotedDiv base n) (lines.zipIdx i) (quotedDivs base (decide (i = 0)) lines)
  | [], _, _ => .nil
  | l :: ls, i, hn => by
    rw [List.zipIdx_cons]
    unfold quotedDivs
    rw [List.length_cons] at hn
    have more := quotedDivs_shown base n ls (i + 1) (by omega)
    rw [decide_eq_false (by omega)] at more
    refine .cons ?_ more
    have hp : intStr (if pyTrunc ((l.indent - base) * 2) < 0 then 0 else pyTrunc ((l.indent - base) * 2)) =
        natStr (pyTrunc ((l.indent - base) * 2)).toNat := by
      generalize pyTrunc ((l.indent - base) * 2) = x
      by_cases hx : x < 0
      · rw [if_pos hx, show x.toNat = 0 by omega]
        rfl
      · rw [if_neg hx]
        obtain ⟨m, rfl⟩ := Int.eq_ofNat_of_zero_le (by omega : 0 ≤ x)
        rfl
    have hl : ls.isEmpty = decide (i + 1 = n) := by
      cases ls with
      | nil => simp at hn; simp [hn]
      | cons _ _ => simp at hn; simp; omega
    have ht : (if ls.isEmpty then (if decide (i = 0) = true then '„' :: l.content else l.content) ++ ['”']
        else if decide (i = 0) = true then '„' :: l.content else l.content) =
        (if i = 0 then py"„" else []) ++ l.content ++ (if i + 1 = n then py"”" else []) := by
      rw [hl]
      by_cases h1 : i + 1 = n
      · rw [if_pos (decide_eq_true h1), if_pos h1]
        by_cases h0 : i = 0 <;> simp [h0]
      · rw [if_neg (by simpa using h1), if_neg h1]
        by_cases h0 : i = 0 <;> simp [h0]
    rw [hp, ht]
    refine ⟨_, _, rfl, fun h => ?_, fun h => pyTrunc_nonpos (by grind), ?_⟩
    · have h0 : 0 ≤ (l.indent - base) * 2 := by grind
      exact pyTrunc_nonneg h0
    · dsimp only
      generalize (if i = 0 then py"„" else []) ++ l.content ++ (if i + 1 = n then py"”" else []) = q
      cases q <;> simp

theorem htmlQuoted_shown {lines : List Line} {cls : Str} {es : List Elem} (h : htmlQuoted lines cls = .ok es) :
    ShownByAll [.quotation ((py"quote_in_") ++ cls) lines] es := by
  unfold htmlQuoted at h
  obtain ⟨b, hb, h⟩ := resBind_ok h
  cases h
  rcases minIndent_spec lines with ⟨base, hb', hmin, hex⟩ | ⟨hb', -⟩
  · obtain rfl := Except.ok.inj (hb.symm.trans hb')
    exact .cons (.quotation hmin hex (quotedDivs_shown b _ lines 0 (by omega))) .nil
  · rw [hb] at hb'
    cases hb'

theorem htmlStructural_shown {e : StructuralElement} {es : List Elem} (h : htmlStructural e = .ok es) (within : Str) (place : Reference) :
    ShownByAll (cells within place (.structural e)) es := by
  unfold htmlStructural at h
  obtain ⟨i, hi, h⟩ := resBind_ok h
  rw [cells]
  dsimp only at h ⊢
  have hn : e.formattedIdentifier.toOption.getD [] = i := by rw [hi]; rfl
  rw [hn]
  by_cases hk : e.kind = .subtitle
  · rw [if_pos hk] at h ⊢
    cases h
    rw [hk]
    refine .cons ?_ .nil
    have := shownBy_div (py"se_subtitle") (i ++ ' ' :: e.title)
    rw [show i ++ py" " ++ e.title = i ++ ' ' :: e.title by simp]
    exact this
  · rw [if_neg hk] at h ⊢
    cases h
    have hc : e.kind.className = structName e.kind := by cases e.kind <;> rfl
    rw [hc]
    exact .cons .header .nil

theorem textCell_shown (cls o c : Str) (s : Option Str) :
    ShownByAll (textCell cls o s c) ((truthy s).elim [] fun t => [.div cls (some (o ++ t ++ c))]) := by
  unfold textCell
  cases ht : truthy s with
  | none =>
    rw [if_pos (truthy_none ht)]
    exact .nil
  | some t =>
    obtain ⟨rfl, hne⟩ := truthy_some ht
    rw [if_neg (by simpa using hne)]
    exact .cons (shownBy_div _ _) .nil

theorem amendmentText_shown (s : Option Str) : ShownByAll (textCell (py"blockamendment_text") (py"(") s (py")")) (amendmentText s) := by
  have := textCell_shown (py"blockamendment_text") (py"(") (py")") s
  unfold amendmentText
  revert this
  cases truthy s <;> exact id

theorem titleDiv_shown (s : Option Str) : ShownByAll (textCell (py"article_title") (py"[") s (py"]")) (titleDiv s) := by
  have := textCell_shown (py"article_title") (py"[") (py"]") s
  unfold titleDiv
  revert this
  cases truthy s <;> exact id

theorem headerPrefix_shown {k : SaeKind} {i : Option Str} {t : Str} (h : k.headerPrefix i = .ok t) : t = numberShown k i := by
  cases k <;> cases i <;> cases h <;> simp [numberShown, heading]

theorem kindName_className (k : SaeKind) : k.className = kindName k := by cases k <;> rfl

/-- What is made for an element that is not an amendment. -/
theorem htmlNode_parts {cls : Str} {parent : Reference} {k : SaeKind} {d : SaeData} {cs : List Node} {es : List Elem}
    (hk : k ≠ .blockAmendmentContainer) (h : htmlNode cls parent (.sae k d cs) = .ok es) :
    ∃ header, k.headerPrefix d.identifier = .ok header ∧
      ((∃ t text, truthy d.text = some t ∧
          textWithRefLinks (k.className ++ (py"_text")) t (placeOf parent (.sae k d cs)) (d.references.getD []) = .ok text ∧
          es = [idDiv (k.className ++ (py"_id")) (placeOf parent (.sae k d cs)) header, text]) ∨
       (truthy d.text = none ∧ ∃ intro kids, (match truthy d.intro with
          | some t => ∃ text, textWithRefLinks (k.className ++ (py"_text")) t (placeOf parent (.sae k d cs)) (d.references.getD []) = .ok text ∧
              intro = [text]
          | none => intro = []) ∧ htmlNodes k.className (placeOf parent (.sae k d cs)) cs = .ok kids ∧
          es = idDiv (k.className ++ (py"_id")) (placeOf parent (.sae k d cs)) header :: intro ++ kids ++
            ((truthy d.wrapUp).elim [] fun t => [.div (k.className ++ (py"_text")) (some t)]))) := by
  have e : htmlNode cls parent (.sae k d cs) = (do
    let current := placeOf parent (.sae k d cs)
    let header ← k.headerPrefix d.identifier
    let id := idDiv (k.className ++ (py"_id")) current header
    let references := d.references.getD []
    match truthy d.text with
    | some t => do
      let text ← textWithRefLinks (k.className ++ (py"_text")) t current references
      .ok [id, text]
    | none => do
      let intro ← (match truthy d.intro with
        | some t => do
          let text ← textWithRefLinks (k.className ++ (py"_text")) t current references
          .ok [text]
        | none => .ok [])
      if cs.isEmpty then .error .typeError
      else
        let children ← htmlNodes k.className current cs
        let wrapUp := match truthy d.wrapUp with
          | some t => [Elem.div (k.className ++ (py"_text")) (some t)]
          | none => []
        .ok (id :: intro ++ children ++ wrapUp)) := by
    cases k <;> first | exact absurd rfl hk | (rw [htmlNode]; rfl; exact hk)
  rw [e] at h
  clear e
  dsimp only at h
  obtain ⟨header, hh, h⟩ := resBind_ok h
  refine ⟨header, hh, ?_⟩
  cases htx : truthy d.text with
  | some t =>
    rw [htx] at h
    dsimp only at h
    obtain ⟨text, hl, h'⟩ := resBind_ok h
    clear h
    cases h'
    exact .inl ⟨t, text, rfl, hl, rfl⟩
  | none =>
    rw [htx] at h
    dsimp only at h
    obtain ⟨intro, hi, h⟩ := resBind_ok h
    split at h
    · cases h
    · obtain ⟨kids, hkids, h⟩ := resBind_ok h
      simp only [Except.ok.injEq] at h
      refine .inr ⟨rfl, intro, kids, ?_, hkids, ?_⟩
      · cases hti : truthy d.intro with
        | none => rw [hti] at hi; cases hi; rfl
        | some t =>
          rw [hti] at hi
          dsimp only at hi
          obtain ⟨text, hl, hi⟩ := resBind_ok hi
          cases hi
          exact ⟨text, hl, rfl⟩
      · rw [← h]
        cases truthy d.wrapUp <;> rfl

theorem linkedCell_some {cls t : Str} {s : Option Str} (h : truthy s = some t) {place : Reference} {references : List OutgoingReference} {e : Elem}
    (hl : textWithRefLinks cls t place references = .ok e) : ShownByAll (linkedCell cls s place references) [e] := by
  obtain ⟨rfl, hne⟩ := truthy_some h
  unfold linkedCell
  rw [if_neg (by simpa using hne)]
  exact .cons (shownBy_linked hl) .nil

theorem linkedCell_none {cls : Str} {s : Option Str} (h : truthy s = none) (place : Reference) (references : List OutgoingReference) :
    linkedCell cls s place references = [] := by
  unfold linkedCell
  rw [if_pos (truthy_none h)]

theorem htmlNode_shown (n : Node) : ∀ {cls : Str} {parent : Reference} {es : List Elem}, htmlNode cls parent n = .ok es →
    ShownByAll (cells cls parent n) es := by
  have list : ∀ cs : List Node, (∀ c ∈ cs, ∀ {cls : Str} {parent : Reference} {es : List Elem}, htmlNode cls parent c = .ok es →
      ShownByAll (cells cls parent c) es) → ∀ {cls : Str} {parent : Reference} {es : List Elem}, htmlNodes cls parent cs = .ok es →
      ShownByAll (cellsAll cls parent cs) es := by
    intro cs
    induction cs with
    | nil =>
      intro _ cls parent es h
      rw [htmlNodes] at h
      cases h
      exact .nil
    | cons c cs ih =>
      intro hc cls parent es h
      obtain ⟨a, b, ha, hb, rfl⟩ := htmlNodes_cons h
      exact shownByAll_append (hc c (by simp) ha) (ih (fun c h => hc c (by simp [h])) hb)
  induction n using Node.ind with
  | sae k d cs ih =>
    intro cls parent es h
    rw [cells]
    by_cases hk : k = .blockAmendmentContainer
    · subst hk
      rw [if_pos rfl]
      obtain ⟨kids, hkids, rfl⟩ := htmlNode_amendment h
      rw [List.append_assoc]
      refine shownByAll_append (amendmentText_shown _) ?_
      exact .cons (shownBy_div _ _) (.cons (.box (list cs ih hkids)) (.cons (shownBy_div _ _) (amendmentText_shown _)))
    · rw [if_neg hk]
      obtain ⟨header, hh, h⟩ := htmlNode_parts hk h
      rw [kindName_className] at h
      rw [← headerPrefix_shown hh]
      rcases h with ⟨t, text, ht, hl, rfl⟩ | ⟨ht, intro, kids, hi, hkids, rfl⟩
      · rw [if_neg (by obtain ⟨e, hne⟩ := truthy_some ht; rw [e]; simpa using hne)]
        exact .cons (shownBy_id _ _ _) (linkedCell_some ht hl)
      · rw [if_pos (truthy_none ht)]
        refine .cons (shownBy_id _ _ _) (shownByAll_append (shownByAll_append ?_ (list cs ih hkids)) ?_)
        · cases hti : truthy d.intro with
          | none =>
            rw [hti] at hi
            subst hi
            rw [linkedCell_none hti]
            exact .nil
          | some t =>
            rw [hti] at hi
            obtain ⟨text, hl, rfl⟩ := hi
            exact linkedCell_some hti hl
        · have := textCell_shown (kindName k ++ py"_text") [] [] d.wrapUp
          simpa using this
  | article i t cs ih =>
    intro cls parent es h
    rw [cells]
    obtain ⟨kids, hkids, rfl⟩ := htmlNode_article h
    exact .cons (shownBy_id _ _ _) (shownByAll_append (shownByAll_append (titleDiv_shown _) (list cs ih hkids)) (.cons (shownBy_none _) .nil))
  | quoted lines =>
    intro cls parent es h
    rw [htmlNode] at h
    rw [cells]
    exact htmlQuoted_shown h
  | structural e =>
    intro cls parent es h
    rw [htmlNode] at h
    exact htmlStructural_shown h _ _

theorem htmlNodes_shown : ∀ (cs : List Node) {cls : Str} {parent : Reference} {es : List Elem}, htmlNodes cls parent cs = .ok es →
    ShownByAll (cellsAll cls parent cs) es
  | [], _, _, _, h => by
    rw [htmlNodes] at h
    cases h
    exact .nil
  | c :: cs, _, _, _, h => by
    obtain ⟨a, b, ha, hb, rfl⟩ := htmlNodes_cons h
    exact shownByAll_append (htmlNode_shown c ha) (htmlNodes_shown cs hb)

/-! ## Indentation -/

theorem isBlank_iff {s : Option Str} : isBlank s = true ↔ ∀ c ∈ s.getD [], isSpace c = true := by
  unfold isBlank
  exact List.all_eq_true

theorem indentText_blank (n : Nat) : isBlank (some (indentText n)) = true := by
  rw [isBlank_iff]
  intro c hc
  rcases List.mem_cons.mp hc with rfl | hc
  · decide
  · rw [(List.mem_replicate.mp hc).2]
    decide

theorem sameText_indent (s : Option Str) {t : Str} (ht : isBlank (some t) = true) : SameText s (if isBlank s then some t else s) := by
  by_cases h : isBlank s = true
  · rw [if_pos h]
    exact .inr ⟨isBlank_iff.mp h, isBlank_iff.mp ht⟩
  · rw [if_neg h]
    exact .inl rfl

theorem sameText_trans {a b c : Option Str} (h : SameText a b) (g : SameText b c) : SameText a c := by
  rcases h with rfl | ⟨h1, h2⟩
  · exact g
  · rcases g with rfl | ⟨-, g2⟩
    · exact .inr ⟨h1, h2⟩
    · exact .inr ⟨h1, g2⟩

theorem setLastTail_same {indent : Str} (hi : isBlank (some indent) = true) : ∀ {as bs : List Elem}, SameElems as bs →
    SameElems as (setLastTail indent bs)
  | _, _, .nil => .nil
  | _, _, .cons (b := .mk g a x cs t) (.mk h1 h2 h3) .nil => by
    rw [setLastTail]
    refine .cons ?_ .nil
    rw [Elem.tail]
    have := sameText_trans h3 (sameText_indent t hi)
    by_cases ht : isBlank t = true
    · rw [if_pos ht] at this ⊢
      exact .mk h1 h2 this
    · rw [if_neg ht]
      exact .mk h1 h2 h3
  | _, _, .cons h1 (.cons h2 h3) => by
    rw [setLastTail]
    exact .cons h1 (setLastTail_same hi (.cons h2 h3))

mutual
theorem indentElem_same (level : Nat) : ∀ e : Elem, SameElem e (indentElem level e)
  | .mk g a x [] t => by
    rw [indentElem]
    refine .mk (.inl rfl) .nil ?_
    by_cases h : level ≠ 0
    · have := sameText_indent t (indentText_blank level)
      simpa [h] using this
    · simp only [h, decide_false, Bool.false_and, Bool.false_eq_true, if_false]
      exact .inl rfl
  | .mk g a x (c :: cs) t => by
    rw [indentElem]
    have hi := indentText_blank level
    refine .mk (sameText_indent x ?_) (setLastTail_same hi (indentElems_same (level + 1) (c :: cs))) (sameText_indent t hi)
    rw [isBlank_iff] at hi ⊢
    intro d hd
    simp only [Option.getD_some, List.mem_append] at hd hi
    rcases hd with hd | hd
    · exact hi d hd
    · simp at hd
      rw [hd]
      decide

theorem indentElems_same (level : Nat) : ∀ es : List Elem, SameElems es (indentElems level es)
  | [] => by rw [indentElems]; exact .nil
  | e :: es => by
    rw [indentElems]
    exact .cons (indentElem_same level e) (indentElems_same level es)
end

end Verif
