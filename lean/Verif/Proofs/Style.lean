import Verif.Spec.Style
import Verif.Proofs.Page
import Verif.Proofs.Structure

/-! # Lemmas about styles -/

namespace Verif
open Spec

/-- The classes of cells in grids, with the columns in which they begin. -/
def columnClasses : List (Str × Nat) := [
  (py"act_title", 1), (py"preamble", 1), (py"se_book", 3), (py"se_part", 3), (py"se_title", 3), (py"se_chapter", 3), (py"se_subtitle", 3),
  (py"article_id", 1), (py"article_title", 2), (py"space_after_article", 1), (py"paragraph_id", 2), (py"paragraph_text", 3),
  (py"blockamendment_quote", 3), (py"blockamendment_text", 3), (py"blockamendment_container", 3),
  (py"numericpoint_id", 3), (py"alphabeticpoint_id", 3), (py"numericpoint_text", 4), (py"alphabeticpoint_text", 4),
  (py"alphabeticsubpoint_id", 4), (py"numericsubpoint_id", 4), (py"alphabeticsubpoint_text", 5), (py"numericsubpoint_text", 5),
  (py"quote_in_paragraph", 3)]

/-- The values that rules for a class give to a property. -/
def valuesFor (cls property : Str) : List Str :=
  styleRules.flatMap fun rule => if ('.' :: cls) ∈ rule.1 then (rule.2.filter fun d => d.1 = property).map (·.2) else []

theorem sets_iff {cls property value : Str} : Sets cls property value ↔ value ∈ valuesFor cls property := by
  unfold Sets valuesFor
  rw [List.mem_flatMap]
  constructor
  · rintro ⟨r, h1, h2, h3⟩
    refine ⟨r, h1, ?_⟩
    rw [if_pos h2]
    exact List.mem_map.2 ⟨_, List.mem_filter.2 ⟨h3, by simp⟩, rfl⟩
  · rintro ⟨r, h1, h2⟩
    by_cases h : ('.' :: cls) ∈ r.1
    · rw [if_pos h] at h2
      obtain ⟨⟨p, v⟩, hd, rfl⟩ := List.mem_map.1 h2
      obtain ⟨hd', hp⟩ := List.mem_filter.1 hd
      simp only [decide_eq_true_eq] at hp
      subst hp
      exact ⟨r, h1, h, hd'⟩
    · rw [if_neg h] at h2
      cases h2

theorem columnClasses_begin : ∀ x ∈ columnClasses, valuesFor x.1 (py"grid-column") ≠ [] ∧
    ∀ v ∈ valuesFor x.1 (py"grid-column"), v = natStr x.2 ∨ v = natStr x.2 ++ py" / end" := by decide +kernel

theorem columnClasses_range : ∀ x ∈ columnClasses, 1 ≤ x.2 ∧ x.2 ≤ 5 := by decide

theorem begins_in {cls : Str} {n : Nat} (h : (cls, n) ∈ columnClasses) : BeginsIn cls n := by
  obtain ⟨h1, h2⟩ := columnClasses_begin _ h
  constructor
  · cases hv : valuesFor cls (py"grid-column") with
    | nil => exact absurd hv h1
    | cons v vs => exact ⟨v, sets_iff.2 (by rw [hv]; simp)⟩
  · exact fun v hv => h2 v (sets_iff.1 hv)

/-- The class can be that of a cell in a grid. -/
def Placed (cls : Str) : Prop := ∃ n, (cls, n) ∈ columnClasses

/-- The class of a cell. -/
def Cell.cls : Cell → Str
  | .text cls _ _ => cls
  | .header cls _ _ => cls
  | .box cls _ => cls
  | .quotation cls _ => cls

mutual
/-- Everything in a cell has a class with rules, and what is in a box is placed in it. -/
inductive Styled : Cell → Prop
  | text {cls shown links} (h : Placed cls) (plain : cls ≠ py"blockamendment_container") : Styled (.text cls shown links)
  | header {cls number title} (h : Placed cls) (plain : cls ≠ py"blockamendment_container") : Styled (.header cls number title)
  | box {cls cells} (h : cls = py"act_container" ∨ cls = py"blockamendment_container") (parts : StyledAll cells) : Styled (.box cls cells)
  | quotation {cls lines} (h : Placed cls) (plain : cls ≠ py"blockamendment_container") : Styled (.quotation cls lines)

/-- The same for cells in a box. -/
inductive StyledAll : List Cell → Prop
  | nil : StyledAll []
  | cons {c cs} (place : Placed (Cell.cls c)) (first : Styled c) (others : StyledAll cs) : StyledAll (c :: cs)
end

theorem styledAll_append {as bs : List Cell} (h : StyledAll as) (g : StyledAll bs) : StyledAll (as ++ bs) := by
  induction as with
  | nil => exact g
  | cons a as ih =>
    cases h with
    | cons h1 h2 h3 => exact .cons h1 h2 (ih h3)

theorem styled_text {cls : Str} (shown : Str) (links : List (Nat × Str × Str)) (h : Placed cls) (plain : cls ≠ py"blockamendment_container") :
    StyledAll [.text cls shown links] := .cons h (.text h plain) .nil

theorem textCell_styled {cls : Str} (o c : Str) (s : Option Str) (h : Placed cls) (plain : cls ≠ py"blockamendment_container") :
    StyledAll (textCell cls o s c) := by
  unfold textCell
  split
  · exact .nil
  · exact styled_text _ _ h plain

theorem linkedCell_styled {cls : Str} (s : Option Str) (place : Reference) (references : List OutgoingReference) (h : Placed cls)
    (plain : cls ≠ py"blockamendment_container") : StyledAll (linkedCell cls s place references) := by
  unfold linkedCell
  split
  · exact .nil
  · exact styled_text _ _ h plain

theorem kind_placed {k : SaeKind} (hk : k ≠ .blockAmendmentContainer) :
    (Placed (kindName k ++ py"_id") ∧ kindName k ++ py"_id" ≠ py"blockamendment_container") ∧
    Placed (kindName k ++ py"_text") ∧ kindName k ++ py"_text" ≠ py"blockamendment_container" := by
  cases k with
  | blockAmendmentContainer => exact absurd rfl hk
  | paragraph => exact ⟨⟨⟨2, by decide⟩, by decide⟩, ⟨3, by decide⟩, by decide⟩
  | numericPoint => exact ⟨⟨⟨3, by decide⟩, by decide⟩, ⟨4, by decide⟩, by decide⟩
  | alphabeticPoint => exact ⟨⟨⟨3, by decide⟩, by decide⟩, ⟨4, by decide⟩, by decide⟩
  | numericSubpoint => exact ⟨⟨⟨4, by decide⟩, by decide⟩, ⟨5, by decide⟩, by decide⟩
  | alphabeticSubpoint => exact ⟨⟨⟨4, by decide⟩, by decide⟩, ⟨5, by decide⟩, by decide⟩

/-- Quoted text is in a paragraph. -/
def Quotes (within : Str) (n : Node) : Prop := n.type = .quoted → within = py"paragraph"

theorem cells_styled (n : Node) : ∀ {within : Str} {place : Reference}, Built n → Quotes within n → StyledAll (cells within place n) := by
  have list : ∀ cs : List Node, (∀ c ∈ cs, ∀ {within : Str} {place : Reference}, Built c → Quotes within c → StyledAll (cells within place c)) →
      ∀ {within : Str} {place : Reference}, (∀ c ∈ cs, Built c) → (∀ c ∈ cs, Quotes within c) → StyledAll (cellsAll within place cs) := by
    intro cs
    induction cs with
    | nil => intro _ _ _ _ _; exact .nil
    | cons c cs ih =>
      intro hc within place hb hq
      rw [cellsAll]
      exact styledAll_append (hc c (by simp) (hb c (by simp)) (hq c (by simp)))
        (ih (fun c h => hc c (by simp [h])) (fun c h => hb c (by simp [h])) (fun c h => hq c (by simp [h])))
  induction n using Node.ind with
  | sae k d cs ih =>
    intro within place hb _
    obtain ⟨hbc, -, hm, -⟩ := built_sae hb
    rw [cells]
    by_cases hk : k = .blockAmendmentContainer
    · subst hk
      rw [if_pos rfl]
      have ht : Placed (py"blockamendment_text") := ⟨3, by decide⟩
      have hq : Placed (py"blockamendment_quote") := ⟨3, by decide⟩
      refine styledAll_append (styledAll_append (textCell_styled _ _ _ ht (by decide)) ?_) (textCell_styled _ _ _ ht (by decide))
      refine .cons hq (.text hq (by decide)) (.cons (show Placed (py"blockamendment_container") from ⟨3, by decide⟩) (.box (.inr rfl) (list cs ih hbc fun c hc e => ?_))
        (.cons hq (.text hq (by decide)) .nil))
      have := hm c hc
      rw [e] at this
      cases this
    · rw [if_neg hk]
      obtain ⟨⟨h1, h2⟩, h3, h4⟩ := kind_placed hk
      refine .cons h1 (.text h1 h2) ?_
      split
      · refine styledAll_append (styledAll_append (linkedCell_styled _ _ _ h3 h4) (list cs ih hbc fun c hc e => ?_)) (textCell_styled _ _ _ h3 h4)
        have := hm c hc
        rw [e] at this
        cases this
        rfl
      · exact linkedCell_styled _ _ _ h3 h4
  | article i t cs ih =>
    intro within place hb _
    obtain ⟨hbc, hty, -⟩ := built_article hb
    rw [cells]
    have hi : Placed (py"article_id") := ⟨1, by decide⟩
    refine .cons hi (.text hi (by decide)) ?_
    refine styledAll_append (styledAll_append (textCell_styled _ _ _ ⟨2, by decide⟩ (by decide)) (list cs ih hbc fun c hc e => ?_))
      (styled_text _ _ ⟨1, by decide⟩ (by decide))
    rw [hty c hc] at e
    cases e
  | quoted lines =>
    intro within place _ hq
    rw [cells, hq rfl]
    have hq : Placed (py"quote_in_paragraph") := ⟨3, by decide⟩
    exact .cons hq (.quotation hq (by decide)) .nil
  | structural e =>
    intro within place _ _
    rw [cells]
    split
    · exact styled_text _ _ ⟨3, by decide⟩ (by decide)
    · have : Placed ((py"se_") ++ structName e.kind) ∧ (py"se_") ++ structName e.kind ≠ py"blockamendment_container" := by
        cases e.kind <;> exact ⟨⟨3, by decide⟩, by decide⟩
      exact .cons this.1 (.header this.1 this.2) .nil

theorem page_styled {a : Act} (hb : ∀ c ∈ a.children, Built c) (ha : ∀ c ∈ a.children, InAct c) : Styled (pageCell a) := by
  have ht : Placed (py"act_title") := ⟨1, by decide⟩
  refine .box (.inl rfl) (.cons ht (.header ht (by decide)) (styledAll_append (textCell_styled _ _ _ ⟨1, by decide⟩ (by decide)) ?_))
  have : ∀ cs : List Node, (∀ c ∈ cs, Built c) → (∀ c ∈ cs, InAct c) → StyledAll (cellsAll (py"act") {} cs) := by
    intro cs
    induction cs with
    | nil => intro _ _; exact .nil
    | cons c cs ih =>
      intro h1 h2
      rw [cellsAll]
      refine styledAll_append (cells_styled c (h1 c (by simp)) fun e => ?_) (ih (fun c h => h1 c (by simp [h])) (fun c h => h2 c (by simp [h])))
      rcases h2 c (by simp) with h | ⟨_, h⟩ <;> rw [e] at h <;> cases h
  exact this _ hb ha

/-! ## Elements -/

/-- Everything in the element is styled: what has a class has rules, and what is in a grid is placed in it. -/
def WellStyled (e : Elem) : Prop := ∀ f, PartOf f e →
  (∀ cls, classOf f = some cls → cls = py"act_container" ∨ Placed cls) ∧
  (∀ cls, classOf f = some cls → cls = py"act_container" ∨ cls = py"blockamendment_container" → ∀ g ∈ partsOf f, ∃ c, classOf g = some c ∧ Placed c)

theorem partOf_mk {f : Elem} {tag : Str} {attrs : List (Str × Str)} {x t : Option Str} {es : List Elem} (h : PartOf f (.mk tag attrs x es t)) :
    f = .mk tag attrs x es t ∨ ∃ e ∈ es, PartOf f e := by
  cases h with
  | self => exact .inl rfl
  | deeper hd h => exact .inr ⟨_, hd, h⟩

theorem classOf_shown {c : Cell} {e : Elem} (h : ShownBy c e) : classOf e = some (Cell.cls c) := by
  cases h with
  | text h => rcases h with rfl | ⟨_, rfl⟩ <;> rfl
  | header => rfl
  | box => rfl
  | quotation => rfl

theorem wellStyled_plain {tag : Str} {attrs : List (Str × Str)} {x t : Option Str} (h : attrs.find? (fun a => a.1 = py"class") = none) :
    WellStyled (.mk tag attrs x [] t) := by
  intro f hf
  rcases partOf_mk hf with rfl | ⟨e, he, -⟩
  · constructor <;> intro cls hc <;> simp [classOf, attrOf, h] at hc
  · cases he

theorem wellStyled_cell {tag cls : Str} {attrs : List (Str × Str)} {x t : Option Str} {es : List Elem}
    (hc : classOf (.mk tag attrs x es t) = some cls) (hp : Placed cls) (plain : cls ≠ py"blockamendment_container")
    (hs : ∀ e ∈ es, WellStyled e) : WellStyled (.mk tag attrs x es t) := by
  intro f hf
  rcases partOf_mk hf with rfl | ⟨e, he, hf⟩
  · constructor
    · intro c hc'
      rw [hc] at hc'
      cases hc'
      exact .inr hp
    · intro c hc'
      rw [hc] at hc'
      cases hc'
      rintro (rfl | h)
      · obtain ⟨n, hn⟩ := hp
        simp [columnClasses] at hn
      · exact absurd h plain
  · exact hs e he f hf

mutual
theorem wellStyled_of : ∀ {c : Cell} {e : Elem}, ShownBy c e → Styled c → WellStyled e
  | _, _, .text (attrs := attrs) (first := first) (as := as) h1 h2 h3 h4, .text hp plain => by
    refine wellStyled_cell (classOf_shown (.text h1 h2 h3 h4)) hp plain fun a ha => ?_
    obtain ⟨_, _, _, rfl⟩ := h3 a ha
    exact wellStyled_plain (by rfl)
  | _, _, .header (cls := cls) (number := number) (title := title), .header hp plain => by
    refine wellStyled_cell (classOf_shown (.header (cls := cls) (number := number) (title := title))) hp plain fun a ha => ?_
    rw [List.mem_singleton.1 ha]
    exact wellStyled_plain rfl
  | _, _, .quotation h1 h2 h3, .quotation hp plain => by
    refine wellStyled_cell (classOf_shown (.quotation h1 h2 h3)) hp plain fun a ha => ?_
    obtain ⟨_, -, _, _, rfl, -⟩ := h3.mem_right ha
    exact wellStyled_plain (by rfl)
  | _, _, .box parts, .box hc hs => by
    intro f hf
    rcases partOf_mk hf with rfl | ⟨e, he, hf⟩
    · constructor
      · intro c hc'
        cases hc'
        rcases hc with h | rfl
        · exact .inl h
        · exact .inr ⟨3, by decide⟩
      · intro _ _ _ g hg
        exact (wellStyledAll_of parts hs g hg).2
    · exact (wellStyledAll_of parts hs e he).1 f hf

theorem wellStyledAll_of : ∀ {cs : List Cell} {es : List Elem}, ShownByAll cs es → StyledAll cs →
    ∀ e ∈ es, WellStyled e ∧ ∃ c, classOf e = some c ∧ Placed c
  | _, _, .nil, _ => by simp
  | _, _, .cons h1 h2, .cons g1 g2 g3 => by
    intro e he
    rcases List.mem_cons.1 he with rfl | he
    · exact ⟨wellStyled_of h1 g2, _, classOf_shown h1, g1⟩
    · exact wellStyledAll_of h2 g3 e he
end

/-! ## Indentation -/

theorem sameElem_class {a b : Elem} (h : SameElem a b) : classOf a = classOf b := by
  cases h; rfl

theorem sameElems_mem {as bs : List Elem} (h : SameElems as bs) {b : Elem} (hb : b ∈ bs) : ∃ a ∈ as, SameElem a b := by
  induction as generalizing bs with
  | nil => cases h; cases hb
  | cons a as ih =>
    cases h with
    | cons h1 h2 =>
      rcases List.mem_cons.1 hb with rfl | hb
      · exact ⟨a, by simp, h1⟩
      · obtain ⟨a', ha, h⟩ := ih h2 hb
        exact ⟨a', by simp [ha], h⟩

theorem sameElem_part {f b : Elem} (hf : PartOf f b) : ∀ {a : Elem}, SameElem a b → ∃ e, PartOf e a ∧ SameElem e f := by
  induction hf with
  | self => intro a h; exact ⟨a, .self, h⟩
  | deeper hd _ ih =>
    intro a h
    cases h with
    | mk h1 h2 h3 =>
      obtain ⟨a', ha, h⟩ := sameElems_mem h2 hd
      obtain ⟨e, he, g⟩ := ih h
      exact ⟨e, .deeper ha he, g⟩

theorem wellStyled_same {a b : Elem} (h : SameElem a b) (hw : WellStyled a) : WellStyled b := by
  intro f hf
  obtain ⟨e, he, hs⟩ := sameElem_part hf h
  obtain ⟨h1, h2⟩ := hw e he
  refine ⟨fun cls hc => h1 cls ((sameElem_class hs).trans hc), fun cls hc hg g hgf => ?_⟩
  cases hs with
  | mk k1 k2 k3 =>
    obtain ⟨g', hg', hgs⟩ := sameElems_mem k2 hgf
    obtain ⟨c, hc', hp⟩ := h2 cls hc hg g' hg'
    exact ⟨c, (sameElem_class hgs).symm.trans hc', hp⟩

end Verif
