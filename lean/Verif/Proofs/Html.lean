import Verif.Spec.Html
import Verif.Proofs.Identifiers
import Verif.Proofs.Structure
import Verif.Proofs.HeaderLines
import Verif.Proofs.IdString

/-! # Lemmas about pages -/

namespace Verif

open Spec Reference

theorem pySlice_nonneg {α : Type} (xs : List α) {a b : Int} (ha : 0 ≤ a) (hb : 0 ≤ b) :
    pySlice xs a b = (xs.take b.toNat).drop a.toNat := by
  unfold pySlice pyBound
  rw [if_neg (by omega), if_neg (by omega)]
  have h1 : xs.take (min b.toNat xs.length) = xs.take b.toNat := by
    rw [Nat.min_def]
    split
    · rfl
    · rw [List.take_length, List.take_of_length_le (by omega)]
  rw [h1, Nat.min_def]
  split
  · rfl
  · have : (List.take b.toNat xs).length ≤ xs.length := by simp; omega
    rw [List.drop_of_length_le this, List.drop_of_length_le (by omega)]

theorem pySlice_isBetween (xs : Str) {a b : Int} (ha : 0 ≤ a) (hb : a ≤ b) : pySlice xs a b = between xs a b := by
  rw [pySlice_nonneg xs ha (by omega)]
  unfold between
  rw [List.drop_take, show (b - a).toNat = b.toNat - a.toNat by omega]

theorem between_append (xs : Str) {a b : Int} (ha : 0 ≤ a) (hb : a ≤ b) : between xs a b ++ xs.drop b.toNat = xs.drop a.toNat := by
  unfold between
  have : b.toNat = a.toNat + (b - a).toNat := by omega
  rw [this, ← List.drop_drop, List.take_append_drop]

theorem between_length (xs : Str) {a b : Int} (ha : 0 ≤ a) (hb : a ≤ b) :
    min a.toNat xs.length + (between xs a b).length = min b.toNat xs.length := by
  unfold between
  rw [List.length_take, List.length_drop]
  omega

/-- What the loop of `generate_text_with_ref_links` makes. -/
theorem linkLoop_ok (text : Str) : ∀ (links : List Link) (prev : Int), 0 ≤ prev → ∀ {first : Str} {rest : List Elem},
    linkLoop text prev links = .ok (first, rest) →
    first ++ textOfAll rest = text.drop prev.toNat ∧
    linksFrom (min prev.toNat text.length + first.length) rest =
      links.map (fun l => (min l.1.toNat text.length, some l.2.2, between text l.1 l.2.1)) ∧
    (∀ l ∈ links, prev ≤ l.1 ∧ l.1 < l.2.1) ∧ links.Pairwise fun l m => l.2.1 ≤ m.1
  | [], prev, hp, first, rest, h => by
    simp only [linkLoop, Except.ok.injEq, Prod.mk.injEq] at h
    obtain ⟨rfl, rfl⟩ := h
    refine ⟨?_, rfl, by simp, by simp⟩
    rw [pySlice_nonneg text hp (by omega)]
    simp [textOfAll]
  | (start, stop, href) :: links, prev, hp, first, rest, h => by
    unfold linkLoop at h
    by_cases h1 : start ≥ prev
    · by_cases h2 : stop > start
      · rw [if_neg (by simpa using h1), if_neg (by simpa using h2)] at h
        obtain ⟨⟨tail, rest'⟩, hl, h⟩ := resBind_ok h
        simp only [Except.ok.injEq, Prod.mk.injEq] at h
        obtain ⟨rfl, rfl⟩ := h
        obtain ⟨k1, k2, k3, k4⟩ := linkLoop_ok text links stop (by omega) hl
        rw [pySlice_isBetween text hp h1, pySlice_isBetween text (by omega) (by omega : start ≤ stop)]
        refine ⟨?_, ?_, ?_, ?_⟩
        · simp only [textOfAll, textOf, Option.getD_some, List.append_nil]
          rw [List.append_assoc (between text start stop), k1, between_append text (by omega) (by omega : start ≤ stop),
            between_append text hp h1]
        · simp only [linksFrom, List.map_cons, between_length text hp h1]
          congr 1
          · simp [attrOf, textOf, textOfAll]
          · simp only [textOf, textOfAll, Option.getD_some, List.append_nil, Elem.tail]
            rw [between_length text (by omega) (by omega : start ≤ stop)]
            exact k2
        · intro l hl
          rcases List.mem_cons.mp hl with rfl | hl
          · exact ⟨h1, h2⟩
          · have := k3 l hl
            exact ⟨by omega, this.2⟩
        · rw [List.pairwise_cons]
          exact ⟨fun l hl => (k3 l hl).1, k4⟩
      · rw [if_neg (by simpa using h1), if_pos (by simpa using h2)] at h
        cases h
    · rw [if_pos (by simpa using h1)] at h
      cases h

/-- When the loop ends. -/
theorem linkLoop_made (text : Str) : ∀ (links : List Link) (prev : Int),
    (∀ l ∈ links, prev ≤ l.1 ∧ l.1 < l.2.1) → links.Pairwise (fun l m => l.2.1 ≤ m.1) →
    ∃ r, linkLoop text prev links = .ok r
  | [], _, _, _ => ⟨_, rfl⟩
  | (start, stop, href) :: links, prev, h1, h2 => by
    have a := h1 (start, stop, href) (by simp)
    dsimp only at a
    rw [List.pairwise_cons] at h2
    obtain ⟨r, hr⟩ := linkLoop_made text links stop (fun l hl => ⟨h2.1 l hl, (h1 l (by simp [hl])).2⟩) h2.2
    unfold linkLoop
    rw [if_neg (by omega), if_neg (by omega), hr]
    exact ⟨_, rfl⟩

/-- The loop fails in one way only. -/
theorem linkLoop_error (text : Str) : ∀ (links : List Link) (prev : Int) {e : Err}, linkLoop text prev links = .error e →
    e = .assertionError
  | [], _, _, h => by simp [linkLoop] at h
  | (start, stop, href) :: links, prev, e, h => by
    unfold linkLoop at h
    by_cases h1 : start ≥ prev
    · by_cases h2 : stop > start
      · rw [if_neg (by simpa using h1), if_neg (by simpa using h2)] at h
        cases hl : linkLoop text stop links with
        | error e' =>
          rw [hl] at h
          cases h
          exact linkLoop_error text links stop hl
        | ok r =>
          rw [hl] at h
          cases h
      · rw [if_neg (by simpa using h1), if_pos (by simpa using h2)] at h
        cases h
        rfl
    · rw [if_pos (by simpa using h1)] at h
      cases h
      rfl

theorem insertLink_perm (x : Link) : ∀ l : List Link, (insertLink x l).Perm (x :: l)
  | [] => .refl _
  | y :: ys => by
    unfold insertLink
    split
    · exact ((insertLink_perm x ys).cons y).trans (.swap x y ys)
    · exact .refl _

theorem sortLinks_perm : ∀ l : List Link, (sortLinks l).Perm l
  | [] => .refl _
  | x :: xs => (insertLink_perm x _).trans ((sortLinks_perm xs).cons x)

theorem Link.le_of_not_lt {a b : Link} (h : ¬ Link.lt b a = true) : a.1 ≤ b.1 := by
  unfold Link.lt at h
  by_cases h1 : b.1 = a.1
  · omega
  · rw [if_neg h1] at h
    simp at h
    omega

theorem Link.le_of_lt {a b : Link} (h : Link.lt a b = true) : a.1 ≤ b.1 := by
  unfold Link.lt at h
  by_cases h1 : a.1 = b.1
  · omega
  · rw [if_neg h1] at h
    simp at h
    omega

theorem insertLink_sorted (x : Link) : ∀ l : List Link, l.Pairwise (fun a b => a.1 ≤ b.1) →
    (insertLink x l).Pairwise fun a b => a.1 ≤ b.1
  | [], _ => by simp [insertLink]
  | y :: ys, h => by
    rw [List.pairwise_cons] at h
    unfold insertLink
    split
    · rename_i hlt
      rw [List.pairwise_cons]
      refine ⟨?_, insertLink_sorted x ys h.2⟩
      intro b hb
      rcases List.mem_cons.mp ((insertLink_perm x ys).mem_iff.mp hb) with rfl | hb
      · exact Link.le_of_lt hlt
      · exact h.1 b hb
    · rename_i hlt
      rw [List.pairwise_cons, List.pairwise_cons]
      refine ⟨?_, h⟩
      intro b hb
      have := Link.le_of_not_lt hlt
      rcases List.mem_cons.mp hb with rfl | hb
      · exact this
      · exact Int.le_trans this (h.1 b hb)

theorem sortLinks_sorted : ∀ l : List Link, (sortLinks l).Pairwise fun a b => a.1 ≤ b.1
  | [] => .nil
  | x :: xs => insertLink_sorted x _ (sortLinks_sorted xs)

/-- Links that are apart. -/
def ApartLinks (links : List Link) : Prop :=
  (∀ l ∈ links, 0 ≤ l.1 ∧ l.1 < l.2.1) ∧ links.Pairwise fun l m => l.2.1 ≤ m.1 ∨ m.2.1 ≤ l.1

theorem apartLinks_perm {a b : List Link} (h : a.Perm b) : ApartLinks a ↔ ApartLinks b := by
  unfold ApartLinks
  rw [h.pairwise_iff (fun h => h.symm)]
  simp only [h.mem_iff]

theorem apartLinks_of (current : Reference) (references : List OutgoingReference) :
    ApartLinks (references.map (linkOf current)) ↔ Apart references := by
  unfold ApartLinks Apart
  rw [List.pairwise_map]
  simp only [List.mem_map, forall_exists_index, and_imp, forall_apply_eq_imp_iff₂]
  rfl

theorem linkLoop_iff (text : Str) (links : List Link) (hs : links.Pairwise fun a b => a.1 ≤ b.1) :
    (∃ r, linkLoop text 0 links = .ok r) ↔ ApartLinks links := by
  constructor
  · rintro ⟨⟨f, r⟩, h⟩
    obtain ⟨-, -, k3, k4⟩ := linkLoop_ok text links 0 (by omega) h
    exact ⟨k3, k4.imp fun h => .inl h⟩
  · rintro ⟨h1, h2⟩
    refine linkLoop_made text links 0 h1 ((hs.and h2).imp_of_mem ?_)
    rintro a b ha hb ⟨k1, k2 | k2⟩
    · exact k2
    · have := h1 a ha
      have := h1 b hb
      omega

theorem marks_div (cls : Str) (t : Option Str) (cs : List Elem) : marks (.div cls t cs) = marksAll cs := by
  unfold Elem.div
  rw [marks]
  rfl

theorem marks_plain (tag : Str) (t l : Option Str) (cs : List Elem) : marks (.mk tag [] t cs l) = marksAll cs := by
  rw [marks]
  rfl

theorem marksAll_append : ∀ a b : List Elem, marksAll (a ++ b) = marksAll a ++ marksAll b
  | [], _ => rfl
  | x :: xs, b => by simp [marksAll, marksAll_append xs b]

theorem textOfAll_append : ∀ a b : List Elem, textOfAll (a ++ b) = textOfAll a ++ textOfAll b
  | [], _ => rfl
  | .mk g a x cs t :: xs, b => by simp [textOfAll, textOfAll_append xs b]

theorem textOfAll_cons (e : Elem) (es : List Elem) : textOfAll (e :: es) = textOf e ++ e.tail.getD [] ++ textOfAll es := by
  obtain ⟨g, a, x, cs, t⟩ := e
  rfl

/-- What `generate_text_with_ref_links` makes. -/
theorem textWithRefLinks_ok {cls text : Str} {current : Reference} {references : List OutgoingReference} {e : Elem}
    (h : textWithRefLinks cls text current references = .ok e) :
    textOf e = text ∧
    (linksIn e).Perm (references.map fun o => (min o.startPos.toNat text.length,
      some (hrefForRef (o.reference.relativeTo current)), between text o.startPos o.endPos)) ∧
    marks e = [] ∧ e.tail = none := by
  unfold textWithRefLinks at h
  obtain ⟨⟨first, links⟩, hl, h⟩ := resBind_ok h
  simp only [Except.ok.injEq] at h
  subst h
  obtain ⟨k1, k2, -, -⟩ := linkLoop_ok text _ 0 (by omega) hl
  refine ⟨?_, ?_, ?_, rfl⟩
  · simpa [Elem.div, textOf] using k1
  · simp only [Elem.div, linksIn, Option.getD_some]
    simp only [Int.toNat_zero, Nat.zero_min, Nat.zero_add] at k2
    rw [k2]
    refine ((sortLinks_perm _).map _).trans ?_
    rw [List.map_map]
    exact .refl _
  · rw [marks_div]
    have : ∀ (ls : List Link) (prev : Int) (first : Str) (links : List Elem), linkLoop text prev ls = .ok (first, links) →
        marksAll links = [] := by
      intro ls
      induction ls with
      | nil =>
        intro prev first links h
        simp only [linkLoop, Except.ok.injEq, Prod.mk.injEq] at h
        rw [← h.2]
        rfl
      | cons l ls ih =>
        intro prev first links h
        obtain ⟨start, stop, href⟩ := l
        unfold linkLoop at h
        by_cases h1 : start ≥ prev
        · by_cases h2 : stop > start
          · rw [if_neg (by simpa using h1), if_neg (by simpa using h2)] at h
            obtain ⟨⟨tail, rest'⟩, hl, h⟩ := resBind_ok h
            simp only [Except.ok.injEq, Prod.mk.injEq] at h
            rw [← h.2]
            simp only [marksAll, marks, attrOf, List.append_eq_nil_iff]
            exact ⟨⟨rfl, trivial⟩, ih _ _ _ hl⟩
          · rw [if_neg (by simpa using h1), if_pos (by simpa using h2)] at h
            cases h
        · rw [if_pos (by simpa using h1)] at h
          cases h
    exact this _ _ _ _ hl

theorem quotedDivs_marks (offset : Rat) : ∀ (lines : List Line) (first : Bool), marksAll (quotedDivs offset first lines) = []
  | [], _ => rfl
  | l :: ls, first => by
    unfold quotedDivs
    simp only [marksAll, marks, attrOf, quotedDivs_marks offset ls, List.append_nil]
    rfl

theorem htmlQuoted_marks {lines : List Line} {cls : Str} {es : List Elem} (h : htmlQuoted lines cls = .ok es) : marksAll es = [] := by
  unfold htmlQuoted at h
  obtain ⟨offset, -, h⟩ := resBind_ok h
  simp only [Except.ok.injEq] at h
  subst h
  simp only [marksAll, marks, attrOf, quotedDivs_marks, List.append_nil]
  rfl

theorem htmlStructural_marks {e : StructuralElement} {es : List Elem} (h : htmlStructural e = .ok es) : marksAll es = [] := by
  unfold htmlStructural at h
  obtain ⟨i, -, h⟩ := resBind_ok h
  dsimp only at h
  split at h
  · simp only [Except.ok.injEq] at h
    subst h
    rw [marksAll, marks_div]
    rfl
  · simp only [Except.ok.injEq] at h
    subst h
    rw [marksAll, marks_div]
    simp only [marksAll, marks_plain, List.append_nil]

theorem truthy_some {s : Option Str} {t : Str} (h : truthy s = some t) : s = some t ∧ t ≠ [] := by
  unfold truthy at h
  split at h
  · simp only [Option.some.injEq] at h
    subst h
    exact ⟨rfl, by simp⟩
  · cases h

theorem truthy_none {s : Option Str} (h : truthy s = none) : s.getD [] = [] := by
  cases s with
  | none => rfl
  | some t => cases t with
    | nil => rfl
    | cons c cs => cases h

theorem amendmentText_marks (s : Option Str) : marksAll (amendmentText s) = [] := by
  unfold amendmentText
  split
  · rw [marksAll, marks_div]
    rfl
  · rfl

theorem titleDiv_marks (s : Option Str) : marksAll (titleDiv s) = [] := by
  unfold titleDiv
  split
  · rw [marksAll, marks_div]
    rfl
  · rfl

/-- The reference of an element below another one. -/
def currentRef (k : SaeKind) (d : SaeData) (parent : Reference) : Reference :=
  ((Node.sae k d []).relativeReference.getD {}).relativeTo parent

/-- What is made for an article. -/
theorem htmlNode_article {cls : Str} {parent : Reference} {i : Str} {title : Option Str} {cs : List Node} {es : List Elem}
    (h : htmlNode cls parent (.article i title cs) = .ok es) :
    ∃ kids, htmlNodes (py"article") (Reference.relativeTo { article := some (.one i) } parent) cs = .ok kids ∧
      es = idDiv (py"article_id") (Reference.relativeTo { article := some (.one i) } parent) (i ++ (py". §")) ::
        titleDiv title ++ kids ++ [.div (py"space_after_article") none] := by
  rw [htmlNode] at h
  obtain ⟨kids, hk, h⟩ := resBind_ok h
  simp only [Except.ok.injEq] at h
  exact ⟨kids, hk, h.symm⟩

/-- What is made for a block amendment. -/
theorem htmlNode_amendment {cls : Str} {parent : Reference} {d : SaeData} {cs : List Node} {es : List Elem}
    (h : htmlNode cls parent (.sae .blockAmendmentContainer d cs) = .ok es) :
    ∃ kids, htmlNodes (py"blockamendmentcontainer") { act := some (py"EXTERNAL") } cs = .ok kids ∧
      es = amendmentText d.intro ++ amendmentQuote '„' :: .div (py"blockamendment_container") none kids ::
        amendmentQuote '”' :: amendmentText d.wrapUp := by
  rw [htmlNode] at h
  split at h
  · cases h
  · obtain ⟨kids, hk, h⟩ := resBind_ok h
    simp only [Except.ok.injEq] at h
    exact ⟨kids, hk, h.symm⟩

/-- What is made for another element. -/
theorem htmlNode_sae {cls : Str} {parent : Reference} {k : SaeKind} {d : SaeData} {cs : List Node} {es : List Elem}
    (hk : k ≠ .blockAmendmentContainer) (ht : d.text ≠ none → cs = [])
    (h : htmlNode cls parent (.sae k d cs) = .ok es) :
    ∃ header pre kids post, k.headerPrefix d.identifier = .ok header ∧
      htmlNodes k.className (currentRef k d parent) cs = .ok kids ∧
      es = idDiv (k.className ++ (py"_id")) (currentRef k d parent) header :: pre ++ kids ++ post ∧
      marksAll pre = [] ∧ marksAll post = [] ∧
      ((truthy d.text = none → textOfAll pre = d.intro.getD [] ∧ textOfAll post = d.wrapUp.getD []) ∧
       (∀ t, truthy d.text = some t → textOfAll pre = t ∧ textOfAll post = [])) := by
  have e : htmlNode cls parent (.sae k d cs) = (do
    let current := currentRef k d parent
    let header ← k.headerPrefix d.identifier
    let id := idDiv (k.className ++ (py"_id")) current header
    let references := d.references.getD []
    match truthy d.text with
    | some t => do
      let text ← textWithRefLinks (k.className ++ (py"_text")) t current references
      .ok [id, text]
    | none => do
      let intro ← (match truthy d.intro with
        | some t => do
          let text ← textWithRefLinks (k.className ++ (py"_text")) t current references
          .ok [text]
        | none => .ok [])
      if cs.isEmpty then .error .typeError
      else
        let children ← htmlNodes k.className current cs
        let wrapUp := match truthy d.wrapUp with
          | some t => [Elem.div (k.className ++ (py"_text")) (some t)]
          | none => []
        .ok (id :: intro ++ children ++ wrapUp)) := by
    cases k <;> first | exact absurd rfl hk | (rw [htmlNode]; rfl; exact hk)
  rw [e] at h
  clear e
  dsimp only at h
  obtain ⟨header, hh, h⟩ := resBind_ok h
  cases htx : truthy d.text with
  | some t =>
    rw [htx] at h
    dsimp only at h
    obtain ⟨text, hl, h'⟩ := resBind_ok h
    clear h
    simp only [Except.ok.injEq] at h'
    have hcs := ht (by rw [(truthy_some htx).1]; simp)
    subst hcs
    obtain ⟨k1, -, k3, k4⟩ := textWithRefLinks_ok hl
    refine ⟨header, [text], [], [], hh, by rw [htmlNodes], by rw [← h']; rfl, by rw [marksAll, k3]; rfl, rfl, by simp, ?_⟩
    rintro t' ⟨⟩
    rw [textOfAll_cons, k1, k4]
    exact ⟨by simp [textOfAll], rfl⟩
  | none =>
    rw [htx] at h
    dsimp only at h
    obtain ⟨intro, hi, h⟩ := resBind_ok h
    split at h
    · cases h
    · obtain ⟨kids, hkids, h⟩ := resBind_ok h
      simp only [Except.ok.injEq] at h
      have hintro : marksAll intro = [] ∧ textOfAll intro = d.intro.getD [] := by
        cases hti : truthy d.intro with
        | none =>
          rw [hti] at hi
          cases hi
          exact ⟨rfl, (truthy_none hti).symm⟩
        | some t =>
          rw [hti] at hi
          dsimp only at hi
          obtain ⟨text, hl, hi⟩ := resBind_ok hi
          cases hi
          obtain ⟨k1, -, k3, k4⟩ := textWithRefLinks_ok hl
          rw [marksAll, k3, textOfAll_cons, k1, k4, (truthy_some hti).1]
          exact ⟨rfl, by simp [textOfAll]⟩
      refine ⟨header, intro, kids, _, hh, hkids, h.symm, hintro.1, ?_, ?_, by simp⟩
      · cases truthy d.wrapUp with
        | none => rfl
        | some t =>
          dsimp only
          rw [marksAll, marks_div]
          rfl
      · intro _
        refine ⟨hintro.2, ?_⟩
        cases htw : truthy d.wrapUp with
        | none => exact (truthy_none htw).symm
        | some t =>
          rw [(truthy_some htw).1]
          simp [textOfAll, textOf, Elem.div]

theorem idDiv_marks (cls text : Str) (r : Reference) : marks (idDiv cls r text) =
    [(cls, if r.act = some (py"EXTERNAL") then [] else r.relativeIdString)] := by
  unfold idDiv
  simp only [marks, attrOf, marksAll, List.append_nil]
  rfl

theorem amendmentQuote_marks (c : Char) : marks (amendmentQuote c) = [] := by
  unfold amendmentQuote
  rw [marks_div]
  rfl

theorem htmlNodes_cons {cls : Str} {parent : Reference} {c : Node} {cs : List Node} {es : List Elem}
    (h : htmlNodes cls parent (c :: cs) = .ok es) :
    ∃ a b, htmlNode cls parent c = .ok a ∧ htmlNodes cls parent cs = .ok b ∧ es = a ++ b := by
  rw [htmlNodes] at h
  obtain ⟨a, ha, h⟩ := resBind_ok h
  obtain ⟨b, hb, h⟩ := resBind_ok h
  simp only [Except.ok.injEq] at h
  exact ⟨a, b, ha, hb, h.symm⟩

theorem relativeTo_act (r p : Reference) (h : r.act = none) : (r.relativeTo p).act = p.act := by
  unfold Reference.relativeTo
  rw [h]
  rfl

theorem currentRef_act (k : SaeKind) (d : SaeData) (p : Reference) : (currentRef k d p).act = p.act := by
  unfold currentRef
  refine relativeTo_act _ _ ?_
  cases k <;> rfl

theorem currentRef_eq {p r : Reference} {k : SaeKind} {d : SaeData} (hp : Clear (levelOf k) p)
    (hr : refOf p k d.identifier = some r) : currentRef k d p = r := by
  have h := relativeReference_sae (p := p) (k := k) d [] hp
  rw [hr] at h
  unfold currentRef
  cases hn : (Node.sae k d []).relativeReference with
  | none =>
    rw [hn] at h
    cases h
  | some rel =>
    rw [hn] at h
    simpa using h

/-- Nothing in an amendment has an id. -/
theorem external_marks (n : Node) : ∀ {cls : Str} {parent : Reference} {es : List Elem}, Built n →
    parent.act = some (py"EXTERNAL") → htmlNode cls parent n = .ok es → ∀ m ∈ marksAll es, m.2 = [] := by
  have list : ∀ cs : List Node, (∀ c ∈ cs, ∀ {cls : Str} {parent : Reference} {es : List Elem}, Built c →
      parent.act = some (py"EXTERNAL") → htmlNode cls parent c = .ok es → ∀ m ∈ marksAll es, m.2 = []) →
      ∀ {cls : Str} {parent : Reference} {es : List Elem}, (∀ c ∈ cs, Built c) → parent.act = some (py"EXTERNAL") →
      htmlNodes cls parent cs = .ok es → ∀ m ∈ marksAll es, m.2 = [] := by
    intro cs
    induction cs with
    | nil =>
      intro _ cls parent es _ _ h
      rw [htmlNodes] at h
      cases h
      simp [marksAll]
    | cons c cs ih =>
      intro hc cls parent es hb hp h m hm
      obtain ⟨a, b, ha, hb', rfl⟩ := htmlNodes_cons h
      rw [marksAll_append, List.mem_append] at hm
      rcases hm with hm | hm
      · exact hc c (by simp) (hb c (by simp)) hp ha m hm
      · exact ih (fun c h => hc c (by simp [h])) (fun c h => hb c (by simp [h])) hp hb' m hm
  induction n using Node.ind with
  | sae k d cs ih =>
    intro cls parent es hb hp h m hm
    obtain ⟨hbc, hw⟩ := built_sae hb
    by_cases hk : k = .blockAmendmentContainer
    · subst hk
      obtain ⟨kids, hkids, rfl⟩ := htmlNode_amendment h
      simp only [marksAll_append, marksAll, amendmentText_marks, amendmentQuote_marks, marks_div, List.nil_append,
        List.append_nil] at hm
      exact list cs ih hbc rfl hkids m hm
    · obtain ⟨header, pre, kids, post, -, hkids, rfl, h1, h2, -⟩ := htmlNode_sae hk (fun ht => (hw.1 ht).2.2) h
      simp only [marksAll_append, List.cons_append, marksAll, h1, h2, List.nil_append, List.append_nil, idDiv_marks,
        List.mem_cons, currentRef_act, hp, if_true] at hm
      rcases hm with rfl | hm
      · rfl
      · exact list cs ih hbc (by rw [currentRef_act, hp]) hkids m hm
  | article i t cs ih =>
    intro cls parent es hb hp h m hm
    obtain ⟨kids, hkids, rfl⟩ := htmlNode_article h
    have hact : (Reference.relativeTo { article := some (.one i) } parent).act = some (py"EXTERNAL") := by
      rw [relativeTo_act _ _ rfl, hp]
    simp only [marksAll_append, List.cons_append, marksAll, titleDiv_marks, marks_div, List.nil_append, List.append_nil, idDiv_marks,
      List.mem_cons, hact, if_true] at hm
    rcases hm with rfl | hm
    · rfl
    · exact list cs ih (built_article hb).1 hact hkids m hm
  | quoted l =>
    intro cls parent es _ _ h m hm
    rw [htmlNode] at h
    rw [htmlQuoted_marks h] at hm
    cases hm
  | structural e =>
    intro cls parent es _ _ h m hm
    rw [htmlNode] at h
    rw [htmlStructural_marks h] at hm
    cases hm

/-- The marks with an id that is not empty. -/
def shownMarks (es : List Elem) : List (Str × Str) := (marksAll es).filter fun m => m.2 ≠ []

theorem relativeIdString_ne (r : Reference) : r.relativeIdString ≠ [] := by
  unfold Reference.relativeIdString
  dsimp only
  rw [replaceAll_char, replaceAll_char]
  cases idPart r.article with
  | nil => simp [joinWith]
  | cons c cs =>
    simp only [joinWith, List.cons_append, List.flatMap_cons]
    by_cases h : c = '/'
    · rw [if_pos h]
      simp
    · rw [if_neg h]
      simp

theorem className_eq (k : SaeKind) : k.className = kindName k := by
  cases k <;> rfl

/-- The mark of an element. -/
def markOf (x : Reference × Node) : Str × Str := (markClass x.2, x.1.relativeIdString)

theorem shownMarks_append (a b : List Elem) : shownMarks (a ++ b) = shownMarks a ++ shownMarks b := by
  simp [shownMarks, marksAll_append]

/-- The marks of an element that is not in an amendment. -/
theorem sae_marks (n : Node) : ∀ {cls : Str} {parent : Reference} {es : List Elem}, Built n →
    parent.act = none → n.isArticle = false → (∀ k d cs, n = .sae k d cs → Clear (levelOf k) parent) →
    htmlNode cls parent n = .ok es → shownMarks es = (preorder parent n).map markOf := by
  have list : ∀ cs : List Node, (∀ c ∈ cs, ∀ {cls : Str} {parent : Reference} {es : List Elem}, Built c →
      parent.act = none → c.isArticle = false → (∀ k d cs, c = .sae k d cs → Clear (levelOf k) parent) →
      htmlNode cls parent c = .ok es → shownMarks es = (preorder parent c).map markOf) →
      ∀ {cls : Str} {parent : Reference} {es : List Elem}, (∀ c ∈ cs, Built c) → parent.act = none →
      (∀ c ∈ cs, c.isArticle = false) → (∀ k d ds, .sae k d ds ∈ cs → Clear (levelOf k) parent) →
      htmlNodes cls parent cs = .ok es → shownMarks es = (preorderL parent cs).map markOf := by
    intro cs
    induction cs with
    | nil =>
      intro _ cls parent es _ _ _ _ h
      rw [htmlNodes] at h
      cases h
      rfl
    | cons c cs ih =>
      intro hc cls parent es hb hp hna hcl h
      obtain ⟨a, b, ha, hb', rfl⟩ := htmlNodes_cons h
      rw [shownMarks_append, preorderL, List.map_append,
        hc c (by simp) (hb c (by simp)) hp (hna c (by simp)) (fun k d ds e => hcl k d ds (by simp [e])) ha,
        ih (fun c h => hc c (by simp [h])) (fun c h => hb c (by simp [h])) hp (fun c h => hna c (by simp [h]))
          (fun k d ds e => hcl k d ds (by simp [e])) hb']
  induction n using Node.ind with
  | sae k d cs ih =>
    intro cls parent es hb hp _ hcl h
    obtain ⟨hbc, hw⟩ := built_sae hb
    have hcl' := hcl k d cs rfl
    by_cases hk : k = .blockAmendmentContainer
    · subst hk
      obtain ⟨kids, hkids, rfl⟩ := htmlNode_amendment h
      have : ∀ m ∈ marksAll kids, m.2 = [] := by
        have hh : ∀ (cs : List Node) {kids : List Elem}, (∀ c ∈ cs, Built c) →
            htmlNodes (py"blockamendmentcontainer") { act := some (py"EXTERNAL") } cs = .ok kids → ∀ m ∈ marksAll kids, m.2 = [] := by
          intro cs
          induction cs with
          | nil =>
            intro kids _ h
            rw [htmlNodes] at h
            cases h
            simp [marksAll]
          | cons c cs ih =>
            intro kids hb h m hm
            obtain ⟨a, b, ha, hb', rfl⟩ := htmlNodes_cons h
            rw [marksAll_append, List.mem_append] at hm
            rcases hm with hm | hm
            · exact external_marks c (hb c (by simp)) rfl ha m hm
            · exact ih (fun c h => hb c (by simp [h])) hb' m hm
        exact hh cs hbc hkids
      simp only [preorder, refOf, List.map_nil]
      simp only [shownMarks, marksAll_append, marksAll, amendmentText_marks, amendmentQuote_marks, marks_div, List.nil_append,
        List.append_nil, List.filter_eq_nil_iff]
      intro m hm
      simp [this m hm]
    · obtain ⟨header, pre, kids, post, -, hkids, rfl, h1, h2, -⟩ := htmlNode_sae hk (fun ht => (hw.1 ht).2.2) h
      obtain ⟨r, hr⟩ : ∃ r, refOf parent k d.identifier = some r := by
        cases k <;> first | exact absurd rfl hk | exact ⟨_, rfl⟩
      have hcur := currentRef_eq hcl' hr
      rw [hcur] at hkids ⊢
      have hract : r.act = none := by
        rw [← hcur, currentRef_act, hp]
      have hkidsm := list cs ih hbc hract (fun c hc => by
          have := hw.2.1 c hc
          cases c with
          | article => cases k <;> first | exact absurd rfl hk | cases this
          | _ => rfl)
        (fun l e es hc => (refOf_clear hr hcl').mono (level_child hb hr hc)) hkids
      simp only [preorder, hr, List.map_cons, ← hkidsm]
      simp only [shownMarks, marksAll_append, List.cons_append, marksAll, h1, h2, List.nil_append, List.append_nil, idDiv_marks,
        hract]
      rw [List.filter_cons, if_pos]
      · rw [markOf, markClass, ← className_eq]
        rfl
      · simp [relativeIdString_ne]
  | article i t cs ih =>
    intro _ _ _ _ _ h
    cases h
  | quoted l =>
    intro cls parent es _ _ _ _ h
    rw [htmlNode] at h
    simp [shownMarks, htmlQuoted_marks h, preorder]
  | structural e =>
    intro cls parent es _ _ _ _ h
    rw [htmlNode] at h
    simp [shownMarks, htmlStructural_marks h, preorder]

mutual
theorem indentElem_marks (level : Nat) : ∀ e : Elem, marks (indentElem level e) = marks e
  | .mk g a x [] t => by rw [indentElem]; rfl
  | .mk g a x (c :: cs) t => by
    rw [indentElem, marks, setLastTail_marks, indentElems_marks, marks]
    rfl

theorem indentElems_marks (level : Nat) : ∀ es : List Elem, marksAll (indentElems level es) = marksAll es
  | [] => rfl
  | e :: es => by rw [indentElems, marksAll, indentElem_marks level e, indentElems_marks level es, marksAll]

theorem setLastTail_marks (indent : Str) : ∀ es : List Elem, marksAll (setLastTail indent es) = marksAll es
  | [] => rfl
  | [.mk g a x cs t] => by
    rw [setLastTail]
    split <;> rfl
  | c :: d :: cs => by rw [setLastTail, marksAll, setLastTail_marks indent (d :: cs)]; rfl
end

/-- The reference to the same place in another act. -/
def withAct (act : Option Str) (x : Reference × Node) : Reference × Node := ({ x.1 with act := act }, x.2)

theorem flatMap_same {α β : Type} {f g : α → List β} : ∀ {l : List α}, (∀ x ∈ l, f x = g x) → l.flatMap f = l.flatMap g
  | [], _ => rfl
  | x :: xs, h => by
    rw [List.flatMap_cons, List.flatMap_cons, h x (by simp), flatMap_same fun y hy => h y (by simp [hy])]

theorem preorder_act (act : Option Str) (n : Node) : ∀ p : Reference,
    preorder { p with act := act } n = (preorder p n).map (withAct act) := by
  induction n using Node.ind with
  | sae k d cs ih =>
    intro p
    have list : ∀ (r : Reference), preorderL { r with act := act } cs = (preorderL r cs).map (withAct act) := by
      intro r
      rw [preorderL_flatMap, preorderL_flatMap, List.map_flatMap]
      exact flatMap_same fun c hc => ih c hc r
    have hr : refOf { p with act := act } k d.identifier = (refOf p k d.identifier).map fun r => { r with act := act } := by
      cases k <;> rfl
    rw [preorder, preorder, hr]
    cases refOf p k d.identifier with
    | none => rfl
    | some r => simp only [Option.map_some, List.map_cons, list, withAct]
  | article => intro p; rfl
  | quoted => intro p; rfl
  | structural => intro p; rfl

theorem preorderL_act (act : Option Str) (cs : List Node) (p : Reference) :
    preorderL { p with act := act } cs = (preorderL p cs).map (withAct act) := by
  rw [preorderL_flatMap, preorderL_flatMap, List.map_flatMap]
  exact flatMap_same fun c _ => preorder_act act c p

theorem markOf_withAct (act : Option Str) (x : Reference × Node) : markOf (withAct act x) = markOf x := rfl

theorem pageHead_marks (act : Act) : marksAll (pageHead act) = [] := by
  unfold pageHead
  split
  · rw [marksAll, marks_div]
    simp only [marksAll, marks_plain, List.append_nil]
  · simp only [marksAll, marks_div, marks_plain, List.append_nil]

/-- The elements of a child of an act. -/
def childElements (a : Act) (c : Node) : List (Reference × Node) :=
  match c with
  | .article i t cs => (articleRef a i, .article i t cs) :: preorderL (articleRef a i) cs
  | _ => []

theorem pageElements_eq (a : Act) : pageElements a = a.children.flatMap (childElements a) := rfl

/-- The marks of the articles and structural elements of an act. -/
theorem actChildren_marks (a : Act) : ∀ (cs : List Node) {es : List Elem}, (∀ c ∈ cs, Built c) → (∀ c ∈ cs, c.isSae = false) →
    htmlNodes (py"act") {} cs = .ok es → shownMarks es = (cs.flatMap (childElements a)).map markOf
  | [], es, _, _, h => by
    rw [htmlNodes] at h
    cases h
    rfl
  | c :: cs, es, hb, hs, h => by
    obtain ⟨x, y, hx, hy, rfl⟩ := htmlNodes_cons h
    rw [shownMarks_append, List.flatMap_cons, List.map_append,
      actChildren_marks a cs (fun c h => hb c (by simp [h])) (fun c h => hs c (by simp [h])) hy]
    congr 1
    have hbc := hb c (by simp)
    cases c with
    | sae k d ds => exact absurd (hs (.sae k d ds) (by simp)) (by simp [Node.isSae])
    | quoted l =>
      rw [htmlNode] at hx
      simp [shownMarks, htmlQuoted_marks hx, childElements]
    | structural e =>
      rw [htmlNode] at hx
      simp [shownMarks, htmlStructural_marks hx, childElements]
    | article i t ds =>
      obtain ⟨kids, hkids, rfl⟩ := htmlNode_article hx
      have hpar : Reference.relativeTo { article := some (.one i) } {} = { articleRef a i with act := none } := rfl
      rw [hpar] at hkids ⊢
      obtain ⟨hbd, hty, -⟩ := built_article hbc
      have hk : shownMarks kids = (preorderL (articleRef a i) ds).map markOf := by
        have : ∀ (ds : List Node) {kids : List Elem}, (∀ c ∈ ds, Built c) → (∀ c ∈ ds, c.type = .sae .paragraph) →
            htmlNodes (py"article") { articleRef a i with act := none } ds = .ok kids →
            shownMarks kids = (preorderL { articleRef a i with act := none } ds).map markOf := by
          intro ds
          induction ds with
          | nil =>
            intro kids _ _ h
            rw [htmlNodes] at h
            cases h
            rfl
          | cons d ds ih =>
            intro kids hb ht h
            obtain ⟨u, v, hu, hv, rfl⟩ := htmlNodes_cons h
            rw [shownMarks_append, preorderL, List.map_append, ih (fun c h => hb c (by simp [h])) (fun c h => ht c (by simp [h])) hv]
            congr 1
            obtain ⟨dd, es, rfl⟩ := type_paragraph (ht d (by simp))
            refine sae_marks _ (hb _ (by simp)) rfl rfl ?_ hu
            rintro k d' cs ⟨⟩
            exact ⟨fun _ => rfl, fun _ => rfl, fun _ => rfl⟩
        rw [this ds hbd hty hkids, preorderL_act, List.map_map]
        rfl
      simp only [childElements, List.map_cons, ← hk]
      simp only [shownMarks, marksAll_append, List.cons_append, marksAll, titleDiv_marks, marks_div, List.nil_append,
        List.append_nil, idDiv_marks]
      rw [List.filter_cons, if_pos]
      · rfl
      · simp [relativeIdString_ne]

/-- The marks of a page. -/
theorem page_marks {a : Act} {indent : Bool} {page : Elem} (hb : ∀ c ∈ a.children, Built c) (hs : ∀ c ∈ a.children, c.isSae = false)
    (h : htmlBody a indent = .ok page) : idMarks page = (pageElements a).map markOf := by
  unfold htmlBody at h
  obtain ⟨es, he, h⟩ := resBind_ok h
  simp only [Except.ok.injEq] at h
  have hm : marks page = marksAll es := by
    subst h
    have : marks (Elem.div (py"act_container") none (pageHead a ++ es)) = marksAll es := by
      rw [marks_div, marksAll_append, pageHead_marks, List.nil_append]
    cases indent
    · exact this
    · simp only [if_true, indentElem_marks, this]
  rw [idMarks, hm]
  exact actChildren_marks a a.children hb hs he

/-! ## Distinct references -/

/-- The component of a reference at a level. -/
def compAt (level : Nat) (r : Reference) : Option Ident :=
  match level with
  | 2 => r.paragraph
  | 3 => r.point
  | 4 => r.subpoint
  | _ => none

theorem compAt_agree {k : SaeKind} {r s : Reference} (h : Agree (levelOf k + 1) r s) : compAt (levelOf k) s = compAt (levelOf k) r := by
  obtain ⟨-, -, h1, h2, h3⟩ := h
  cases k <;> simp only [levelOf, compAt]
  all_goals first | exact h1 (by decide) | exact h2 (by decide) | exact h3 (by decide)

theorem compAt_refOf {p r : Reference} {k : SaeKind} {i : Option Str} (h : refOf p k i = some r) :
    compAt (levelOf k) r = i.map .one := by
  cases k <;> simp [refOf] at h <;> subst h <;> rfl

theorem compAt_clear {k : Nat} {l : SaeKind} {r : Reference} (h : Clear k r) (hl : k ≤ levelOf l) : compAt (levelOf l) r = none := by
  obtain ⟨h1, h2, h3⟩ := h
  cases l <;> simp only [levelOf, compAt] at *
  all_goals first | exact h1 (by omega) | exact h2 (by omega) | exact h3 (by omega)

/-- The references of a list of siblings with numbers are different, if those below each are. -/
theorem siblings_nodup {p : Reference} {cs : List Node} (hb : ∀ c ∈ cs, Built c) (hd : DistinctSiblings cs)
    (ht : ∀ c ∈ cs, ∀ e ∈ cs, c.type = e.type) (hn : ∀ x ∈ preorderL p cs, x.2 ∈ cs → x.2.identifier ≠ none)
    (hc : ∀ c ∈ cs, ((preorder p c).map (·.1)).Nodup) : ((preorderL p cs).map (·.1)).Nodup := by
  rw [preorderL_flatMap, List.map_flatMap, List.nodup_iff_pairwise_ne, List.pairwise_flatMap]
  refine ⟨fun c h => hc c h, ?_⟩
  unfold DistinctSiblings at hd
  rw [List.nodup_iff_pairwise_ne, List.pairwise_filterMap] at hd
  refine hd.imp_of_mem ?_
  intro c e hcc hce hne x hx y hy
  obtain ⟨x', hx', rfl⟩ := List.mem_map.mp hx
  obtain ⟨y', hy', rfl⟩ := List.mem_map.mp hy
  have hty := ht c hcc e hce
  cases c with
  | article => simp [preorder] at hx'
  | quoted => simp [preorder] at hx'
  | structural => simp [preorder] at hx'
  | sae k d ds => cases e with
    | article => cases hty
    | quoted => cases hty
    | structural => cases hty
    | sae l f fs =>
      cases hty
      have first : ∀ (d : SaeData) (ds : List Node) (z : Reference × Node), Node.sae k d ds ∈ cs → z ∈ preorder p (.sae k d ds) →
          ∃ i, d.identifier = some i ∧ compAt (levelOf k) z.1 = some (.one i) := by
        intro d ds z hmem hz
        cases hr : refOf p k d.identifier with
        | none =>
          rw [preorder, hr] at hz
          cases hz
        | some r =>
          have hid : d.identifier ≠ none := by
            refine hn (r, .sae k d ds) (mem_preorderL.mpr ⟨_, hmem, ?_⟩) hmem
            rw [preorder, hr]
            exact List.mem_cons_self
          obtain ⟨i, hi⟩ := Option.ne_none_iff_exists'.mp hid
          refine ⟨i, hi, ?_⟩
          rw [compAt_agree (preorder_agree _ k d ds p r rfl (hb _ hmem) hr z hz), compAt_refOf hr, hi]
          rfl
      obtain ⟨i, hi, h1⟩ := first d ds x' hcc hx'
      obtain ⟨j, hj, h2⟩ := first f fs y' hce hy'
      intro heq
      rw [heq, h2] at h1
      simp only [Option.some.injEq, Ident.one.injEq] at h1
      exact hne i hi j hj h1.symm

/-- The references of an element and of what is below it are different. -/
theorem preorder_nodup (n : Node) : ∀ (p : Reference), Built n → (∀ k d cs, n = .sae k d cs → Clear (levelOf k) p) →
    (∀ m, Own m n → DistinctSiblings m.children) →
    (∀ x ∈ preorder p n, x.2.type = .sae .paragraph ∨ x.2.identifier ≠ none) → ((preorder p n).map (·.1)).Nodup := by
  induction n using Node.ind with
  | sae k d cs ih =>
    intro p hb hcl hd hn
    rw [preorder]
    rw [preorder] at hn
    cases hr : refOf p k d.identifier with
    | none => exact .nil
    | some r =>
      rw [hr] at hn
      dsimp only at hn ⊢
      obtain ⟨hbc, hw⟩ := built_sae hb
      have hk : k ≠ .blockAmendmentContainer := by
        rintro rfl
        cases hr
      have hclr := refOf_clear hr (hcl k d cs rfl)
      have hnotpar : ∀ x ∈ preorderL r cs, x.2 ∈ cs → x.2.identifier ≠ none := by
        intro x hx hmem
        rcases hn x (by simp [hx]) with h | h
        · have := hw.2.1 _ hmem
          rw [h] at this
          cases this
          exact absurd rfl hk
        · exact h
      rw [List.map_cons, List.nodup_cons]
      refine ⟨?_, ?_⟩
      · intro hmem
        obtain ⟨x, hx, hxr⟩ := List.mem_map.mp hmem
        dsimp only at hxr
        obtain ⟨c, hc, hxc⟩ := mem_preorderL.mp hx
        cases c with
        | article => simp [preorder] at hxc
        | quoted => simp [preorder] at hxc
        | structural => simp [preorder] at hxc
        | sae l e es =>
          cases hr' : refOf r l e.identifier with
          | none =>
            rw [preorder, hr'] at hxc
            cases hxc
          | some s =>
            have h1 := compAt_agree (preorder_agree _ l e es r s rfl (hbc _ hc) hr' x hxc)
            rw [compAt_refOf hr', hxr, compAt_clear hclr (level_child hb hr hc)] at h1
            have : e.identifier ≠ none := by
              refine hnotpar (s, .sae l e es) (mem_preorderL.mpr ⟨_, hc, ?_⟩) hc
              rw [preorder, hr']
              exact List.mem_cons_self
            cases he : e.identifier with
            | none => exact this he
            | some i =>
              rw [he] at h1
              cases h1
      · refine siblings_nodup hbc (hd _ (.self _)) (hw.2.2 hk) hnotpar ?_
        intro c hc
        by_cases hty : c.type = .sae .blockAmendmentContainer
        · cases c with
          | sae l e es => cases hty; exact .nil
          | _ => cases hty
        refine ih c hc r (hbc c hc) ?_ (fun m hm => hd m (.deeper hc hty hm)) (fun x hx => hn x ?_)
        · rintro l e es rfl
          exact hclr.mono (level_child hb hr hc)
        · exact List.mem_cons_of_mem _ (mem_preorderL.mpr ⟨c, hc, hx⟩)
  | article => intros; exact .nil
  | quoted => intros; exact .nil
  | structural => intros; exact .nil

/-! ## The text of a page -/

theorem Spec.Shows.more {ts : List Str} {s : Str} (h : Shows ts s) (a b : Str) : Shows ts (a ++ s ++ b) := by
  induction h generalizing a b with
  | nil => exact .nil _
  | @cons t ts b' a' h ih =>
    have := ih [] b
    have e : a ++ (a' ++ t ++ b') ++ b = (a ++ a') ++ t ++ ([] ++ b' ++ b) := by simp
    rw [e]
    exact .cons _ this

theorem Spec.Shows.append {ts us : List Str} {s u : Str} (h : Shows ts s) (h' : Shows us u) : Shows (ts ++ us) (s ++ u) := by
  induction h with
  | nil s =>
    have := h'.more s []
    simpa using this
  | @cons t ts b a h ih =>
    rw [List.cons_append, List.append_assoc (a ++ t)]
    exact .cons a ih

theorem Spec.Shows.one (a t b : Str) : Shows [t] (a ++ t ++ b) := .cons a (.nil b)

theorem Spec.Shows.self (t : Str) : Shows [t] t := by simpa using Shows.one [] t []

theorem Spec.Shows.noSpaces {ts : List Str} {s : Str} (h : Shows ts s) : Shows (ts.map Spec.noSpaces) (Spec.noSpaces s) := by
  induction h with
  | nil => exact .nil _
  | @cons t ts b a h ih =>
    have e : Spec.noSpaces (a ++ t ++ b) = Spec.noSpaces a ++ Spec.noSpaces t ++ Spec.noSpaces b := by simp [Spec.noSpaces]
    rw [List.map_cons, e]
    exact .cons _ ih

theorem textOf_div (cls : Str) (t : Option Str) (cs : List Elem) : textOf (.div cls t cs) = t.getD [] ++ textOfAll cs := rfl

theorem tail_div (cls : Str) (t : Option Str) (cs : List Elem) : (Elem.div cls t cs).tail = none := rfl

theorem quotedDivs_text (offset : Rat) : ∀ (lines : List Line) (first : Bool),
    Shows (lines.map Line.content) (textOfAll (quotedDivs offset first lines))
  | [], _ => .nil _
  | l :: ls, first => by
    unfold quotedDivs
    dsimp only
    rw [List.map_cons, textOfAll_cons]
    refine Shows.append (ts := [l.content]) ?_ (quotedDivs_text offset ls false)
    simp only [textOf, textOfAll, List.append_nil, Option.getD_some, Elem.tail, Option.getD_none]
    have h1 : Shows [l.content] (if first then '„' :: l.content else l.content) := by
      split
      · simpa using Shows.one ['„'] l.content []
      · exact .self _
    have h2 : Shows [l.content] (if ls.isEmpty then (if first then '„' :: l.content else l.content) ++ ['”']
        else if first then '„' :: l.content else l.content) := by
      split
      · have := h1.more [] ['”']
        simpa using this
      · exact h1
    generalize (if ls.isEmpty then (if first then '„' :: l.content else l.content) ++ ['”']
        else if first then '„' :: l.content else l.content) = x at h2
    split
    · rename_i he
      have := List.isEmpty_iff.mp he
      subst this
      simpa using h2.more [] [Char.ofNat 0xA0]
    · exact h2

theorem htmlQuoted_text {lines : List Line} {cls : Str} {es : List Elem} (h : htmlQuoted lines cls = .ok es) :
    Shows (lines.map Line.content) (textOfAll es) := by
  unfold htmlQuoted at h
  obtain ⟨offset, -, h⟩ := resBind_ok h
  simp only [Except.ok.injEq] at h
  subst h
  simpa [textOfAll, textOf] using quotedDivs_text offset lines true

theorem htmlStructural_text {e : StructuralElement} {es : List Elem} (h : htmlStructural e = .ok es) :
    Shows (texts (.structural e)) (textOfAll es) := by
  unfold htmlStructural at h
  obtain ⟨i, hi, h⟩ := resBind_ok h
  have ht : texts (.structural e) = [i] ++ [e.title] := by
    rw [texts, hi]
    rfl
  rw [ht]
  dsimp only at h
  split at h
  · simp only [Except.ok.injEq] at h
    subst h
    have : Shows ([i] ++ [e.title]) (i ++ (' ' :: e.title)) := (Shows.self i).append (by simpa using Shows.one [' '] e.title [])
    simpa [textOfAll_cons, textOfAll, textOf_div, tail_div] using this
  · simp only [Except.ok.injEq] at h
    subst h
    have : Shows ([i] ++ [e.title]) (i ++ e.title) := (Shows.self i).append (.self _)
    simpa [textOfAll_cons, textOfAll, Elem.div, textOf, Elem.tail] using this

theorem headerPrefix_shows {k : SaeKind} {i : Option Str} {header : Str} (h : k.headerPrefix i = .ok header) :
    Shows [i.getD []] header := by
  cases i with
  | none =>
    have : header = [] ++ [] ++ header := by simp
    rw [this]
    exact .one [] [] header
  | some i =>
    cases k <;> simp only [SaeKind.headerPrefix, Except.ok.injEq, Option.getD_some] at h ⊢
    all_goals first | cases h; done | subst h
    · simpa using Shows.one [] i (py") ")
    · simpa using Shows.one [] i (py". ")
    · simpa using Shows.one [] i (py". ")
    · simpa using Shows.one [] i (py") ")
    · simpa using Shows.one (py"(") i (py") ")

theorem Spec.Shows.empty : Shows [[]] [] := .one [] [] []

theorem truthy_shows {s : Option Str} {f : Str → List Elem} (hf : ∀ t, Shows [t] (textOfAll (f t))) :
    Shows [s.getD []] (textOfAll (match truthy s with
      | some t => f t
      | none => [])) := by
  cases h : truthy s with
  | none =>
    rw [truthy_none h]
    exact .empty
  | some t =>
    rw [(truthy_some h).1]
    exact hf t

theorem amendmentText_shows (s : Option Str) : Shows [s.getD []] (textOfAll (amendmentText s)) := by
  refine truthy_shows fun t => ?_
  have := Shows.one ['('] t [')']
  simpa [textOfAll_cons, textOfAll, textOf_div, tail_div] using this

theorem titleDiv_shows (s : Option Str) : Shows [s.getD []] (textOfAll (titleDiv s)) := by
  refine truthy_shows fun t => ?_
  have := Shows.one ['['] t [']']
  simpa [textOfAll_cons, textOfAll, textOf_div, tail_div] using this

theorem idDiv_text (cls text : Str) (r : Reference) : textOf (idDiv cls r text) = text ∧ (idDiv cls r text).tail = none := by
  simp [idDiv, textOf, textOfAll, Elem.tail]

/-- The texts of an object are shown. -/
theorem htmlNode_text (n : Node) : ∀ {cls : Str} {parent : Reference} {es : List Elem}, Built n →
    htmlNode cls parent n = .ok es → Shows (texts n) (textOfAll es) := by
  have list : ∀ cs : List Node, (∀ c ∈ cs, ∀ {cls : Str} {parent : Reference} {es : List Elem}, Built c →
      htmlNode cls parent c = .ok es → Shows (texts c) (textOfAll es)) →
      ∀ {cls : Str} {parent : Reference} {es : List Elem}, (∀ c ∈ cs, Built c) →
      htmlNodes cls parent cs = .ok es → Shows (textsAll cs) (textOfAll es) := by
    intro cs
    induction cs with
    | nil =>
      intro _ cls parent es _ h
      rw [htmlNodes] at h
      cases h
      exact .nil _
    | cons c cs ih =>
      intro hc cls parent es hb h
      obtain ⟨a, b, ha, hb', rfl⟩ := htmlNodes_cons h
      rw [textsAll, textOfAll_append]
      exact (hc c (by simp) (hb c (by simp)) ha).append (ih (fun c h => hc c (by simp [h])) (fun c h => hb c (by simp [h])) hb')
  induction n using Node.ind with
  | sae k d cs ih =>
    intro cls parent es hb h
    obtain ⟨hbc, hw⟩ := built_sae hb
    by_cases hk : k = .blockAmendmentContainer
    · subst hk
      have htext : d.text = none := by
        cases ht : d.text with
        | none => rfl
        | some t =>
          have := (hw.1 (by rw [ht]; simp)).2.2
          subst this
          rw [htmlNode] at h
          cases h
      obtain ⟨kids, hkids, rfl⟩ := htmlNode_amendment h
      have hk := list cs ih hbc hkids
      rw [texts, if_pos rfl, htext, List.nil_append]
      have h1 := (Shows.empty.append (amendmentText_shows d.intro)).append
        ((hk.more ['„'] ['”']).append (amendmentText_shows d.wrapUp))
      simpa [textOfAll_append, textOfAll_cons, textOf_div, tail_div, amendmentQuote, textOfAll] using h1
    · obtain ⟨header, pre, kids, post, hh, hkids, rfl, -, -, h1, h2⟩ := htmlNode_sae hk (fun ht => (hw.1 ht).2.2) h
      have hkid := list cs ih hbc hkids
      rw [texts, if_neg hk]
      simp only [List.cons_append, textOfAll_cons, textOfAll_append, idDiv_text, Option.getD_none, List.append_nil]
      have hpre : Shows [d.text.getD [], d.intro.getD []] (textOfAll pre) ∧ Shows [d.wrapUp.getD []] (textOfAll post) := by
        cases ht : truthy d.text with
        | none =>
          obtain ⟨e1, e2⟩ := h1 ht
          rw [e1, e2, truthy_none ht]
          exact ⟨Shows.empty.append (.self _), .self _⟩
        | some t =>
          obtain ⟨e1, e2⟩ := h2 t ht
          have := (truthy_some ht).1
          obtain ⟨w1, w2, -⟩ := hw.1 (by rw [this]; simp)
          rw [e1, e2, this, w1, w2]
          refine ⟨?_, .empty⟩
          have := (Shows.self t).append Shows.empty
          simpa using this
      have := (headerPrefix_shows hh).append ((hpre.1.append hkid).append hpre.2)
      simpa using this
  | article i t cs ih =>
    intro cls parent es hb h
    obtain ⟨kids, hkids, rfl⟩ := htmlNode_article h
    have hkid := list cs ih (built_article hb).1 hkids
    rw [texts]
    have := ((Shows.one [] i (py". §")).append (titleDiv_shows t)).append hkid
    simpa [textOfAll_cons, textOfAll_append, idDiv_text, textOfAll, textOf_div, tail_div] using this
  | quoted l =>
    intro cls parent es _ h
    rw [htmlNode] at h
    exact htmlQuoted_text h
  | structural e =>
    intro cls parent es _ h
    rw [htmlNode] at h
    exact htmlStructural_text h

theorem htmlNodes_text : ∀ (cs : List Node) {cls : Str} {parent : Reference} {es : List Elem}, (∀ c ∈ cs, Built c) →
    htmlNodes cls parent cs = .ok es → Shows (textsAll cs) (textOfAll es)
  | [], _, _, _, _, h => by
    rw [htmlNodes] at h
    cases h
    exact .nil _
  | c :: cs, cls, parent, es, hb, h => by
    obtain ⟨a, b, ha, hb', rfl⟩ := htmlNodes_cons h
    rw [textsAll, textOfAll_append]
    exact (htmlNode_text c (hb c (by simp)) ha).append (htmlNodes_text cs (fun c h => hb c (by simp [h])) hb')

theorem noSpaces_append (a b : Str) : noSpaces (a ++ b) = noSpaces a ++ noSpaces b := by simp [noSpaces]

theorem noSpaces_blank {t : Option Str} (h : isBlank t = true) : noSpaces (t.getD []) = [] := by
  unfold isBlank at h
  unfold noSpaces
  rw [List.filter_eq_nil_iff]
  intro c hc
  have := List.all_eq_true.mp h c hc
  simp [this]

theorem noSpaces_indent (level : Nat) : noSpaces (indentText level) = [] := by
  unfold noSpaces indentText
  rw [List.filter_eq_nil_iff]
  intro c hc
  rcases List.mem_cons.mp hc with rfl | hc
  · decide
  · rw [(List.mem_replicate.mp hc).2]
    decide

theorem indentElem_tail (level : Nat) (e : Elem) : noSpaces ((indentElem level e).tail.getD []) = noSpaces (e.tail.getD []) := by
  obtain ⟨g, a, x, cs, t⟩ := e
  cases cs with
  | nil =>
    rw [indentElem]
    simp only [Elem.tail]
    split
    · rename_i h
      simp only [Bool.and_eq_true] at h
      rw [noSpaces_blank h.2]
      exact noSpaces_indent level
    · rfl
  | cons c cs =>
    rw [indentElem]
    simp only [Elem.tail]
    split
    · rename_i h
      rw [noSpaces_blank h]
      exact noSpaces_indent level
    · rfl

theorem setLastTail_text {indent : Str} (hi : noSpaces indent = []) : ∀ es : List Elem,
    noSpaces (textOfAll (setLastTail indent es)) = noSpaces (textOfAll es)
  | [] => rfl
  | [.mk g a x cs t] => by
    rw [setLastTail]
    split
    · rename_i h
      simp only [Elem.setTail, textOfAll_cons, Elem.tail, noSpaces_append, textOf]
      have ht : noSpaces (t.getD []) = [] := noSpaces_blank h
      rw [ht, Option.getD_some, hi]
    · rfl
  | c :: d :: cs => by
    rw [setLastTail, textOfAll_cons, noSpaces_append, setLastTail_text hi (d :: cs), ← noSpaces_append, ← textOfAll_cons]

mutual
/-- Indentation changes spaces only. -/
theorem indentElem_text (level : Nat) : ∀ e : Elem, noSpaces (textOf (indentElem level e)) = noSpaces (textOf e)
  | .mk g a x [] t => by rw [indentElem]; rfl
  | .mk g a x (c :: cs) t => by
    rw [indentElem, textOf, noSpaces_append, setLastTail_text (noSpaces_indent level), indentElems_text, textOf, noSpaces_append]
    congr 1
    split
    · rename_i h
      rw [noSpaces_blank h, Option.getD_some, noSpaces_append, noSpaces_indent]
      decide
    · rfl

theorem indentElems_text (level : Nat) : ∀ es : List Elem, noSpaces (textOfAll (indentElems level es)) = noSpaces (textOfAll es)
  | [] => rfl
  | e :: es => by
    rw [indentElems, textOfAll_cons, textOfAll_cons, noSpaces_append, noSpaces_append, indentElem_text level e, indentElem_tail,
      indentElems_text level es, noSpaces_append, noSpaces_append]
end

/-- The page without indentation. -/
theorem htmlBody_indent {a : Act} {page : Elem} (h : htmlBody a true = .ok page) :
    ∃ plain, htmlBody a false = .ok plain ∧ page = indentElem 0 plain := by
  unfold htmlBody at h
  obtain ⟨es, he, h⟩ := resBind_ok h
  simp only [Except.ok.injEq] at h
  refine ⟨_, ?_, h.symm⟩
  unfold htmlBody
  rw [he]
  rfl

theorem pageHead_text (a : Act) : Shows [a.identifier, a.subject, a.preamble] (textOfAll (pageHead a)) := by
  unfold pageHead
  have h1 := (Shows.self a.identifier).append (Shows.self a.subject)
  split
  · rename_i h
    rw [List.isEmpty_iff.mp h]
    have := h1.append Shows.empty
    simpa [textOfAll_cons, textOfAll, Elem.div, textOf, Elem.tail] using this
  · have := h1.append (Shows.self a.preamble)
    simpa [textOfAll_cons, textOfAll, Elem.div, textOf, Elem.tail] using this

theorem htmlBody_text {a : Act} {page : Elem} (hb : ∀ c ∈ a.children, Built c) (h : htmlBody a false = .ok page) :
    Shows (actTexts a) (textOf page) := by
  unfold htmlBody at h
  obtain ⟨es, he, h⟩ := resBind_ok h
  simp only [Except.ok.injEq] at h
  subst h
  simp only [Bool.false_eq_true, if_false, textOf_div, Option.getD_none, List.nil_append, textOfAll_append]
  exact (pageHead_text a).append (htmlNodes_text a.children hb he)

end Verif
