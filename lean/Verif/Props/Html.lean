import Verif.Proofs.Html
import Verif.Props.References
import Verif.Props.Structure

/-! # HTML output (C48, C49, C52, C53) -/

namespace Verif.Props

open Reference

/-! ## C48: links in texts -/

/-- C48. The text with the links shows the text, every character in order. -/
theorem links_keep_text {cls text : Str} {current : Reference} {references : List OutgoingReference} {e : Elem}
    (h : textWithRefLinks cls text current references = .ok e) : Spec.textOf e = text := (textWithRefLinks_ok h).1

/-- C48. The links are the references: each begins at the position of its reference, shows what the text has between its start and
its end, and leads where the reference does, read at the place of the text. -/
theorem links_are_references {cls text : Str} {current : Reference} {references : List OutgoingReference} {e : Elem}
    (h : textWithRefLinks cls text current references = .ok e) :
    (Spec.linksIn e).Perm (references.map fun o => (min o.startPos.toNat text.length,
      some (hrefForRef (o.reference.relativeTo current)), Spec.between text o.startPos o.endPos)) :=
  (textWithRefLinks_ok h).2.1

theorem apart_iff (cls text : Str) (current : Reference) (references : List OutgoingReference) :
    (∃ e, textWithRefLinks cls text current references = .ok e) ↔ Spec.Apart references := by
  rw [← apartLinks_of current, ← apartLinks_perm (sortLinks_perm _), ← linkLoop_iff text _ (sortLinks_sorted _)]
  unfold textWithRefLinks
  constructor
  · rintro ⟨e, h⟩
    obtain ⟨r, hr, -⟩ := resBind_ok h
    exact ⟨r, hr⟩
  · rintro ⟨r, hr⟩
    rw [hr]
    exact ⟨_, rfl⟩

/-- C48. The links can be made exactly if every reference has at least one character, and no two have one in common; in what order
the references are given does not matter. -/
theorem links_made_iff (cls text : Str) (current : Reference) (references : List OutgoingReference) :
    (Spec.Apart references → ∃ e, textWithRefLinks cls text current references = .ok e) ∧
    (¬ Spec.Apart references → textWithRefLinks cls text current references = .error .assertionError) := by
  refine ⟨(apart_iff cls text current references).mpr, ?_⟩
  · intro h
    cases he : textWithRefLinks cls text current references with
    | ok e => exact absurd ((apart_iff cls text current references).mp ⟨e, he⟩) h
    | error x =>
      unfold textWithRefLinks at he
      cases hl : linkLoop text 0 (sortLinks (references.map (linkOf current))) with
      | error y =>
        rw [hl] at he
        cases he
        rw [linkLoop_error text _ 0 hl]
      | ok r =>
        rw [hl] at he
        cases he

/-- Two references in a text, the later one first. -/
def sampleReferences : List OutgoingReference :=
  [{ startPos := 10, endPos := 14, reference := { article := some (.one (py"3")) } },
   { startPos := 2, endPos := 6, reference := { paragraph := some (.one (py"2")) } }]

example : Spec.Apart sampleReferences := by
  unfold Spec.Apart sampleReferences
  decide

example : ((textWithRefLinks (py"c") (py"a (2)b és a 3. §") { article := some (.one (py"1")) } sampleReferences).toOption.map
    Spec.linksIn) = some [(2, some (py"#1_2__"), py"(2)b"), (10, some (py"#3___"), py"a 3.")] := by decide +kernel

/-! ## C49: ids -/

/-- C49. The ids of a page are the id strings of the articles and of the elements in them, in their order, with the class of
their kind. Elements in amendments have none. -/
theorem page_ids {a : Act} {indent : Bool} {page : Elem} (hb : ∀ c ∈ a.children, Spec.Built c)
    (hs : ∀ c ∈ a.children, c.isSae = false) (h : htmlBody a indent = .ok page) :
    Spec.idMarks page = (Spec.pageElements a).map fun x => (Spec.markClass x.2, x.1.relativeIdString) := page_marks hb hs h

theorem pageElements_act (a : Act) : ∀ x ∈ Spec.pageElements a, x.1.act = some a.identifier := by
  intro x hx
  obtain ⟨c, hc, hx⟩ := List.mem_flatMap.mp hx
  cases c with
  | article i t cs =>
    rcases List.mem_cons.mp hx with rfl | hx
    · rfl
    · have := preorderL_act (some a.identifier) cs (Spec.articleRef a i)
      have e : { Spec.articleRef a i with act := some a.identifier } = Spec.articleRef a i := rfl
      rw [e] at this
      rw [this] at hx
      obtain ⟨y, -, rfl⟩ := List.mem_map.mp hx
      rfl
  | _ => cases hx

/-- Everything in an article has the number of the article. -/
theorem childElements_article {a : Act} {i : Str} {t : Option Str} {cs : List Node} (hb : Spec.Built (.article i t cs)) :
    ∀ x ∈ childElements a (.article i t cs), x.1.article = some (.one i) := by
  intro x hx
  rcases List.mem_cons.mp hx with rfl | hx
  · rfl
  · obtain ⟨c, hc, hx⟩ := mem_preorderL.mp hx
    obtain ⟨hbc, hty, -⟩ := built_article hb
    obtain ⟨d, ds, rfl⟩ := type_paragraph (hty c hc)
    have hr : Spec.refOf (Spec.articleRef a i) .paragraph d.identifier =
      some { Spec.articleRef a i with paragraph := d.identifier.map .one } := rfl
    exact (preorder_agree _ .paragraph d ds _ _ rfl (hbc _ hc) hr x hx).2.1

/-- The references in one article are different. -/
theorem article_nodup {a : Act} {i : Str} {t : Option Str} {cs : List Node} (hb : Spec.Built (.article i t cs))
    (hd : ∀ m, Spec.Own m (.article i t cs) → Spec.DistinctSiblings m.children)
    (hn : ∀ x ∈ Spec.preorderL (Spec.articleRef a i) cs, x.2.type = .sae .paragraph ∨ x.2.identifier ≠ none) :
    ((Spec.preorderL (Spec.articleRef a i) cs).map (·.1)).Nodup := by
  obtain ⟨hbc, hty, hw⟩ := built_article hb
  have hcl : ∀ k d ds, Node.sae k d ds ∈ cs → Clear (levelOf k) (Spec.articleRef a i) := fun k d ds _ =>
    ⟨fun _ => rfl, fun _ => rfl, fun _ => rfl⟩
  have each : ∀ c ∈ cs, ((Spec.preorder (Spec.articleRef a i) c).map (·.1)).Nodup := by
    intro c hc
    refine preorder_nodup c _ (hbc c hc) ?_ (fun m hm => hd m (.deeper hc (by rw [hty c hc]; simp) hm))
      (fun x hx => hn x (mem_preorderL.mpr ⟨c, hc, hx⟩))
    rintro k d ds rfl
    exact hcl k d ds hc
  by_cases h : ∃ c ∈ cs, c.identifier = none
  · obtain ⟨c, hc, hci⟩ := h
    have := hw c hc hci
    subst this
    simpa [Spec.preorderL] using each c (by simp)
  · refine siblings_nodup hbc (hd _ (.self _)) (fun c hc e he => (hty c hc).trans (hty e he).symm) ?_ each
    intro x _ hmem hid
    exact h ⟨x.2, hmem, hid⟩

/-- The references of different articles differ. -/
theorem articles_apart {a : Act} (hb : ∀ c ∈ a.children, Spec.Built c) (hd : Spec.DistinctIds a) :
    a.children.Pairwise fun c e => ∀ x ∈ childElements a c, ∀ y ∈ childElements a e, x.1 ≠ y.1 := by
  have h := hd.1
  unfold Spec.DistinctSiblings Act.articles at h
  rw [List.nodup_iff_pairwise_ne, List.pairwise_filterMap, List.pairwise_filter] at h
  refine h.imp_of_mem ?_
  intro c e hc he hce x hx y hy hxy
  cases c with
  | article i t cs => cases e with
    | article j u ds =>
      have h1 := childElements_article (hb _ hc) x hx
      have h2 := childElements_article (hb _ he) y hy
      rw [hxy, h2] at h1
      simp only [Option.some.injEq, Ident.one.injEq] at h1
      exact hce rfl rfl i rfl j rfl h1.symm
    | _ => cases hy
  | _ => cases hx

/-- C49. No two elements of the page of an act have the same class and the same id, if siblings and points have numbers that can
be told apart in id strings. -/
theorem class_and_id_unique {a : Act} {indent : Bool} {page : Elem} (hb : ∀ c ∈ a.children, Spec.Built c)
    (hs : ∀ c ∈ a.children, c.isSae = false) (hd : Spec.DistinctIds a) (hn : Spec.PointsNumbered a)
    (hw : ∀ x ∈ Spec.pageElements a, Spec.AllIdents Writable { x.1 with act := none })
    (h : htmlBody a indent = .ok page) : (Spec.idMarks page).Nodup := by
  rw [page_marks hb hs h]
  have key : ((Spec.pageElements a).map fun x => (Spec.markClass x.2, x.1)).Nodup := by
    rw [pageElements_eq, List.map_flatMap, List.nodup_iff_pairwise_ne, List.pairwise_flatMap]
    constructor
    · intro c hc
      cases c with
      | article i t cs =>
        have hn' : ∀ x ∈ Spec.preorderL (Spec.articleRef a i) cs, x.2.type = .sae .paragraph ∨ x.2.identifier ≠ none :=
          fun x hx => hn x (List.mem_flatMap.mpr ⟨_, hc, List.mem_cons_of_mem _ hx⟩)
        have hnd := article_nodup (hb _ hc) (hd.2 _ (mem_articles hc)) hn'
        simp only [childElements, List.map_cons]
        rw [← List.nodup_iff_pairwise_ne, List.nodup_cons]
        refine ⟨?_, ?_⟩
        · intro hm
          obtain ⟨x, hx, hxe⟩ := List.mem_map.mp hm
          simp only [Prod.mk.injEq] at hxe
          obtain ⟨c, hc', hxc⟩ := mem_preorderL.mp hx
          have : ∀ (n : Node) (p : Reference), ∀ x ∈ Spec.preorder p n, ∃ k d cs, x.2 = .sae k d cs := by
            intro n
            induction n using Node.ind with
            | sae k d cs ih =>
              intro p x hx
              rw [Spec.preorder] at hx
              cases hr : Spec.refOf p k d.identifier with
              | none =>
                rw [hr] at hx
                cases hx
              | some r =>
                rw [hr] at hx
                rcases List.mem_cons.mp hx with rfl | hx
                · exact ⟨k, d, cs, rfl⟩
                · obtain ⟨c, hc, hx⟩ := mem_preorderL.mp hx
                  exact ih c hc r x hx
            | article => intro p x hx; cases hx
            | quoted => intro p x hx; cases hx
            | structural => intro p x hx; cases hx
          obtain ⟨k, d, ds, hk⟩ := this c _ x hxc
          rw [hk] at hxe
          have := hxe.1
          cases k <;> simp [Spec.markClass, Spec.kindName] at this
        · rw [List.nodup_iff_pairwise_ne, List.pairwise_map]
          rw [List.nodup_iff_pairwise_ne, List.pairwise_map] at hnd
          exact hnd.imp fun hne heq => hne (congrArg Prod.snd heq)
      | _ => exact .nil
    · refine (articles_apart hb hd).imp ?_
      intro c e hce x hx y hy hxy
      obtain ⟨x', hx', rfl⟩ := List.mem_map.mp hx
      obtain ⟨y', hy', rfl⟩ := List.mem_map.mp hy
      exact hce x' hx' y' hy' (congrArg Prod.snd hxy)
  rw [List.nodup_iff_pairwise_ne, List.pairwise_map] at key ⊢
  refine key.imp_of_mem ?_
  intro x y hx hy hne heq
  simp only [markOf, Prod.mk.injEq] at heq
  refine hne ?_
  rw [heq.1, idString_unique x.1 y.1 (hw x hx) (hw y hy) ((pageElements_act a x hx).trans (pageElements_act a y hy).symm) heq.2]

/-- C49. No two elements of the page have the same id, if all elements have numbers, paragraphs included. -/
theorem ids_unique_partial {a : Act} {indent : Bool} {page : Elem} (hb : ∀ c ∈ a.children, Spec.Built c)
    (hs : ∀ c ∈ a.children, c.isSae = false) (hd : Spec.DistinctIds a) (hn : Spec.AllNumbered a)
    (hw : ∀ x ∈ Spec.pageElements a, Spec.AllIdents Writable { x.1 with act := none })
    (h : htmlBody a indent = .ok page) : (Spec.ids page).Nodup := by
  rw [Spec.ids, page_marks hb hs h, List.map_map]
  have key : ((Spec.pageElements a).map fun x => x.1).Nodup := by
    rw [pageElements_eq, List.map_flatMap, List.nodup_iff_pairwise_ne, List.pairwise_flatMap]
    constructor
    · intro c hc
      cases c with
      | article i t cs =>
        have hn' : ∀ x ∈ Spec.preorderL (Spec.articleRef a i) cs, x.2.identifier ≠ none :=
          fun x hx => hn x (List.mem_flatMap.mpr ⟨_, hc, List.mem_cons_of_mem _ hx⟩)
        have hnd := article_nodup (hb _ hc) (hd.2 _ (mem_articles hc)) fun x hx => .inr (hn' x hx)
        simp only [childElements, List.map_cons]
        rw [← List.nodup_iff_pairwise_ne, List.nodup_cons]
        refine ⟨?_, hnd⟩
        intro hm
        obtain ⟨x, hx, hxe⟩ := List.mem_map.mp hm
        obtain ⟨c, hc', hxc⟩ := mem_preorderL.mp hx
        obtain ⟨hbc, hty, -⟩ := built_article (hb _ hc)
        obtain ⟨d, ds, rfl⟩ := type_paragraph (hty c hc')
        have hr : Spec.refOf (Spec.articleRef a i) .paragraph d.identifier =
          some { Spec.articleRef a i with paragraph := d.identifier.map .one } := rfl
        have h1 := (preorder_agree _ .paragraph d ds _ _ rfl (hbc _ hc') hr x hxc).2.2.1 (by decide)
        have h2 := hn' (_, .sae .paragraph d ds) (mem_preorderL.mpr ⟨_, hc', by rw [Spec.preorder, hr]; exact List.mem_cons_self⟩)
        rw [hxe] at h1
        obtain ⟨j, hj⟩ := Option.ne_none_iff_exists'.mp h2
        have hj' : d.identifier = some j := hj
        rw [hj'] at h1
        cases h1
      | _ => exact .nil
    · refine (articles_apart hb hd).imp ?_
      intro c e hce x hx y hy hxy
      obtain ⟨x', hx', rfl⟩ := List.mem_map.mp hx
      obtain ⟨y', hy', rfl⟩ := List.mem_map.mp hy
      exact hce x' hx' y' hy' hxy
  rw [List.nodup_iff_pairwise_ne, List.pairwise_map] at key ⊢
  refine key.imp_of_mem ?_
  intro x y hx hy hne heq
  exact hne (idString_unique x.1 y.1 (hw x hx) (hw y hy) ((pageElements_act a x hx).trans (pageElements_act a y hy).symm) heq)

/-- C49. The property fails for every act with an article that has an unnumbered paragraph: the paragraph has the id of the
article. -/
theorem unnumbered_paragraph_same_id {a : Act} {indent : Bool} {page : Elem} (hb : ∀ c ∈ a.children, Spec.Built c)
    (hs : ∀ c ∈ a.children, c.isSae = false) (h : htmlBody a indent = .ok page) {i : Str} {t : Option Str} {d : SaeData}
    {ps : List Node} (hi : .article i t [.sae .paragraph d ps] ∈ a.children) (hd : d.identifier = none) :
    ¬ (Spec.ids page).Nodup := by
  intro hnd
  rw [Spec.ids, page_marks hb hs h, List.map_map] at hnd
  have sub : List.Sublist [(Spec.articleRef a i, Node.article i t [.sae .paragraph d ps]), (Spec.articleRef a i, .sae .paragraph d ps)]
      (Spec.pageElements a) := by
    obtain ⟨l, r, hlr⟩ := List.append_of_mem hi
    rw [pageElements_eq, hlr, List.flatMap_append, List.flatMap_cons]
    refine List.Sublist.trans ?_ (List.sublist_append_right _ _)
    refine List.Sublist.trans ?_ (List.sublist_append_left _ _)
    simp only [childElements, Spec.preorderL, Spec.preorder, Spec.refOf, hd, Option.map_none, List.append_nil]
    exact (List.Sublist.cons_cons _ (List.Sublist.cons_cons _ (List.nil_sublist _)))
  have := (sub.map _).nodup hnd
  simp [markOf] at this

/-- An act with numbered paragraphs and points, a reference, and an amendment. -/
def samplePage : Act :=
  { identifier := py"2020. évi I. törvény", publicationDate := ⟨2020, 1, 1⟩, subject := py"samples", preamble := py"We say:",
    children := [.structural { kind := .chapter, identifier := py"1", title := py"General" },
      .article (py"1") none [.sae .paragraph { identifier := some (py"1"), text := some (py"see (2)") } [],
        .sae .paragraph { identifier := some (py"2"), intro := some (py"in") } samplePoints],
      .article (py"1/A") none [.sae .paragraph { identifier := some (py"1"), intro := some (py"new") }
        [.sae .blockAmendmentContainer {} [.article (py"1") none [.sae .paragraph { text := some (py"t") } []]]]]] }

example : (∀ c ∈ samplePage.children, Spec.Built c) ∧ (∀ c ∈ samplePage.children, c.isSae = false) ∧ Spec.AllNumbered samplePage ∧
    Spec.PointsNumbered samplePage ∧ (htmlBody samplePage).toOption.map Spec.ids =
      some [py"1___", py"1_1__", py"1_2__", py"1_2_a_", py"1_2_b_", py"1_2_b_ba", py"1slashA___", py"1slashA_1__"] := by
  refine ⟨built_of_testL (by decide +kernel), by decide +kernel, by unfold Spec.AllNumbered; decide +kernel,
    by unfold Spec.PointsNumbered; decide +kernel, by decide +kernel⟩

example : (∀ x ∈ Spec.pageElements samplePage, Spec.AllIdents Writable { x.1 with act := none }) := by
  unfold Spec.AllIdents Writable
  decide +kernel

/-- C49. Elements in amendments all have the empty id, so that these have an id in common. -/
theorem amended_same_id : ((htmlBody samplePage).toOption.map fun p => (Spec.marks p).filter fun m => m.2 = []) =
    some [(py"article_id", []), (py"paragraph_id", [])] := by decide +kernel

/-! ## C52: where links lead -/

theorem elementAt_pageElements {a : Act} (hs : ∀ c ∈ a.children, c.isSae = false) {r : Reference} {n : Node}
    (he : Spec.ElementAt a r n) : (r, n) ∈ Spec.pageElements a := by
  by_cases hn : n.isSae = true
  · rcases element_listed a r n he with ⟨i, -, hc⟩ | hm
    · rw [hs n hc] at hn
      cases hn
    · obtain ⟨c, hc, hm⟩ := List.mem_flatMap.mp hm
      cases c with
      | article i t cs => exact List.mem_flatMap.mpr ⟨_, hc, List.mem_cons_of_mem _ hm⟩
      | _ => cases hm
  · cases he with
    | article h => exact List.mem_flatMap.mpr ⟨_, h, List.mem_cons_self⟩
    | _ => exact absurd rfl hn

/-- C52. The link to an element of an act leads to the file of the act, and in its page to the element that shows the number of
the element. -/
theorem links_lead {a : Act} {indent : Bool} {page : Elem} (hb : ∀ c ∈ a.children, Spec.Built c)
    (hs : ∀ c ∈ a.children, c.isSae = false) (h : htmlBody a indent = .ok page) {r : Reference} {n : Node}
    (he : Spec.ElementAt a r n) :
    ∃ id, (Spec.markClass n, id) ∈ Spec.idMarks page ∧ hrefForRef r = a.identifier ++ (py".html#") ++ id ∧
      hrefForRef { r with act := none } = '#' :: id := by
  have hm := elementAt_pageElements hs he
  refine ⟨r.relativeIdString, ?_, ?_, rfl⟩
  · rw [page_ids hb hs h]
    exact List.mem_map.mpr ⟨_, hm, rfl⟩
  · have := pageElements_act a _ hm
    unfold hrefForRef
    rw [this]
    simp

/-! ## C53: what is shown -/

/-- C53. The page shows all texts of the act in their order. -/
theorem page_shows_texts {a : Act} {page : Elem} (hb : ∀ c ∈ a.children, Spec.Built c) (h : htmlBody a false = .ok page) :
    Spec.Shows (Spec.actTexts a) (Spec.textOf page) := htmlBody_text hb h

/-- C53. The indented page shows the same apart from spaces. -/
theorem indented_page_shows {a : Act} {page : Elem} (h : htmlBody a true = .ok page) :
    ∃ plain, htmlBody a false = .ok plain ∧ Spec.noSpaces (Spec.textOf page) = Spec.noSpaces (Spec.textOf plain) := by
  obtain ⟨plain, hp, rfl⟩ := htmlBody_indent h
  exact ⟨plain, hp, indentElem_text 0 plain⟩

example : ((htmlBody samplePage false).toOption.map Spec.textOf) = some
    (py"2020. évi I. törvénysamplesWe say:I. FEJEZETGeneral1. §(1) see (2)(2) ina) firstb) secondba) x1/A. §(1) new„1. §t”") := by
  decide +kernel

end Verif.Props
