import Verif.Proofs.Structure

/-! # Properties C20, C21, C22, C23, C24: elements, lookup and mapping -/

namespace Verif.Props

open Verif Reference

/-! ## C20: constructed elements are well formed -/

/-- C20. Everything inside an object that can be built is well formed: text excludes intro, wrap-up and children; all
children are of a type that may stand there, and of the same one except in a block amendment; an unnumbered paragraph
has no siblings. -/
theorem built_wellFormed (n m : Node) (h : Spec.Built n) (hm : Spec.Inside m n) : Spec.WellFormed m := by
  have hb := built_inside hm h
  cases m with
  | sae k d cs => exact (built_sae hb).2
  | article i t cs => exact (built_article hb).2.2
  | quoted => trivial
  | structural => trivial

theorem allowed_of_mayContain {k : SaeKind} {t : NodeType} (h : Spec.MayContain k t) :
    k.allowedChildren.contains t = true := by
  cases h with
  | amendedStructure k => cases k <;> decide
  | amendedElement k h => cases k <;> first | decide | exact absurd rfl h
  | _ => decide

/-- C20. The constructor of the elements of an article accepts exactly what is well formed, with the one exception that
it refuses an empty tuple of children. -/
theorem construct_iff (k : SaeKind) (d : SaeData) (children : Option (List Node)) :
    (∃ n, mkSae k d children = .ok n) ↔ children ≠ some [] ∧ Spec.WellFormed (.sae k d (children.getD [])) := by
  constructor
  · rintro ⟨n, h⟩
    obtain ⟨-, h1, h2, t, h3⟩ := mkSae_ok h
    refine ⟨?_, ?_, ?_, ?_⟩
    · rintro rfl; simp [childrenType] at h3
    · intro ht
      cases htx : d.text with
      | none => exact absurd htx ht
      | some x =>
        simp only [validText, htx, Option.isNone_some, Bool.false_or, Bool.and_eq_true, Option.isNone_iff_eq_none] at h1
        obtain ⟨⟨h4, h5⟩, h6⟩ := h1
        subst h6
        exact ⟨h4, h5, rfl⟩
    · intro c hc
      exact mayContain_of_allowed (List.all_eq_true.1 h2 c hc)
    · intro hk
      cases children with
      | none => simp
      | some cs => exact childrenType_ok h3 hk
  · rintro ⟨hne, h1, h2, h3⟩
    have ht : ∃ t, childrenType k children = .ok t := by
      cases children with
      | none => exact ⟨none, rfl⟩
      | some cs =>
        cases cs with
        | nil => exact absurd rfl hne
        | cons c cs =>
          simp only [childrenType]
          by_cases hk : k = .blockAmendmentContainer
          · subst hk
            split
            · exact ⟨_, rfl⟩
            · exact ⟨none, by simp [SaeKind.allowsDifferentChildren]⟩
          · rw [if_pos (List.all_eq_true.2 fun e he => by
              rw [h3 hk e (by simp [he]) c (by simp)]; exact beq_self_eq_true _)]
            exact ⟨_, rfl⟩
    obtain ⟨t, ht⟩ := ht
    have hv : validText d children = true := by
      cases htx : d.text with
      | none => simp [validText, htx]
      | some x =>
        obtain ⟨e1, e2, e3⟩ := h1 (by simp [htx])
        have e4 : children = none := by
          cases children with
          | none => rfl
          | some cs => simp only [Option.getD_some] at e3; exact absurd (by rw [e3]) hne
        simp [validText, e1, e2, e4]
    have hc : validChildren k children = true := by
      rw [validChildren, List.all_eq_true]
      intro c hc
      exact allowed_of_mayContain (h2 c hc)
    exact ⟨.sae k d (children.getD []), by simp [mkSae, ht, hv, hc, bind, Except.bind]⟩

/-- C20. The constructor of articles accepts exactly what is well formed. -/
theorem construct_article_iff (i : Str) (t : Option Str) (cs : List Node) :
    (∃ n, mkArticle i t cs = .ok n) ↔ Spec.WellFormed (.article i t cs) := by
  unfold mkArticle
  by_cases hany : cs.any (fun c => c.identifier.isNone) = true
  · obtain ⟨c, hc, hid⟩ := List.any_eq_true.1 hany
    by_cases hl : cs.length = 1
    · simp only [hany, hl]
      refine ⟨fun _ => ?_, fun _ => by simp⟩
      intro e he _
      match cs, hl, he with
      | [x], _, he => rw [List.mem_singleton.1 he]
    · simp only [hany, Bool.true_and, decide_eq_true_eq]
      rw [if_pos hl]
      refine ⟨fun ⟨_, h⟩ => by simp at h, fun h => ?_⟩
      have := h c hc (by simpa using hid)
      rw [this] at hl
      exact absurd rfl hl
  · simp only [Bool.not_eq_true] at hany
    rw [hany]
    refine ⟨fun _ => ?_, fun _ => by simp⟩
    intro c hc hid
    rw [List.any_eq_false] at hany
    exact absurd (hany c hc) (by simp [hid])

/-- A paragraph (1) with points a) and b). -/
def samplePoints : List Node :=
  [.sae .alphabeticPoint { identifier := some (py"a"), text := some (py"first") } [],
   .sae .alphabeticPoint { identifier := some (py"b"), intro := some (py"second") }
     [.sae .alphabeticSubpoint { identifier := some (py"ba"), text := some (py"x") } []]]

example : (∃ n, mkSae .paragraph { identifier := some (py"1"), intro := some (py"Intro") } (some samplePoints) = .ok n) ∧
    mkSae .paragraph { identifier := some (py"1"), text := some (py"Text") } (some samplePoints) = .error .valueError ∧
    mkSae .numericPoint { identifier := some (py"1") } (some samplePoints) = .error .typeError := by
  refine ⟨⟨_, rfl⟩, by decide, by decide⟩

/-- C20. An element with neither text nor children can be built as well. -/
theorem empty_element : mkSae .paragraph {} none = .ok (.sae .paragraph {} []) := by decide

/-! ## C21: lookup of one element -/

theorem distinct_unique {cs : List Node} (h : Spec.DistinctSiblings cs) {c e : Node} {i : Str} (hc : c ∈ cs) (he : e ∈ cs)
    (hci : c.identifier = some i) (hei : e.identifier = some i) : c = e := by
  unfold Spec.DistinctSiblings at h
  induction cs with
  | nil => cases hc
  | cons a as ih =>
    have mem : ∀ {x : Node}, x ∈ as → x.identifier = some i → i ∈ as.filterMap Node.identifier :=
      fun hx hi => List.mem_filterMap.2 ⟨_, hx, hi⟩
    rcases List.mem_cons.1 hc with hc1 | hc1 <;> rcases List.mem_cons.1 he with he1 | he1
    · rw [hc1, he1]
    · subst hc1
      rw [List.filterMap_cons, hci] at h
      exact absurd (mem he1 hei) (List.nodup_cons.1 h).1
    · subst he1
      rw [List.filterMap_cons, hei] at h
      exact absurd (mem hc1 hci) (List.nodup_cons.1 h).1
    · refine ih ?_ hc1 he1
      rw [List.filterMap_cons] at h
      cases ha : a.identifier with
      | none => simpa [ha] using h
      | some j => rw [ha] at h; exact (List.nodup_cons.1 h).2

theorem childAt_own {cs : List Node} (h : Spec.DistinctSiblings cs) {c : Node} {i : Str} (hc : c ∈ cs)
    (hi : c.identifier = some i) : childAt cs (some i) = .ok c := by
  unfold childAt
  cases hf : cs.reverse.find? (fun c => c.identifier == some i) with
  | none =>
    rw [List.find?_eq_none] at hf
    exact absurd (by simp [hi]) (hf c (by simp [hc]))
  | some e =>
    have h1 : e ∈ cs := by simpa using List.mem_of_find?_eq_some hf
    have h2 : e.identifier = some i := by simpa using List.find?_some hf
    rw [distinct_unique h hc h1 hi h2]

theorem mem_articles {a : Act} {i : Str} {t : Option Str} {cs : List Node} (h : .article i t cs ∈ a.children) :
    .article i t cs ∈ a.articles := by simp [Act.articles, h, Node.isArticle]

theorem elementAt_article {a : Act} {r : Reference} {i : Str} {t : Option Str} {cs : List Node}
    (h : Spec.ElementAt a r (.article i t cs)) : .article i t cs ∈ a.children ∧ r = Spec.articleRef a i := by
  cases h with
  | article h => exact ⟨h, rfl⟩

theorem elementAt_paragraph {a : Act} {r : Reference} {d : SaeData} {ps : List Node}
    (h : Spec.ElementAt a r (.sae .paragraph d ps)) :
    ∃ i t cs, .article i t cs ∈ a.children ∧ .sae .paragraph d ps ∈ cs ∧
      r = { Spec.articleRef a i with paragraph := d.identifier.map .one } := by
  cases h with
  | @paragraph r i t cs d ps h hp =>
    obtain ⟨h1, h2⟩ := elementAt_article h
    subst h2
    exact ⟨i, t, cs, h1, hp, rfl⟩
  | point _ hk => rcases hk with h | h <;> cases h
  | subpoint _ _ hl => rcases hl with h | h <;> cases h

theorem elementAt_point {a : Act} {r : Reference} {k : SaeKind} {e : SaeData} {ss : List Node}
    (h : Spec.ElementAt a r (.sae k e ss)) (hk : k = .alphabeticPoint ∨ k = .numericPoint) :
    ∃ r' d ps i, Spec.ElementAt a r' (.sae .paragraph d ps) ∧ .sae k e ss ∈ ps ∧ e.identifier = some i ∧
      r = { r' with point := some (.one i) } := by
  cases h with
  | paragraph => rcases hk with h | h <;> cases h
  | @point r d ps k e ss i h hk hp hi => exact ⟨r, d, ps, i, h, hp, hi, rfl⟩
  | subpoint _ _ hl => rcases hl with h | h <;> rcases hk with h' | h' <;> rw [h] at h' <;> cases h'

/-- The lookup arrives at the paragraph. -/
theorem articleAt_paragraph {a : Act} (hd : Spec.DistinctIds a) (hb : ∀ c ∈ a.children, Spec.Built c) {i : Str}
    {t : Option Str} {cs ps : List Node} {d : SaeData} (ha : .article i t cs ∈ a.children)
    (hp : .sae .paragraph d ps ∈ cs) (r : Reference) (hr : r.paragraph = d.identifier.map .one) :
    articleAt cs r = if r.point.isNone then .ok [.sae .paragraph d ps] else paragraphAt ps r := by
  have hds : Spec.DistinctSiblings cs := hd.2 _ (mem_articles ha) _ (.self _)
  unfold articleAt
  cases hid : d.identifier with
  | some j =>
    rw [hid] at hr
    simp only [hr, Option.map_some, childAt_own hds hp (show Node.identifier (.sae .paragraph d ps) = some j from hid), bind,
      Except.bind, Node.children]
  | none =>
    rw [hid] at hr
    have := (built_article (hb _ ha)).2.2 _ hp (show Node.identifier (.sae .paragraph d ps) = none from hid)
    subst this
    have hc : childAt [.sae .paragraph d ps] none = .ok (.sae .paragraph d ps) := by
      simp [childAt, Node.identifier, hid]
    simp only [hr, Option.map_none, hc, bind, Except.bind, Node.children]

/-- The lookup arrives at the point. -/
theorem paragraphAt_point {ps ss : List Node} (hd : Spec.DistinctSiblings ps) {k : SaeKind} {e : SaeData} {i : Str}
    (hk : k = .alphabeticPoint ∨ k = .numericPoint) (hp : .sae k e ss ∈ ps) (hi : e.identifier = some i)
    (r : Reference) (hr : r.point = some (.one i)) :
    paragraphAt ps r = if r.subpoint.isNone then .ok [.sae k e ss] else pointAt k ss r.subpoint := by
  unfold paragraphAt
  have hc := childAt_own hd hp (show Node.identifier (.sae k e ss) = some i from hi)
  rcases hk with rfl | rfl <;> simp only [hr, hc, bind, Except.bind]

theorem act_at {a : Act} (hd : Spec.DistinctIds a) {i : Str} {t : Option Str} {cs : List Node}
    (ha : .article i t cs ∈ a.children) (r : Reference) (h1 : r.act = some a.identifier) (h2 : r.article = some (.one i)) :
    a.at r = if r.paragraph.isNone && r.point.isNone && r.subpoint.isNone then .ok [.article i t cs] else articleAt cs r := by
  unfold Act.at
  have hc := childAt_own hd.1 (mem_articles ha) (show Node.identifier (.article i t cs) = some i from rfl)
  simp only [h1, h2, hc, bind, Except.bind, Node.children]
  simp

theorem inside_child {c n : Node} (h : c ∈ n.children) : Spec.Inside c n := .deeper h (.self _)

theorem own_child {c n : Node} (h : c ∈ n.children) (hk : c.type ≠ .sae .blockAmendmentContainer) : Spec.Own c n :=
  .deeper h hk (.self _)

/-- C21. In an act without equal identifiers among siblings every numbered article, paragraph, point and subpoint is
found at its own reference, and nothing else is. -/
theorem find_own (a : Act) (hb : ∀ c ∈ a.children, Spec.Built c) (hd : Spec.DistinctIds a) (r : Reference) (n : Node)
    (h : Spec.ElementAt a r n) (hn : n.identifier ≠ none) : a.at r = .ok [n] := by
  cases h with
  | @article i t cs h => rw [act_at hd h _ rfl rfl]; simp [Spec.articleRef]
  | @paragraph r i t cs d ps h hp =>
    obtain ⟨h1, rfl⟩ := elementAt_article h
    rw [act_at hd h1 _ rfl rfl, articleAt_paragraph hd hb h1 hp _ rfl]
    cases hid : d.identifier with
    | none => exact absurd hid hn
    | some j => simp [Spec.articleRef]
  | @point r d ps k e ss i h hk hp hi =>
    obtain ⟨j, t, cs, h1, h2, rfl⟩ := elementAt_paragraph h
    have hds : Spec.DistinctSiblings ps :=
      hd.2 _ (mem_articles h1) _ (own_child (n := .article j t cs) h2 (by simp [Node.type]))
    rw [act_at hd h1 _ rfl rfl, articleAt_paragraph hd hb h1 h2 _ rfl, paragraphAt_point hds hk hp hi _ rfl]
    simp [Spec.articleRef]
  | @subpoint r k d ps l e ss i h hk hl hp hi =>
    obtain ⟨r', d', qs, x, h', hq, hx, rfl⟩ := elementAt_point h hk
    obtain ⟨j, t, cs, h1, h2, rfl⟩ := elementAt_paragraph h'
    have hds : Spec.DistinctSiblings qs :=
      hd.2 _ (mem_articles h1) _ (own_child (n := .article j t cs) h2 (by simp [Node.type]))
    have hin : Spec.Inside (.sae k d ps) (.article j t cs) :=
      .deeper (n := .article j t cs) h2 (inside_child (n := .sae .paragraph d' qs) hq)
    have hdp : Spec.DistinctSiblings ps := hd.2 _ (mem_articles h1) _
      (.deeper (n := .article j t cs) h2 (by simp [Node.type])
        (own_child (n := .sae .paragraph d' qs) hq (by rcases hk with rfl | rfl <;> simp [Node.type])))
    rw [act_at hd h1 _ rfl rfl, articleAt_paragraph hd hb h1 h2 _ rfl, paragraphAt_point hds hk hq hx _ rfl]
    have hc := childAt_own hdp hp (show Node.identifier (.sae l e ss) = some i from hi)
    have hty := allowed_of_mayContain ((built_sae (built_inside hin (hb _ h1))).2.2.1 _ hp)
    rcases hk with rfl | rfl <;>
      simp only [pointAt, hc, hty, bind, Except.bind] <;> simp

/-- C21. Leaving out the act makes no difference. -/
theorem find_relative (a : Act) (r : Reference) (h : r.act = some a.identifier) : a.at r = a.at { r with act := none } := by
  unfold Act.at
  simp [h, articleAt, paragraphAt]

/-- C21. The references are the ones under which the mapping visits the elements. -/
theorem element_listed (a : Act) (r : Reference) (n : Node) (h : Spec.ElementAt a r n) :
    (∃ i, r = Spec.articleRef a i ∧ n ∈ a.children) ∨ (r, n) ∈ Spec.actPreorder a := by
  have hpar : ∀ {r d ps}, Spec.ElementAt a r (.sae .paragraph d ps) → ∃ i t cs, .article i t cs ∈ a.children ∧
      .sae .paragraph d ps ∈ cs ∧ Spec.refOf (Spec.articleRef a i) .paragraph d.identifier = some r := by
    intro r d ps h
    obtain ⟨i, t, cs, h1, h2, rfl⟩ := elementAt_paragraph h
    exact ⟨i, t, cs, h1, h2, rfl⟩
  have hact : ∀ {i t cs x}, .article i t cs ∈ a.children → x ∈ Spec.preorderL (Spec.articleRef a i) cs →
      x ∈ Spec.actPreorder a := by
    intro i t cs x h1 h2
    exact List.mem_flatMap.2 ⟨_, h1, h2⟩
  have hpt : ∀ {r k e ss}, Spec.ElementAt a r (.sae k e ss) → (k = .alphabeticPoint ∨ k = .numericPoint) →
      ∀ x, (x = (r, .sae k e ss) ∨ x ∈ Spec.preorderL r ss) → x ∈ Spec.actPreorder a := by
    intro r k e ss h hk x hx
    obtain ⟨r', d, ps, i, h1, h2, h3, rfl⟩ := elementAt_point h hk
    obtain ⟨j, t, cs, h4, h5, h6⟩ := hpar h1
    refine hact h4 (mem_preorderL.2 ⟨_, h5, ?_⟩)
    rw [Spec.preorder, h6]
    refine List.mem_cons_of_mem _ (mem_preorderL.2 ⟨_, h2, ?_⟩)
    have : Spec.refOf r' k e.identifier = some { r' with point := some (.one i) } := by
      rw [h3]; rcases hk with rfl | rfl <;> rfl
    rw [Spec.preorder, this]
    exact List.mem_cons.2 hx
  cases h with
  | article h => exact .inl ⟨_, rfl, h⟩
  | @paragraph r i t cs d ps h hp =>
    right
    obtain ⟨h1, rfl⟩ := elementAt_article h
    refine hact h1 (mem_preorderL.2 ⟨_, hp, ?_⟩)
    rw [Spec.preorder]
    simp [Spec.refOf]
  | @point r d ps k e ss i h hk hp hi =>
    exact .inr (hpt (.point h hk hp hi) hk _ (.inl rfl))
  | @subpoint r k d ps l e ss i h hk hl hp hi =>
    right
    refine hpt h hk _ (.inr (mem_preorderL.2 ⟨_, hp, ?_⟩))
    have : Spec.refOf r l e.identifier = some { r with subpoint := some (.one i) } := by
      rw [hi]; rcases hl with rfl | rfl <;> rfl
    rw [Spec.preorder, this]
    simp

/-- An act: article 1 with one unnumbered paragraph, article 2 with paragraphs (1) and (2), the latter with points. -/
def sampleAct : Act :=
  { identifier := py"X", publicationDate := ⟨2020, 1, 1⟩, subject := [], preamble := [],
    children := [.structural { kind := .chapter, identifier := py"1", title := py"General" },
      .article (py"1") none [.sae .paragraph { intro := some (py"in") } samplePoints],
      .article (py"2") none [.sae .paragraph { identifier := some (py"1"), text := some (py"t") } [],
        .sae .paragraph { identifier := some (py"2"), intro := some (py"in") } samplePoints]] }

theorem sampleAct_built : ∀ c ∈ sampleAct.children, Spec.Built c := built_of_testL (by decide +kernel)

example : ∃ r, Spec.ElementAt sampleAct r (.sae .alphabeticSubpoint { identifier := some (py"ba"), text := some (py"x") } []) := by
  have h1 : Spec.ElementAt sampleAct (Spec.articleRef sampleAct (py"2")) (.article (py"2") none
      [.sae .paragraph { identifier := some (py"1"), text := some (py"t") } [],
        .sae .paragraph { identifier := some (py"2"), intro := some (py"in") } samplePoints]) := .article (by simp [sampleAct])
  have h2 := Spec.ElementAt.paragraph h1 (d := { identifier := some (py"2"), intro := some (py"in") }) (ps := samplePoints) (by simp)
  have h3 := Spec.ElementAt.point h2 (k := .alphabeticPoint) (e := { identifier := some (py"b"), intro := some (py"second") })
    (ss := [.sae .alphabeticSubpoint { identifier := some (py"ba"), text := some (py"x") } []]) (.inl rfl)
    (by simp [samplePoints]) rfl
  exact ⟨_, .subpoint h3 (.inl rfl) (.inl rfl) (by simp) rfl⟩

theorem sampleAct_second : Spec.ElementAt sampleAct (Spec.articleRef sampleAct (py"2")) (.article (py"2") none
    [.sae .paragraph { identifier := some (py"1"), text := some (py"t") } [],
      .sae .paragraph { identifier := some (py"2"), intro := some (py"in") } samplePoints]) := .article (by simp [sampleAct])

theorem sampleAct_points : Spec.ElementAt sampleAct { Spec.articleRef sampleAct (py"2") with paragraph := some (.one (py"2")) }
    (.sae .paragraph { identifier := some (py"2"), intro := some (py"in") } samplePoints) :=
  .paragraph (d := { identifier := some (py"2"), intro := some (py"in") }) sampleAct_second (by simp)

theorem sampleAct_distinct : Spec.DistinctIds sampleAct := by
  have key : ∀ {cs : List Node}, (cs.filterMap Node.identifier).Nodup → Spec.DistinctSiblings cs := id
  refine ⟨key (by decide), ?_⟩
  intro c hc n hn
  have leaf : ∀ {n m : Node}, m.children = [] → Spec.Own n m → Spec.DistinctSiblings n.children := by
    intro n m hm h
    cases h with
    | self => rw [hm]; exact key (by decide)
    | deeper hc => rw [hm] at hc; cases hc
  have step : ∀ {n m : Node}, Spec.Own n m → (m.children.filterMap Node.identifier).Nodup →
      (∀ c ∈ m.children, ∀ n, Spec.Own n c → Spec.DistinctSiblings n.children) → Spec.DistinctSiblings n.children := by
    intro n m h h1 h2
    cases h with
    | self => exact h1
    | deeper hc _ h => exact h2 _ hc _ h
  have points : ∀ c ∈ samplePoints, ∀ n, Spec.Own n c → Spec.DistinctSiblings n.children := by
    intro c hc n hn
    simp only [samplePoints, List.mem_cons, List.not_mem_nil, or_false] at hc
    rcases hc with rfl | rfl
    · exact leaf rfl hn
    · refine step hn (by decide) fun c hc n hn => ?_
      rw [List.mem_singleton.1 hc] at hn
      exact leaf rfl hn
  rw [show sampleAct.articles = [.article (py"1") none [.sae .paragraph { intro := some (py"in") } samplePoints],
      .article (py"2") none [.sae .paragraph { identifier := some (py"1"), text := some (py"t") } [],
        .sae .paragraph { identifier := some (py"2"), intro := some (py"in") } samplePoints]] from rfl] at hc
  simp only [List.mem_cons, List.not_mem_nil, or_false] at hc
  rcases hc with rfl | rfl
  · refine step hn (by decide) fun c hc n hn => ?_
    rw [List.mem_singleton.1 hc] at hn
    exact step hn (by decide) points
  · refine step hn (by decide) fun c hc n hn => ?_
    simp only [Node.children, List.mem_cons, List.not_mem_nil, or_false] at hc
    rcases hc with rfl | rfl
    · exact leaf rfl hn
    · exact step hn (by decide) points

example : sampleAct.at { Spec.articleRef sampleAct (py"2") with paragraph := some (.one (py"2")) } =
    .ok [.sae .paragraph { identifier := some (py"2"), intro := some (py"in") } samplePoints] :=
  find_own _ sampleAct_built sampleAct_distinct _ _ sampleAct_points (by simp [Node.identifier])

example : sampleAct.at { article := some (.one (py"1")), point := some (.one (py"b")), subpoint := some (.one (py"ba")) } =
    .ok [.sae .alphabeticSubpoint { identifier := some (py"ba"), text := some (py"x") } []] := by decide +kernel

/-! ## C22: lookup of ranges -/

theorem cut_canonical (cs : List Node) (x y : Str) (hx : Spec.Canonical x) (hy : Spec.Canonical y)
    (hcs : ∀ c ∈ cs, ∀ i, c.identifier = some i → Spec.Canonical i) (P : Node → Prop) [DecidablePred P]
    (hP : ∀ c ∈ cs, P c ↔ ∃ i, c.identifier = some i ∧ Spec.NotAfter x i ∧ Spec.NotAfter i y) :
    cutChildren cs x y = .ok (cs.filter fun c => decide (P c)) := by
  have rd : ∀ {s : Str}, Spec.Canonical s → Spec.Readable s := fun h => canonicalFrom_readable _ _ h
  obtain ⟨r, hr⟩ := cut_succeeds Node.identifier x y cs (rd hx) (rd hy) (fun e he i hi => rd (hcs e he i hi))
  unfold cutChildren
  rw [hr, cut_selects Node.identifier x y cs r hr]
  congr 1
  apply List.filter_congr
  intro c hc
  have iff_not : ∀ {u v : Str}, Spec.Canonical u → Spec.Canonical v →
      (identifierLess v u = .ok false ↔ Spec.NotAfter u v) := by
    intro u v hu hv
    constructor
    · intro h
      by_cases e : u = v
      · exact .inl e
      · rcases canonical_total u v hu hv e with k | k
        · exact .inr k.1
        · have := k.1; rw [h] at this; cases this
    · rintro (rfl | h)
      · obtain ⟨b, hb⟩ := (identifierLess_answers u u).1 ⟨rd hu, rd hu⟩
        cases b with
        | false => exact hb
        | true => exact absurd hb (identifierLess_irrefl u)
      · exact identifierLess_asymm u v h
  rw [Bool.eq_iff_iff, decide_eq_true_eq, hP c hc]
  cases hi : c.identifier with
  | none => simp
  | some i =>
    have ci := hcs c hc i hi
    simp only [Option.any_some, Bool.and_eq_true, decide_eq_true_eq, iff_not hx ci, iff_not ci hy, Option.some.injEq,
      exists_eq_left']

theorem range_loop (x y : Str) (c : Option Ident) (hc : isTuple c = false) (s t : List (Option Ident)) (hl : s.length = t.length)
    (hs : ∀ c ∈ s, c = none) (ht : ∀ c ∈ t, isTuple c = false) : ∀ p : List (Option Ident), (∀ c ∈ p, isTuple c = false) →
    (containsLoop (p ++ some (.range x y) :: s) (p ++ c :: t) ↔
      ∃ i, c = some (.one i) ∧ Spec.NotAfter x i ∧ Spec.NotAfter i y)
  | [], _ => by
    have sg1 : t.map firstOf = t := by
      rw [List.map_congr_left (fun c hc => firstOf_of_single (ht c hc))]; simp
    have sg2 : t.map lastOf = t := by
      rw [List.map_congr_left (fun c hc => lastOf_of_single (ht c hc))]; simp
    simp only [List.nil_append, containsLoop_eq, List.map_cons, firstOf_of_single hc, lastOf_of_single hc, sg1, sg2]
    cases c with
    | none =>
      constructor
      · intro h; exact (leL_to_none _ _ h.1).elim
      · rintro ⟨i, h, -⟩; cases h
    | some j =>
      cases j with
      | range _ _ => simp [isTuple] at hc
      | one z =>
        constructor
        · intro h; exact ⟨z, rfl, leL_notAfter h.1, geL_notAfter h.2⟩
        · rintro ⟨i, h, h1, h2⟩
          cases h
          exact ⟨notAfter_leL h1 (nones_le (s.map firstOf) t (by simp [hl]) (map_nones rfl hs) ht).1,
            notAfter_geL h2 (nones_le (s.map lastOf) t (by simp [hl]) (map_nones rfl hs) ht).2⟩
  | a :: p, hp => by
    have ha := hp a (by simp)
    rw [← range_loop x y c hc s t hl hs ht p (fun c hc => hp c (by simp [hc]))]
    simp only [List.cons_append, containsLoop_eq, List.map_cons, firstOf_of_single ha, lastOf_of_single ha,
      leL_same ha, geL_same ha]

theorem tuple_map_one (i : Option Str) : isTuple (i.map Ident.one) = false := by cases i <;> rfl

/-- C22. A range of articles gives, in order, exactly the articles of the act whose own reference it contains. -/
theorem range_of_articles (a : Act) (x y : Str) (hx : Spec.Canonical x) (hy : Spec.Canonical y)
    (hcs : ∀ c ∈ a.articles, ∀ i, c.identifier = some i → Spec.Canonical i) (f : Reference)
    (hf : f = { act := some a.identifier, article := some (.range x y) }) :
    a.at f = .ok (a.articles.filter fun c =>
      decide (f.contains { act := some a.identifier, article := c.identifier.map .one } = .ok true)) := by
  subst hf
  unfold Act.at
  simp only [bne_self_eq_false, Bool.and_false, Bool.false_eq_true, if_false, Option.isNone_none, Bool.and_self, if_true]
  apply cut_canonical a.articles x y hx hy hcs
  intro c hc
  rw [contains_iff]
  have := range_loop x y (c.identifier.map .one) (tuple_map_one _) [none, none, none] [none, none, none] rfl (by simp)
    (by simp [isTuple]) [some (.one a.identifier)] (by simp [isTuple])
  simp only [components, List.cons_append, List.nil_append, Option.map_some] at this ⊢
  rw [this]
  cases c.identifier <;> simp

/-- C22. A range of paragraphs of an article gives, in order, exactly the paragraphs of that article whose own reference
it contains. -/
theorem range_of_paragraphs (a : Act) (hd : Spec.DistinctIds a) (r f : Reference) (i : Str) (t : Option Str)
    (cs : List Node) (h : Spec.ElementAt a r (.article i t cs)) (x y : Str) (hx : Spec.Canonical x)
    (hy : Spec.Canonical y) (hcs : ∀ c ∈ cs, ∀ i, c.identifier = some i → Spec.Canonical i)
    (hf : f = { r with paragraph := some (.range x y) }) :
    a.at f = .ok (cs.filter fun c =>
      decide (f.contains { r with paragraph := c.identifier.map .one } = .ok true)) := by
  obtain ⟨h1, rfl⟩ := elementAt_article h
  subst hf
  rw [act_at hd h1 _ rfl rfl]
  simp only [Spec.articleRef, Option.isNone_some, Bool.false_and, Bool.false_eq_true, if_false, articleAt]
  apply cut_canonical cs x y hx hy hcs
  intro c hc
  rw [contains_iff]
  have := range_loop x y (c.identifier.map .one) (tuple_map_one _) [none, none] [none, none] rfl (by simp)
    (by simp [isTuple]) [some (.one a.identifier), some (.one i)] (by simp [isTuple])
  simp only [components, List.cons_append, List.nil_append, Option.map_some] at this ⊢
  rw [this]
  cases c.identifier <;> simp

/-- C22. A range of points of a paragraph that has points gives, in order, exactly the points of that paragraph whose
own reference it contains. (Without any children the lookup is a KeyError.) -/
theorem range_of_points (a : Act) (hb : ∀ c ∈ a.children, Spec.Built c) (hd : Spec.DistinctIds a) (r f : Reference)
    (d : SaeData) (cs : List Node) (h : Spec.ElementAt a r (.sae .paragraph d cs)) (x y : Str) (hx : Spec.Canonical x)
    (hy : Spec.Canonical y) (hcs : ∀ c ∈ cs, ∀ i, c.identifier = some i → Spec.Canonical i)
    (hf : f = { r with point := some (.range x y) }) :
    (cs ≠ [] → a.at f = .ok (cs.filter fun c =>
      decide (f.contains { r with point := c.identifier.map .one } = .ok true))) ∧
    (cs = [] → a.at f = .error .keyError) := by
  obtain ⟨i, t, ps, h1, h2, rfl⟩ := elementAt_paragraph h
  subst hf
  rw [act_at hd h1 _ rfl rfl, articleAt_paragraph hd hb h1 h2 _ rfl]
  simp only [Spec.articleRef, Option.isNone_some, Bool.false_and, Bool.and_false, Bool.false_eq_true, if_false, paragraphAt]
  refine ⟨fun hne => ?_, fun he => by simp [he]⟩
  rw [if_neg (by simpa using hne)]
  apply cut_canonical cs x y hx hy hcs
  intro c hc
  rw [contains_iff]
  have := range_loop x y (c.identifier.map .one) (tuple_map_one _) [none] [none] rfl (by simp)
    (by simp [isTuple]) [some (.one a.identifier), some (.one i), d.identifier.map .one]
    (by simp [isTuple])
  simp only [components, List.cons_append, List.nil_append, Option.map_some] at this ⊢
  rw [this]
  cases c.identifier <;> simp

/-- C22. A range of subpoints of a point that has subpoints gives, in order, exactly the subpoints of that point whose
own reference it contains. (Without any children the lookup is a KeyError.) -/
theorem range_of_subpoints (a : Act) (hb : ∀ c ∈ a.children, Spec.Built c) (hd : Spec.DistinctIds a) (r f : Reference)
    (k : SaeKind) (hk : k = .alphabeticPoint ∨ k = .numericPoint) (d : SaeData) (cs : List Node)
    (h : Spec.ElementAt a r (.sae k d cs)) (x y : Str) (hx : Spec.Canonical x)
    (hy : Spec.Canonical y) (hcs : ∀ c ∈ cs, ∀ i, c.identifier = some i → Spec.Canonical i)
    (hf : f = { r with subpoint := some (.range x y) }) :
    (cs ≠ [] → a.at f = .ok (cs.filter fun c =>
      decide (f.contains { r with subpoint := c.identifier.map .one } = .ok true))) ∧
    (cs = [] → a.at f = .error .keyError) := by
  obtain ⟨r', e, ps, j, h', hp, hj, rfl⟩ := elementAt_point h hk
  obtain ⟨i, t, qs, h1, h2, rfl⟩ := elementAt_paragraph h'
  subst hf
  have hds : Spec.DistinctSiblings ps :=
    hd.2 _ (mem_articles h1) _ (own_child (n := .article i t qs) h2 (by simp [Node.type]))
  rw [act_at hd h1 _ rfl rfl, articleAt_paragraph hd hb h1 h2 _ rfl, paragraphAt_point hds hk hp hj _ rfl]
  have hpt : ∀ s, pointAt k cs (some (.range x y)) = s ↔ (if cs.isEmpty then .error .keyError else cutChildren cs x y) = s := by
    intro s; rcases hk with rfl | rfl <;> rfl
  simp only [Spec.articleRef, Option.isNone_some, Bool.and_false, Bool.false_eq_true, if_false, hpt]
  refine ⟨fun hne => ?_, fun he => by simp [he]⟩
  rw [if_neg (by simpa using hne)]
  apply cut_canonical cs x y hx hy hcs
  intro c hc
  rw [contains_iff]
  have := range_loop x y (c.identifier.map .one) (tuple_map_one _) [] [] rfl (by simp)
    (by simp) [some (.one a.identifier), some (.one i), e.identifier.map .one, some (.one j)]
    (by simp [isTuple])
  simp only [components, List.cons_append, List.nil_append, Option.map_some] at this ⊢
  rw [this]
  cases c.identifier <;> simp

example : sampleAct.at { act := some (py"X"), article := some (.range (py"1") (py"1/C")) } = .ok (sampleAct.articles.take 1) ∧
    sampleAct.at { article := some (.one (py"2")), paragraph := some (.range (py"1") (py"3")) } =
      .ok [.sae .paragraph { identifier := some (py"1"), text := some (py"t") } [],
        .sae .paragraph { identifier := some (py"2"), intro := some (py"in") } samplePoints] := by decide +kernel

/-- `range_of_points` for the points a)–b) of 2. § (2). -/
example : sampleAct.at { Spec.articleRef sampleAct (py"2") with paragraph := some (.one (py"2")), point := some (.range (py"a") (py"b")) } =
    .ok (samplePoints.filter fun c => decide (Reference.contains { Spec.articleRef sampleAct (py"2") with
      paragraph := some (.one (py"2")), point := some (.range (py"a") (py"b")) }
      { Spec.articleRef sampleAct (py"2") with paragraph := some (.one (py"2")), point := c.identifier.map .one } = .ok true)) :=
  (range_of_points _ sampleAct_built sampleAct_distinct _ _ _ _ sampleAct_points (py"a") (py"b") (by unfold Spec.Canonical; decide +kernel)
    (by unfold Spec.Canonical; decide +kernel) (by
      intro c hc i hi
      simp only [samplePoints, List.mem_cons, List.not_mem_nil, or_false] at hc
      rcases hc with rfl | rfl <;> cases hi <;> unfold Spec.Canonical <;> decide +kernel) rfl).1 (by decide)

/-! ## C23: mapping -/

theorem actArticle_clear (a : Act) (i : Str) : Clear 2 (Spec.articleRef a i) ∧ Spec.Single (Spec.articleRef a i) := by
  refine ⟨⟨fun _ => rfl, fun _ => rfl, fun _ => rfl⟩, single_iff.2 ?_⟩
  simp [Spec.articleRef, components, isTuple]

theorem articleRef_eq (a : Act) (i : Str) :
    Reference.relativeTo { article := some (.one i) } { act := some a.identifier } = Spec.articleRef a i := by
  simp [relativeTo, Spec.articleRef]

/-- One article, taken apart. -/
theorem mapArticle_cases {σ : Type} {m : Modifier σ} {filter : Option Reference} {cf : Bool} {depth : Nat} {a : Act}
    {i : Str} {t : Option Str} {cs : List Node} {n' : Node} {s s' : σ}
    (h : mapArticle m filter cf depth { act := some a.identifier } (.article i t cs) s = .ok (n', s')) :
    (outsideFilter filter (Spec.articleRef a i) = .ok true ∧ n' = .article i t cs ∧ s' = s) ∨
    ∃ cs', mapLoop (fun c s => do assertParagraph (← mapSae m filter cf depth (Spec.articleRef a i) c s)) cs s
      = .ok (cs', s') ∧ n' = .article i t cs' := by
  simp only [mapArticle, articleRef_eq, bind, Except.bind] at h
  cases ho : outsideFilter filter (Spec.articleRef a i) with
  | error e => simp [ho] at h
  | ok b =>
    cases b with
    | true =>
      simp only [ho, if_true, Except.ok.injEq, Prod.mk.injEq] at h
      exact .inl ⟨rfl, h.1.symm, h.2.symm⟩
    | false =>
      right
      simp only [ho, Bool.false_eq_true, if_false] at h
      generalize hl : mapLoop (fun c s => do assertParagraph (← mapSae m filter cf depth (Spec.articleRef a i) c s)) cs s = L
      simp only [bind, Except.bind] at hl
      rw [hl] at h
      cases L with
      | error e => simp at h
      | ok v =>
        obtain ⟨cs1, s1⟩ := v
        simp only at h
        cases he : evolveIfChanged (.article i t cs) cs1 with
        | error e => simp [he] at h
        | ok n1 =>
          simp only [he, Except.ok.injEq, Prod.mk.injEq] at h
          refine ⟨cs1, by rw [h.2], ?_⟩
          rw [← h.1]
          unfold evolveIfChanged at he
          split at he
          · rename_i e
            simp only [Except.ok.injEq] at he
            rw [← he, e]; rfl
          · simp only [Node.withChildren, mkArticle] at he
            split at he
            · cases he
            · simpa using he.symm

theorem assertParagraph_ok {σ : Type} {x : Res (Node × σ)} {v : Node × σ} (h : (do assertParagraph (← x)) = .ok v) :
    x = .ok v := by
  cases x with
  | error e => simp [bind, Except.bind] at h
  | ok w =>
    simp only [bind, Except.bind, assertParagraph] at h
    split at h
    · simpa using h
    · cases h

/-- A filter that prunes an article selects nothing in it. -/
theorem pruned_article {filter : Option Reference} (hf : ∀ f, filter = some f → Spec.RangeLast f) (a : Act) (i : Str)
    (t : Option Str) (cs : List Node) (hb : Spec.Built (.article i t cs))
    (ho : outsideFilter filter (Spec.articleRef a i) = .ok true) :
    ∀ x ∈ Spec.preorderL (Spec.articleRef a i) cs, ¬ Spec.Selected filter x.1 := by
  obtain ⟨f, rfl, h1, h2⟩ := outside_true ho
  intro x hx hs
  obtain ⟨c, hc, hx⟩ := mem_preorderL.1 hx
  obtain ⟨d, ps, rfl⟩ := type_paragraph ((built_article hb).2.1 c hc)
  obtain ⟨hcl, hsi⟩ := actArticle_clear a i
  have hr : Spec.refOf (Spec.articleRef a i) .paragraph d.identifier =
    some { Spec.articleRef a i with paragraph := d.identifier.map .one } := rfl
  have ha := preorder_agree _ .paragraph d ps _ _ rfl ((built_article hb).1 _ hc) hr x hx
  have ha2 : Agree 2 (Spec.articleRef a i) x.1 := (refOf_agree hr).trans (ha.mono (by simp [levelOf]))
  rcases prune_reference f (Spec.articleRef a i) x.1 2 (by omega) (hf f rfl) hsi (preorder_single _ _ hsi x hx) hcl ha2
    (hs f rfl) with h | h
  · rw [h1] at h; cases h
  · rw [h2] at h; cases h

/-- C23. Parents first: the mapping calls the modifier on exactly the elements whose reference is contained in the
filter, each once, in document order, on the unchanged element. For every modifier that leaves alone the children of
the element it is given, and every filter whose range, if any, is its last component. -/
theorem map_visits_parents_first_partial {σ : Type} (a a' : Act) (hb : ∀ c ∈ a.children, Spec.Built c) (m : Modifier σ)
    (hm : ∀ r n s n' s', m r n s = .ok (n', s') → n'.children = n.children)
    (filter : Option Reference) (hf : ∀ f, filter = some f → Spec.RangeLast f) (depth : Nat) (s s' : σ)
    (calls : List (Reference × Node))
    (h : a.mapSaes (Spec.recording m) filter false depth ([], s) = .ok (a', calls, s')) :
    calls = (Spec.actPreorder a).filter fun x => decide (Spec.Selected filter x.1) := by
  simp only [Act.mapSaes, Act.mapArticles, bind, Except.bind] at h
  split at h
  · cases h
  rename_i v hl
  obtain ⟨cs1, l1, s1⟩ := v
  simp only [Except.ok.injEq, Prod.mk.injEq] at h
  have := mapLoop_trace (g := fun c => (match c with
      | .article i _ cs => Spec.preorderL (Spec.articleRef a i) cs
      | _ => []).filter fun x => decide (Spec.Selected filter x.1)) a.children cs1 [] l1 s s1 ?_ hl
  · rw [← h.2.1, this, Spec.actPreorder, filter_flatMap']
    rfl
  · intro c hc l s c' l' s' hcall
    cases c with
    | article i t cs =>
      simp only [callInFilter] at hcall
      rcases mapArticle_cases hcall with ⟨h1, -, h3⟩ | ⟨cs', h1, -⟩
      · simp only [Prod.mk.injEq] at h3
        rw [filter_selected_nil (pruned_article hf a i t cs (hb _ hc) h1)]
        simp [h3.1]
      · have := mapLoop_trace (g := fun c => (Spec.preorder (Spec.articleRef a i) c).filter fun x =>
          decide (Spec.Selected filter x.1)) cs cs' l l' s s' ?_ h1
        · rw [this]; simp only [preorderL_flatMap, filter_flatMap']
        · intro c hcc l s c' l' s' hcall
          obtain ⟨d, ps, rfl⟩ := type_paragraph ((built_article (hb _ hc)).2.1 c hcc)
          exact mapSae_preorder hf hm depth .paragraph d ps _ l l' s s' c' ((built_article (hb _ hc)).1 _ hcc)
            (actArticle_clear a i).1 (actArticle_clear a i).2 (assertParagraph_ok hcall)
    | _ =>
      simp only [Except.ok.injEq, Prod.mk.injEq] at hcall
      simp [hcall.2.1]

/-- C23. Children first: the mapping calls the modifier on exactly the elements whose reference is contained in the
filter, each once, in document order; each has its own contents, and its children as they have been changed before. For
every modifier, and every filter whose range, if any, is its last component. -/
theorem map_visits_children_first_partial {σ : Type} (a a' : Act) (hb : ∀ c ∈ a.children, Spec.Built c) (m : Modifier σ)
    (filter : Option Reference) (hf : ∀ f, filter = some f → Spec.RangeLast f) (depth : Nat) (s s' : σ)
    (calls : List (Reference × Node))
    (h : a.mapSaes (Spec.recording m) filter true depth ([], s) = .ok (a', calls, s')) :
    calls.map (fun x => (x.1, Spec.bare x.2)) =
      ((Spec.actPostorder a).filter fun x => decide (Spec.Selected filter x.1)).map fun x => (x.1, Spec.bare x.2) := by
  simp only [Act.mapSaes, Act.mapArticles, bind, Except.bind] at h
  split at h
  · cases h
  rename_i v hl
  obtain ⟨cs1, l1, s1⟩ := v
  simp only [Except.ok.injEq, Prod.mk.injEq] at h
  have := mapLoop_trace_map (v := bareEntry) (g := fun c => ((match c with
      | .article i _ cs => Spec.postorderL (Spec.articleRef a i) cs
      | _ => []).filter fun (x : Reference × Node) => decide (Spec.Selected filter x.1)).map bareEntry) a.children cs1 [] l1 s s1 ?_ hl
  · rw [← h.2.1, Spec.actPostorder, filter_flatMap', List.map_flatMap]
    exact this
  · intro c hc l s c' l' s' hcall
    cases c with
    | article i t cs =>
      simp only [callInFilter] at hcall
      rcases mapArticle_cases hcall with ⟨h1, -, h3⟩ | ⟨cs', h1, -⟩
      · simp only [Prod.mk.injEq] at h3
        have : ∀ x ∈ Spec.postorderL (Spec.articleRef a i) cs, ¬ Spec.Selected filter x.1 := by
          intro x hx
          obtain ⟨c, hc', hx⟩ := mem_postorderL.1 hx
          exact pruned_article hf a i t cs (hb _ hc) h1 x (mem_preorderL.2 ⟨c, hc', (mem_postorder _ _ x).1 hx⟩)
        rw [filter_selected_nil this]
        simp [h3.1]
      · have := mapLoop_trace_map (v := bareEntry) (g := fun c => ((Spec.postorder (Spec.articleRef a i) c).filter fun x =>
          decide (Spec.Selected filter x.1)).map bareEntry) cs cs' l l' s s' ?_ h1
        · rw [this]; simp only [postorderL_flatMap, filter_flatMap', List.map_flatMap]
        · intro c hcc l s c' l' s' hcall
          obtain ⟨d, ps, rfl⟩ := type_paragraph ((built_article (hb _ hc)).2.1 c hcc)
          exact mapSae_postorder hf depth .paragraph d ps _ l l' s s' c' ((built_article (hb _ hc)).1 _ hcc)
            (actArticle_clear a i).1 (actArticle_clear a i).2 (assertParagraph_ok hcall)
    | _ =>
      simp only [Except.ok.injEq, Prod.mk.injEq] at hcall
      simp [hcall.2.1]

/-- C23. Both listings have the same elements. -/
theorem orders_agree (a : Act) (x : Reference × Node) : x ∈ Spec.actPostorder a ↔ x ∈ Spec.actPreorder a := by
  unfold Spec.actPostorder Spec.actPreorder
  rw [List.mem_flatMap, List.mem_flatMap]
  have : ∀ c : Node, (x ∈ (match c with
      | .article i _ cs => Spec.postorderL (Spec.articleRef a i) cs
      | _ => [])) ↔ (x ∈ (match c with
      | .article i _ cs => Spec.preorderL (Spec.articleRef a i) cs
      | _ => [])) := by
    intro c
    cases c with
    | article i t cs =>
      rw [mem_postorderL, mem_preorderL]
      exact ⟨fun ⟨c, h1, h2⟩ => ⟨c, h1, (mem_postorder c _ x).1 h2⟩, fun ⟨c, h1, h2⟩ => ⟨c, h1, (mem_postorder c _ x).2 h2⟩⟩
    | _ => simp
  exact ⟨fun ⟨c, h1, h2⟩ => ⟨c, h1, (this c).1 h2⟩, fun ⟨c, h1, h2⟩ => ⟨c, h1, (this c).2 h2⟩⟩

/-- C23. The restriction on filters is needed: a filter with a range above its last component can hide a selected
element. 1–3. § (2) contains 1. § (5), but neither contains 1. § nor is contained in it, so the mapping does not look
into 1. § and calls the modifier on nothing. -/
theorem range_above_hides :
    ∃ (a : Act) (f : Reference) (x : Reference × Node), (∀ c ∈ a.children, Spec.Built c) ∧ x ∈ Spec.actPreorder a ∧
      f.contains x.1 = .ok true ∧
      a.mapSaes (Spec.recording (fun _ n (s : Unit) => .ok (n, s))) (some f) false 3 ([], ()) = .ok (a, [], ()) :=
  ⟨{ identifier := py"X", publicationDate := ⟨2020, 1, 1⟩, subject := [], preamble := [],
     children := [.article (py"1") none [.sae .paragraph { identifier := some (py"5"), text := some (py"t") } []]] },
   { act := some (py"X"), article := some (.range (py"1") (py"3")), paragraph := some (.one (py"2")) },
   ({ act := some (py"X"), article := some (.one (py"1")), paragraph := some (.one (py"5")) },
    .sae .paragraph { identifier := some (py"5"), text := some (py"t") } []),
   built_of_testL (by decide +kernel), by decide +kernel, by decide +kernel, by decide +kernel⟩

example : (sampleAct.mapSaes (Spec.recording (idModifier Unit))
      (some { act := some (py"X"), article := some (.one (py"2")), paragraph := some (.range (py"2") (py"3")) }) true 3 ([], ())).toOption.map
      (fun v => v.2.1.map fun x => x.2.identifier) = some [some (py"a"), some (py"ba"), some (py"b"), some (py"2")] ∧
    Spec.RangeLast { act := some (py"X"), article := some (.one (py"2")), paragraph := some (.range (py"2") (py"3")) } := by
  refine ⟨by decide +kernel, ?_⟩
  intro p x y s h c hc
  match p, h with
  | [_, _], h => simp [components] at h; simp [← h.2] at hc; exact hc
  | [_, _, _], h => simp [components] at h
  | [_, _, _, _], h => simp [components] at h
  | [_], h => simp [components] at h
  | [], h => simp [components] at h
  | _ :: _ :: _ :: _ :: _ :: _, h => simp [components] at h

/-! ## C24: mapping changes nothing else -/

/-- C24. Mapping with the modifier that does nothing succeeds and returns the act unchanged, in both orders and at every
recursion limit from 3 on, provided that the questions asked of the filter have answers (as they do without a filter, or
when all identifiers are readable). -/
theorem map_identity {σ : Type} (a : Act) (hb : ∀ c ∈ a.children, Spec.Built c) (filter : Option Reference)
    (cf : Bool) (depth : Nat) (hd : 3 ≤ depth) (s : σ)
    (hart : ∀ i t cs, .article i t cs ∈ a.children → Answered filter (Spec.articleRef a i))
    (hans : ∀ x ∈ Spec.actPreorder a, Answered filter x.1) :
    a.mapSaes (fun _ n s => .ok (n, s)) filter cf depth s = .ok (a, s) := by
  have : mapLoop (fun c s => match c with
      | .article i _ _ => callInFilter (fun _ n s => mapArticle (idModifier σ) filter cf depth { act := some a.identifier } n s)
          none { act := some a.identifier, article := some (.one i) } c s
      | c => .ok (c, s)) a.children s = .ok (a.children, s) := by
    apply mapLoop_id
    intro c hc s
    cases c with
    | article i t cs =>
      simp only [callInFilter, mapArticle, articleRef_eq]
      obtain ⟨b, ho⟩ := outside_answered (hart i t cs hc)
      rw [ho]
      cases b with
      | true => simp [bind, Except.bind]
      | false =>
        have hl : mapLoop (fun c s => do assertParagraph (← mapSae (idModifier σ) filter cf depth (Spec.articleRef a i) c s)) cs s
            = .ok (cs, s) := by
          apply mapLoop_id
          intro c hcc s
          obtain ⟨d, ps, rfl⟩ := type_paragraph ((built_article (hb _ hc)).2.1 c hcc)
          have := mapSae_id (σ := σ) (filter := filter) (cf := cf) depth .paragraph d ps (Spec.articleRef a i) s
            ((built_article (hb _ hc)).1 _ hcc) (actArticle_clear a i).1 hd
            (fun x hx => hans x (List.mem_flatMap.2 ⟨_, hc, mem_preorderL.2 ⟨_, hcc, hx⟩⟩))
          rw [this]
          rfl
        simp only [bind, Except.bind] at hl ⊢
        rw [hl]
        have := evolve_same (.article i t cs)
        simp only [Node.children] at this
        simp [this]
    | _ => rfl
  exact congrArg (fun r : Res (List Node × σ) => r >>= fun v => .ok ({ a with children := v.1 }, v.2)) this

/-- C24. The answers exist whenever identifiers are readable. -/
theorem readable_answered (f r : Reference) (hf : Spec.AllIdents Spec.Readable f) (hr : Spec.AllIdents Spec.Readable r) :
    Answered (some f) r := by
  intro g e
  cases e
  exact ⟨contains_answers r f hr hf, contains_answers f r hf hr⟩

/-- C24. Without a filter they always exist. -/
theorem unfiltered_answered (r : Reference) : Answered none r := by intro f h; cases h

/-- C24. Whatever the modifier does, elements outside the filter keep their place and contents, and so does everything
in them that is outside the filter; what is not in an article is not touched at all, and the act's own attributes stay. -/
theorem map_keeps {σ : Type} (a a' : Act) (hb : ∀ c ∈ a.children, Spec.Built c) (m : Modifier σ)
    (filter : Option Reference) (cf : Bool) (depth : Nat) (s s' : σ)
    (h : a.mapSaes m filter cf depth s = .ok (a', s')) :
    Spec.KeptAct (Spec.Selected filter) a a.children a'.children ∧
    a' = { a with children := a'.children } := by
  have loop : ∀ (cs cs' : List Node) (s s' : σ), (∀ c ∈ cs, Spec.Built c) → mapLoop (fun c s => match c with
      | .article i _ _ => callInFilter (fun _ n s => mapArticle m filter cf depth { act := some a.identifier } n s)
          none { act := some a.identifier, article := some (.one i) } c s
      | c => .ok (c, s)) cs s = .ok (cs', s') → Spec.KeptAct (Spec.Selected filter) a cs cs' := by
    intro cs
    induction cs with
    | nil =>
      intro cs' s s' _ h
      simp only [mapLoop, Except.ok.injEq, Prod.mk.injEq] at h
      rw [← h.1]; exact .nil
    | cons c cs ih =>
      intro cs' s s' hb h
      simp only [mapLoop, bind, Except.bind] at h
      split at h
      · cases h
      rename_i v h1
      obtain ⟨c1, s1⟩ := v
      simp only at h
      split at h
      · cases h
      rename_i w h2
      obtain ⟨cs2, s2⟩ := w
      simp only [Except.ok.injEq, Prod.mk.injEq] at h
      rw [← h.1]
      have hrest := ih cs2 s1 s2 (fun c hc => hb c (by simp [hc])) h2
      cases c with
      | article i t ps =>
        simp only [callInFilter] at h1
        rcases mapArticle_cases h1 with ⟨-, e, -⟩ | ⟨ps', hl, e⟩
        · rw [e]; exact .same _ hrest
        · rw [e]
          refine .article ?_ hrest
          refine mapLoop_kept ps ps' s s1 ?_ hl
          intro c hcc s c' s' hcall
          have hba := built_article (hb _ (List.mem_cons_self ..))
          obtain ⟨d, qs, rfl⟩ := type_paragraph (hba.2.1 c hcc)
          exact mapSae_kept depth .paragraph d qs _ s s' c' (hba.1 _ hcc) (actArticle_clear a i).1 (assertParagraph_ok hcall)
      | _ =>
        simp only [Except.ok.injEq, Prod.mk.injEq] at h1
        rw [← h1.1]; exact .same _ hrest
  simp only [Act.mapSaes, Act.mapArticles, bind, Except.bind] at h
  split at h
  · cases h
  rename_i v hl
  obtain ⟨cs1, s1⟩ := v
  simp only [Except.ok.injEq, Prod.mk.injEq] at h
  rw [← h.1]
  exact ⟨loop a.children cs1 s s1 hb hl, rfl⟩

mutual
theorem kept_same {sel : Reference → Prop} : ∀ {p : Reference} {n n' : Node}, Spec.Kept sel p n n' →
    (∀ x ∈ Spec.preorder p n, ¬ sel x.1) → n' = n
  | _, _, _, .same _ _, _ => rfl
  | p, .sae k d cs, _, .selected _ hr h, hn => by
    refine absurd h (hn (_, .sae k d cs) ?_)
    rw [Spec.preorder, hr]
    simp
  | p, .sae k d cs, _, .inside hr h, hn => by
    rw [keptL_same h ?_]
    intro x hx
    exact hn x (by rw [Spec.preorder, hr]; exact List.mem_cons_of_mem _ hx)

theorem keptL_same {sel : Reference → Prop} : ∀ {p : Reference} {cs cs' : List Node}, Spec.KeptL sel p cs cs' →
    (∀ x ∈ Spec.preorderL p cs, ¬ sel x.1) → cs' = cs
  | _, _, _, .nil _, _ => rfl
  | p, c :: cs, _, .cons h hs, hn => by
    rw [kept_same h fun x hx => hn x (by simp [Spec.preorderL, hx]),
      keptL_same hs fun x hx => hn x (by simp [Spec.preorderL, hx])]
end

/-- C24. An element that is outside the filter together with everything in it is exactly as before. -/
theorem kept_outside (filter : Option Reference) (p : Reference) (n n' : Node)
    (h : Spec.Kept (Spec.Selected filter) p n n') (hn : ∀ x ∈ Spec.preorder p n, ¬ Spec.Selected filter x.1) : n' = n :=
  kept_same h hn

/-- C24. If the filter selects nothing, nothing changes. -/
theorem map_outside {σ : Type} (a a' : Act) (hb : ∀ c ∈ a.children, Spec.Built c) (m : Modifier σ)
    (filter : Option Reference) (cf : Bool) (depth : Nat) (s s' : σ)
    (h : a.mapSaes m filter cf depth s = .ok (a', s')) (hn : ∀ x ∈ Spec.actPreorder a, ¬ Spec.Selected filter x.1) : a' = a := by
  obtain ⟨h1, h2⟩ := map_keeps a a' hb m filter cf depth s s' h
  have : ∀ cs cs' : List Node, (∀ c ∈ cs, c ∈ a.children) → Spec.KeptAct (Spec.Selected filter) a cs cs' → cs' = cs := by
    intro cs cs' hsub hk
    induction hk with
    | nil => rfl
    | same c _ ih => rw [ih fun c hc => hsub c (by simp [hc])]
    | @article i t ps ps' cs cs' hp _ ih =>
      rw [ih fun c hc => hsub c (by simp [hc]), keptL_same hp fun x hx => hn x (List.mem_flatMap.2 ⟨.article i t ps, hsub _ (by simp), hx⟩)]
  rw [h2, this a.children a'.children (fun _ h => h) h1]

/-- C24. What the modifier changes arrives in the result: if it changes the own contents of elements, the mapped act has
exactly these changes at exactly the selected elements, in both orders. -/
theorem map_applies {σ : Type} (a a' : Act) (hb : ∀ c ∈ a.children, Spec.Built c)
    (f : Reference → SaeKind → SaeData → SaeData) (filter : Option Reference)
    (hf : ∀ f, filter = some f → Spec.RangeLast f) (cf : Bool) (depth : Nat) (s s' : σ)
    (h : a.mapSaes (Spec.editing f) filter cf depth s = .ok (a', s')) :
    a'.children = a.children.map fun c => match c with
      | .article i t ps => .article i t (Spec.editedL (fun r => decide (Spec.Selected filter r)) f (Spec.articleRef a i) ps)
      | c => c := by
  simp only [Act.mapSaes, Act.mapArticles, bind, Except.bind] at h
  split at h
  · cases h
  rename_i v hl
  obtain ⟨cs1, s1⟩ := v
  simp only [Except.ok.injEq, Prod.mk.injEq] at h
  rw [← h.1]
  refine mapLoop_map a.children cs1 s s1 ?_ hl
  intro c hc s c' s' hcall
  cases c with
  | article i t ps =>
    simp only [callInFilter] at hcall
    rcases mapArticle_cases hcall with ⟨h1, h2, -⟩ | ⟨cs', h1, h2⟩
    · rw [h2]
      simp only
      rw [editedL_none]
      intro x hx
      exact decide_eq_false (pruned_article hf a i t ps (hb _ hc) h1 x hx)
    · rw [h2]
      simp only
      rw [editedL_map, mapLoop_map ps cs' s s' ?_ h1]
      intro c hcc s c' s' hcall
      have hba := built_article (hb _ hc)
      obtain ⟨d, qs, rfl⟩ := type_paragraph (hba.2.1 c hcc)
      exact mapSae_edited hf depth .paragraph d qs _ s s' c' (hba.1 _ hcc) (actArticle_clear a i).1
        (actArticle_clear a i).2 (assertParagraph_ok hcall)
  | _ =>
    simp only [Except.ok.injEq, Prod.mk.injEq] at hcall
    exact hcall.1.symm

example : (match sampleAct.mapSaes (Spec.editing fun _ _ d => { d with semantic := some [] })
      (some { act := some (py"X"), article := some (.one (py"2")) }) false 5 () with
    | .ok (a', _) => decide (a' ≠ sampleAct ∧ a'.children.take 2 = sampleAct.children.take 2)
    | .error _ => false) = true := by
  decide +kernel

/-- C24. Mapping over articles calls the modifier on exactly the articles whose reference the filter contains, and all
other children of the act stay as they are. -/
theorem map_articles_keeps {σ : Type} (a a' : Act) (m : Modifier σ) (filter : Option Reference) (s s' : σ)
    (calls : List (Reference × Node))
    (h : a.mapArticles (Spec.recording m) filter ([], s) = .ok (a', calls, s')) :
    calls = (a.articles.filterMap fun c => c.identifier.map fun i => (Spec.articleRef a i, c)).filter
      (fun x => decide (Spec.Selected filter x.1)) ∧
    a'.children.length = a.children.length ∧
    ∀ (k : Nat) (c : Node), a.children[k]? = some c →
      (∀ i, c.isArticle = true → c.identifier = some i → ¬ Spec.Selected filter (Spec.articleRef a i)) →
      a'.children[k]? = some c := by
  have loop : ∀ (cs cs' : List Node) (l l' : List (Reference × Node)) (s s' : σ), mapLoop (fun c s => match c with
      | .article i _ _ => callInFilter (Spec.recording m) filter { act := some a.identifier, article := some (.one i) } c s
      | c => .ok (c, s)) cs (l, s) = .ok (cs', l', s') →
      l' = l ++ ((cs.filter Node.isArticle).filterMap fun c => c.identifier.map fun i => (Spec.articleRef a i, c)).filter
        (fun x => decide (Spec.Selected filter x.1)) ∧ cs'.length = cs.length ∧
      ∀ (k : Nat) (c : Node), cs[k]? = some c →
        (∀ i, c.isArticle = true → c.identifier = some i → ¬ Spec.Selected filter (Spec.articleRef a i)) →
        cs'[k]? = some c := by
    intro cs
    induction cs with
    | nil =>
      intro cs' l l' s s' h
      simp only [mapLoop, Except.ok.injEq, Prod.mk.injEq] at h
      simp [← h.1, h.2.1]
    | cons c cs ih =>
      intro cs' l l' s s' h
      simp only [mapLoop, bind, Except.bind] at h
      split at h
      · cases h
      rename_i v h1
      obtain ⟨c1, l1, s1⟩ := v
      simp only at h
      split at h
      · cases h
      rename_i w h2
      obtain ⟨cs2, l2, s2⟩ := w
      simp only [Except.ok.injEq, Prod.mk.injEq] at h
      obtain ⟨e1, e2, e3⟩ := ih cs2 l1 l2 s1 s2 h2
      have hc : l1 = l ++ (([c].filter Node.isArticle).filterMap fun c => c.identifier.map fun i =>
          (Spec.articleRef a i, c)).filter (fun x => decide (Spec.Selected filter x.1)) ∧
          ((∀ i, c.isArticle = true → c.identifier = some i → ¬ Spec.Selected filter (Spec.articleRef a i)) → c1 = c) := by
        cases c with
        | article i t ps =>
          obtain ⟨k1, k2⟩ := callInFilter_recording h1
          refine ⟨?_, ?_⟩
          · rw [k1]
            change _ = l ++ ([(Spec.articleRef a i, Node.article i t ps)].filter _)
            rw [List.filter_cons]
            simp only [decide_eq_true_eq, List.filter_nil]
            rfl
          · intro hns
            rcases k2 with ⟨k2, -⟩ | ⟨-, k2, -⟩
            · exact absurd k2 (hns i rfl rfl)
            · exact k2
        | _ =>
          simp only [Except.ok.injEq, Prod.mk.injEq] at h1
          exact ⟨by simp [Node.isArticle, h1.2.1], fun _ => h1.1.symm⟩
      refine ⟨?_, ?_, ?_⟩
      · rw [← h.2.1, e1, hc.1, List.append_assoc, ← List.filter_append, ← List.filterMap_append, ← List.filter_append]
        rfl
      · rw [← h.1]; simp [e2]
      · rw [← h.1]
        intro k c0 hk hns
        cases k with
        | zero =>
          simp only [List.getElem?_cons_zero, Option.some.injEq] at hk ⊢
          subst hk
          exact hc.2 hns
        | succ k =>
          simp only [List.getElem?_cons_succ] at hk ⊢
          exact e3 k c0 hk hns
  simp only [Act.mapArticles, bind, Except.bind] at h
  split at h
  · cases h
  rename_i v hl
  obtain ⟨cs1, l1, s1⟩ := v
  simp only [Except.ok.injEq, Prod.mk.injEq] at h
  have := loop a.children cs1 [] l1 s s1 hl
  rw [← h.1, ← h.2.1]
  simpa [Act.articles] using this

example : (sampleAct.mapSaes (fun _ n (s : Nat) => .ok (match n with
      | .sae k d cs => .sae k { d with intro := d.intro.map (· ++ py"!") } cs
      | n => n, s + 1))
    (some { act := some (py"X"), article := some (.one (py"1")) }) false 3 0).toOption.map (fun v => (v.2, v.1 == sampleAct,
      v.1.children[2]? == sampleAct.children[2]?)) = some (4, false, true) := by decide +kernel

end Verif.Props
