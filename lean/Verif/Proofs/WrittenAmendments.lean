import Verif.Spec.WrittenAmendments
import Verif.Proofs.Usual
import Verif.Proofs.Amendments
import Verif.Proofs.Grammar

/-! # Amendments that are written in the usual way are made -/

namespace Verif
open Spec

theorem introduction_split {d : SaeData} {actual : Str} {inner wrapUp : Option Str} (h : IntroductionDivided d actual inner wrapUp) :
    ∃ intro, d.intro = some intro ∧ splitContext intro d.wrapUp = (actual, inner, wrapUp) := by
  obtain ⟨intro, hi, h⟩ := h
  refine ⟨intro, hi, ?_⟩
  rcases splitContext_cases intro d.wrapUp with ⟨i, h1, h2, h3⟩ | ⟨h1, h2, h3, h4⟩ <;> rcases h with ⟨j, g1, rfl, rfl⟩ | ⟨g1, rfl, rfl, rfl⟩
  · obtain ⟨x, r, ea, ei, hx, hr, hmax⟩ := h1
    obtain ⟨y, s, eb, ej, hy, hs, hmax'⟩ := g1
    have l1 := hmax y s j (by rw [ej, eb]; simp) hy hs
    have l2 := hmax' x r i (by rw [ei, ea]; simp) hx hr
    have e : actual = (splitContext intro d.wrapUp).1 ∧ s = r := by
      have : actual ++ s = (splitContext intro d.wrapUp).1 ++ r := ej.symm.trans ei
      exact List.append_inj this (by rw [ea, eb]; simp; omega)
    obtain ⟨rfl, rfl⟩ := e
    obtain rfl := InBrackets.inj hr hs
    exact Prod.ext rfl (Prod.ext h2 h3)
  · exact absurd h1 (g1 _ _)
  · exact absurd g1 (h1 _ _)
  · exact Prod.ext h2 (Prod.ext h3 h4)

theorem paragraph_after {analyze : Analyzer} {n n' : Node} (hb : Built n) (h : ParagraphAfter analyze n n') : blockParagraph analyze n = .ok n' := by
  cases h with
  | @plain k d cs other =>
    have : childrenType k (optChildren cs) ≠ .ok (some .quoted) := by
      intro hc
      obtain ⟨h1, h2⟩ := childrenType_quoted.1 hc
      rcases other with h | ⟨c, hc, h⟩
      · exact h1 h
      · exact h (h2 c hc)
    simp only [blockParagraph]
    rw [if_pos this]
  | @long k d cs intro introduced length =>
    simp only [blockParagraph, introduced]
    split
    · rfl
    · first
      | rw [if_pos length]
      | rfl
  | @silent k d cs intro actual analysis introduced announcement analysed none =>
    simp only [blockParagraph, introduced]
    split
    · rfl
    · split
      · rfl
      · rw [← announcement_unique d.wrapUp announcement, analysed]
        simp only
        cases hf : firstBlockAmendment analysis.semantic with
        | none => rfl
        | some p =>
          obtain ⟨b, q, a, e, _⟩ := firstBlockAmendment_some hf
          exact absurd rfl (none _ (by rw [e]; simp) p q)
  | @amended d lines position actual inner wrapUp cs announces divided fine written =>
    have hc := amendment_written written fine
    obtain ⟨n', hn⟩ := blockParagraph_parsable hb rfl announces ⟨lines, cs, rfl, hc⟩
    obtain ⟨k, d', lines', intro', actual', inner', wrapUp', cs', e, hi', hc', hd', rfl⟩ := blockParagraph_amended announces hn
    obtain ⟨rfl, rfl, hl⟩ := Node.sae.inj e
    obtain rfl := Node.quoted.inj (List.cons.inj hl).1
    obtain rfl := Except.ok.inj (hc.symm.trans hc')
    obtain ⟨i1, h1, h2⟩ := introduction_split divided
    obtain ⟨i2, h3, h4⟩ := introduction_split (d := d) ⟨intro', hi', hd'⟩
    obtain rfl := Option.some.inj (h1.symm.trans h3)
    rw [h2] at h4
    obtain ⟨h5, h4⟩ := Prod.mk.inj h4
    obtain ⟨h6, h7⟩ := Prod.mk.inj h4
    rw [h5, h6, h7]
    exact hn

theorem paragraph_after_identifier {analyze : Analyzer} {n n' : Node} (h : ParagraphAfter analyze n n') : n'.identifier = n.identifier := by
  cases h <;> rfl

theorem mapRes_both {α β : Type} {f : α → Res β} {as : List α} {bs : List β} (h : Both (fun a b => f a = .ok b) as bs) : mapRes f as = .ok bs := by
  induction h with
  | nil => rfl
  | cons h _ ih => simp only [mapRes, h, ih, bind, Except.bind]

theorem article_after {analyze : Analyzer} {n n' : Node} (hb : Built n) (h : ElementAfterAmendments analyze n n') : blockArticle analyze n = .ok n' := by
  cases h with
  | structural s => rfl
  | @article i t ps ps' paragraphs =>
    have hps : (∀ p ∈ ps, Built p) ∧ mkArticle i t ps = .ok (.article i t ps) := by
      cases hb with
      | sae children parts made => obtain ⟨e, _⟩ := mkSae_ok made; cases e
      | @article i' t' _ children parts typed made =>
        have made' := made
        unfold mkArticle at made
        split at made
        · cases made
        · obtain ⟨rfl, rfl, rfl⟩ := Node.article.inj (Except.ok.inj made)
          exact ⟨parts, made'⟩
    have hm : mapRes (blockParagraph analyze) ps = .ok ps' :=
      mapRes_both (paragraphs.imp fun p hp p' _ h => paragraph_after (hps.1 p hp) h)
    have ids : ps'.map Node.identifier = ps.map Node.identifier := by
      clear hm hps hb
      induction paragraphs with
      | nil => rfl
      | cons h _ ih => rw [List.map_cons, List.map_cons, ih, paragraph_after_identifier h]
    simp only [blockArticle, hm, bind, Except.bind]
    have h2 := hps.2
    unfold mkArticle at h2 ⊢
    have e1 : ps'.any (fun c => c.identifier.isNone) = ps.any (fun c => c.identifier.isNone) := by
      have := congrArg (fun l => l.any Option.isNone) ids
      simpa [List.any_map, Function.comp_def] using this
    have e2 : ps'.length = ps.length := by simpa using congrArg List.length ids
    rw [e1, e2]
    split at h2
    · cases h2
    · rename_i hx; rw [if_neg hx]

theorem amendments_made {analyze : Analyzer} {act : Act} {ns : List Node} (hb : ∀ n ∈ act.children, Built n)
    (h : Both (ElementAfterAmendments analyze) act.children ns) : parseBlockAmendments analyze act = .ok { act with children := ns } := by
  unfold parseBlockAmendments
  rw [mapRes_both (h.imp fun c hc c' _ h => article_after (hb c hc) h)]
  rfl

/-! ## What is replaced and what is new after it -/

theorem last_set {l pre s pre' s' : List (Option Ident)} {x y : Ident} (h : l = pre ++ some x :: s) (hs : ∀ c ∈ s, c = none)
    (h' : l = pre' ++ some y :: s') (hs' : ∀ c ∈ s', c = none) : pre = pre' ∧ x = y ∧ s = s' := by
  have len : pre.length = pre'.length := by
    have e := h.symm.trans h'
    have key : ∀ {p q s t : List (Option Ident)} {x y : Ident}, p ++ some x :: s = q ++ some y :: t → (∀ c ∈ s, c = none) → ¬ p.length < q.length := by
      intro p q s t x y e hs hl
      have e1 : (p ++ some x :: s)[q.length]? = some (some y) := by rw [e]; simp
      rw [List.getElem?_append_right (by omega)] at e1
      obtain ⟨k, hk⟩ : ∃ k, q.length - p.length = k + 1 := ⟨q.length - p.length - 1, by omega⟩
      rw [hk, List.getElem?_cons_succ] at e1
      cases hs _ (List.mem_of_getElem? e1)
    have h1 := key e hs
    have h2 := key e.symm hs'
    omega
  obtain ⟨h1, h2⟩ := List.append_inj (h.symm.trans h') len
  obtain ⟨h3, h4⟩ := List.cons.inj h2
  exact ⟨h1, Option.some.inj h3, h4⟩

/-- The ends of what is covered. -/
theorem range_from {i u v w : Str} {x y : Ident} {c : Option Ident} (hx : (x = .one i ∧ u = i) ∨ (x = .range i u ∧ identifierLess i u = .ok true))
    (hy : (y = .one v ∧ w = v) ∨ (y = .range v w ∧ identifierLess v w = .ok true)) (hl : identifierLess u v = .ok true) :
    ComponentCovers (some (.range i w)) (some x) ∧ ComponentCovers (some (.range i w)) (some y) ∧
      (ComponentCovers c (some x) → ComponentCovers c (some y) → ComponentCovers (some (.range i w)) c → ∃ b, c = some (.range i b)) := by
  have iu : NotAfter i u := hx.elim (fun h => .inl h.2.symm) fun h => .inr h.2
  have vw : NotAfter v w := hy.elim (fun h => .inl h.2.symm) fun h => .inr h.2
  have iv : NotAfter i v := .inr (notAfter_ends iu hl)
  have uw : NotAfter u w := Props.notAfter_trans (.inr hl) vw
  refine ⟨?_, ?_, ?_⟩
  · rintro _ ⟨⟩
    rcases hx with ⟨rfl, rfl⟩ | ⟨rfl, _⟩
    · exact ⟨_, rfl, .inl rfl, uw⟩
    · exact ⟨_, rfl, .inl rfl, uw⟩
  · rintro _ ⟨⟩
    rcases hy with ⟨rfl, rfl⟩ | ⟨rfl, _⟩
    · exact ⟨_, rfl, iv, .inl rfl⟩
    · exact ⟨_, rfl, iv, .inl rfl⟩
  · intro h1 h2 h3
    obtain ⟨j, rfl, hj⟩ := h3 _ rfl
    obtain ⟨_, ⟨⟩, h1⟩ := h1 j rfl
    obtain ⟨_, ⟨⟩, h2⟩ := h2 j rfl
    cases j with
    | one z =>
      simp only [IdentCovers] at h1 h2
      subst h1 h2
      rcases hx with ⟨e, rfl⟩ | ⟨e, _⟩
      · rcases hy with ⟨e', rfl⟩ | ⟨e', _⟩
        · cases e; cases e'; exact absurd hl (Props.identifierLess_irrefl _)
        · cases e'
      · cases e
    | range z b =>
      have hz : NotAfter z i := by
        rcases hx with ⟨rfl, rfl⟩ | ⟨rfl, _⟩
        · exact h1.1
        · exact h1.1
      have hz' : NotAfter i z := hj.1
      have : z = i := by
        rcases hz with e | e
        · exact e
        · exact (not_less_of_notAfter hz' e).elim
      exact ⟨b, by rw [this]⟩

theorem covers_itself {c : Option Ident} (h : ∀ t w, c ≠ some (.range t w)) : ComponentCovers c c := by
  rintro i rfl
  cases i with
  | one s => exact ⟨_, rfl, rfl⟩
  | range t w => exact absurd rfl (h t w)

theorem covers_none {c : Option Ident} (h : ComponentCovers c none) : c = none := by
  cases c with
  | none => rfl
  | some i => obtain ⟨_, h, _⟩ := h i rfl; cases h

theorem cover_lowest {p a b : Reference} {t : Reference.Level} {id : Ident} {i : Str} (h : SmallestCover p a b) (va : ValidRanges a)
    (vb : ValidRanges b) (hf : Follows a b) (hl : LowestPart a t id) (hi : id = .one i ∨ ∃ e, id = .range i e) :
    ∃ e, LowestPart p t (.range i e) := by
  obtain ⟨pre, x, y, s, u, v, ha, hb, hp, hs, hx, hy, huv⟩ := hf
  have hvx := va (some x) (by rw [ha]; simp)
  have hvy := vb (some y) (by rw [hb]; simp)
  have hy' : ∃ w, (y = .one v ∧ w = v) ∨ (y = .range v w ∧ identifierLess v w = .ok true) := by
    rcases hy with rfl | ⟨w, rfl⟩
    · exact ⟨v, .inl ⟨rfl, rfl⟩⟩
    · exact ⟨w, .inr ⟨rfl, hvy _ _ rfl⟩⟩
  obtain ⟨w, hy'⟩ := hy'
  have hx' : x = id → (x = .one i ∧ u = i) ∨ (x = .range i u ∧ identifierLess i u = .ok true) := by
    rintro rfl
    rcases hx with rfl | ⟨e, rfl⟩
    · rcases hi with hi | ⟨e, hi⟩
      · cases hi; exact .inl ⟨rfl, rfl⟩
      · cases hi
    · rcases hi with hi | ⟨e, hi⟩
      · cases hi
      · cases hi; exact .inr ⟨rfl, hvx _ _ rfl⟩
  obtain ⟨⟨p1, p2, p3, p4, p5⟩, ⟨q1, q2, q3, q4, q5⟩, hmin⟩ := h
  cases t with
  | act => exact hl.elim
  | article =>
    obtain ⟨h1, h2, h3, h4⟩ := hl
    obtain ⟨rfl, e, rfl⟩ := last_set ha hs (pre' := [a.act.map .one]) (y := id) (s' := [none, none, none])
      (by simp [Reference.components, h1, h2, h3, h4]) (by simp)
    simp only [Reference.components, List.cons_append, List.nil_append, List.cons.injEq, and_true] at hb
    obtain ⟨b0, b1, b2, b3, b4⟩ := hb
    obtain ⟨r1, r2, r3⟩ := range_from (c := p.article) (hx' e) hy' huv
    have hn := hmin { act := a.act, article := some (.range i w) }
      ⟨covers_itself (by cases a.act <;> simp), by rw [h1, ← e]; exact r1, by simp [ComponentCovers], by simp [ComponentCovers], by simp [ComponentCovers]⟩
      ⟨by rw [b0]; exact covers_itself (by cases a.act <;> simp), by rw [b1]; exact r2, by simp [ComponentCovers], by simp [ComponentCovers], by simp [ComponentCovers]⟩
    rw [h1, ← e] at p2
    rw [b1] at q2
    rw [h2] at p3
    rw [h3] at p4
    rw [h4] at p5
    obtain ⟨e', he⟩ := r3 p2 q2 hn.2.1
    exact ⟨e', he, covers_none p3, covers_none p4, covers_none p5⟩
  | paragraph =>
    obtain ⟨h1, h2, h3⟩ := hl
    obtain ⟨rfl, e, rfl⟩ := last_set ha hs (pre' := [a.act.map .one, a.article]) (y := id) (s' := [none, none])
      (by simp [Reference.components, h1, h2, h3]) (by simp)
    simp only [Reference.components, List.cons_append, List.nil_append, List.cons.injEq, and_true] at hb
    obtain ⟨b0, b1, b2, b3, b4⟩ := hb
    obtain ⟨r1, r2, r3⟩ := range_from (c := p.paragraph) (hx' e) hy' huv
    have ca : ComponentCovers a.article a.article := covers_itself (hp _ (by simp))
    have hn := hmin { act := a.act, article := a.article, paragraph := some (.range i w) }
      ⟨covers_itself (by cases a.act <;> simp), ca, by rw [h1, ← e]; exact r1, by simp [ComponentCovers], by simp [ComponentCovers]⟩
      ⟨by rw [b0]; exact covers_itself (by cases a.act <;> simp), by rw [b1]; exact ca, by rw [b2]; exact r2, by simp [ComponentCovers],
        by simp [ComponentCovers]⟩
    rw [h1, ← e] at p3
    rw [b2] at q3
    rw [h2] at p4
    rw [h3] at p5
    obtain ⟨e', he⟩ := r3 p3 q3 hn.2.2.1
    exact ⟨e', he, covers_none p4, covers_none p5⟩
  | numericPoint | alphabeticPoint =>
    obtain ⟨h1, h2⟩ := hl
    obtain ⟨rfl, e, rfl⟩ := last_set ha hs (pre' := [a.act.map .one, a.article, a.paragraph]) (y := id) (s' := [none])
      (by simp [Reference.components, h1, h2]) (by simp)
    simp only [Reference.components, List.cons_append, List.nil_append, List.cons.injEq, and_true] at hb
    obtain ⟨b0, b1, b2, b3, b4⟩ := hb
    obtain ⟨r1, r2, r3⟩ := range_from (c := p.point) (hx' e) hy' huv
    have ca : ComponentCovers a.article a.article := covers_itself (hp _ (by simp))
    have cb : ComponentCovers a.paragraph a.paragraph := covers_itself (hp _ (by simp))
    have hn := hmin { act := a.act, article := a.article, paragraph := a.paragraph, point := some (.range i w) }
      ⟨covers_itself (by cases a.act <;> simp), ca, cb, by rw [h1, ← e]; exact r1, by simp [ComponentCovers]⟩
      ⟨by rw [b0]; exact covers_itself (by cases a.act <;> simp), by rw [b1]; exact ca, by rw [b2]; exact cb, by rw [b3]; exact r2,
        by simp [ComponentCovers]⟩
    rw [h1, ← e] at p4
    rw [b3] at q4
    rw [h2] at p5
    obtain ⟨e', he⟩ := r3 p4 q4 hn.2.2.2.1
    exact ⟨e', he, covers_none p5⟩
  | numericSubpoint | alphabeticSubpoint =>
    have h1 : a.subpoint = some id := hl
    obtain ⟨rfl, e, rfl⟩ := last_set ha hs (pre' := [a.act.map .one, a.article, a.paragraph, a.point]) (y := id) (s' := [])
      (by simp [Reference.components, h1]) (by simp)
    simp only [Reference.components, List.cons_append, List.nil_append, List.cons.injEq, and_true] at hb
    obtain ⟨b0, b1, b2, b3, b4⟩ := hb
    obtain ⟨r1, r2, r3⟩ := range_from (c := p.subpoint) (hx' e) hy' huv
    have ca : ComponentCovers a.article a.article := covers_itself (hp _ (by simp))
    have cb : ComponentCovers a.paragraph a.paragraph := covers_itself (hp _ (by simp))
    have cc : ComponentCovers a.point a.point := covers_itself (hp _ (by simp))
    have hn := hmin { act := a.act, article := a.article, paragraph := a.paragraph, point := a.point, subpoint := some (.range i w) }
      ⟨covers_itself (by cases a.act <;> simp), ca, cb, cc, by rw [h1, ← e]; exact r1⟩
      ⟨by rw [b0]; exact covers_itself (by cases a.act <;> simp), by rw [b1]; exact ca, by rw [b2]; exact cb, by rw [b3]; exact cc,
        by rw [b4]; exact r2⟩
    rw [h1, ← e] at p5
    rw [b4] at q5
    obtain ⟨e', he⟩ := r3 p5 q5 hn.2.2.2.2
    exact ⟨e', he⟩

end Verif
