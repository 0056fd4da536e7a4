import Verif.Spec.Understood
import Verif.Proofs.Recorded
import Verif.Proofs.Showable
import Verif.Proofs.Usual

/-! # Which acts get semantic data -/

namespace Verif
open Spec

/-! ## References can be sorted -/

theorem placed_lt {x y : OutgoingReference} (h : x.endPos ≠ y.endPos) : ∃ b, x.lt y = .ok b := by
  unfold OutgoingReference.lt
  by_cases hs : x.startPos ≠ y.startPos
  · exact ⟨_, if_pos hs⟩
  · rw [if_neg hs, if_pos h]
    exact ⟨_, rfl⟩

theorem insertRef_total {x : OutgoingReference} : ∀ {l : List OutgoingReference}, (∀ y ∈ l, x.endPos ≠ y.endPos) →
    ∃ m, insertRef x l = .ok m := by
  intro l
  induction l with
  | nil => intro _; exact ⟨_, rfl⟩
  | cons y ys ih =>
    intro h
    obtain ⟨b, hb⟩ := placed_lt (h y (List.mem_cons_self ..))
    obtain ⟨m, hm⟩ := ih fun z hz => h z (List.mem_cons_of_mem _ hz)
    cases b <;> simp [insertRef, hb, hm, bind, Except.bind]

theorem sortRefs_total : ∀ {l s : List OutgoingReference}, l.Pairwise (fun x y => x.endPos ≠ y.endPos) →
    (∀ x ∈ l, ∀ y ∈ s, x.endPos ≠ y.endPos) → ∃ m, sortRefs s l = .ok m := by
  intro l
  induction l with
  | nil => intro s _ _; exact ⟨_, rfl⟩
  | cons x xs ih =>
    intro s h hs
    obtain ⟨h1, h2⟩ := List.pairwise_cons.1 h
    obtain ⟨m, hm⟩ := insertRef_total (hs x (List.mem_cons_self ..))
    obtain ⟨hp, -⟩ := insertRef_ok hm
    obtain ⟨k, hk⟩ := ih (s := m) h2 fun z hz y hy => by
      rcases List.mem_cons.1 (hp.mem_iff.1 hy) with rfl | hy
      · exact (h1 z hz).symm
      · exact hs z (List.mem_cons_of_mem _ hz) y hy
    exact ⟨k, by simp [sortRefs, hm, hk, bind, Except.bind]⟩

theorem cut_endApart {n m : Int} {ab : Str → Option Str} : ∀ {l : List OutgoingReference}, l.Pairwise (fun x y => x.endPos ≠ y.endPos) →
    (cutReferences n m ab l).Pairwise (fun x y => x.endPos ≠ y.endPos) ∧
      ∀ y ∈ cutReferences n m ab l, ∃ x ∈ l, y.endPos = x.endPos - n := by
  intro l
  induction l with
  | nil => intro _; exact ⟨.nil, nofun⟩
  | cons r rs ih =>
    intro h
    obtain ⟨h1, h2⟩ := List.pairwise_cons.1 h
    obtain ⟨i1, i2⟩ := ih h2
    have i2' : ∀ y ∈ cutReferences n m ab rs, ∃ x ∈ r :: rs, y.endPos = x.endPos - n := fun y hy =>
      let ⟨x, hx, e⟩ := i2 y hy
      ⟨x, List.mem_cons_of_mem _ hx, e⟩
    rw [cutReferences]
    split
    · exact ⟨i1, i2'⟩
    · refine ⟨List.pairwise_cons.2 ⟨fun y hy => ?_, i1⟩, fun y hy => ?_⟩
      · obtain ⟨x, hx, e⟩ := i2 y hy
        have := h1 x hx
        show r.endPos - n ≠ y.endPos
        omega
      · rcases List.mem_cons.1 hy with rfl | hy
        · exact ⟨r, List.mem_cons_self .., rfl⟩
        · exact i2' y hy

/-! ## Elements -/

theorem fixListElementEnd_total {own post core : Str} (h : ListItem own core) (hn : post = [] → core ≠ []) :
    ∃ m, fixListElementEnd own post.isEmpty = .ok m ∧ InSentence core post m := by
  unfold fixListElementEnd
  rw [stripJunk_item h]
  cases post with
  | cons c cs => exact ⟨core, rfl, .asIs (by simp)⟩
  | nil =>
    simp only [List.isEmpty_nil, if_true]
    cases hc : core.getLast? with
    | none => exact absurd (List.getLast?_eq_none_iff.1 hc) (hn rfl)
    | some c =>
      simp only
      by_cases hm : c = '.' ∨ c = ':' ∨ c = '!' ∨ c = '?'
      · rw [if_pos hm]
        exact ⟨_, rfl, .asIs fun _ => ⟨c, by simpa using hm, hc⟩⟩
      · rw [if_neg hm]
        refine ⟨_, rfl, .stopped rfl ?_⟩
        rintro ⟨d, hd, e⟩
        rw [hc] at e
        cases e
        exact hm (by simpa using hd)

theorem sentence_total {an : Analyzer} {t pre post core m : Str} {defs : List ActIdAbbreviation}
    (hm : fixListElementEnd t post.isEmpty = .ok m)
    (ha : LookedAt (pre ++ m ++ post) → ∃ r, an (pre ++ m ++ post) = .ok r ∧ EndApart r) : ∃ r, sentence an t pre post defs = .ok r := by
  unfold sentence parseText
  simp only [hm, bind, Except.bind]
  by_cases h1 : (pre ++ m ++ post).length > 10000
  · rw [if_pos h1]; exact ⟨_, rfl⟩
  · rw [if_neg h1]
    by_cases h2 : (!interestingSubstrings.any fun x => isInfix x (pre ++ m ++ post)) = true
    · rw [if_pos h2]; exact ⟨_, rfl⟩
    · rw [if_neg h2]
      obtain ⟨r, hr, he⟩ := ha ⟨by omega, (interesting_iff _).mp (by simpa using h2)⟩
      simp only [hr, useAnalysis, convertReferences]
      obtain ⟨k, hk⟩ := sortRefs_total (s := []) (cut_endApart (n := pre.length) (m := ((pre ++ m ++ post).length : Int) - post.length)
        (ab := abbreviationsMap (SemState.learn { abbreviations := defs } r.abbreviations).abbreviations) he).1 (fun _ _ _ h => by cases h)
      rw [hk]
      exact ⟨_, rfl⟩

theorem own_total {an : Analyzer} {e : Entry} (h : Understood an e) (defs : List ActIdAbbreviation) : ∃ r, own an e defs = .ok r := by
  obtain ⟨h1, h2⟩ := h
  unfold own
  cases ht : e.data.text with
  | some t =>
    obtain ⟨⟨core, hc⟩, hl⟩ := h1 t (.inl ht)
    obtain ⟨m, hm, hs⟩ := fixListElementEnd_total (post := e.after) hc (fun h h' => hl (.inl h) (h' ▸ hc))
    exact sentence_total (core := core) hm (h2 _ _ (.text ht hc hs))
  | none =>
    cases hi : e.data.intro with
    | none => exact ⟨_, rfl⟩
    | some i =>
      obtain ⟨⟨core, hc⟩, hl⟩ := h1 i (.inr ⟨ht, hi⟩)
      obtain ⟨m, hm, hs⟩ := fixListElementEnd_total (post := []) hc (fun _ h' => hl (.inr ht) (h' ▸ hc))
      exact sentence_total (core := core) hm (by simpa using h2 _ _ (.intro ht hi hc hs))

/-! ## Acts -/

theorem mkSae_again {k : SaeKind} {d d' : SaeData} {cs cs' : List Node} (h : Built (.sae k d cs)) (hk : k ≠ .blockAmendmentContainer)
    (ht : d'.text = none) (hne : cs ≠ []) (hs : cs'.map Node.type = cs.map Node.type) : ∃ n, mkSae k d' (some cs') = .ok n := by
  obtain ⟨-, -, h2, h3⟩ := built_sae h
  cases cs with
  | nil => exact absurd rfl hne
  | cons c cs =>
    have hc := List.mem_cons_self (a := c) (l := cs)
    have key : ∀ x ∈ cs', x.type = c.type := by
      intro x hx
      have : x.type ∈ (c :: cs).map Node.type := by rw [← hs]; exact List.mem_map.2 ⟨x, hx, rfl⟩
      obtain ⟨y, hy, e⟩ := List.mem_map.1 this
      rw [← e]
      exact h3 hk y hy c hc
    refine ⟨_, mkSae_children ht (fun e => by subst e; cases hs) key ?_⟩
    have := h2 c hc
    generalize c.type = ty at this
    cases this <;> simp [SaeKind.allowedChildren] at hk ⊢

theorem stripL_types {cs cs' : List Node} (h : stripL cs' = stripL cs) : cs'.map Node.type = cs.map Node.type := by
  rw [stripL_map, stripL_map] at h
  have := congrArg (List.map Node.type) h
  simpa [List.map_map, Function.comp_def, strip_type] using this

theorem stripL_identifiers {cs cs' : List Node} (h : stripL cs' = stripL cs) : cs'.map Node.identifier = cs.map Node.identifier := by
  rw [stripL_map, stripL_map] at h
  have := congrArg (List.map Node.identifier) h
  simpa [List.map_map, Function.comp_def, strip_identifier] using this

theorem mkArticle_again {i : Str} {t : Option Str} {cs cs' : List Node} (h : Built (.article i t cs))
    (hs : cs'.map Node.identifier = cs.map Node.identifier) : ∃ n, mkArticle i t cs' = .ok n := by
  obtain ⟨-, -, hw⟩ := built_article h
  have : (cs'.any (fun c => c.identifier.isNone) && decide (cs'.length ≠ 1)) = false := by
    have hl : cs'.length = cs.length := by simpa using congrArg List.length hs
    cases ha : cs'.any (fun c => c.identifier.isNone) with
    | false => rfl
    | true =>
      obtain ⟨c, hc, hn⟩ := List.any_eq_true.1 ha
      have : (none : Option Str) ∈ cs.map Node.identifier := by
        rw [← hs]
        exact List.mem_map.2 ⟨c, hc, by simpa using hn⟩
      obtain ⟨d, hd, e⟩ := List.mem_map.1 this
      rw [hl, hw d hd e]
      rfl
  unfold mkArticle
  exact ⟨_, if_neg (by rw [this]; exact Bool.false_ne_true)⟩

theorem scratchL_total {an : Analyzer} : ∀ {cs : List Node} {pre post : Str} (defs : List ActIdAbbreviation),
    (∀ c ∈ cs, ∀ defs, ∃ x, scratchSae an c pre post defs = .ok x) → ∃ x, scratchL an cs pre post defs = .ok x := by
  intro cs
  induction cs with
  | nil => intro pre post defs _; rw [scratchL]; exact ⟨_, rfl⟩
  | cons c cs ih =>
    intro pre post defs h
    obtain ⟨x, hx⟩ := h c (List.mem_cons_self ..) defs
    obtain ⟨y, hy⟩ := ih (defs ++ x.2) fun d hd => h d (List.mem_cons_of_mem _ hd)
    rw [scratchL]
    simp only [hx, hy, bind, Except.bind]
    exact ⟨_, rfl⟩

theorem scratchSae_total {an : Analyzer} (n : Node) : ∀ (pre post : Str) (defs : List ActIdAbbreviation), Built n → Whole n →
    (∀ e ∈ elements pre post n, Understood an e) → ∃ x, scratchSae an n pre post defs = .ok x := by
  induction n using Node.ind with
  | sae k d cs ih =>
    intro pre post defs hb hw hu
    cases hk : k.canBeSemanticParsed with
    | false => exact ⟨_, scratchSae_other (fun _ _ _ e => by cases e; exact hk) pre post defs⟩
    | true =>
      rw [elements_sae _ _ _ _ hk] at hu
      obtain ⟨r, hr⟩ := own_total (hu _ (List.mem_cons_self ..)) defs
      rw [scratchSae]
      simp only [hk, Bool.not_true, Bool.false_eq_true, if_false]
      cases ht : d.text with
      | some t =>
        obtain ⟨-, hwf, -, -⟩ := built_sae hb
        obtain ⟨hi, hwu, rfl⟩ := hwf (by rw [ht]; simp)
        simp only [hr, bind, Except.bind]
        have : ∃ n, mkSae k (d.withSemantics r) (optChildren []) = .ok n := by
          refine ⟨.sae k (d.withSemantics r) [], ?_⟩
          simp [mkSae, optChildren, childrenType, validText, validChildren, SaeData.withSemantics, hi, hwu, bind, Except.bind]
        obtain ⟨n, hn⟩ := this
        simp only [hn]
        exact ⟨_, rfl⟩
      | none =>
        have hne : cs ≠ [] := fun e => hw k d (e ▸ .self _) ht
        simp only [hr, bind, Except.bind]
        rw [if_neg (by simpa using hne)]
        obtain ⟨x, hx⟩ := scratchL_total (an := an) (cs := cs) (pre := withIntro pre d.intro) (post := withWrapUp post d.wrapUp)
          (defs ++ r.abbreviations) fun c hc defs => ih c hc _ _ defs ((built_sae hb).1 c hc)
            (fun k' d' hi => hw k' d' (.deeper (n := .sae k d cs) hc hi))
            fun e he => hu e (List.mem_cons_of_mem _ (mem_elementsL hc he))
        obtain ⟨hs, -, -⟩ := scratchL_ok (show _ = Except.ok (x.1, x.2) from hx)
        obtain ⟨n, hn⟩ := mkSae_again (d' := d.withSemantics r) hb ((canBe_iff k).1 hk) ht hne (stripL_types hs)
        simp only [hx, hn]
        exact ⟨_, rfl⟩
  | _ => intro pre post defs _ _ _; exact ⟨_, scratchSae_other (by intros; contradiction) pre post defs⟩

theorem scratchArticle_total {an : Analyzer} {n : Node} (defs : List ActIdAbbreviation) (hb : Built n) (hw : Whole n)
    (hu : ∀ e ∈ articleElements n, Understood an e) : ∃ x, scratchArticle an n defs = .ok x := by
  cases n with
  | article i t ps =>
    unfold scratchArticle
    obtain ⟨x, hx⟩ := scratchL_total (an := an) (cs := ps) (pre := []) (post := []) defs fun c hc defs =>
      scratchSae_total c [] [] defs ((built_article hb).1 c hc) (fun k' d' hi => hw k' d' (.deeper (n := .article i t ps) hc hi))
        fun e he => hu e (mem_elementsL hc he)
    obtain ⟨hs, -, -⟩ := scratchL_ok (show _ = Except.ok (x.1, x.2) from hx)
    obtain ⟨m, hm⟩ := mkArticle_again hb (stripL_identifiers hs)
    simp only [hx, hm, bind, Except.bind]
    exact ⟨_, rfl⟩
  | _ => exact ⟨_, rfl⟩

theorem scratchArticles_total {an : Analyzer} : ∀ {cs : List Node} (defs : List ActIdAbbreviation), (∀ c ∈ cs, Built c) →
    (∀ c ∈ cs, Whole c) → (∀ e ∈ cs.flatMap articleElements, Understood an e) → ∃ x, scratchArticles an cs defs = .ok x := by
  intro cs
  induction cs with
  | nil => intro defs _ _ _; exact ⟨_, rfl⟩
  | cons c cs ih =>
    intro defs hb hw hu
    rw [List.flatMap_cons] at hu
    obtain ⟨x, hx⟩ := scratchArticle_total defs (hb c (List.mem_cons_self ..)) (hw c (List.mem_cons_self ..))
      fun e he => hu e (List.mem_append_left _ he)
    obtain ⟨y, hy⟩ := ih (defs ++ x.2) (fun d hd => hb d (List.mem_cons_of_mem _ hd)) (fun d hd => hw d (List.mem_cons_of_mem _ hd))
      fun e he => hu e (List.mem_append_right _ he)
    rw [scratchArticles]
    simp only [hx, hy, bind, Except.bind]
    exact ⟨_, rfl⟩

/-! ## What is made is whole -/

theorem whole_of {n : Node} (h : ∀ k d, n = .sae k d [] → d.text ≠ none) (hc : ∀ c ∈ n.children, Whole c) : Whole n := by
  intro k d hm
  generalize he : Node.sae k d [] = m at hm
  cases hm with
  | self => exact h k d he.symm
  | deeper hd hm => exact hc _ hd k d (he ▸ hm)

theorem closed_whole : Closed Whole where
  sae := by
    intro k i t intro w children n h ht hm
    obtain ⟨rfl, -, -, ty, hty⟩ := mkSae_ok hm
    cases children with
    | none => exact whole_of (fun k d e => by cases e; exact ht rfl) nofun
    | some cs =>
      refine whole_of (fun k d e => ?_) (h cs rfl)
      cases cs with
      | nil => cases hty
      | cons => cases e
  article := by
    intro i t cs n h _ hm
    obtain rfl := mkArticle_ok hm
    exact whole_of (by intros; contradiction) h
  quoted _ := whole_of (by intros; contradiction) nofun
  structural _ _ _ := whole_of (by intros; contradiction) nofun

theorem blockArticle_whole {an : Analyzer} {n m : Node} (hn : Whole n) (h : blockArticle an n = .ok m) : Whole m := by
  cases n with
  | article i t ps =>
    rw [blockArticle] at h
    obtain ⟨ps', hp, h⟩ := resBind_ok h
    rw [mkArticle_ok h]
    refine whole_of (by intros; contradiction) (mapRes_has hp fun p hp p' hp' => ?_)
    have hpn : Whole p := fun k d hx => hn k d (.deeper (n := .article i t ps) hp hx)
    rcases blockParagraph_cases hp' with rfl | ⟨k, d, lines, b, position, intro, w, intro', rfl, hb, hm⟩
    · exact hpn
    · rw [(mkSae_ok hm).1]
      refine whole_of (fun _ _ e => by cases e) ?_
      intro c hc
      obtain rfl := List.mem_singleton.1 hc
      exact parseBlockAmendment_has closed_whole hb
  | _ => cases h; exact hn

theorem parseBlockAmendments_whole {an : Analyzer} {a b : Act} (h : parseBlockAmendments an a = .ok b)
    (hf : ∀ c ∈ a.children, Whole c) : ∀ c ∈ b.children, Whole c := by
  unfold parseBlockAmendments at h
  obtain ⟨cs, hc, h⟩ := resBind_ok h
  cases h
  exact mapRes_has hc fun c hm c' hc' => blockArticle_whole (hf c hm) hc'

/-! ## What has been read could be read -/

mutual
theorem scratchSae_owns {an : Analyzer} : ∀ {n n' : Node} {pre post : Str} {defs new : List ActIdAbbreviation},
    scratchSae an n pre post defs = .ok (n', new) → ∀ e ∈ elements pre post n, ∃ defs r, own an e defs = .ok r
  | .sae k d cs, n', pre, post, defs, new, h => by
    rw [scratchSae] at h
    cases hk : k.canBeSemanticParsed with
    | false => rw [elements_container _ _ _ _ hk]; exact nofun
    | true =>
      simp only [hk, Bool.not_true, Bool.false_eq_true, if_false] at h
      rw [elements_sae _ _ _ _ hk]
      cases ht : d.text with
      | some t =>
        simp only [ht] at h
        obtain ⟨r, hr, h⟩ := resBind_ok h
        obtain ⟨m, hm, h⟩ := resBind_ok h
        obtain ⟨rfl, -⟩ := optChildren_text (d := d.withSemantics r) ht hm
        intro e he
        rcases List.mem_cons.1 he with rfl | he
        · exact ⟨_, _, hr⟩
        · cases he
      | none =>
        simp only [ht] at h
        obtain ⟨r, hr, h⟩ := resBind_ok h
        by_cases hcs : cs.isEmpty = true
        · rw [if_pos hcs] at h; cases h
        · rw [if_neg hcs] at h
          obtain ⟨y, hy, h⟩ := resBind_ok h
          intro e he
          rcases List.mem_cons.1 he with rfl | he
          · exact ⟨_, _, hr⟩
          · exact scratchL_owns (show _ = Except.ok (y.1, y.2) from hy) e he
  | .article .., n', pre, post, defs, new, h => nofun
  | .quoted .., n', pre, post, defs, new, h => nofun
  | .structural .., n', pre, post, defs, new, h => nofun

theorem scratchL_owns {an : Analyzer} : ∀ {cs cs' : List Node} {pre post : Str} {defs new : List ActIdAbbreviation},
    scratchL an cs pre post defs = .ok (cs', new) → ∀ e ∈ elementsL pre post cs, ∃ defs r, own an e defs = .ok r
  | [], cs', pre, post, defs, new, h => nofun
  | c :: cs, cs', pre, post, defs, new, h => by
    rw [scratchL] at h
    obtain ⟨x, hx, h⟩ := resBind_ok h
    obtain ⟨y, hy, h⟩ := resBind_ok h
    intro e he
    rw [elementsL] at he
    rcases List.mem_append.1 he with he | he
    · exact scratchSae_owns (show _ = Except.ok (x.1, x.2) from hx) e he
    · exact scratchL_owns (show _ = Except.ok (y.1, y.2) from hy) e he
end

theorem scratchArticles_owns {an : Analyzer} : ∀ {cs : List Node} {defs : List ActIdAbbreviation} {x},
    scratchArticles an cs defs = .ok x → ∀ e ∈ cs.flatMap articleElements, ∃ defs r, own an e defs = .ok r := by
  intro cs
  induction cs with
  | nil => intro defs x _ e he; cases he
  | cons c cs ih =>
    intro defs x h
    rw [scratchArticles] at h
    obtain ⟨y, hy, h⟩ := resBind_ok h
    obtain ⟨z, hz, h⟩ := resBind_ok h
    intro e he
    rw [List.flatMap_cons] at he
    rcases List.mem_append.1 he with he | he
    · cases c with
      | article i t ps =>
        unfold scratchArticle at hy
        obtain ⟨w, hw, -⟩ := resBind_ok hy
        exact scratchL_owns (show _ = Except.ok (w.1, w.2) from hw) e he
      | _ => cases he
    · exact ih hz e he

theorem sentence_not_nothing {an : Analyzer} {t pre : Str} {defs : List ActIdAbbreviation} {r : Analysis}
    (h : sentence an t pre [] defs = .ok r) : ¬ ListItem t [] := by
  intro hl
  unfold sentence parseText at h
  obtain ⟨p, hp, -⟩ := resBind_ok h
  obtain ⟨m, hm, -⟩ := resBind_ok hp
  unfold fixListElementEnd at hm
  rw [stripJunk_item hl] at hm
  cases hm

theorem own_not_nothing {an : Analyzer} {e : Entry} {defs : List ActIdAbbreviation} {r : Analysis} (h : own an e defs = .ok r) :
    ∀ t, HasOwn e.data t → Last e → ¬ ListItem t [] := by
  rintro t (ht | ⟨ht, hi⟩) hl
  · unfold own at h
    simp only [ht] at h
    rcases hl with hl | hl
    · rw [hl] at h
      exact sentence_not_nothing h
    · rw [ht] at hl; cases hl
  · unfold own at h
    simp only [ht, hi] at h
    exact sentence_not_nothing h

/-! ## What was not analysed has nothing to be taken away -/

theorem strip_unanalysed (n : Node) : Unanalysed n → strip n = n := by
  induction n using Node.ind with
  | sae k d cs ih =>
    intro h
    rw [strip]
    split
    · rfl
    · obtain ⟨⟨h1, h2, h3⟩, h4⟩ := h
      rw [stripL_map, List.map_congr_left (g := id) fun c hc => ih c hc ((unanalysedL_iff cs).1 h4 c hc), List.map_id]
      cases d
      simp only at h1 h2 h3
      subst h1 h2 h3
      rfl
  | _ => intro _; rfl

theorem stripAct_unanalysed {a : Act} (h : ∀ n ∈ a.children, Unanalysed n) : stripAct a = a := by
  unfold stripAct
  rw [List.map_congr_left (g := id) ?_, List.map_id]
  intro n hn
  cases n with
  | article i t ps =>
    have := (unanalysedL_iff ps).1 (h _ hn)
    rw [stripArticle, stripL_map, List.map_congr_left (g := id) fun c hc => strip_unanalysed c (this c hc), List.map_id]
    rfl
  | _ => rfl

end Verif
