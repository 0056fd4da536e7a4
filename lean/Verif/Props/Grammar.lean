import Verif.Proofs.Grammar
import Verif.Props.Semantics

/-! # The analysis of sentences (C57–C59, C34) -/

namespace Verif.Props

open Verif.Spec

/-! ## C57: places -/

theorem continued_places {context : Reference} {xs ys : List OutgoingReference} (h : Continued context xs ys) :
    ∀ y ∈ ys, ∃ x ∈ xs, y.startPos = x.startPos ∧ y.endPos = x.endPos := by
  induction h with
  | nil => simp
  | cons h _ ih =>
    intro y hy
    rcases List.mem_cons.mp hy with rfl | hy
    · exact ⟨_, List.mem_cons_self .., rfl, rfl⟩
    · obtain ⟨x, hx, h⟩ := ih y hy
      exact ⟨x, List.mem_cons_of_mem _ hx, h⟩

theorem listed_in_sentence {length : Int} {act : Option Str} {r : ParsedRef} {xs : List OutgoingReference} (hp : RefPlaced length r)
    (h : Listed act r xs) : ∀ x ∈ xs, Place length (x.startPos, x.endPos) := by
  intro x hx
  have h1 := listed_placed hp h x hx
  have h2 := hp.whole
  unfold Place at h2 ⊢
  simp only
  omega

theorem all_listed_in_sentence {length : Int} {act : Option Str} {rs : List ParsedRef} {xss : List (List OutgoingReference)}
    (h : Both (Listed act) rs xss) (hp : ∀ r ∈ rs, RefPlaced length r) :
    ∀ x ∈ xss.flatten, Place length (x.startPos, x.endPos) := by
  intro x hx
  obtain ⟨xs, hxs, hx⟩ := List.mem_flatten.mp hx
  obtain ⟨r, hr, h⟩ := h.mem_right hxs
  exact listed_in_sentence (hp r hr) h x hx

theorem context_in_sentence {length : Int} {context : Reference} {rs : List ParsedRef} {ys : List OutgoingReference}
    (h : ListedInContext context rs ys) (hp : ∀ r ∈ rs, RefPlaced length r) : ∀ x ∈ ys, Place length (x.startPos, x.endPos) := by
  obtain ⟨xss, h1, h2⟩ := h
  intro y hy
  obtain ⟨x, hx, e1, e2⟩ := continued_places h2 y hy
  rw [e1, e2]
  exact all_listed_in_sentence h1 hp x hx

theorem one_in_sentence {length : Int} {act : Str} {r : Option ParsedRef} {y : OutgoingReference} (h : OneListed act r (some y))
    (hp : ∀ p ∈ r.toList, RefPlaced length p) : Place length (y.startPos, y.endPos) := by
  rcases h with ⟨-, h⟩ | ⟨p, xs, rfl, h1, ⟨z, rfl, h2⟩ | ⟨-, h2⟩⟩
  · cases h
  · cases h2
    exact listed_in_sentence (hp p (by simp)) h1 y (List.mem_cons_self ..)
  · cases h2

theorem mention_in_sentence {length : Int} {n : GrammarNode} (hp : NodePlaced length n) {a : ParsedActRef} (ha : a ∈ nodeActs n)
    {x : OutgoingReference} (h : ActMention a x) : Place length (x.startPos, x.endPos) := by
  obtain ⟨id, -, -, ⟨s, h⟩ | ⟨-, n, h⟩⟩ := h
  · exact (hp.acts a ha).2 _ _ h
  · exact (hp.acts a ha).1 _ _ h

theorem told_in_sentence {length : Int} {n : GrammarNode} {told : Told} (hp : NodePlaced length n) (h : Tells n told) :
    ∀ x ∈ told.1, Place length (x.startPos, x.endPos) := by
  have cons : ∀ {a : ParsedActRef} {y : OutgoingReference} {xs : List OutgoingReference}, a ∈ nodeActs n → ActMention a y →
      (∀ x ∈ xs, Place length (x.startPos, x.endPos)) → ∀ x ∈ y :: xs, Place length (x.startPos, x.endPos) := by
    intro a y xs ha hy hxs x hx
    rcases List.mem_cons.mp hx with rfl | hx
    · exact mention_in_sentence hp ha hy
    · exact hxs x hx
  have single : ∀ {y : OutgoingReference}, Place length (y.startPos, y.endPos) → ∀ x ∈ [y], Place length (x.startPos, x.endPos) := by
    intro y hy x hx
    obtain rfl := List.mem_singleton.mp hx
    exact hy
  have left : ∀ {am ins : Option ParsedRef}, (∀ r ∈ am.toList ++ ins.toList, RefPlaced length r) →
      (∀ r ∈ am.toList, RefPlaced length r) ∧ ∀ r ∈ ins.toList, RefPlaced length r :=
    fun h => ⟨fun r hr => h r (List.mem_append_left _ hr), fun r hr => h r (List.mem_append_right _ hr)⟩
  cases h with
  | compound h => exact all_listed_in_sentence h hp.refs
  | compoundOfAct ha hi h => exact cons (by simp [nodeActs]) ha (all_listed_in_sentence h hp.refs)
  | defined | act | withSubtitle | onlySubtitle | structuralAmended | structuralInserted | other => exact fun x hx => nomatch hx
  | amended ha hi hm hn => exact cons (by simp [nodeActs]) ha (single (one_in_sentence hm (left hp.refs).1))
  | inserted ha hi hm hn => exact cons (by simp [nodeActs]) ha (single (one_in_sentence hn (left hp.refs).2))
  | both ha hi hm hn hc _ =>
    refine cons (by simp [nodeActs]) ha ?_
    intro x hx
    rcases List.mem_cons.mp hx with rfl | hx
    · exact one_in_sentence hm (left hp.refs).1
    · obtain rfl := List.mem_singleton.mp hx
      exact (one_in_sentence hn (left hp.refs).2 :)
  | neither ha | structureRepealed ha => exact cons (by simp [nodeActs]) ha (fun x hx => nomatch hx)
  | allInForce he ht hr hx => exact context_in_sentence hx fun r hr => hp.refs r (List.mem_append_right _ hr)
  | inForce he ht hr h hx =>
    intro x hm
    rcases List.mem_append.mp hm with hm | hm
    · exact context_in_sentence h (fun r hr => hp.refs r (List.mem_append_left _ hr)) x hm
    · exact context_in_sentence hx (fun r hr => hp.refs r (List.mem_append_right _ hr)) x hm
  | replaced ha hi h hd => exact cons (by simp [nodeActs]) ha (context_in_sentence h hp.refs)
  | title ha hi ho hr => exact cons (by simp [nodeActs]) ha (single (y := ⟨_, _, _⟩) (hp.article _ _ _ _ rfl))
  | repealed ha hi h => exact cons (by simp [nodeActs]) ha (context_in_sentence h hp.refs)
  | textsRepealed ha hi h => exact cons (by simp [nodeActs]) ha (context_in_sentence h hp.refs)

/-- "A Tv. 1., 3–5. § (2) és (4) bekezdése" as it is parsed. -/
def sampleTree : ParseTree :=
  .node (.compoundReference (some { abbreviation := some (py"Tv.", 2, 5) })
    [([⟨.article, [(py"1", 6, 8)], [((py"3", py"5"), 10, 14)]⟩, ⟨.paragraph, [(py"2", 17, 20), (py"4", 24, 27)], []⟩], 6, 38)])
    [.node (.actReference { abbreviation := some (py"Tv.", 2, 5) }) []]

instance (length : Int) (p : Int × Int) : Decidable (Place length p) := by unfold Place; infer_instance

theorem refPlaced_iff (length : Int) (r : ParsedRef) : RefPlaced length r ↔ Place length r.2 ∧
    (∀ x ∈ r.1.flatMap ParsedPart.items, r.2.1 ≤ x.startPos ∧ x.startPos < x.endPos ∧ x.endPos ≤ r.2.2) ∧
    (∀ x ∈ r.1.flatMap ParsedPart.items, ∀ y ∈ r.1.flatMap ParsedPart.items, Above (itemLevel x) (itemLevel y) →
      x.endPos ≤ y.startPos) ∧ (r.1.Pairwise fun p q => p.kind ≠ q.kind) ∧
    ∀ p ∈ r.1, p.singles.Pairwise fun x y => x.2.2 ≤ y.2.1 :=
  ⟨fun ⟨a, b, c, d, e⟩ => ⟨a, b, c, d, e⟩, fun ⟨a, b, c, d, e⟩ => ⟨a, b, c, d, e⟩⟩

instance (a b : RefLevel) : Decidable (Above a b) := by unfold Above; infer_instance

instance (length : Int) (r : ParsedRef) : Decidable (RefPlaced length r) := decidable_of_iff _ (refPlaced_iff length r).symm

/-- C57. Every reference that the analyser reports is a non-empty interval of the sentence, whatever the items of its lists are, if
what the parser recognises is. -/
theorem analyzed_in_sentence {parse : Str → Option ParseTree} {s : Str} {r : Analysis}
    (hp : ∀ t, parse s = some t → ∀ n ∈ treeNodes t, NodePlaced s.length n) (h : grammaticalAnalyzer parse s = .ok r) :
    ∀ x ∈ r.references, 0 ≤ x.startPos ∧ x.startPos < x.endPos ∧ x.endPos ≤ s.length := by
  obtain ⟨t, ts, ht, hb, hr, -, -⟩ := analyzer_ok h
  intro x hx
  rw [hr] at hx
  obtain ⟨told, htold, hx⟩ := List.mem_flatMap.mp hx
  obtain ⟨n, hn, h⟩ := hb.mem_right htold
  exact told_in_sentence (hp t ht n hn) h x hx

theorem sampleTree_placed : ∀ n ∈ treeNodes sampleTree, NodePlaced 39 n := by
  intro n hn
  have hn : n = .actReference { abbreviation := some (py"Tv.", 2, 5) } ∨ n = .compoundReference
      (some { abbreviation := some (py"Tv.", 2, 5) })
      [([⟨.article, [(py"1", 6, 8)], [((py"3", py"5"), 10, 14)]⟩, ⟨.paragraph, [(py"2", 17, 20), (py"4", 24, 27)], []⟩], 6, 38)] := by
    simpa [treeNodes, treesNodes, sampleTree] using hn
  have act : ∀ a : ParsedActRef, a = { abbreviation := some (py"Tv.", 2, 5) } →
      (∀ x p, a.actId = some (x, p) → Place 39 p) ∧ ∀ x p, a.abbreviation = some (x, p) → Place 39 p := by
    rintro a rfl
    refine ⟨fun x p h => (nomatch h), fun x p h => ?_⟩
    cases h
    decide
  rcases hn with rfl | rfl
  · exact ⟨fun a ha => act a (by simpa [nodeActs] using ha), fun r hr => (nomatch hr), fun _ _ _ _ h => (nomatch h)⟩
  · refine ⟨fun a ha => act a (by simpa [nodeActs] using ha), fun r hr => ?_, fun _ _ _ _ h => (nomatch h)⟩
    have hr : r = ([⟨.article, [(py"1", 6, 8)], [((py"3", py"5"), 10, 14)]⟩,
        ⟨.paragraph, [(py"2", 17, 20), (py"4", 24, 27)], []⟩], 6, 38) := by simpa [nodeRefs] using hr
    subst hr
    decide +kernel

example : ∃ (parse : Str → Option ParseTree) (s : Str) (r : Analysis),
    (∀ t, parse s = some t → ∀ n ∈ treeNodes t, NodePlaced s.length n) ∧ grammaticalAnalyzer parse s = .ok r ∧
    r.references = [⟨2, 5, { act := some (py"Tv.") }⟩, ⟨6, 8, { act := some (py"Tv."), article := some (.one (py"1")) }⟩,
      ⟨10, 20, { act := some (py"Tv."), article := some (.range (py"3") (py"5")), paragraph := some (.one (py"2")) }⟩,
      ⟨24, 38, { act := some (py"Tv."), article := some (.range (py"3") (py"5")), paragraph := some (.one (py"4")) }⟩] := by
  refine ⟨fun _ => some sampleTree, py"A Tv. 1., 3–5. § (2) és (4) bekezdése. ", _, ?_, rfl, by decide +kernel⟩
  intro t h
  cases h
  exact sampleTree_placed

/-- C34. With the analyser of the program and any parser that gives the places of what it recognises, every recorded reference is a
non-empty interval in the own text or intro of its element, in the order of position. What is missing: if the element should end its
sentence and has no such mark, the reference may be one character longer. -/
theorem analyzed_references_in_text_partial {parse : Str → Option ParseTree} {a a' : Act} (hb : ∀ c ∈ a.children, Built c)
    (hp : ∀ s t, parse s = some t → ∀ n ∈ treeNodes t, NodePlaced s.length n)
    (ho : ∀ e ∈ actElements a, e.data.semantic ≠ none → InText e)
    (h : addSemantics (grammaticalAnalyzer parse) a = .ok a') : ∀ e ∈ actElements a', InText e :=
  references_in_text_partial hb (fun s _ hr x hx => (analyzed_in_sentence (hp s) hr x hx).2.1) ho h

/-! ## C58: positions of block amendments -/

/-- C58. A block amendment that only amends one reference has it as its position, and one that only inserts has that, as a pure
insertion. -/
theorem amended_or_inserted {a : ParsedActRef} {id : Str} {am ins : Option ParsedRef} {y : OutgoingReference} (hi : ActName a id) :
    (OneListed id am (some y) → OneListed id ins none → blockAmendments a am ins = .ok [.blockAmendment (.ref y.reference) false]) ∧
    (OneListed id am none → OneListed id ins (some y) → blockAmendments a am ins = .ok [.blockAmendment (.ref y.reference) true]) := by
  have conv : ∀ {r : Option ParsedRef} {x : Option OutgoingReference}, OneListed id r x →
      convertPotentialReference id r = .ok (x.map (·.reference)) := by
    intro r x h
    unfold convertPotentialReference convertPotentialInText
    rcases h with ⟨rfl, rfl⟩ | ⟨p, xs, rfl, h1, h2⟩
    · rfl
    · unfold Listed at h1
      simp only [convertPotential, h1]
      rcases h2 with ⟨z, rfl, rfl⟩ | ⟨h2, rfl⟩
      · rfl
      · match xs, h2 with
        | [], _ => rfl
        | [z], h => exact absurd rfl (h z)
        | _ :: _ :: _, _ => rfl
  constructor <;>
  · intro h1 h2
    unfold blockAmendments
    rw [actName_iff.mpr hi]
    show (convertPotentialReference id am >>= fun x => _) = _
    rw [conv h1]
    show (convertPotentialReference id ins >>= fun x => _) = _
    rw [conv h2]
    rfl

theorem both_listed {a : ParsedActRef} {id : Str} {am ins : Option ParsedRef} {y z : OutgoingReference} (hi : ActName a id)
    (hm : OneListed id am (some y)) (hn : OneListed id ins (some z)) :
    blockAmendments a am ins = (do .ok [.blockAmendment (.ref (← amendmentAndInsertion y.reference z.reference)) false]) := by
  have conv : ∀ {r : Option ParsedRef} {x : OutgoingReference}, OneListed id r (some x) →
      convertPotentialReference id r = .ok (some x.reference) := by
    intro r x h
    unfold convertPotentialReference convertPotentialInText
    rcases h with ⟨rfl, h⟩ | ⟨p, xs, rfl, h1, ⟨w, rfl, h⟩ | ⟨-, h⟩⟩
    · cases h
    · cases h
      unfold Listed at h1
      simp only [convertPotential, h1]
      rfl
    · cases h
  unfold blockAmendments
  rw [actName_iff.mpr hi]
  show (convertPotentialReference id am >>= fun x => _) = _
  rw [conv hm]
  show (convertPotentialReference id ins >>= fun x => _) = _
  rw [conv hn]
  rfl

/-- C58. If what is inserted comes after what is amended at the same level, the position is the smallest reference that covers both.
What is missing: an insertion that begins within or before what is amended. -/
theorem amended_and_inserted_partial {a : ParsedActRef} {id : Str} {am ins : Option ParsedRef} {y z : OutgoingReference} {c : Reference}
    (hi : ActName a id) (hm : OneListed id am (some y)) (hn : OneListed id ins (some z))
    (hc : Completes y.reference { z.reference with act := none } c) (va : ValidRanges y.reference) (vc : ValidRanges c)
    (hf : Follows y.reference c) :
    ∃ p, blockAmendments a am ins = .ok [.blockAmendment (.ref p) false] ∧ SmallestCover p y.reference c := by
  obtain rfl := completes_unique hc
  obtain ⟨p, h1, h2⟩ := amendmentAndInsertion_follows va vc hf
  exact ⟨p, by rw [both_listed hi hm hn, h1]; rfl, h2⟩

/-- C58. The same if what is inserted is within what is amended: then the position is just that. -/
theorem inserted_within_partial {a : ParsedActRef} {id : Str} {am ins : Option ParsedRef} {y z : OutgoingReference} {c : Reference}
    (hi : ActName a id) (hm : OneListed id am (some y)) (hn : OneListed id ins (some z))
    (hc : Completes y.reference { z.reference with act := none } c) (gap : GapFree y.reference) (rl : RangeLast y.reference)
    (va : ValidRanges y.reference) (vc : ValidRanges c) (hf : Covers y.reference c) :
    blockAmendments a am ins = .ok [.blockAmendment (.ref y.reference) false] ∧ SmallestCover y.reference y.reference c := by
  obtain rfl := completes_unique hc
  obtain ⟨h1, h2⟩ := amendmentAndInsertion_covered gap rl va vc hf
  exact ⟨by rw [both_listed hi hm hn, h1]; rfl, h2⟩

/-- A reference to a range of articles. -/
def articleRange (x y : Str) : ParsedRef := ([⟨.article, [], [((x, y), 0, 5)]⟩], 0, 7)

/-- A reference to an article. -/
def oneArticle (x : Str) : ParsedRef := ([⟨.article, [(x, 0, 2)], []⟩], 0, 4)

/-- An abbreviated act. -/
def abbreviatedAct : ParsedActRef := { abbreviation := some (py"Tv.", 2, 5) }

theorem articleRange_listed (x y : Str) :
    OneListed (py"Tv.") (some (articleRange x y)) (some ⟨0, 7, { act := some (py"Tv."), article := some (.range x y) }⟩) :=
  .inr ⟨_, [⟨0, 7, { act := some (py"Tv."), article := some (.range x y) }⟩], rfl, rfl, .inl ⟨_, rfl, rfl⟩⟩

theorem oneArticle_listed (x : Str) :
    OneListed (py"Tv.") (some (oneArticle x)) (some ⟨0, 4, { act := some (py"Tv."), article := some (.one x) }⟩) :=
  .inr ⟨_, [⟨0, 4, { act := some (py"Tv."), article := some (.one x) }⟩], rfl, rfl, .inl ⟨_, rfl, rfl⟩⟩

theorem article_completes (x i : Ident) : Completes { act := some (py"Tv."), article := some x } { article := some i }
    { act := some (py"Tv."), article := some i } :=
  ⟨[none], [some i, none, none, none], rfl, by simp, by simp, rfl⟩

theorem articles_valid {i : Ident} (h : ∀ x y, i = .range x y → identifierLess x y = .ok true) :
    ValidRanges { act := some (py"Tv."), article := some i } := by
  intro c hc x y he
  subst he
  have : Ident.range x y = i := by simpa [Reference.components] using hc
  exact h x y this.symm

/-- 1. § is amended and 2–4. § are inserted. -/
example : ∃ y z c, OneListed (py"Tv.") (some (oneArticle (py"1"))) (some y) ∧
    OneListed (py"Tv.") (some (articleRange (py"2") (py"4"))) (some z) ∧ ActName abbreviatedAct (py"Tv.") ∧
    Completes y.reference { z.reference with act := none } c ∧ ValidRanges y.reference ∧ ValidRanges c ∧ Follows y.reference c ∧
    blockAmendments abbreviatedAct (some (oneArticle (py"1"))) (some (articleRange (py"2") (py"4"))) =
      .ok [.blockAmendment (.ref { act := some (py"Tv."), article := some (.range (py"1") (py"4")) }) false] := by
  refine ⟨_, _, _, oneArticle_listed _, articleRange_listed _ _, .abbreviation rfl rfl, article_completes _ _, articles_valid ?_,
    articles_valid ?_, ⟨[some (.one (py"Tv."))], _, _, [none, none, none], py"1", py"2", rfl, rfl, by simp, by simp, .inl rfl,
      .inr ⟨_, rfl⟩, by decide +kernel⟩, by decide +kernel⟩
  · intro x y h; cases h
  · intro x y h; cases h; decide +kernel

/-- 1–9. § are amended and 5/A. § is inserted. -/
example : ∃ y z c, OneListed (py"Tv.") (some (articleRange (py"1") (py"9"))) (some y) ∧
    OneListed (py"Tv.") (some (oneArticle (py"5/A"))) (some z) ∧ Completes y.reference { z.reference with act := none } c ∧
    GapFree y.reference ∧ RangeLast y.reference ∧ ValidRanges y.reference ∧ ValidRanges c ∧ Covers y.reference c := by
  refine ⟨_, _, _, articleRange_listed _ _, oneArticle_listed _, article_completes _ _, ⟨by simp, by simp, by simp⟩, ?_, articles_valid ?_,
    articles_valid ?_, ?_⟩
  · intro p x y s h c hc
    match p, h with
    | [], h => cases h
    | [_], h =>
      simp only [Reference.components, List.cons_append, List.nil_append, List.cons.injEq] at h
      rw [← h.2.2] at hc
      simpa using hc
    | [_, _], h => cases h
    | [_, _, _], h => cases h
    | [_, _, _, _], h => cases h
    | _ :: _ :: _ :: _ :: _ :: p, h =>
      have := congrArg List.length h
      simp [Reference.components] at this
  · intro x y h; cases h; decide +kernel
  · intro x y h; cases h
  · refine ⟨?_, ?_, ?_, ?_, ?_⟩
    · intro i h; cases h; exact ⟨_, rfl, rfl⟩
    · intro i h; cases h; exact ⟨_, rfl, .inr (by decide +kernel), .inr (by decide +kernel)⟩
    · intro i h; cases h
    · intro i h; cases h
    · intro i h; cases h

/-- C58. The property does not hold for insertions that begin within what is amended and go on after it: "1–2. § helyébe …, és az
1/A–3. § lép" gets the position 1–2. §, without 3. §. -/
theorem inserted_not_covered : ∃ a id am ins y z c p, ActName a id ∧ OneListed id am (some y) ∧ OneListed id ins (some z) ∧
    Completes y.reference { z.reference with act := none } c ∧ ValidRanges y.reference ∧ ValidRanges c ∧
    blockAmendments a am ins = .ok [.blockAmendment (.ref p) false] ∧ ¬ Covers p c := by
  refine ⟨abbreviatedAct, py"Tv.", some (articleRange (py"1") (py"2")), some (articleRange (py"1/A") (py"3")), _, _, _,
    { act := some (py"Tv."), article := some (.range (py"1") (py"2")) }, .abbreviation rfl rfl, articleRange_listed _ _,
    articleRange_listed _ _, article_completes _ _, articles_valid ?_, articles_valid ?_, by decide +kernel, ?_⟩
  · intro x y h; cases h; decide +kernel
  · intro x y h; cases h; decide +kernel
  · intro h
    obtain ⟨j, hj, hc⟩ := h.2.1 _ rfl
    cases hj
    exact absurd hc.2 (by unfold NotAfter; decide +kernel)

/-- C58. Nor if they begin before it: 3–10. § are amended, 2–5. § inserted, and the position is 3–5. §. -/
theorem amended_not_covered : ∃ a id am ins y z c p, ActName a id ∧ OneListed id am (some y) ∧ OneListed id ins (some z) ∧
    Completes y.reference { z.reference with act := none } c ∧ ValidRanges y.reference ∧ ValidRanges c ∧
    blockAmendments a am ins = .ok [.blockAmendment (.ref p) false] ∧ ¬ Covers p y.reference ∧ ¬ Covers p c := by
  refine ⟨abbreviatedAct, py"Tv.", some (articleRange (py"3") (py"10")), some (articleRange (py"2") (py"5")), _, _, _,
    { act := some (py"Tv."), article := some (.range (py"3") (py"5")) }, .abbreviation rfl rfl, articleRange_listed _ _,
    articleRange_listed _ _, article_completes _ _, articles_valid ?_, articles_valid ?_, by decide +kernel, ?_, ?_⟩
  · intro x y h; cases h; decide +kernel
  · intro x y h; cases h; decide +kernel
  · intro h
    obtain ⟨j, hj, hc⟩ := h.2.1 _ rfl
    cases hj
    exact absurd hc.2 (by unfold NotAfter; decide +kernel)
  · intro h
    obtain ⟨j, hj, hc⟩ := h.2.1 _ rfl
    cases hj
    exact absurd hc.1 (by unfold NotAfter; decide +kernel)

/-- "1. és 3. §" -/
def twoArticles : ParsedRef := ([⟨.article, [(py"1", 0, 2), (py"3", 6, 8)], []⟩], 0, 10)

/-- C58. If several references are amended, they are forgotten: with an insertion this is reported as a pure insertion, and without one
nothing is. -/
theorem amended_list_forgotten : blockAmendments abbreviatedAct (some twoArticles) (some (oneArticle (py"4"))) =
      .ok [.blockAmendment (.ref { act := some (py"Tv."), article := some (.one (py"4")) }) true] ∧
    blockAmendments abbreviatedAct (some twoArticles) none = .ok [] := by decide +kernel

/-- C58. If several references are amended together with their subtitle, the analysis fails altogether, and so does adding semantic data
to the act. -/
theorem amended_list_with_subtitle_fails : ∃ t : ParseTree, (∀ n ∈ treeNodes t, ∀ r ∈ nodeRefs n, RefPlaced 10 r) ∧
    convertTree t = .error .attributeError ∧
    ∀ (parse : Str → Option ParseTree) (s : Str), parse s = some t → grammaticalAnalyzer parse s = .error .grammaticalParsing := by
  have hc : convertTree (.node (.blockAmendmentWithSubtitle abbreviatedAct none (some twoArticles) none) []) = .error .attributeError := by
    rfl
  refine ⟨_, ?_, hc, ?_⟩
  · intro n hn r hr
    have hn : n = .blockAmendmentWithSubtitle abbreviatedAct none (some twoArticles) none := by simpa [treeNodes, treesNodes] using hn
    subst hn
    have hr : r = twoArticles := by simpa [nodeRefs] using hr
    subst hr
    decide +kernel
  · intro parse s h
    unfold grammaticalAnalyzer
    rw [h]
    simp only [hc]

/-! ## C59: what the sentence says -/

/-- C59. The analysis consists of what each node of the parse tree tells, in the order of the tree with parts before wholes, and nothing
else. -/
theorem analysis_tells {parse : Str → Option ParseTree} {s : Str} {r : Analysis} (h : grammaticalAnalyzer parse s = .ok r) :
    ∃ t ts, parse s = some t ∧ Both Tells (treeNodes t) ts ∧ r.references = ts.flatMap (·.1) ∧
      r.abbreviations = ts.flatMap (·.2.1) ∧ r.semantic = ts.flatMap (·.2.2) := analyzer_ok h

/-- The positions in an act that the data is about, but for block amendments. -/
def positionOf : SemanticData → Option Reference
  | .enforcementDate p _ _ => p
  | .textAmendment p _ _ => some p
  | .articleTitleAmendment p _ _ => some p
  | .repeal (.ref p) _ => some p
  | _ => none

theorem both_positions {xs : List OutgoingReference} {dss : List (List SemanticData)} {R : OutgoingReference → List SemanticData → Prop}
    (h : Both R xs dss) (hr : ∀ x ds, R x ds → ∀ d ∈ ds, positionOf d = some x.reference) :
    ∀ d ∈ dss.flatten, ∃ x ∈ xs, positionOf d = some x.reference := by
  intro d hd
  obtain ⟨ds, hds, hd⟩ := List.mem_flatten.mp hd
  obtain ⟨x, hx, h⟩ := h.mem_right hds
  exact ⟨x, hx, hr x ds h d hd⟩

theorem told_positions {n : GrammarNode} {told : Told} (h : Tells n told) : ∀ d ∈ told.2.2, ∀ p, positionOf d = some p →
    ∃ x ∈ told.1, x.reference = p := by
  have maps : ∀ {xs ys : List OutgoingReference} {f : OutgoingReference → SemanticData}, (∀ x, positionOf (f x) = some x.reference) →
      (∀ x ∈ xs, x ∈ ys) → ∀ d ∈ xs.map f, ∀ p, positionOf d = some p → ∃ x ∈ ys, x.reference = p := by
    intro xs ys f hf hxy d hd p hp
    obtain ⟨x, hx, rfl⟩ := List.mem_map.mp hd
    rw [hf] at hp
    cases hp
    exact ⟨x, hxy x hx, rfl⟩
  have flat : ∀ {a : OutgoingReference} {xs : List OutgoingReference} {ds : List SemanticData},
      (∀ d ∈ ds, ∃ x ∈ xs, positionOf d = some x.reference) → ∀ d ∈ ds, ∀ p, positionOf d = some p →
      ∃ x ∈ a :: xs, x.reference = p := by
    intro a xs ds h d hd p hp
    obtain ⟨x, hx, h⟩ := h d hd
    rw [h] at hp
    cases hp
    exact ⟨x, List.mem_cons_of_mem _ hx, rfl⟩
  have none : ∀ {xs : List OutgoingReference} {d : SemanticData}, positionOf d = none → ∀ e ∈ [d], ∀ p, positionOf e = some p →
      ∃ x ∈ xs, x.reference = p := by
    intro xs d h e he p hp
    obtain rfl := List.mem_singleton.mp he
    rw [h] at hp
    cases hp
  cases h with
  | compound | compoundOfAct | defined | act | neither | other => exact fun d hd => nomatch hd
  | amended | inserted | both | withSubtitle | onlySubtitle | structuralAmended | structuralInserted | structureRepealed => exact none rfl
  | allInForce he ht hr hx => exact none rfl
  | inForce he ht hr h hx => exact maps (fun x => rfl) fun x hx => List.mem_append_left _ hx
  | replaced ha hi h hd =>
    refine flat (both_positions hd fun x ds hb d hd => ?_)
    obtain ⟨p, -, o, r, -, -, rfl⟩ := hb.mem_right hd
    rfl
  | title ha hi ho hr =>
    intro d hd p hp
    obtain rfl := List.mem_singleton.mp hd
    cases hp
    exact ⟨_, List.mem_cons_of_mem _ (List.mem_cons_self ..), rfl⟩
  | repealed ha hi h => exact maps (fun x => rfl) fun x hx => List.mem_cons_of_mem _ hx
  | textsRepealed ha hi h he hd =>
    refine flat (both_positions hd fun x ds hb d hd => ?_)
    obtain ⟨p, -, s, -, rfl⟩ := hb.mem_right hd
    rfl

/-- C59. Every text amendment, title amendment, repeal and enforcement date is about a place that is among the references of the same
sentence. -/
theorem semantic_positions_referenced {parse : Str → Option ParseTree} {s : Str} {r : Analysis}
    (h : grammaticalAnalyzer parse s = .ok r) : ∀ d ∈ r.semantic, ∀ p, positionOf d = some p → ∃ x ∈ r.references, x.reference = p := by
  obtain ⟨t, ts, -, hb, h1, -, h3⟩ := analyzer_ok h
  intro d hd p hp
  rw [h3] at hd
  obtain ⟨told, htold, hd⟩ := List.mem_flatMap.mp hd
  obtain ⟨n, -, h⟩ := hb.mem_right htold
  obtain ⟨x, hx, hxp⟩ := told_positions h d hd p hp
  exact ⟨x, by rw [h1]; exact List.mem_flatMap.mpr ⟨told, htold, hx⟩, hxp⟩

/-- The tree of "A Tv. 1. § (2) és (4) bekezdésében az „a” szövegrész helyébe a „b” szöveg lép." -/
def replacingTree : ParseTree :=
  .node (.textAmendment abbreviatedAct
    [([⟨.article, [(py"1", 6, 8)], []⟩, ⟨.paragraph, [(py"2", 11, 14)], []⟩], 6, 14), ([⟨.paragraph, [(py"4", 18, 21)], []⟩], 18, 34)]
    [([.text (py"„"), .text (py"a "), .list [.text (py"„"), .text (py"x"), .text (py"”")], .text (py"”")],
      [.text (py"„"), .text (py" b"), .text (py"”")])])
    [.node (.actReference abbreviatedAct) []]

example : ∃ (parse : Str → Option ParseTree) (s : Str), grammaticalAnalyzer parse s = .ok
    { references := [⟨2, 5, { act := some (py"Tv.") }⟩,
        ⟨6, 14, { act := some (py"Tv."), article := some (.one (py"1")), paragraph := some (.one (py"2")) }⟩,
        ⟨18, 34, { act := some (py"Tv."), article := some (.one (py"1")), paragraph := some (.one (py"4")) }⟩]
      semantic := [
        .textAmendment { act := some (py"Tv."), article := some (.one (py"1")), paragraph := some (.one (py"2")) } (py"a „x”") (py"b"),
        .textAmendment { act := some (py"Tv."), article := some (.one (py"1")), paragraph := some (.one (py"4")) } (py"a „x”") (py"b")]
      abbreviations := [] } :=
  ⟨fun _ => some replacingTree, [], by rfl⟩

/-- C59. The analyser fails with one kind of error only. -/
theorem analysis_failure {parse : Str → Option ParseTree} {s : Str} {e : Err} (h : grammaticalAnalyzer parse s = .error e) :
    e = .grammaticalParsing := by
  unfold grammaticalAnalyzer at h
  cases hp : parse s with
  | none => rw [hp] at h; cases h; rfl
  | some t =>
    rw [hp] at h
    simp only at h
    cases hc : convertTree t with
    | error e' => rw [hc] at h; cases h; rfl
    | ok rs => rw [hc] at h; cases h

example : ∃ (parse : Str → Option ParseTree) (s : Str), grammaticalAnalyzer parse s = .error .grammaticalParsing :=
  ⟨fun _ => some (.node (.actReference { fromNowOn := some (py"Tv.") }) []), [], by rfl⟩

end Verif.Props
