import Verif.Proofs.Amendments
import Verif.Props.Parser

/-! # Properties C30, C31: block amendments -/

namespace Verif.Props

open Verif Spec

/-! ## Samples -/

/-- An analyser that announces an amendment of the paragraph (3) of article 2 after one text, and nothing else. -/
def announcer (position : Position) (text : Str) : Analyzer := fun s =>
  .ok (if s = text then { semantic := [.enforcementDate none (.days 3) none, .blockAmendment position false] } else {})

/-- A paragraph (3) in article 2. -/
def thirdParagraph : Position := .ref { article := some (.one (py"2")), paragraph := some (.one (py"3")) }

/-- A paragraph with a quoted block. -/
def quoting (intro : Str) (lines : List Line) (wrapUp : Option Str := none) : Node :=
  .sae .paragraph { identifier := some (py"1"), intro := some intro, wrapUp := wrapUp } [.quoted lines]

/-- An act of two articles, the first one with the given paragraph. -/
def amendingAct (p : Node) : Act :=
  { identifier := py"2020. évi I. törvény", publicationDate := ⟨2020, 1, 1⟩, subject := py"Tárgy", preamble := [],
    children := [.article (py"1") none [p, .sae .paragraph { identifier := some (py"2"), text := some (py"Más.") } []],
      .article (py"2") none [.sae .paragraph { text := some (py"Vége.") } []]] }

/-- Two paragraphs, the first one with points and a wrap-up. -/
def amendmentLines : List Line :=
  [spread 0 (py"(3) Ha"), spread 10 (py"a) egy,"), spread 10 (py"b) kettő,"), spread 0 (py"(4) vége.")]

/-- The introduction of an amendment with a context. -/
def contextIntro : Str := py"A 2. § (2) bekezdése helyébe lép: (Ha igen,)"

theorem contextIntro_context : HasContext contextIntro (py"A 2. § (2) bekezdése helyébe lép:") (py"Ha igen,") :=
  (matchContext_iff _ _ _).mp (by decide +kernel)

/-! ## C30: an amendment that cannot be parsed -/

/-- C30. The code violates the claim: if one paragraph of an act announces an amendment and its quoted text cannot be
parsed as such, then the whole act fails. -/
theorem failed_amendment_fails_act {analyze : Analyzer} {act : Act} {i : Str} {t : Option Str} {ps : List Node} {p : Node}
    {position : Position} (ha : .article i t ps ∈ act.children) (hp : p ∈ ps) (h : Announces analyze p position)
    (hu : Unparsable position p) : ∀ act', parseBlockAmendments analyze act ≠ .ok act' := by
  intro act' hact
  obtain ⟨e, he⟩ := blockParagraph_unparsable h hu
  obtain ⟨cs, hcs, _⟩ := resBind_ok hact
  obtain ⟨c', _, hc'⟩ := (mapRes_ok hcs).mem_left ha
  obtain ⟨ps', hps, _⟩ := resBind_ok (show (mapRes (blockParagraph analyze) ps >>= fun ps' => mkArticle i t ps') = .ok c' from hc')
  obtain ⟨p', _, hp'⟩ := (mapRes_ok hps).mem_left hp
  rw [he] at hp'
  cases hp'

/-- C30. The same on an example: a paragraph (3) is announced, but the quoted text has only letters, and the act fails
with the error of the amendment. -/
theorem failed_amendment_witness :
    parseBlockAmendments (announcer (.ref { article := some (.one (py"2")), point := some (.one (py"a")) }) (py"Helyébe lép:"))
      (amendingAct (quoting (py"Helyébe lép:") [spread 0 (py"valami.")])) = .error .blockAmendmentParsing := by
  decide +kernel

theorem announcer_announces {position : Position} {intro actual : Str} {lines : List Line} {w : Option Str}
    (hl : intro.length ≤ 10000) (h : Announcement intro actual) :
    Announces (announcer position actual) (quoting intro lines w) position :=
  ⟨_, _, _, intro, actual, { semantic := [.enforcementDate none (.days 3) none, .blockAmendment position false] },
    [.enforcementDate none (.days 3) none], false, [], rfl, by simp, by simp [Node.type], rfl, hl,
    h, by simp [announcer], rfl, by simp⟩

example : Announces (announcer thirdParagraph (py"Lép:")) (quoting (py"Lép:") [spread 0 (py"„3")]) thirdParagraph ∧
    Unparsable thirdParagraph (quoting (py"Lép:") [spread 0 (py"„3")]) := by
  refine ⟨announcer_announces (by decide) (.inr ⟨rfl, fun a i h => ?_⟩), fun lines h cs hcs => ?_⟩
  · exact absurd ((matchContext_iff _ _ _).mpr h) (by rw [show matchContext [] (py"Lép:") = none by decide]; simp)
  · obtain rfl : [spread 0 (py"„3")] = lines := by simpa [quoting, Node.children] using h
    have : (blockChildren thirdParagraph [spread 0 (py"„3")]).toOption.isSome = false := by decide +kernel
    rw [hcs] at this
    cases this

/-- C30. If every announced amendment can be parsed then so can the act. Missing from the full claim: amendments that
cannot be parsed, for which it is false, see above; elements with a quoted block and no introduction, and errors of the
analyser. -/
theorem amendments_parse_partial {analyze : Analyzer} {act : Act} (hb : ∀ c ∈ act.children, Built c)
    (ha : ∀ s, ∃ r, analyze s = .ok r)
    (hi : ∀ i t ps, .article i t ps ∈ act.children → ∀ p ∈ ps, (∃ c ∈ p.children, c.type = .quoted) →
      ∃ k d cs intro, p = .sae k d cs ∧ d.intro = some intro)
    (hp : ∀ i t ps, .article i t ps ∈ act.children → ∀ p ∈ ps, ∀ position, Announces analyze p position →
      ∃ lines cs, p.children = [.quoted lines] ∧ blockChildren position lines = .ok cs) :
    ∃ act', parseBlockAmendments analyze act = .ok act' := by
  have : ∃ cs, mapRes (blockArticle analyze) act.children = .ok cs := by
    refine mapRes_of fun c hc => ?_
    cases c with
    | article i t ps =>
      have hbuilt := hb _ hc
      have hps : (∀ p ∈ ps, Built p ∧ p.type = .sae .paragraph) ∧
          mkArticle i t ps = .ok (.article i t ps) := by
        cases hbuilt with
        | sae children parts made => obtain ⟨e, _⟩ := mkSae_ok made; cases e
        | @article i' t' _ children parts typed made =>
          have made' := made
          unfold mkArticle at made
          split at made
          · cases made
          · obtain ⟨rfl, rfl, rfl⟩ := Node.article.inj (Except.ok.inj made)
            exact ⟨fun p hp => ⟨parts p hp, typed p hp⟩, made'⟩
      have each : ∀ p ∈ ps, ∃ p', blockParagraph analyze p = .ok p' := by
        intro p hpp
        by_cases han : ∃ position, Announces analyze p position
        · obtain ⟨position, han⟩ := han
          exact blockParagraph_parsable (hps.1 p hpp).1 (hps.1 p hpp).2 han (hp i t ps hc p hpp position han)
        · exact ⟨p, blockParagraph_quiet (hi i t ps hc p hpp) ha fun q hq => han ⟨q, hq⟩⟩
      obtain ⟨ps', hps'⟩ := mapRes_of each
      have ids : ps'.map Node.identifier = ps.map Node.identifier := by
        have := mapRes_ok hps'
        clear hps' each hps hbuilt hp hi hc
        induction this with
        | nil => rfl
        | @cons p p' _ _ h _ ih =>
          rw [List.map_cons, List.map_cons, ih]
          congr 1
          by_cases han : ∃ position, Announces analyze p position
          · obtain ⟨position, han⟩ := han
            obtain ⟨_, _, _, _, _, _, _, _, rfl, _, _, _, rfl⟩ := blockParagraph_amended han h
            rfl
          · rw [blockParagraph_other (fun q hq => han ⟨q, hq⟩) h]
      refine ⟨.article i t ps', ?_⟩
      simp only [blockArticle, hps', bind, Except.bind]
      have h2 := hps.2
      unfold mkArticle at h2 ⊢
      have e1 : ps'.any (fun c => c.identifier.isNone) = ps.any (fun c => c.identifier.isNone) := by
        have := congrArg (fun l => l.any Option.isNone) ids
        simpa [List.any_map, Function.comp_def] using this
      have e2 : ps'.length = ps.length := by simpa using congrArg List.length ids
      rw [e1, e2]
      split at h2
      · cases h2
      · rename_i hx; rw [if_neg hx]
    | _ => exact ⟨_, rfl⟩
  obtain ⟨cs, hcs⟩ := this
  exact ⟨{ act with children := cs }, by simp [parseBlockAmendments, hcs, bind, Except.bind]⟩

/-- The act of the next example. -/
def goodAct : Act := amendingAct (quoting (py"Lép:") amendmentLines)

example : (∀ c ∈ goodAct.children, Built c) ∧ (∀ s, ∃ r, announcer thirdParagraph (py"Lép:") s = .ok r) ∧
    (∀ i t ps, .article i t ps ∈ goodAct.children → ∀ p ∈ ps, (∃ c ∈ p.children, c.type = .quoted) →
      ∃ k d cs intro, p = .sae k d cs ∧ d.intro = some intro) ∧
    (∀ i t ps, .article i t ps ∈ goodAct.children → ∀ p ∈ ps, ∀ position,
      Announces (announcer thirdParagraph (py"Lép:")) p position →
      ∃ lines cs, p.children = [.quoted lines] ∧ blockChildren position lines = .ok cs) := by
  have text : ∀ i s, Built (.sae .paragraph { identifier := i, text := some s } []) :=
    fun i s => .sae (k := .paragraph) (d := { identifier := i, text := some s }) none (by simp) rfl
  have quote : Built (quoting (py"Lép:") amendmentLines) :=
    .sae (k := .paragraph) (d := { identifier := some (py"1"), intro := some (py"Lép:") })
      (some [.quoted amendmentLines]) (by rintro cs ⟨⟩ c hc; rw [List.mem_singleton.mp hc]; exact .quoted _) rfl
  have han : Announces (announcer thirdParagraph (py"Lép:")) (quoting (py"Lép:") amendmentLines) thirdParagraph := by
    refine announcer_announces (by decide) (.inr ⟨rfl, fun a i h => ?_⟩)
    exact absurd ((matchContext_iff _ _ _).mpr h) (by rw [show matchContext [] (py"Lép:") = none by decide]; simp)
  refine ⟨?_, fun s => ⟨_, rfl⟩, ?_, ?_⟩
  · intro c hc
    simp only [goodAct, amendingAct, List.mem_cons, List.not_mem_nil, or_false] at hc
    rcases hc with rfl | rfl
    · refine .article (i := py"1") (t := none) [quoting (py"Lép:") amendmentLines,
        .sae .paragraph { identifier := some (py"2"), text := some (py"Más.") } []] ?_ ?_ rfl
      · intro c hc
        simp only [List.mem_cons, List.not_mem_nil, or_false] at hc
        rcases hc with rfl | rfl
        · exact quote
        · exact text _ _
      · intro c hc
        simp only [List.mem_cons, List.not_mem_nil, or_false] at hc
        rcases hc with rfl | rfl <;> rfl
    · refine .article (i := py"2") (t := none) [.sae .paragraph { text := some (py"Vége.") } []] ?_ ?_ rfl
      · intro c hc; rw [List.mem_singleton.mp hc]; exact text _ _
      · intro c hc; rw [List.mem_singleton.mp hc]; rfl
  · intro i t ps hc p hp hq
    simp only [goodAct, amendingAct, List.mem_cons, List.not_mem_nil, or_false, Node.article.injEq] at hc
    rcases hc with ⟨_, _, rfl⟩ | ⟨_, _, rfl⟩
    · simp only [List.mem_cons, List.not_mem_nil, or_false] at hp
      rcases hp with rfl | rfl
      · exact ⟨_, _, _, _, rfl, rfl⟩
      · simp [Node.children] at hq
    · rw [List.mem_singleton.mp hp] at hq
      simp [Node.children] at hq
  · intro i t ps hc p hp position ha
    have noText : ∀ d, ¬ Announces (announcer thirdParagraph (py"Lép:")) (.sae .paragraph d []) position := by
      rintro d ⟨_, _, _, _, _, _, _, _, _, e, h, _⟩
      obtain ⟨_, _, rfl⟩ := Node.sae.inj e
      exact h rfl
    simp only [goodAct, amendingAct, List.mem_cons, List.not_mem_nil, or_false, Node.article.injEq] at hc
    rcases hc with ⟨_, _, rfl⟩ | ⟨_, _, rfl⟩
    · simp only [List.mem_cons, List.not_mem_nil, or_false] at hp
      rcases hp with rfl | rfl
      · obtain rfl := announces_unique ha han
        have : (blockChildren thirdParagraph amendmentLines).toOption.isSome = true := by decide +kernel
        cases hb : blockChildren thirdParagraph amendmentLines with
        | error e => rw [hb] at this; cases this
        | ok cs => exact ⟨amendmentLines, cs, rfl, hb⟩
      · exact absurd ha (noText _)
    · rw [List.mem_singleton.mp hp] at ha
      exact absurd ha (noText _)

/-- C30. If the act parses, only paragraphs that announce an amendment change, into what they announce; everything else
is left as it was. Missing from the full claim: an act with an amendment that cannot be parsed does not parse. -/
theorem rest_left_partial {analyze : Analyzer} {act act' : Act} (h : parseBlockAmendments analyze act = .ok act') :
    { act' with children := [] } = { act with children := [] } ∧
    Both (fun c c' => (c.type ≠ .article ∧ c' = c) ∨ ∃ i t ps ps', c = .article i t ps ∧ c' = .article i t ps' ∧
      Both (fun p p' => ((∀ position, ¬ Announces analyze p position) ∧ p' = p) ∨
        ∃ position, Announces analyze p position ∧ Amended position p p') ps ps') act.children act'.children := by
  obtain ⟨cs, hcs, h⟩ := resBind_ok h
  obtain rfl := Except.ok.inj h
  refine ⟨rfl, (mapRes_ok hcs).imp fun c _ c' _ hc => ?_⟩
  cases c with
  | article i t ps =>
    obtain ⟨ps', hps, hm⟩ := resBind_ok (show (mapRes (blockParagraph analyze) ps >>= fun ps' => mkArticle i t ps') = .ok c' from hc)
    refine .inr ⟨i, t, ps, ps', rfl, ?_, (mapRes_ok hps).imp fun p _ p' _ hp => ?_⟩
    · unfold mkArticle at hm
      split at hm
      · cases hm
      · exact (Except.ok.inj hm).symm
    · by_cases han : ∃ position, Announces analyze p position
      · obtain ⟨position, han⟩ := han
        exact .inr ⟨position, han, blockParagraph_amended han hp⟩
      · exact .inl ⟨fun q hq => han ⟨q, hq⟩, blockParagraph_other (fun q hq => han ⟨q, hq⟩) hp⟩
  | _ => exact .inl ⟨by simp [Node.type], (Except.ok.inj hc).symm⟩

example : (parseBlockAmendments (announcer thirdParagraph (py"A 2. § (2) bekezdése helyébe lép:"))
      (amendingAct (quoting contextIntro amendmentLines (some (py"(úgy.)"))))).toOption.map
      (fun a => a.children.map fun c => c.children.map fun p => p.children.map fun b => b.children.map Node.identifier) =
    some [[[[some (py"3"), some (py"4")]], []], [[]]] := by decide +kernel

/-! ## C31: the text of an amendment -/

/-- C31. The texts of an amended paragraph: the introduction is divided into its own and, without brackets, that of the
amendment. -/
theorem amended_intro {position : Position} {n n' : Node} (h : Amended position n n') :
    ∃ k d cs intro actual b es, n = .sae k d cs ∧ d.intro = some intro ∧
      n' = .sae k { d with intro := some actual, wrapUp := some [] } [.sae .blockAmendmentContainer b es] ∧
      ((intro = actual ∧ b.intro = none) ∨ ∃ inner space o c newline, b.intro = some inner ∧
        intro = actual ++ (space ++ o :: (inner ++ c :: newline)) ∧ (space = [] ∨ space = [' ']) ∧
        (newline = [] ∨ newline = ['\n']) ∧ ((o = '(' ∧ c = ')') ∨ (o = '[' ∧ c = ']'))) := by
  obtain ⟨k, d, lines, intro, actual, inner, w, cs, rfl, hi, _, hc, rfl⟩ := h
  refine ⟨k, d, _, intro, actual, _, cs, rfl, hi, rfl, ?_⟩
  rcases hc with ⟨i, ⟨x, rest, rfl, rfl, _, ⟨space, o, c, nl, rfl, h1, h2, _, h4⟩, _⟩, rfl, _⟩ | ⟨_, rfl, rfl, _⟩
  · exact .inr ⟨i, space, o, c, nl, rfl, by simp, h1, h2, h4⟩
  · exact .inl ⟨rfl, rfl⟩

/-- C31. The quoted lines of an amended paragraph are divided among the amended elements, each of which says what its
lines say. Missing from the full claim: lines before the first header of an amended chapter or the like, a first line
that begins with the word None, and everything that is missing when acts are parsed (C25); wrap-ups and brackets are
lost, see below. -/
theorem amendment_keeps_lines_partial {position : Position} {n n' : Node} (h : Amended position n n')
    (hf : ∀ lines, n.children = [.quoted lines] → (∀ l ∈ lines, FineEnd l) ∧ ¬ LongTitle lines ∧ ¬ NoneFirst lines) :
    ∃ lines b cs pre blocks, n.children = [.quoted lines] ∧ n'.children = [.sae .blockAmendmentContainer b cs] ∧
      lines = pre ++ blocks.flatten ∧ Both Reads blocks cs ∧
      ((∃ r, position = .ref r) → pre = [] ∧ ink (linesText lines) = ink (printedL cs)) ∧
      ∀ l p, lines.head? = some l → headerParser false {} l emptyLine bodyParsers = .ok (some p) → pre = [] := by
  obtain ⟨k, d, lines, intro, actual, inner, w, cs, rfl, hi, hb, hc, rfl⟩ := h
  obtain ⟨f1, f2, f3⟩ := hf lines rfl
  obtain ⟨pre, blocks, h1, h2, h3, h4⟩ := blockChildren_reads hb f1 f2 f3
  refine ⟨lines, _, cs, pre, blocks, rfl, rfl, h1, h2, fun hr => ?_, h4⟩
  obtain ⟨rfl, h5⟩ := h3 hr
  refine ⟨rfl, ?_⟩
  rw [h1, List.nil_append]
  clear h1 h4 hb h3
  induction h2 with
  | nil => rfl
  | @cons b c bs cs hr _ ih =>
    have hb : ink (linesText b) = ink (printed c) := by
      cases c with
      | structural e => exact absurd rfl (h5 _ (by simp) e)
      | _ => exact hr
    rw [List.flatten_cons, linesText_append, ink_append, hb, ih fun c h => h5 c (by simp [h]), printedL, ink_append]

/-- What one paragraph becomes. -/
def amendedParagraph (position : Position) (actual : Str) (n : Node) : Option Node :=
  (blockParagraph (announcer position actual) n).toOption

example : (amendedParagraph thirdParagraph (py"A 2. § (2) bekezdése helyébe lép:")
      (quoting contextIntro amendmentLines (some (py"(úgy.)")))).map (fun n => n.children.map fun b => (printed b)) =
    some [py"Ha igen,(3)Haa)egy,b)kettő,(4)vége.úgy."] ∧
    (∀ l ∈ amendmentLines, FineEnd l) ∧ ¬ LongTitle amendmentLines ∧ ¬ NoneFirst amendmentLines := by
  refine ⟨by decide +kernel, fine_of_all (by decide +kernel), short_titles (by decide +kernel), ?_⟩
  rintro ⟨l, s, h1, h2⟩
  obtain rfl := Option.some.inj h1
  have := congrArg List.head? h2
  rw [show (spread 0 (py"(3) Ha")).content.head? = some '(' by decide] at this
  cases this

theorem Announces.wrapUp {analyze : Analyzer} {k : SaeKind} {d : SaeData} {cs : List Node} {position : Position}
    (h : Announces analyze (.sae k d cs) position) (w : Option Str) :
    Announces analyze (.sae k { d with wrapUp := w } cs) position := by
  obtain ⟨k', d', cs', intro, actual, an, b, q, a, e, rest⟩ := h
  obtain ⟨rfl, rfl, rfl⟩ := Node.sae.inj e
  exact ⟨k, _, cs, intro, actual, an, b, q, a, rfl, rest⟩

/-- Two wrap-ups that give the same texts for the amendment give the same result. -/
theorem same_wrapUp {analyze : Analyzer} {k : SaeKind} {d : SaeData} {lines : List Line} {position : Position} {n' : Node}
    (h : Announces analyze (.sae k d [.quoted lines]) position)
    (hb : blockParagraph analyze (.sae k d [.quoted lines]) = .ok n') (w : Option Str)
    (hw : ∀ intro, d.intro = some intro → splitContext intro w = splitContext intro d.wrapUp) :
    blockParagraph analyze (.sae k { d with wrapUp := w } [.quoted lines]) = .ok n' := by
  obtain ⟨intro, hi, h1, h2⟩ := blockParagraph_one h
  obtain ⟨intro', hi', h1', h2'⟩ := blockParagraph_one (Announces.wrapUp h w)
  obtain rfl := Option.some.inj (hi.symm.trans hi')
  simp only [hw intro hi] at h1' h2'
  cases hp : parseBlockAmendment position (splitContext intro d.wrapUp).2.1 (splitContext intro d.wrapUp).2.2 lines with
  | error e => rw [h2 e hp] at hb; cases hb
  | ok b =>
    rw [h1' b hp, ← hb, h1 b hp]

/-- C31. The code violates the claim: without a context the wrap-up is lost, whatever it is. -/
theorem wrap_up_lost {analyze : Analyzer} {k : SaeKind} {d : SaeData} {lines : List Line} {position : Position} {n' : Node}
    (h : Announces analyze (.sae k d [.quoted lines]) position)
    (hc : ∀ intro a i, d.intro = some intro → ¬ HasContext intro a i)
    (hb : blockParagraph analyze (.sae k d [.quoted lines]) = .ok n') (w : Option Str) :
    blockParagraph analyze (.sae k { d with wrapUp := w } [.quoted lines]) = .ok n' := by
  refine same_wrapUp h hb w fun intro hi => ?_
  unfold splitContext
  cases hm : matchContext [] intro with
  | none => rfl
  | some r => exact absurd ((matchContext_iff _ _ _).mp hm) (hc intro r.1 r.2 hi)

/-- C31. The code violates the claim: the first and the last character of a wrap-up are lost, whatever they are. -/
theorem wrap_up_ends_lost {analyze : Analyzer} {k : SaeKind} {d : SaeData} {lines : List Line} {position : Position}
    {n' : Node} {x y : Char} {s : Str} (h : Announces analyze (.sae k d [.quoted lines]) position)
    (hw : d.wrapUp = some (x :: s ++ [y]))
    (hb : blockParagraph analyze (.sae k d [.quoted lines]) = .ok n') (x' y' : Char) :
    blockParagraph analyze (.sae k { d with wrapUp := some (x' :: s ++ [y']) } [.quoted lines]) = .ok n' := by
  refine same_wrapUp h hb _ fun intro hi => ?_
  have inner : ∀ x y : Char, ∀ i, matchContext [] intro = some i →
      (splitContext intro (some (x :: s ++ [y]))).2.2 = some s := by
    intro x y i hm
    rcases splitContext_cases intro (some (x :: s ++ [y])) with ⟨_, _, _, h⟩ | ⟨h, _⟩
    · rw [h]; simp
    · exact absurd ((matchContext_iff _ _ _).mp hm) (h i.1 i.2)
  rw [hw]
  cases hm : matchContext [] intro with
  | none => simp only [splitContext, hm]
  | some i =>
    have e1 := inner x y i hm
    have e2 := inner x' y' i hm
    simp only [splitContext, hm] at e1 e2 ⊢
    rw [e1, e2]

example : Announces (announcer thirdParagraph (py"A 2. § (2) bekezdése helyébe lép:"))
      (quoting contextIntro amendmentLines (some (py"(úgy.)"))) thirdParagraph ∧
    (amendedParagraph thirdParagraph (py"A 2. § (2) bekezdése helyébe lép:")
      (quoting contextIntro amendmentLines (some (py"(úgy.)")))).isSome = true :=
  ⟨announcer_announces (by decide) (.inl ⟨_, contextIntro_context⟩), by decide +kernel⟩

example : (∀ a i, ¬ HasContext (py"Lép:") a i) ∧
    (amendedParagraph thirdParagraph (py"Lép:") (quoting (py"Lép:") amendmentLines (some (py"úgy.")))).isSome = true := by
  refine ⟨fun a i h => ?_, by decide +kernel⟩
  exact absurd ((matchContext_iff _ _ _).mpr h) (by rw [show matchContext [] (py"Lép:") = none by decide]; simp)

/-- C31. The code violates the claim: round and square brackets around the context give the same result. -/
theorem brackets_lost :
    amendedParagraph thirdParagraph (py"Lép:") (quoting (py"Lép: (Ha)") amendmentLines) =
      amendedParagraph thirdParagraph (py"Lép:") (quoting (py"Lép: [Ha]") amendmentLines) ∧
    (amendedParagraph thirdParagraph (py"Lép:") (quoting (py"Lép: (Ha)") amendmentLines)).isSome = true := by
  constructor <;> decide +kernel

/-- C31. The code violates the claim: the lines before the first header of an amended chapter are lost. -/
theorem lines_before_header_lost :
    amendedParagraph (.struct {}) (py"Lép:") (quoting (py"Lép:") [spread 0 (py"igen"), spread 0 (py"1. § Szöveg.")]) =
      amendedParagraph (.struct {}) (py"Lép:") (quoting (py"Lép:") [spread 0 (py"nem"), spread 0 (py"1. § Szöveg.")]) ∧
    (amendedParagraph (.struct {}) (py"Lép:")
      (quoting (py"Lép:") [spread 0 (py"igen"), spread 0 (py"1. § Szöveg.")])).isSome = true := by
  constructor <;> decide +kernel

/-- C31. The code violates the claim: the word None at the beginning is taken for the number of a point without a number,
and is not in the result. -/
theorem none_lost :
    (amendedParagraph (.ref { article := some (.one (py"2")), point := some (.one (py"1")) }) (py"Lép:")
        (quoting (py"Lép:") [spread 0 (py"None. szöveg")])).map (fun n => n.children.map printed) =
      some [py"szöveg"] := by
  decide +kernel

end Verif.Props
