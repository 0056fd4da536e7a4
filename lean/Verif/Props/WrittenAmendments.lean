import Verif.Proofs.WrittenAmendments
import Verif.Props.Divisions
import Verif.Props.Changes
import Verif.Props.Usual
import Verif.Props.Referable

/-! # Amendments written in the usual way are made as they are written (C82) -/

set_option maxRecDepth 100000

namespace Verif.Props
open Spec

theorem points_lowest {act : Option Str} {ps : List ParsedPart} {r : Reference} {t : Reference.Level} {i : Str} (h : Points act ps r)
    (hl : LowestNamed ps t i) : ∃ id, LowestPart r t id ∧ (id = .one i ∨ ∃ b, id = .range i b) := by
  obtain ⟨-, h1, h2⟩ := h
  obtain ⟨q, hq, rfl, hi, hlow⟩ := hl
  obtain ⟨x, hx, hc⟩ := h1 q hq
  have hxi : x = .one i ∨ ∃ b, x = .range i b := by
    have uniq : ∀ {y}, OnlyItem q y → y = x := by
      rintro y (⟨_, _, a1, a2, rfl⟩ | ⟨_, _, _, a1, a2, rfl⟩) <;> rcases hx with ⟨_, _, b1, b2, rfl⟩ | ⟨_, _, _, b1, b2, rfl⟩ <;>
        rw [a1] at b1 <;> rw [a2] at b2 <;> first | (cases b1; done) | (cases b1; rfl) | (cases b2; rfl)
    rcases hi with hi | ⟨b, hi⟩
    · exact .inl (uniq hi).symm
    · exact .inr ⟨b, (uniq hi).symm⟩
  have none : ∀ l, Above (kindLevel q.kind) l → component r l = none := fun l ha => h2 l fun q' hq' e => hlow q' hq' (e ▸ ha)
  refine ⟨x, ?_, hxi⟩
  cases hk : q.kind <;> rw [hk] at hc none
  · exact ⟨hc, none .paragraphs (by decide), none .points (by decide), none .subpoints (by decide)⟩
  · exact ⟨hc, none .points (by decide), none .subpoints (by decide)⟩
  · exact ⟨hc, none .subpoints (by decide)⟩
  · exact ⟨hc, none .subpoints (by decide)⟩
  · exact hc
  · exact hc

/-- C82. A sentence that announces an amendment in one of the usual wordings is analysed as this amendment alone, at a position for which
lines that are written as announced are written. -/
theorem announced_position {s : Str} {ls : List Line} {ns : List Node} (h : WrittenAsAnnounced s ls ns) :
    ∃ r p pure, analyze s = .ok r ∧ r.semantic = [.blockAmendment p pure] ∧ AmendmentWritten p ls ns := by
  cases h with
  | @part c a r t i p states change single clash lowest begin written =>
    obtain ⟨x, hx⟩ := change_analysed states clash (by rcases change with rfl | rfl <;> simp) (by rcases change with rfl | rfl <;> simp)
    have hp := change_pointed states (by rcases change with rfl | rfl <;> simpa [changeRefs] using single) hx
    have key : ∀ {y id}, Pointed (some id) r y → AmendmentWritten (.ref y.reference) ls ns := by
      intro y id hy
      obtain ⟨id, h1, h2⟩ := points_lowest hy.2.2 lowest
      exact ⟨t, id, i, p, h1, h2, begin, written⟩
    rcases change with rfl | rfl
    · cases hp with
      | amend _ _ _ h =>
        obtain ⟨y, hy, h⟩ := h
        obtain rfl := (List.cons.inj hy).1
        exact ⟨_, _, _, hx, rfl, key h⟩
      | amendSeveral _ _ _ h hn => obtain ⟨y, rfl, _⟩ := h; exact absurd rfl hn
    · cases hp with
      | insert _ _ _ h =>
        obtain ⟨y, hy, h⟩ := h
        obtain rfl := (List.cons.inj hy).1
        exact ⟨_, _, _, hx, rfl, key h⟩
      | insertSeveral _ _ _ h hn => obtain ⟨y, rfl, _⟩ := h; exact absurd rfl hn
  | @parts a r n t i p states single clash after lowest begin written =>
    obtain ⟨x, hx⟩ := change_analysed states clash (by simp) (by rintro _ _ _ ⟨⟩; exact after)
    have hs : ∀ x ∈ changeRefs (.amendInsert a r n), ∀ q ∈ x.1, ∃ i, OnlyItem q i := by
      intro x hx q hq
      simp only [changeRefs, List.mem_cons, List.not_mem_nil, or_false] at hx
      rcases hx with rfl | rfl <;> exact single q (by simp [hq])
    have hy : ∃ m y rest id, x.references = m :: y :: rest ∧ Pointed (some id) r y := by
      cases change_pointed states hs hx with
      | amendInsert _ _ _ h =>
        obtain ⟨y, e, h⟩ := h
        obtain rfl := (List.cons.inj e).1
        exact ⟨_, _, _, _, rfl, h⟩
      | amendOnly _ _ _ h =>
        obtain ⟨y, e, h⟩ := h
        obtain rfl := (List.cons.inj e).1
        exact ⟨_, _, _, _, rfl, h⟩
      | insertOnly _ _ _ h hn => obtain ⟨y, rfl, _⟩ := h; exact absurd rfl hn
      | bothSeveral _ _ _ h hn => obtain ⟨y, rfl, _⟩ := h; exact absurd rfl hn
    have hn : ∃ m y z, x.references = [m, y, z] := by
      cases change_pointed states hs hx with
      | amendInsert => exact ⟨_, _, _, rfl⟩
      | amendOnly _ _ _ _ h hn => obtain ⟨y, rfl, _⟩ := h; exact absurd rfl hn
      | insertOnly _ _ _ h hn => obtain ⟨y, rfl, _⟩ := h; exact absurd rfl hn
      | bothSeveral _ _ _ h hn => obtain ⟨y, rfl, _⟩ := h; exact absurd rfl hn
    obtain ⟨m, y, rest, _, e, hy⟩ := hy
    obtain ⟨_, _, _, hn⟩ := hn
    cases change_reported states hx with
    | @amendInsert _ m id ab _ _ y z c pos _ _ _ h hz hc hcover =>
      have e := (List.cons.inj (List.cons.inj e).2).1
      rw [← e] at hy
      obtain ⟨v1, v2, hf⟩ := after id y z c h hz hc
      obtain ⟨x, h1, h2⟩ := points_lowest hy.2.2 lowest
      obtain ⟨e, he⟩ := cover_lowest (hcover v1 v2 hf) v1 v2 hf h1 h2
      exact ⟨_, _, _, hx, rfl, t, _, i, p, he, .inr ⟨e, rfl⟩, begin, written⟩
    | insertOnly => simp at hn
    | amendOnly => simp at hn
    | bothSeveral => simp at hn
  | @division c states change articles some written =>
    obtain ⟨x, hx⟩ := (division_analysed states).2 articles
    have hr := division_reported states hx
    have hw : ∀ q, AmendmentWritten (.struct q) ls ns := fun q => ⟨some, written⟩
    cases hr with
    | repeal => exact absurd rfl (change _ _)
    | _ => exact ⟨_, _, _, hx, rfl, hw _⟩

/-- C82. Lines in which the amended text for a position is written in the usual way are parsed as what is written there. -/
theorem amendment_as_written {position : Position} {lines : List Line} {ns : List Node} (h : AmendmentWritten position lines ns)
    (hf : ∀ l ∈ lines, Fine l) : blockChildren position lines = .ok ns := amendment_written h hf

/-- C82. A paragraph whose introduction announces an amendment in one of the usual wordings, and in which what is announced is quoted, becomes a
paragraph with this amendment. -/
theorem announced_as_written {d : SaeData} {lines : List Line} {intro actual : Str} {inner wrapUp : Option Str} {ns : List Node}
    (hi : d.intro = some intro) (hl : intro.length ≤ 10000) (hd : IntroductionDivided d actual inner wrapUp)
    (hw : WrittenAsAnnounced actual lines ns) (hf : ∀ l ∈ lines, Fine l) :
    ParagraphAfter analyze (.sae .paragraph d [.quoted lines])
      (.sae .paragraph { d with intro := some actual, wrapUp := some [] } [.sae .blockAmendmentContainer { intro := inner, wrapUp := wrapUp } ns]) := by
  obtain ⟨r, p, pure, hr, hs, hp⟩ := announced_position hw
  refine .amended ⟨_, _, _, intro, actual, r, [], pure, [], rfl, by simp, by simp [Node.type], hi, hl, ?_, hr, hs, by simp⟩ hd hf hp
  obtain ⟨intro', hi', h⟩ := hd
  obtain rfl := Option.some.inj (hi.symm.trans hi')
  rcases h with ⟨i, h, -⟩ | ⟨h, rfl, -⟩
  · exact .inl ⟨i, h⟩
  · exact .inr ⟨rfl, h⟩

/-- C82. An act that is written in the usual way, with its amendments, is parsed as it is written: first to the elements that are written
there, with quotations, and then to those with the amendments instead of the quotations that are announced as such. -/
theorem amended_act_as_written {lines : List Line} {preamble : Str} {ns ns' : List Node} (h : BodyWritten lines preamble ns)
    (hf : ∀ l ∈ lines, Fine l) {an : Analyzer} (ha : Both (ElementAfterAmendments an) ns ns') (identifier subject : Str) (date : Date) :
    ∃ a, parseAct identifier date subject lines = .ok a ∧
      parseBlockAmendments an a = .ok ⟨identifier, date, subject, preamble, ns'⟩ := by
  have e := act_parsed h hf identifier subject date
  exact ⟨_, e, amendments_made (fun n hn => (parseAct_has closed_built e n hn).1) ha⟩

/-- C82. Lines with amendments cannot be read in two ways either. -/
theorem amended_written_once {lines : List Line} {p q : Str} {ns ns' ms ms' : List Node} (h : BodyWritten lines p ns) (h' : BodyWritten lines q ms)
    (hf : ∀ l ∈ lines, Fine l) {an : Analyzer} (ha : Both (ElementAfterAmendments an) ns ns') (ha' : Both (ElementAfterAmendments an) ms ms') :
    p = q ∧ ns' = ms' := by
  obtain ⟨a, h1, h2⟩ := amended_act_as_written h hf ha [] [] ⟨1, 1, 1⟩
  obtain ⟨a', h1', h2'⟩ := amended_act_as_written h' hf ha' [] [] ⟨1, 1, 1⟩
  obtain rfl := Except.ok.inj (h1.symm.trans h1')
  injection h2.symm.trans h2' with e
  injection e with _ _ _ e1 e2
  exact ⟨e1, e2⟩

/-! ## An act that is written in this way -/

/-- The sentence of the sample. -/
def sampleAnnouncement : Str := py"A Ptk. 5. §-a helyébe a következő rendelkezés lép, és a következő 6. §-sal egészül ki:"

/-- The quoted lines of the sample, without the quotation marks. -/
def sampleAmendment : List Line := [spread 15 (py"5. § Új szöveg."), { spread 10 (py"6. § Vége.") with marginRight := 20 }]

def amendingLines : List Line :=
  [spread 0 (py"1. § " ++ sampleAnnouncement), spread 10 (py"„5. § Új szöveg."), spread 10 (py"6. § Vége.”"), spread 0 (py"2. § Ennyi.")]

def amendedArticles : List Node :=
  [.article (py"5") none [.sae .paragraph { identifier := none, text := some (py"Új szöveg.") } []],
   .article (py"6") none [.sae .paragraph { identifier := none, text := some (py"Vége.") } []]]

/-- An article on one line with a paragraph on it. -/
theorem line_article {inAct : Bool} {l l' : Line} {i text : Str} (hi : IsArticleId i) (hb : l.content = i ++ py"." ++ py" " ++ py"§ " ++ text)
    (ho : '\n' ∉ text) (hc : CutLine l (i ++ py"." ++ py" " ++ py"§ ").length l.content.length l') (ht : ∃ c t, l'.content = c :: t ∧ c ≠ '[')
    (he : l'.isEmptyLine = false) (hp : paragraphParser.header l'.content = none) (hq : openQuotes [l'] = 0) :
    ArticleWritten inAct [l] (.article i none [.sae .paragraph { identifier := none, text := some (joined (lineTexts [l'])) } []]) := by
  refine .article (first' := l') (gap := py" ") (text := text) hi (.inr rfl) hb ho hc (.none ht) (.inl rfl) (by intro m hm; cases hm; exact he) (.one ?_ ?_)
  · intro j hj
    have := paragraph_looks.header.2 hj
    rw [hp] at this
    cases this
  · exact .text (no_quotes (by simp [hq])) ⟨_, _, rfl, he⟩ (no_list (by simp))

theorem sample_announced : WrittenAsAnnounced sampleAnnouncement sampleAmendment amendedArticles := by
  obtain ⟨h1, -⟩ := no_clash_or_date (s := sampleAnnouncement) (by decide) (by unfold Month; decide +kernel)
  refine .parts (t := .article) (i := py"5") (p := []) amendInsert_stated ?_ h1 amendInsert_after ?_ rfl ?_
  · intro q hq
    simp only [List.cons_append, List.nil_append, List.mem_cons, List.not_mem_nil, or_false] at hq
    rcases hq with rfl | rfl
    · exact ⟨.one (py"5"), .inl ⟨_, _, rfl, rfl, rfl⟩⟩
    · exact ⟨.one (py"6"), .inl ⟨_, _, rfl, rfl, rfl⟩⟩
  · refine ⟨_, List.mem_singleton.2 rfl, rfl, .inl (.inl ⟨_, _, rfl, rfl, rfl⟩), ?_⟩
    intro q hq
    cases List.mem_singleton.1 hq
    decide
  · refine .more (line := spread 15 (py"5. § Új szöveg.")) (own := []) (j := py"6") ⟨matchArticle_iff.1 (by decide +kernel), ?_⟩ (no_quotes (by decide +kernel)) (by intro b l a h; simp at h) ?_
      (.last (line := { spread 10 (py"6. § Vége.") with marginRight := 20 }) (own := []) ⟨matchArticle_iff.1 (by decide +kernel), ?_⟩ (no_quotes (by decide +kernel)) (by intro b l a h; simp at h))
    · exact line_article (l' := spread 40 (py"Új szöveg.")) (text := py"Új szöveg.") (.inl (.inl ⟨by decide, by decide⟩)) rfl (by decide)
        (by unfold CutLine; decide +kernel) ⟨_, _, rfl, by decide⟩ rfl (by decide +kernel) (by decide +kernel)
    · exact .inl ⟨by decide, by decide, py"5", [], py"6", [], by decide, by decide, ⟨by decide, by decide⟩, ⟨by decide, by decide⟩, by decide, .inl ⟨rfl, by decide⟩⟩
    · exact line_article (l' := { spread 35 (py"Vége.") with marginRight := 20 }) (text := py"Vége.") (.inl (.inl ⟨by decide, by decide⟩)) rfl (by decide)
        (by unfold CutLine; decide +kernel) ⟨_, _, rfl, by decide⟩ rfl (by decide +kernel) (by decide +kernel)

theorem amending_quotation : QuotationsWritten [spread 10 (py"„5. § Új szöveg."), spread 10 (py"6. § Vége.”")] [.quoted sampleAmendment] := by
  refine .last (q := [spread 10 (py"„5. § Új szöveg."), spread 10 (py"6. § Vége.”")]) (empty := []) ?_ (by simp)
  refine .several (middle := []) ⟨'„', _, .inl rfl, rfl⟩ (by decide +kernel) (by decide +kernel) ?_ ?_ ?_ ?_
  · refine ⟨fun before after h => ?_, by decide +kernel⟩
    match before, h with
    | [], _ => decide
    | [a], h => obtain ⟨rfl, _⟩ := List.cons.inj h; decide +kernel
    | [a, b], h =>
      obtain ⟨rfl, h'⟩ := List.cons.inj h
      obtain ⟨rfl, _⟩ := List.cons.inj h'
      decide +kernel
  · intro before after h
    obtain ⟨rfl, rfl⟩ : before = [] ∧ after = [] := by simpa using h
    decide +kernel
  · unfold CutLine; decide +kernel
  · unfold CutLine; decide +kernel

/-- What is written before amendments are made, and after it. -/
def amendingNodes : List Node :=
  [.article (py"1") none [.sae .paragraph { identifier := none, intro := some sampleAnnouncement } [.quoted sampleAmendment]],
   .article (py"2") none [.sae .paragraph { identifier := none, text := some (py"Ennyi.") } []]]

def amendedNodes : List Node :=
  [.article (py"1") none [.sae .paragraph { identifier := none, intro := some sampleAnnouncement, wrapUp := some [] }
     [.sae .blockAmendmentContainer { identifier := none } amendedArticles]],
   .article (py"2") none [.sae .paragraph { identifier := none, text := some (py"Ennyi.") } []]]

theorem amending_article : ArticleWritten true
    [spread 0 (py"1. § " ++ sampleAnnouncement), spread 10 (py"„5. § Új szöveg."), spread 10 (py"6. § Vége.”")]
    (.article (py"1") none [.sae .paragraph { identifier := none, intro := some sampleAnnouncement } [.quoted sampleAmendment]]) := by
  refine .article (first' := spread 25 sampleAnnouncement) (gap := py" ") (text := sampleAnnouncement) (.inl (.inl ⟨by decide, by decide⟩)) (.inr rfl) rfl
    (by decide) (by unfold CutLine; decide +kernel) (.none ⟨_, _, rfl, by decide⟩) (.inl rfl) (by intro l hl; cases hl; rfl) (.one ?_ ?_)
  · intro j hj
    have := paragraph_looks.header.2 hj
    rw [show paragraphParser.header (spread 25 sampleAnnouncement).content = none by decide +kernel] at this
    cases this
  · refine .quotations (intro := [spread 25 sampleAnnouncement]) (ls := [spread 10 (py"„5. § Új szöveg."), spread 10 (py"6. § Vége.”")]) (text := [])
      rfl (no_quotes (by decide +kernel)) ⟨_, _, rfl, rfl, ?_⟩ (no_list (by simp)) amending_quotation (no_quotes rfl) (by simp)
    rintro ⟨c, rest, hc, hx⟩
    have : c = 'A' := (List.cons.inj hx).1.symm
    subst this
    revert hc
    decide

theorem amending_written : BodyWritten amendingLines [] amendingNodes := by
  have harticle : ∀ {st : BodyState} {previous line : Line} {i : Str}, matchArticle line.content = some i →
      (st.indent = none ∨ st.indent = some 0) → line.indent = 0 → BeginsElement true st previous line (.article i) := by
    intro st previous line i hm hst hi
    refine ⟨⟨matchArticle_iff.1 hm, fun x hx => ?_⟩, fun k i h => by cases h⟩
    rcases hst with h | h
    · rw [h] at hx; cases hx
    · rw [h] at hx
      cases hx
      rw [hi]
      decide +kernel
  refine .act (pre := []) (o := .article (py"1")) (.done _) (harticle (by decide +kernel) (.inl rfl) rfl) ?_
  refine .element (o := .article (py"1")) (more := [spread 10 (py"„5. § Új szöveg."), spread 10 (py"6. § Vége.”")])
    (harticle (by decide +kernel) (.inl rfl) rfl) amending_article ?_
    (.outside (by decide +kernel) (no_element (by decide +kernel)) <| .inside (by decide +kernel) <| .done _ _) ?_
  · exact (no_quotes (ls := [spread 0 (py"1. § " ++ sampleAnnouncement)]) (by decide +kernel)).append
      (quotations_loop amending_quotation (fine_all (by decide +kernel)) .start (.inl rfl) [] []).1
  refine .element (o := .article (py"2")) (more := []) (harticle (by decide +kernel) (.inr rfl) rfl) ?_ (no_quotes (by decide +kernel)) (.done _ _) (.done _ _)
  exact line_article (l' := spread 25 (py"Ennyi.")) (text := py"Ennyi.") (.inl (.inl ⟨by decide, by decide⟩)) rfl (by decide)
    (by unfold CutLine; decide +kernel) ⟨_, _, rfl, by decide⟩ rfl (by decide +kernel) (by decide +kernel)

theorem no_context {intro : Str} (h : ∀ c ∈ py")]", c ∉ intro) (a i : Str) : ¬ HasContext intro a i := by
  rintro ⟨x, rest, -, e, -, ⟨sp, o, c, nl, e', -, -, -, hc⟩, -⟩
  have hm : c ∈ intro := by rw [e, e']; simp
  rcases hc with ⟨-, rfl⟩ | ⟨-, rfl⟩
  · exact h _ (by simp) hm
  · exact h _ (by simp) hm

theorem sample_amended : Both (ElementAfterAmendments analyze) amendingNodes amendedNodes := by
  refine .cons (.article (.cons ?_ .nil)) (.cons (.article (.cons (.plain (.inl rfl)) .nil)) .nil)
  exact announced_as_written (d := { identifier := none, intro := some sampleAnnouncement }) rfl (by decide +kernel)
    ⟨_, rfl, .inr ⟨no_context (by decide +kernel), rfl, rfl, rfl⟩⟩ sample_announced (fine_all (by decide +kernel))

example : ∃ a, parseSample amendingLines = .ok a ∧
    parseBlockAmendments analyze a = .ok ⟨py"2020. évi I. törvény", ⟨2020, 1, 1⟩, py"Tárgy", [], amendedNodes⟩ :=
  amended_act_as_written amending_written (fine_all (by decide +kernel)) sample_amended _ _ _

example : ∃ r p pure, analyze sampleAnnouncement = .ok r ∧ r.semantic = [.blockAmendment p pure] ∧ blockChildren p sampleAmendment = .ok amendedArticles := by
  obtain ⟨r, p, pure, h1, h2, h3⟩ := announced_position sample_announced
  exact ⟨r, p, pure, h1, h2, amendment_as_written h3 (fine_all (by decide +kernel))⟩

/-- The sample can be read as its elements with their amendments only. -/
example {p : Str} {ms ms' : List Node} (h : BodyWritten amendingLines p ms) (ha : Both (ElementAfterAmendments analyze) ms ms') :
    ms' = amendedNodes :=
  (amended_written_once h amending_written (fine_all (by decide +kernel)) ha sample_amended).2

end Verif.Props
