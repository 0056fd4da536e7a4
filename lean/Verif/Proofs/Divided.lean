import Verif.Proofs.Reorganised
import Verif.Proofs.Stated

/-! # What sentences say about the divisions of acts -/

namespace Verif.ActGrammar

open Verif.Spec Verif.Peg

set_option maxRecDepth 100000

/-! ## Articles with subtitles -/

theorem items_words {n : Nat} {q : ParsedPart} {v : Str} (hk : q.kind = .article) (h : PartText n q v) : q.items ≠ [] ∧ ∀ x ∈ q.singles, ArticleNumber x.1 := by
  obtain ⟨items, u, e, h, _, he, h1, h2⟩ := h
  clear he
  rw [hk] at h
  have key : items ≠ [] ∧ ∀ x ∈ items, ∀ y, x.getRight? = some y → ArticleNumber y.1 := by
    clear h1 h2
    induction h with
    | @one n x w h =>
      refine ⟨by simp, fun x hx y hy => ?_⟩
      simp only [List.mem_cons, List.not_mem_nil, or_false] at hx
      subst hx
      cases x with
      | inl _ => cases hy
      | inr _ => cases hy; exact h.2.1
    | @cons n x w g xs v h _ _ ih =>
      refine ⟨by simp, fun x' hx y hy => ?_⟩
      rcases List.mem_cons.mp hx with rfl | hx
      · cases x' with
        | inl _ => cases hy
        | inr _ => cases hy; exact h.2.1
      · exact ih.2 x' hx y hy
  refine ⟨?_, ?_⟩
  · intro he
    obtain ⟨x, xs, rfl⟩ := List.exists_cons_of_ne_nil key.1
    unfold ParsedPart.items at he
    simp only [List.append_eq_nil_iff, List.map_eq_nil_iff] at he
    cases x with
    | inl r => rw [h2] at he; simp at he
    | inr r => rw [h1] at he; simp at he
  · intro x hx
    rw [h1] at hx
    obtain ⟨y, hy, e⟩ := List.mem_filterMap.mp hx
    exact key.2 y hy x e

theorem listed_first {n : Nat} {q : ParsedPart} {v : Str} (hk : q.kind = .article) (hq : PartText n q v) {act : Option Str} {a b : Int} {y : OutgoingReference}
    (h : convertSingle act [q] a b = .ok [y]) :
    ∃ x, FirstArticle q x ∧ (y.reference.article = some (.one x) ∨ ∃ last, y.reference.article = some (.range x last)) := by
  obtain ⟨hne, hnum⟩ := items_words hk hq
  unfold convertSingle at h
  obtain ⟨c, h1, h2⟩ := resBind_ok h
  have e : [q].flatMap ParsedPart.items = q.items := by simp
  rw [e] at h1
  obtain ⟨c', gs, h3, ha, hg, hl⟩ := collected h1
  unfold Collector.iter at h2
  rw [h3] at h2
  have lev : ∀ x ∈ q.items, x.kind = .article := by
    intro x hx
    unfold ParsedPart.items at hx
    simp only [List.mem_append, List.mem_map] at hx
    rcases hx with ⟨_, _, rfl⟩ | ⟨_, _, rfl⟩ <;> exact hk
  have glev : ∀ g ∈ gs, g.kind = .article := by
    intro g hgm
    rcases hg.groups g hgm with h | ⟨p, x, y, r, i, j, e, _, _, _, rfl⟩
    · exact lev g h
    · exact lev x (by rw [e]; simp)
  have v1 : valuesAt gs .articles = gs.map RefItem.value := by
    unfold valuesAt
    rw [List.filter_eq_self.mpr]
    intro g hgm
    simp [itemLevel, glev g hgm, kindLevel]
  have v2 : ∀ l, l ≠ .articles → valuesAt gs l = [] := by
    intro l hl
    unfold valuesAt
    rw [List.filter_eq_nil_iff.mpr]
    · rfl
    · intro g hgm
      simpa [itemLevel, glev g hgm, kindLevel] using fun h => hl h.symm
  have gne : gs ≠ [] := by
    rintro rfl
    generalize hi : q.items = items at hg hne
    cases hg
    exact hne rfl
  have l1 : c'.lists .articles = gs.map RefItem.value := by
    rw [hl, listAt, v1, if_neg (by simpa using gne)]
  have l2 : ∀ l, l ≠ .articles → c'.lists l = [⟨none, 0, 0⟩] := by
    intro l h
    rw [hl, listAt, v2 l h, if_pos rfl]
  have perm := sortValues_perm (gs.map RefItem.value)
  have sne : sortValues (gs.map RefItem.value) ≠ [] := by
    intro e
    rw [e] at perm
    have := perm.length_eq
    simp at this
    exact gne (List.length_eq_zero_iff.mp this.symm)
  obtain ⟨vs, last, hs⟩ : ∃ vs last, sortValues (gs.map RefItem.value) = vs ++ [last] :=
    ⟨_, _, (List.dropLast_concat_getLast sne).symm⟩
  have h2 : c'.iterLevels b [.articles, .paragraphs, .points, .subpoints] (some a) { act := c'.act } = .ok [y] := h2
  obtain ⟨rest, h4, h5⟩ := iterLevels_cons (by rw [l1]; exact hs) h2
  have one : ∀ {l : RefLevel}, l ≠ .articles → sortValues (c'.lists l) = [] ++ [⟨none, 0, 0⟩] := by
    intro l h
    rw [l2 l h]
    rfl
  obtain ⟨r1, e1, h6⟩ := iterLevels_cons (one (by decide)) h5
  obtain ⟨r2, e2, h7⟩ := iterLevels_cons (one (by decide)) h6
  obtain ⟨r3, e3, h8⟩ := iterLevels_cons (one (by decide)) h7
  cases h8
  have hvs : vs = [] := by
    cases vs with
    | nil => rfl
    | cons v vs =>
      rw [e1, e2, e3] at h4
      have := congrArg List.length h4
      simp [leading] at this
  subst hvs
  rw [e1, e2, e3] at h4
  have hy : y.reference.article = last.data := by
    cases h4
    rfl
  rw [hs] at perm
  have hlen := perm.length_eq
  simp at hlen
  obtain ⟨g, rfl⟩ := List.length_eq_one_iff.mp hlen.symm
  have hg1 : last = g.value := by
    have := perm.symm.mem_iff (a := last)
    simpa using this.mpr (by simp)
  rw [hy, hg1]
  show ∃ x, FirstArticle q x ∧ (some g.data = some (.one x) ∨ ∃ last, some g.data = some (.range x last))
  generalize hi : q.items = items at hg
  unfold ParsedPart.items at hi
  cases hg with
  | single x hx =>
    cases hx
    cases hsg : q.singles with
    | nil =>
      rw [hsg] at hi
      cases hrg : q.ranges with
      | nil => rw [hrg] at hi; cases hi
      | cons r rs =>
        rw [hrg] at hi
        cases rs with
        | nil =>
          cases hi
          exact ⟨_, .inr (.inl ⟨_, .inr ⟨_, _, _, hsg, hrg, rfl⟩⟩), .inr ⟨_, rfl⟩⟩
        | cons _ _ => cases hi
    | cons z zs =>
      rw [hsg] at hi
      cases zs with
      | nil =>
        cases hrg : q.ranges with
        | nil =>
          rw [hrg] at hi
          cases hi
          exact ⟨_, .inl (.inl ⟨_, _, hsg, hrg, rfl⟩), .inl rfl⟩
        | cons r rs => rw [hrg] at hi; cases hi
      | cons _ _ => cases hi
  | @pair x x' i j _ _ hx hx' hkk hn hr =>
    cases hr
    cases hsg : q.singles with
    | nil =>
      rw [hsg] at hi
      cases hrg : q.ranges with
      | nil => rw [hrg] at hi; cases hi
      | cons r rs =>
        rw [hrg] at hi
        injection hi with h1 _
        rw [← h1] at hx
        cases hx
    | cons z zs =>
      cases zs with
      | nil =>
        rw [hsg] at hi
        cases hrg : q.ranges with
        | nil => rw [hrg] at hi; cases hi
        | cons r rs =>
          rw [hrg] at hi
          injection hi with _ hi
          injection hi with h1 _
          rw [← h1] at hx'
          cases hx'
      | cons w ws =>
        have hz := hnum z (by rw [hsg]; simp)
        have hw := hnum w (by rw [hsg]; simp)
        rw [hsg] at hi
        cases ws with
        | nil =>
          cases hrg : q.ranges with
          | cons r rs => rw [hrg] at hi; cases hi
          | nil =>
            rw [hrg] at hi
            cases hi
            cases hx
            cases hx'
            rw [hk] at hn
            exact ⟨_, .inr (.inr ⟨_, _, _, hsg, hrg, (article_after_iff (articleNumber_id hz) (articleNumber_id hw)).mp hn⟩), .inr ⟨_, rfl⟩⟩
        | cons _ _ => cases hi

theorem first_listed {n : Nat} {q : ParsedPart} {v : Str} (hk : q.kind = .article) (hq : PartText n q v) {x : Str} (h : FirstArticle q x) (act : Option Str) (a b : Int) :
    ∃ y, convertSingle act [q] a b = .ok [y] := by
  have only : ∀ {i}, OnlyItem q i → ∃ y, convertSingle act [q] a b = .ok [y] := by
    intro i hi
    obtain ⟨y, hy, _⟩ := reference_pointed (.one hq) (fun p hp => by
      simp only [List.mem_cons, List.not_mem_nil, or_false] at hp
      subst hp
      exact ⟨i, hi⟩) act a b
    exact ⟨y, hy⟩
  rcases h with h | ⟨last, h⟩ | ⟨y, i, j, h1, h2, h3⟩
  · exact only h
  · exact only h
  · have hnum := (items_words hk hq).2
    have hn := (article_after_iff (articleNumber_id (hnum (x, i) (by rw [h1]; simp))) (articleNumber_id (hnum (y, j) (by rw [h1]; simp)))).mpr h3
    have e : q.items = [⟨.article, .one x, i.1, i.2⟩, ⟨.article, .one y, j.1, j.2⟩] := by
      unfold ParsedPart.items
      rw [h1, h2, hk]
      rfl
    unfold convertSingle
    simp only [List.flatMap_cons, List.flatMap_nil, List.append_nil, e, Collector.addAll, Collector.add, Collector.merged, Collector.commit, PartKind.isNext]
    simp [hn, bind, Except.bind, addValue, Collector.iter, Collector.commit, Collector.iterLevels, iterLevel, PartKind.level]

/-! ## The places -/

theorem division_named {act : Str} {d : Division} {r : ParsedStructRef} {p : StructuralReference} (hr : DivisionRead d r) (h : StructNamed act r p) : Divides act d p := by
  cases hr with
  | subtitle e =>
    cases h with
    | subtitle =>
      subst e
      exact .subtitle
  | titled hq =>
    cases h with
    | quoted h =>
      rw [quoted_unique h hq]
      exact .titled
  | chapter e =>
    cases h with
    | chapter h =>
      subst e
      exact .chapter h
  | part =>
    cases h with
    | part h => exact .part h
    | partOfBook hb h => exact .partOfBook hb h
  | title e =>
    subst e
    cases h with
    | title h => exact .title h
    | titleOfBook hb h => exact .titleOfBook hb h

theorem spot_named {act : Str} {s : Spot} {r : ParsedStructRef} {p : StructuralReference} (hr : SpotRead s r) (h : StructNamed act r p) : Spots act s p := by
  cases hr with
  | division hd => exact .division (division_named hd h)
  | before e =>
    cases h
    subst e
    exact .before
  | after e =>
    cases h
    subst e
    exact .after

/-! ## What is reported -/

theorem nothing_listed {id : Str} {n m : Int} {y : OutgoingReference} (h : OneListed id (some ([], n, m)) (some y)) : y.reference.article = none := by
  rcases one_some h with ⟨z, e, h⟩ | ⟨_, e, _⟩
  · cases e
    cases h
    rfl
  · cases e

theorem articles_listed {id : Str} {k : Nat} {q : ParsedPart} {v : Str} {n m : Int} {y : OutgoingReference} (hk : q.kind = .article) (hq : PartText k q v)
    (h : OneListed id (some ([q], n, m)) (some y)) :
    ∃ x, FirstArticle q x ∧ (y.reference.article = some (.one x) ∨ ∃ last, y.reference.article = some (.range x last)) := by
  rcases one_some h with ⟨z, e, h⟩ | ⟨_, e, _⟩
  · cases e
    exact listed_first hk hq h
  · cases e

theorem subtitled_part {n : Nat} {q : ParsedPart} {v : Str} (h : SubtitledText n q v) : q.kind = .article ∧ ∃ k w, PartText k q w := by
  cases h with
  | first _ hk hp => exact ⟨hk, _, _, hp⟩
  | last hk hp => exact ⟨hk, _, _, hp⟩

theorem structural_reported {s : Str} {c : StructuralChange} {r : Analysis} (h : StatesStructural s c) (ha : grammaticalAnalyzer parse s = .ok r) :
    ReportsStructural c r := by
  -- one list of articles
  have same : ∀ {article x : Str} {i : Option Ident}, (i = some (.one article) ∨ ∃ last, i = some (.range article last)) →
      (i = some (.one x) ∨ ∃ last, i = some (.range x last)) → article = x := by
    rintro article x i (rfl | ⟨l, rfl⟩) (h | ⟨m, h⟩) <;> cases h <;> rfl
  cases h with
  | replace ho hp hd he hs =>
    obtain ⟨x, h1, h2⟩ := replace_tree ho hp hd he hs
    obtain ⟨ab, t, hd, ht, rfl⟩ := act_analysis h2 ha
    cases ht with
    | structuralAmended hi h =>
      rw [List.append_nil]
      exact .replace hi hd (division_named h1 h)
  | add ho hp hd he hs =>
    obtain ⟨x, h1, h2⟩ := add_tree ho hp hd he hs
    obtain ⟨ab, t, hd, ht, rfl⟩ := act_analysis h2 ha
    cases ht with
    | structuralInserted hi h =>
      rw [List.append_nil]
      exact .add hi hd (division_named h1 h)
  | addToBook ho hp hb hx hc he hs =>
    obtain ⟨x, h1, h2⟩ := addToBook_tree ho hp hb hx hc he hs
    obtain ⟨ab, t, hd, ht, rfl⟩ := act_analysis h2 ha
    cases ht with
    | structuralInserted hi h =>
      rw [List.append_nil]
      exact .add hi hd (division_named h1 h)
  | repeal ho hb hp hs ht hn =>
    obtain ⟨x, h1, h2⟩ := repealSpot_tree ho hb hp hs ht hn
    obtain ⟨ab, t, hd, ht, rfl⟩ := act_analysis h2 ha
    cases ht with
    | structureRepealed hm hi h =>
      rw [List.append_nil]
      exact .repeal hm hi hd (spot_named h1 h)
  | replaceSubtitled ho hp hq he hs =>
    obtain ⟨hk, _, _, hpt⟩ := subtitled_part hq
    obtain ⟨n, m, h2⟩ := replaceSubtitled_tree ho hp hq he hs
    obtain ⟨ab, t, hd, ht, rfl⟩ := act_analysis h2 ha
    cases ht with
    | withSubtitle hi h hy =>
      rcases h with ⟨h, _, rfl⟩ | ⟨_, h, _⟩
      · obtain ⟨x, hx, hz⟩ := articles_listed hk hpt h
        rw [List.append_nil, same hy hz]
        exact .replaceSubtitled hi hd hx
      · exact absurd (one_none h) (by simp)
    | onlySubtitle hi h hy =>
      rcases h with ⟨h, _, rfl⟩ | ⟨_, h, _⟩
      · obtain ⟨x, hx, hz | ⟨_, hz⟩⟩ := articles_listed hk hpt h <;> (rw [hy] at hz; cases hz)
      · exact absurd (one_none h) (by simp)
  | addSubtitled ho hp hq he hs =>
    obtain ⟨hk, _, _, hpt⟩ := subtitled_part hq
    obtain ⟨n, m, h2⟩ := addSubtitled_tree ho hp hq he hs
    obtain ⟨ab, t, hd, ht, rfl⟩ := act_analysis h2 ha
    cases ht with
    | withSubtitle hi h hy =>
      rcases h with ⟨h, _, rfl⟩ | ⟨_, h, rfl⟩
      · exact absurd (one_none h) (by simp)
      · obtain ⟨x, hx, hz⟩ := articles_listed hk hpt h
        rw [List.append_nil, same hy hz]
        exact .addSubtitled hi hd hx
    | onlySubtitle hi h hy =>
      rcases h with ⟨h, _, rfl⟩ | ⟨_, h, _⟩
      · exact absurd (one_none h) (by simp)
      · obtain ⟨x, hx, hz | ⟨_, hz⟩⟩ := articles_listed hk hpt h <;> (rw [hy] at hz; cases hz)
  | replaceSubtitle ho hp hq hz he hs =>
    obtain ⟨x, n, m, h1, h2⟩ := replaceSubtitle_tree ho hp hq hz he hs
    obtain ⟨ab, t, hd, ht, rfl⟩ := act_analysis h2 ha
    cases ht with
    | withSubtitle hi h hy =>
      rcases h with ⟨h, _, rfl⟩ | ⟨_, h, rfl⟩
      · have := nothing_listed h
        rcases hy with hy | ⟨_, hy⟩ <;> (rw [this] at hy; cases hy)
      · exact absurd (one_none h) (by simp)
    | onlySubtitle hi h hy hst =>
      rcases h with ⟨h, _, rfl⟩ | ⟨_, h, _⟩
      · rcases hst with ⟨_, e, h⟩ | ⟨e, _⟩ <;> cases e
        rw [List.append_nil]
        exact .replaceSubtitle hi hd (spot_named h1 h)
      · exact absurd (one_none h) (by simp)
  | addSubtitleAt ho hp hq hz he hs =>
    obtain ⟨x, n, m, h1, h2⟩ := addSubtitleAt_tree ho hp hq hz he hs
    obtain ⟨ab, t, hd, ht, rfl⟩ := act_analysis h2 ha
    cases ht with
    | withSubtitle hi h hy =>
      rcases h with ⟨h, _, rfl⟩ | ⟨_, h, rfl⟩
      · exact absurd (one_none h) (by simp)
      · have := nothing_listed h
        rcases hy with hy | ⟨_, hy⟩ <;> (rw [this] at hy; cases hy)
    | onlySubtitle hi h hy hst =>
      rcases h with ⟨h, _, rfl⟩ | ⟨_, h, rfl⟩
      · exact absurd (one_none h) (by simp)
      · rcases hst with ⟨_, e, h⟩ | ⟨e, _⟩ <;> cases e
        rw [List.append_nil]
        exact .addSubtitleAt hi hd (spot_named h1 h)
  | addSubtitle ho hp hz he hs =>
    obtain ⟨n, m, h2⟩ := addSubtitle_tree ho hp hz he hs
    obtain ⟨ab, t, hd, ht, rfl⟩ := act_analysis h2 ha
    cases ht with
    | withSubtitle hi h hy =>
      rcases h with ⟨h, _, rfl⟩ | ⟨_, h, rfl⟩
      · exact absurd (one_none h) (by simp)
      · have := nothing_listed h
        rcases hy with hy | ⟨_, hy⟩ <;> (rw [this] at hy; cases hy)
    | onlySubtitle hi h hy hst =>
      rcases h with ⟨h, _, rfl⟩ | ⟨_, h, rfl⟩
      · exact absurd (one_none h) (by simp)
      · rcases hst with ⟨_, e, h⟩ | ⟨_, rfl⟩
        · cases e
        · rw [List.append_nil]
          exact .addSubtitle hi hd

/-! ## Success -/

theorem subtitle_total {s : Str} {a : ParsedActRef} {st : Option ParsedStructRef} {am ins : Option ParsedRef}
    (h : NodeWritten s (.blockAmendmentWithSubtitle a st am ins))
    (hl : (ins = none ∧ ∃ r, am = some r ∧ ∀ act, ∃ y, convertSingle act r.1 r.2.1 r.2.2 = .ok [y]) ∨
      am = none ∧ ∃ r, ins = some r ∧ ∀ act, ∃ y, convertSingle act r.1 r.2.1 r.2.2 = .ok [y]) :
    Succeeds (convertNode (.blockAmendmentWithSubtitle a st am ins)) := by
  obtain ⟨ha, h1, _⟩ := h
  obtain ⟨h3, _⟩ := act_total ha
  refine Succeeds.map ?_
  unfold blockAmendmentsWithSubtitle
  refine h3.bind fun id _ => ?_
  have sub : ∀ (stx : StructuralReference) (r : Reference) (b : Bool), Succeeds (subtitleAmendment stx (some r) b) := by
    intro stx r b
    obtain ⟨_, article, _, _, _⟩ := r
    rcases article with _ | ⟨_ | _⟩ <;> exact succeeds_ok _
  have pot : ∀ {r : ParsedRef} {y : OutgoingReference}, convertSingle (some id) r.1 r.2.1 r.2.2 = .ok [y] →
      convertPotentialReference id (some r) = .ok (some y.reference) := by
    intro r y h
    have h1 : convertPotential (some id) r.1 r.2.1 r.2.2 = .ok (some y) := by
      unfold convertPotential
      rw [h]
      rfl
    show (do let x ← convertPotential (some id) r.1 r.2.1 r.2.2; .ok (x.map (·.reference)) : Res _) = _
    rw [h1]
    rfl
  rcases hl with ⟨rfl, r, rfl, h⟩ | ⟨rfl, r, rfl, h⟩
  · obtain ⟨y, hy⟩ := h (some id)
    rw [pot hy]
    cases st with
    | none => exact (sub _ _ _).map
    | some x =>
      obtain ⟨i, j, hx⟩ := h1 x rfl
      exact (structural_total id hx).bind fun _ _ => (sub _ _ _).map
  · obtain ⟨y, hy⟩ := h (some id)
    rw [pot hy]
    cases st with
    | none => exact (sub _ _ _).map
    | some x =>
      obtain ⟨i, j, hx⟩ := h1 x rfl
      exact (structural_total id hx).bind fun _ _ => (sub _ _ _).map

theorem structural_total' {s : Str} {a : ParsedActRef} {am ins : Option ParsedStructRef} (h : NodeWritten s (.blockAmendmentStructural a am ins)) :
    Succeeds (convertNode (.blockAmendmentStructural a am ins)) := by
  obtain ⟨ha, h1, h2, h⟩ := h
  obtain ⟨h3, _⟩ := act_total ha
  refine Succeeds.map ?_
  unfold blockAmendmentsStructural
  refine h3.bind fun id _ => ?_
  rcases h with ⟨h, rfl, _⟩ | ⟨rfl, h, _⟩
  · cases am with
    | none => exact absurd rfl h
    | some x =>
      obtain ⟨i, j, hx⟩ := h1 x rfl
      exact (structural_total id hx).map
  · cases ins with
    | none => exact absurd rfl h
    | some x =>
      obtain ⟨i, j, hx⟩ := h2 x rfl
      exact (structural_total id hx).map

theorem structuralRepeal_total {s : Str} {a : ParsedActRef} {x : ParsedStructRef} (h : NodeWritten s (.structuralRepeal a x)) :
    Succeeds (convertNode (.structuralRepeal a x)) := by
  obtain ⟨ha, ⟨i, j, hx⟩, _⟩ := h
  obtain ⟨h3, h4⟩ := act_total ha
  refine Succeeds.bind ?_ fun _ _ => ?_
  · unfold structuralRepeals
    exact h3.bind fun id _ => (structural_total id hx).map
  · exact h4.map

theorem structural_analysed {s : Str} {c : StructuralChange} (h : StatesStructural s c)
    (hq : ∀ a q, c = .replaceSubtitled a q ∨ c = .addSubtitled a q → ∃ x, FirstArticle q x) : Succeeds (grammaticalAnalyzer parse s) := by
  have bare : ∀ (n m : Int) (act : Option Str), ∃ y, convertSingle act [] n m = .ok [y] := fun n m act => ⟨_, rfl⟩
  cases h with
  | replace ho hp hd he hs =>
    obtain ⟨x, h1, h2⟩ := replace_tree ho hp hd he hs
    exact act_tree_total h2 structural_total'
  | add ho hp hd he hs =>
    obtain ⟨x, h1, h2⟩ := add_tree ho hp hd he hs
    exact act_tree_total h2 structural_total'
  | addToBook ho hp hb hx hc he hs =>
    obtain ⟨x, h1, h2⟩ := addToBook_tree ho hp hb hx hc he hs
    exact act_tree_total h2 structural_total'
  | repeal ho hb hp hs ht hn =>
    obtain ⟨x, h1, h2⟩ := repealSpot_tree ho hb hp hs ht hn
    exact act_tree_total h2 structuralRepeal_total
  | replaceSubtitled ho hp hq' he hs =>
    obtain ⟨hk, _, _, hpt⟩ := subtitled_part hq'
    obtain ⟨n, m, h2⟩ := replaceSubtitled_tree ho hp hq' he hs
    obtain ⟨x, hx⟩ := hq _ _ (.inl rfl)
    exact act_tree_total h2 fun h => subtitle_total h (.inl ⟨rfl, _, rfl, fun act => first_listed hk hpt hx act _ _⟩)
  | addSubtitled ho hp hq' he hs =>
    obtain ⟨hk, _, _, hpt⟩ := subtitled_part hq'
    obtain ⟨n, m, h2⟩ := addSubtitled_tree ho hp hq' he hs
    obtain ⟨x, hx⟩ := hq _ _ (.inr rfl)
    exact act_tree_total h2 fun h => subtitle_total h (.inr ⟨rfl, _, rfl, fun act => first_listed hk hpt hx act _ _⟩)
  | replaceSubtitle ho hp hsp hz he hs =>
    obtain ⟨x, n, m, h1, h2⟩ := replaceSubtitle_tree ho hp hsp hz he hs
    exact act_tree_total h2 fun h => subtitle_total h (.inl ⟨rfl, _, rfl, bare _ _⟩)
  | addSubtitleAt ho hp hsp hz he hs =>
    obtain ⟨x, n, m, h1, h2⟩ := addSubtitleAt_tree ho hp hsp hz he hs
    exact act_tree_total h2 fun h => subtitle_total h (.inr ⟨rfl, _, rfl, bare _ _⟩)
  | addSubtitle ho hp hz he hs =>
    obtain ⟨n, m, h2⟩ := addSubtitle_tree ho hp hz he hs
    exact act_tree_total h2 fun h => subtitle_total h (.inr ⟨rfl, _, rfl, bare _ _⟩)

end Verif.ActGrammar
