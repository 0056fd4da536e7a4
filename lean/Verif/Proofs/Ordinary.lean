import Verif.Proofs.Passing
import Verif.Proofs.Grammar

/-! # What is reported of ordinary sentences -/

namespace Verif

open Spec Peg

namespace ActGrammar

/-! ## The roots of the trees -/

/-- The node at the root. -/
def root : ParseTree → GrammarNode
  | .node n _ => n

/-- A node of a sentence that changes something. -/
def Changes : GrammarNode → Prop
  | .compoundReference .. | .actReference .. | .other => False
  | _ => True

/-- What is read is a sentence that changes something. -/
def Gives (p : Peg ParseTree) : Prop := ∀ i t j, p i = some (t, j) → Changes (root t)

theorem gives_bind {α : Type} {p : Peg α} {f : α → Peg ParseTree} (h : ∀ a, Gives (f a)) : Gives (p >>= f) := by
  intro i t j hi
  cases hp : p i with
  | none => rw [bind_none hp] at hi; cases hi
  | some x =>
    rw [bind_some (a := x.1) (j := x.2) hp] at hi
    exact h _ _ _ _ hi

theorem gives_or {p q : Peg ParseTree} (hp : Gives p) (hq : Gives q) : Gives (Peg.or p q) := by
  intro i t j hi
  cases h : p i with
  | none => rw [or_right h] at hi; exact hq _ _ _ hi
  | some x => rw [or_left h] at hi; cases hi; exact hp _ _ _ h

theorem gives_rule {p : Peg ParseTree} (h : Gives p) : Gives (rule p) := fun _ _ _ hi => h _ _ _ hi

theorem gives_pure {t : ParseTree} (h : Changes (root t)) : Gives (pure t) := by
  intro i t' j hi
  cases hi
  exact h

theorem gives_all : ∀ p ∈ specialSentences, Gives p := by
  simp only [specialSentences, List.mem_cons, List.not_mem_nil, or_false]
  rintro p (rfl | rfl | rfl | rfl | rfl | rfl | rfl | rfl)
  · refine gives_rule (gives_bind fun a => gives_bind fun _ => gives_or ?_ (gives_or ?_ ?_))
    · exact gives_bind fun _ => gives_bind fun _ => gives_pure trivial
    · exact gives_bind fun _ => gives_bind fun _ => gives_pure trivial
    · exact gives_bind fun _ => gives_bind fun _ => gives_bind fun _ => gives_bind fun _ => gives_bind fun _ => gives_bind fun _ =>
        gives_pure trivial
  · refine gives_rule (gives_bind fun a => gives_bind fun _ => gives_or ?_ (gives_or ?_ ?_))
    · exact gives_bind fun _ => gives_bind fun _ => gives_pure trivial
    · exact gives_bind fun _ => gives_bind fun _ => gives_pure trivial
    · exact gives_bind fun _ => gives_bind fun _ => gives_bind fun _ => gives_pure trivial
  · refine gives_rule (gives_bind fun a => gives_or ?_ (gives_or ?_ (gives_or ?_ ?_)))
    · exact gives_bind fun _ => gives_bind fun _ => gives_pure trivial
    · exact gives_bind fun _ => gives_bind fun _ => gives_pure trivial
    · exact gives_bind fun _ => gives_bind fun _ => gives_bind fun _ => gives_pure trivial
    · exact gives_bind fun _ => gives_bind fun _ => gives_pure trivial
  · exact gives_rule (gives_bind fun _ => gives_bind fun _ => gives_bind fun _ => gives_bind fun _ => gives_pure trivial)
  · exact gives_rule (gives_bind fun _ => gives_bind fun _ => gives_bind fun _ => gives_bind fun _ => gives_bind fun _ => gives_bind fun _ =>
      gives_pure trivial)
  · exact gives_rule (gives_bind fun _ => gives_bind fun _ => gives_bind fun _ => gives_bind fun _ => gives_bind fun _ => gives_bind fun _ =>
      gives_bind fun _ => gives_pure trivial)
  · exact gives_rule (gives_bind fun _ => gives_bind fun _ => gives_bind fun _ => gives_bind fun _ => gives_pure trivial)
  · exact gives_rule (gives_bind fun _ => gives_bind fun _ => gives_bind fun _ => gives_bind fun _ => gives_pure trivial)

theorem gives_whole {p : Peg ParseTree} (h : Gives p) : Gives (whole p) := by
  intro i t j hi
  unfold whole at hi
  cases hp : p i with
  | none => rw [bind_none hp] at hi; cases hi
  | some x =>
    rw [bind_some (a := x.1) (j := x.2) hp] at hi
    cases he : eof x.2 with
    | none => rw [bind_none he] at hi; cases hi
    | some y =>
      rw [bind_some (a := y.1) (j := y.2) he] at hi
      cases hi
      exact h _ _ _ hp

theorem sentence_cases {ps : List (Peg ParseTree)} (h : ∀ p ∈ ps, Gives p) {i j : At} {t : ParseTree} (hi : sentence ps i = some (t, j)) :
    Changes (root t) ∨ sentence [] i = some (t, j) := by
  induction ps with
  | nil => exact .inr hi
  | cons p ps ih =>
    unfold sentence at hi
    cases hp : whole p i with
    | none =>
      rw [or_right hp] at hi
      exact ih (fun q hq => h q (List.mem_cons_of_mem _ hq)) hi
    | some x =>
      rw [or_left hp] at hi
      cases hi
      exact .inl (gives_whole (h p (List.mem_cons_self ..)) _ _ _ hp)

theorem changes_ends {s : Str} {n : GrammarNode} (hc : Changes n) (h : NodeWritten s n) : ¬ MakesNoChange s := by
  rintro ⟨h1, h2⟩
  have ended : ∀ {es : List Str}, (∀ e ∈ es, ∃ e' ∈ amendmentEnds ++ subtitleEnds ++ structureEnds ++ insertionEnds ++ [py"lép.", py"léphatályba.", py"hatályátveszti."],
      e' <:+ e) → ¬ EndsIn s es := by
    rintro es hes ⟨e, he, hs⟩
    obtain ⟨e', h3, h4⟩ := hes e he
    exact h1 ⟨e', h3, h4.trans hs⟩
  have self : ∀ {es : List Str}, (∀ e ∈ es, e ∈ amendmentEnds ++ subtitleEnds ++ structureEnds ++ insertionEnds ++ [py"lép.", py"léphatályba.", py"hatályátveszti."]) →
      ¬ EndsIn s es := fun hes => ended fun e he => ⟨e, hes e he, List.suffix_refl e⟩
  cases n with
  | compoundReference => exact hc
  | actReference => exact hc
  | other => exact hc
  | blockAmendment =>
    obtain ⟨_, _, _, ⟨_, _, h⟩ | ⟨_, h⟩⟩ := h
    · exact self (by simp +contextual) h
    · exact self (by simp +contextual) h
  | blockAmendmentWithSubtitle =>
    obtain ⟨_, _, _, _, ⟨_, _, h⟩ | ⟨_, _, h⟩⟩ := h
    · exact self (fun e he => List.mem_append_left _ (List.mem_append_left _ (List.mem_append_left _ he))) h
    · exact self (by simp +contextual) h
  | blockAmendmentStructural =>
    obtain ⟨_, _, _, ⟨_, _, h⟩ | ⟨_, _, h⟩⟩ := h
    · refine self (fun e he => ?_) h
      rcases List.mem_append.mp he with he | he <;> simp [he]
    · exact self (by simp +contextual) h
  | enforcementDate d =>
    obtain ⟨_, _, _, w, _, ⟨_, h⟩ | ⟨r, e, t, v, _, _, _, _, h⟩⟩ := h
    · exact ended (by simp only [List.mem_singleton]; rintro _ rfl; exact ⟨_, by simp, List.suffix_append _ _⟩) h
    · exact ended (by simp only [List.mem_singleton]; rintro _ rfl; exact ⟨_, by simp, List.suffix_append _ _⟩) h
  | textAmendment =>
    obtain ⟨_, _, _, _, _, h⟩ := h
    exact self (by simp +contextual) h
  | articleTitleAmendment =>
    obtain ⟨_, _, _, h⟩ := h
    exact self (by simp +contextual) h
  | simpleRepeal =>
    obtain ⟨_, _, _, _, h, _⟩ := h
    exact h2 h
  | structuralRepeal =>
    obtain ⟨_, _, h, _⟩ := h
    exact h2 h

theorem root_mem (t : ParseTree) : root t ∈ treeNodes t := by
  cases t with
  | node n cs => unfold treeNodes root; simp

/-! ## The tree of an ordinary sentence -/

theorem ordinary_parse {s : Str} {ms : List Mention} (h : Ordinary 0 s ms) (hc : MakesNoChange s) (hb : ¬ Blank s) :
    ∃ ts, parse s = some (.node .other ts) ∧ Passed ts ms := by
  obtain ⟨c, hcm, hcs⟩ : ∃ c ∈ s, isSpace c = false := by
    refine Classical.byContradiction fun h => hb fun c hc => ?_
    cases hv : isSpace c with
    | true => rfl
    | false => exact absurd ⟨c, hc, hv⟩ h
  obtain ⟨t, ht⟩ := Option.isSome_iff_exists.mp (parse_nonblank hcm hcs)
  have hnode := parse_written ht (root t) (root_mem t)
  have ht' := ht
  unfold parse startDefault rule at ht'
  obtain ⟨⟨t', j⟩, h1, rfl⟩ := Option.map_eq_some_iff.mp ht'
  rcases sentence_cases gives_all h1 with h2 | h2
  · exact absurd hc (changes_ends h2 hnode)
  · obtain ⟨sp, hsp, e1, e2⟩ := skip_spaces ⟨0, s⟩
    have h' : Ordinary (⟨0, s⟩ : At).skip.pos (⟨0, s⟩ : At).skip.rest ms := by
      rw [e2]
      refine ordinary_spaces (sp := sp) ?_ hsp
      rw [← e1]
      exact h
    obtain ⟨ts, k, hs, hk, hp⟩ := ordinary_steps _ _ _ _ (Nat.le_refl _) h'
    have hne : ts ≠ [] := by
      rintro rfl
      cases hs
      have h3 : (⟨0, s⟩ : At).skip.skip.rest = [] := hk
      rw [skip_skip] at h3
      rw [h3, List.append_nil] at e1
      have e3 : s = sp := e1
      rw [e3] at hcm
      rw [hsp c hcm] at hcs
      cases hcs
    have hend : anySimpleExpression k = none := by
      rw [← expression_skip]
      have : k.skip = ⟨k.skip.pos, []⟩ := by rw [← hk]
      rw [this]
      exact anySimpleExpression_end _
    have h4 : sentence [] (⟨0, s⟩ : At).skip = some (.node .other ts, k.skip) := by
      unfold sentence whole
      have h5 : (do let ts ← many1 anySimpleExpression; pure (ParseTree.node .other ts)) (⟨0, s⟩ : At).skip = some (.node .other ts, k) := by
        rw [bind_some (many1_steps hs hne hend)]
        rfl
      have h6 : eof k = some ((), k.skip) := by unfold eof; simp [hk]
      rw [bind_some h5, bind_some h6]
      rfl
    rw [h4] at h2
    cases h2
    exact ⟨ts, ht, hp⟩

theorem passed_nodes {ts : List ParseTree} {ms : List Mention} (h : Passed ts ms) : ∀ n ∈ treesNodes ts,
    n = .other ∨ ∃ m ∈ ms, n = .compoundReference m.1 m.2 ∨ ∃ a, m.1 = some a ∧ n = .actReference a := by
  induction h with
  | nil => unfold treesNodes; simp
  | other _ ih =>
    intro n hn
    rw [treesNodes, treeNodes, treesNodes] at hn
    rcases List.mem_append.mp hn with hn | hn
    · exact .inl (by simpa using hn)
    · exact ih n hn
  | @mention ts ms m h ih =>
    intro n hn
    unfold treesNodes at hn
    rcases List.mem_append.mp hn with hn | hn
    · refine .inr ⟨m, List.mem_cons_self .., ?_⟩
      obtain ⟨act, rs⟩ := m
      cases act with
      | none =>
        simp only [mentionTree, Option.toList, List.map_nil, treeNodes, treesNodes, List.nil_append, List.mem_singleton] at hn
        exact .inl hn
      | some a =>
        simp only [mentionTree, Option.toList, List.map_cons, List.map_nil, treeNodes, treesNodes, List.append_nil, List.nil_append,
          List.singleton_append, List.mem_cons, List.not_mem_nil, or_false] at hn
        rcases hn with rfl | rfl
        · exact .inr ⟨a, rfl, rfl⟩
        · exact .inl rfl
    · rcases ih n hn with h | ⟨m', hm', h⟩
      · exact .inl h
      · exact .inr ⟨m', List.mem_cons_of_mem _ hm', h⟩

theorem passed_mention {ts : List ParseTree} {ms : List Mention} (h : Passed ts ms) : ∀ m ∈ ms, .compoundReference m.1 m.2 ∈ treesNodes ts := by
  induction h with
  | nil => simp
  | other _ ih =>
    intro m hm
    unfold treesNodes
    exact List.mem_append_right _ (ih m hm)
  | @mention ts ms m h ih =>
    intro m' hm'
    unfold treesNodes
    rcases List.mem_cons.mp hm' with rfl | hm'
    · refine List.mem_append_left _ ?_
      unfold mentionTree treeNodes
      simp
    · exact List.mem_append_right _ (ih m' hm')

end ActGrammar

/-! ## What is told -/

open ActGrammar

theorem both_split {α β : Type} {R : α → β → Prop} {as as' : List α} {bs : List β} (h : Both R (as ++ as') bs) :
    ∃ b b', bs = b ++ b' ∧ Both R as b ∧ Both R as' b' := by
  induction as generalizing bs with
  | nil => exact ⟨[], bs, rfl, .nil, h⟩
  | cons a as ih =>
    cases h with
    | cons h1 h2 =>
      obtain ⟨b, b', rfl, h3, h4⟩ := ih h2
      exact ⟨_ :: b, b', rfl, .cons h1 h3, h4⟩

theorem passed_told {ts : List ParseTree} {ms : List Mention} (h : Passed ts ms) : ∀ {tolds : List Told}, Both Tells (treesNodes ts) tolds →
    (∃ xss, Both Mentioned ms xss ∧ tolds.flatMap (·.1) = xss.flatten) ∧
    (∃ ass, Both Defined ms ass ∧ tolds.flatMap (·.2.1) = ass.flatten) ∧ tolds.flatMap (·.2.2) = [] := by
  induction h with
  | nil =>
    intro tolds hb
    unfold treesNodes at hb
    cases hb
    exact ⟨⟨[], .nil, rfl⟩, ⟨[], .nil, rfl⟩, rfl⟩
  | other _ ih =>
    intro tolds hb
    simp only [treesNodes, treeNodes, List.nil_append, List.singleton_append] at hb
    cases hb with
    | cons h1 h2 =>
      cases h1
      simpa using ih h2
  | @mention ts ms m h ih =>
    intro tolds hb
    unfold treesNodes at hb
    obtain ⟨b, b', rfl, h1, h2⟩ := both_split hb
    obtain ⟨⟨xss, hx, ex⟩, ⟨ass, ha, ea⟩, es⟩ := ih h2
    have key : ∃ xs as, Mentioned m xs ∧ Defined m as ∧ b.flatMap (·.1) = xs ∧ b.flatMap (·.2.1) = as ∧ b.flatMap (·.2.2) = [] := by
      obtain ⟨act, rs⟩ := m
      cases act with
      | none =>
        simp only [mentionTree, Option.toList, List.map_nil, treeNodes, treesNodes, List.nil_append] at h1
        cases h1 with
        | cons h3 h4 =>
          cases h4
          cases h3 with
          | compound h5 => exact ⟨_, [], .here h5, .nothing (by rintro a ⟨⟩), by simp, by simp, by simp⟩
      | some a =>
        simp only [mentionTree, Option.toList, List.map_cons, List.map_nil, treeNodes, treesNodes, List.append_nil, List.nil_append,
          List.singleton_append] at h1
        cases h1 with
        | cons h3 h4 =>
          cases h4 with
          | cons h4 h5 =>
            cases h5
            cases h4 with
            | compoundOfAct ha hi hr =>
              cases h3 with
              | defined hd hi' => exact ⟨_, _, .ofAct ha hi hr, .abbreviation hd hi', by simp, by simp, by simp⟩
              | act hd => exact ⟨_, [], .ofAct ha hi hr, .nothing (by rintro _ ⟨⟩; exact hd), by simp, by simp, by simp⟩
    obtain ⟨xs, as, k1, k2, k3, k4, k5⟩ := key
    refine ⟨⟨xs :: xss, .cons k1 hx, ?_⟩, ⟨as :: ass, .cons k2 ha, ?_⟩, ?_⟩
    · rw [List.flatMap_append, k3, ex]; rfl
    · rw [List.flatMap_append, k4, ea]; rfl
    · rw [List.flatMap_append, k5, es]; rfl

theorem ordinary_told {s : Str} {ms : List Mention} {r : Analysis} (h : Ordinary 0 s ms) (hc : MakesNoChange s)
    (ha : grammaticalAnalyzer ActGrammar.parse s = .ok r) :
    (∃ xss, Both Mentioned ms xss ∧ r.references = xss.flatten) ∧ (∃ ass, Both Defined ms ass ∧ r.abbreviations = ass.flatten) ∧ r.semantic = [] := by
  obtain ⟨t, tolds, ht, hb, h1, h2, h3⟩ := analyzer_ok ha
  have hbl : ¬ Blank s := by
    intro hbl
    rw [parse_blank hbl] at ht
    cases ht
  obtain ⟨ts, hp, hps⟩ := ordinary_parse h hc hbl
  rw [ht] at hp
  cases hp
  unfold treeNodes at hb
  obtain ⟨b, b', rfl, h4, h5⟩ := both_split hb
  cases h5 with
  | cons h5 h6 =>
    cases h6
    cases h5
    obtain ⟨⟨xss, hx, ex⟩, ⟨ass, has, ea⟩, es⟩ := passed_told hps h4
    refine ⟨⟨xss, hx, ?_⟩, ⟨ass, has, ?_⟩, ?_⟩
    · rw [h1, List.flatMap_append, ex]; simp
    · rw [h2, List.flatMap_append, ea]; simp
    · rw [h3, List.flatMap_append, es]; simp

/-- The analysis succeeds if collecting the references does. -/
theorem ordinary_total {s : Str} {ms : List Mention} (h : Ordinary 0 s ms) (hc : MakesNoChange s) (hb : ¬ Blank s)
    (hl : ∀ m ∈ ms, ∀ r ∈ m.2, (∃ gap, RefWritten s gap r) → ∀ act, Succeeds (convertSingle act r.1 r.2.1 r.2.2)) :
    Succeeds (grammaticalAnalyzer ActGrammar.parse s) := by
  obtain ⟨ts, ht, hp⟩ := ordinary_parse h hc hb
  have hw := parse_written ht
  have each : ∀ (rs : List ParsedRef) act, (∀ r ∈ rs, Succeeds (convertSingle act r.1 r.2.1 r.2.2)) → Succeeds (convertEach act rs) := by
    intro rs act hr
    induction rs with
    | nil => exact succeeds_ok _
    | cons r rs ih => exact (hr r (List.mem_cons_self ..)).bind fun _ _ => (ih fun x hx => hr x (List.mem_cons_of_mem _ hx)).map
  have hn : ∀ n ∈ treeNodes (.node .other ts), Succeeds (convertNode n) := by
    intro n hn
    have hwn := hw n hn
    unfold treeNodes at hn
    rcases List.mem_append.mp hn with hn | hn
    · rcases passed_nodes hp n hn with rfl | ⟨m, hm, rfl | ⟨a, hma, rfl⟩⟩
      · exact succeeds_ok _
      · obtain ⟨h1, h2⟩ := hwn
        have hr : ∀ act, Succeeds (convertEach act m.2) := fun act => each m.2 act fun r hr => hl m hm r hr ⟨_, h2 r hr⟩ act
        refine Succeeds.map ?_
        obtain ⟨act, rs⟩ := m
        cases act with
        | none => exact hr none
        | some a =>
          obtain ⟨h3, h4⟩ := act_total (h1 a rfl)
          exact h3.bind fun _ _ => h4.bind fun _ _ => (hr _).map
      · refine Succeeds.map ?_
        unfold actAbbreviation
        split
        · exact succeeds_ok _
        · exact (act_total hwn).1.map
    · rw [List.mem_singleton.mp hn]
      exact succeeds_ok _
  obtain ⟨rs, hr⟩ := convertTree_total _ hn
  unfold grammaticalAnalyzer
  rw [ht]
  simp only [hr]
  exact succeeds_ok _

end Verif
