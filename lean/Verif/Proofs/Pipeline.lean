import Verif.Proofs.Gazette
import Verif.Proofs.Extraction
import Verif.Spec.Pipeline

/-! # Lemmas about the way from issues to acts -/

namespace Verif

open Spec

/-! ## Lists side by side -/

theorem both_append {α β : Type} {R : α → β → Prop} {as as' : List α} {bs bs' : List β} (h : Both R as bs)
    (h' : Both R as' bs') : Both R (as ++ as') (bs ++ bs') := by
  induction h with
  | nil => exact h'
  | cons h _ ih => exact .cons h ih

theorem both_append_left {α β : Type} {R : α → β → Prop} : ∀ {as as' : List α} {bs : List β}, Both R (as ++ as') bs →
    ∃ cs ds, bs = cs ++ ds ∧ Both R as cs ∧ Both R as' ds
  | [], _, bs, h => ⟨[], bs, rfl, .nil, h⟩
  | a :: as, as', _, .cons h hs => by
    obtain ⟨cs, ds, rfl, h1, h2⟩ := both_append_left (as := as) hs
    exact ⟨_ :: cs, ds, rfl, .cons h h1, h2⟩

theorem both_mono {α β : Type} {R S : α → β → Prop} (h : ∀ a b, R a b → S a b) {as : List α} {bs : List β}
    (hb : Both R as bs) : Both S as bs := by
  induction hb with
  | nil => exact .nil
  | cons h' _ ih => exact .cons (h _ _ h') ih

/-- Lists in the middle can be inserted and removed. -/
theorem both_trans_iff {α β γ : Type} {R : α → β → Prop} {S : β → γ → Prop} : ∀ {as : List α} {cs : List γ},
    Both (fun a c => ∃ b, R a b ∧ S b c) as cs ↔ ∃ bs, Both R as bs ∧ Both S bs cs
  | as, cs => by
    constructor
    · intro h
      induction h with
      | nil => exact ⟨[], .nil, .nil⟩
      | cons h _ ih =>
        obtain ⟨b, h1, h2⟩ := h
        obtain ⟨bs, h3, h4⟩ := ih
        exact ⟨b :: bs, .cons h1 h3, .cons h2 h4⟩
    · rintro ⟨bs, h1, h2⟩
      induction h1 generalizing cs with
      | nil => cases h2; exact .nil
      | cons h _ ih =>
        cases h2 with
        | cons h' hs => exact .cons ⟨_, h, h'⟩ (ih _ hs)

/-- Lists of results, one for each of the elements of several lists. -/
theorem both_flatten_iff {α β : Type} {R : α → β → Prop} : ∀ {ass : List (List α)} {bs : List β},
    Both R ass.flatten bs ↔ ∃ bss, Both (fun as bs => Both R as bs) ass bss ∧ bs = bss.flatten
  | [], bs => by
    constructor
    · intro h; cases h; exact ⟨[], .nil, rfl⟩
    · rintro ⟨bss, h, rfl⟩; cases h; exact .nil
  | as :: ass, bs => by
    constructor
    · intro h
      obtain ⟨cs, ds, rfl, h1, h2⟩ := both_append_left h
      obtain ⟨bss, h3, rfl⟩ := both_flatten_iff.1 h2
      exact ⟨cs :: bss, .cons h1 h3, rfl⟩
    · rintro ⟨bss, h, rfl⟩
      cases h with
      | cons h hs => exact both_append h (both_flatten_iff.2 ⟨_, hs, rfl⟩)

/-! ## Extractors -/

variable {s : Sources} {c : ExtractedClass}

theorem pipeline_result {o : Extracted} (h : o.cls = c) (ys : List Extracted) :
    (s.pipeline c).Ends [o] ⟨ys, none⟩ ↔ ys = [o] := by
  rw [ends_result (x := s.pipeline c) (d := o) (by simp [Sources.pipeline, h])]
  simp

theorem pipeline_expand {o : Extracted} (h : o.cls ≠ c) (ha : o.cls ≠ .act) (ys : List Extracted) :
    (s.pipeline c).Ends [o] ⟨ys, none⟩ ↔ ∃ q, s.extractor o = ⟨q, none⟩ ∧ (s.pipeline c).Ends q ⟨ys, none⟩ := by
  rw [ends_expand (x := s.pipeline c) (d := o) (by simp [Sources.pipeline, h])]
  have he : (s.pipeline c).expand o [] = match (s.extractor o).stop with
      | some e => .error e
      | none => .ok (s.extractor o).yields := by
    unfold Extraction.expand
    simp only [Sources.pipeline, ha, if_false]
    unfold appendExtracted
    cases (s.extractor o).stop with
    | some e => rfl
    | none => simp [appendExtracted]
  constructor
  · rintro (⟨q, h1, h2⟩ | ⟨e, -, h2⟩)
    · rw [he] at h1
      cases hs : (s.extractor o).stop with
      | some e => rw [hs] at h1; cases h1
      | none =>
        rw [hs] at h1
        cases h1
        exact ⟨_, by rw [← hs], h2⟩
    · cases h2
  · rintro ⟨q, h1, h2⟩
    exact .inl ⟨q, by rw [he, h1], h2⟩

/-- A list of objects of which each gives something. -/
theorem ends_map {β : Type} {f : β → Extracted} {P : β → List Extracted → Prop}
    (h : ∀ b ys, (s.pipeline c).Ends [f b] ⟨ys, none⟩ ↔ ∃ outs, P b outs ∧ ys = outs.reverse) :
    ∀ (l : List β) (ys : List Extracted), (s.pipeline c).Ends (l.map f) ⟨ys, none⟩ ↔
      ∃ outss, Both P l outss ∧ ys = outss.flatten.reverse
  | [], ys => by
    constructor
    · intro he
      have := ends_unique he ends_nil
      cases this
      exact ⟨[], .nil, rfl⟩
    · rintro ⟨outss, hb, rfl⟩
      cases hb
      exact ends_nil
  | b :: l, ys => by
    rw [List.map_cons, ends_cons]
    constructor
    · rintro ⟨a, d, h1, h2, rfl⟩
      obtain ⟨outss, h3, rfl⟩ := (ends_map h l a).1 h1
      obtain ⟨outs, h4, rfl⟩ := (h b d).1 h2
      exact ⟨outs :: outss, .cons h4 h3, by simp⟩
    · rintro ⟨outss, hb, rfl⟩
      cases hb with
      | cons h4 h3 =>
        exact ⟨_, _, (ends_map h l _).2 ⟨_, h3, rfl⟩, (h b _).2 ⟨_, h4, rfl⟩, by simp⟩

theorem genOf_ok {α β : Type} {f : β → α} {r : Res (List β)} {q : List α} :
    genOf f r = ⟨q, none⟩ ↔ ∃ l, r = .ok l ∧ q = l.map f := by
  cases r with
  | ok l => simp [genOf, eq_comm]
  | error e => simp [genOf]

theorem map_single_ok {α : Type} {r : Res α} {l : List α} : (r.map fun a => [a]) = .ok l ↔ ∃ a, r = .ok a ∧ l = [a] := by
  cases r <;> simp [Except.map, eq_comm]

/-- An object that is made into one other. -/
theorem pipeline_single {β γ : Type} {f : β → Extracted} {g : γ → Extracted} {F : β → Res γ} {b : β} (h : (f b).cls ≠ c)
    (ha : (f b).cls ≠ .act) (he : s.extractor (f b) = genOf g ((F b).map fun a => [a])) {P : γ → List Extracted → Prop}
    (hg : ∀ x ys, (s.pipeline c).Ends [g x] ⟨ys, none⟩ ↔ ∃ outs, P x outs ∧ ys = outs.reverse) (ys : List Extracted) :
    (s.pipeline c).Ends [f b] ⟨ys, none⟩ ↔ ∃ outs, (∃ x, F b = .ok x ∧ P x outs) ∧ ys = outs.reverse := by
  rw [pipeline_expand h ha, he]
  constructor
  · rintro ⟨q, h1, h2⟩
    obtain ⟨l, h3, rfl⟩ := genOf_ok.1 h1
    obtain ⟨x, h4, rfl⟩ := map_single_ok.1 h3
    obtain ⟨outs, h5, rfl⟩ := (hg x ys).1 h2
    exact ⟨outs, ⟨x, h4, h5⟩, rfl⟩
  · rintro ⟨outs, ⟨x, h4, h5⟩, rfl⟩
    exact ⟨[g x], genOf_ok.2 ⟨[x], map_single_ok.2 ⟨x, h4, rfl⟩, rfl⟩, (hg x _).2 ⟨outs, h5, rfl⟩⟩

/-! ## From the text of an act -/

theorem result_gives {γ : Type} {g : γ → Extracted} (h : ∀ x, (g x).cls = c) (x : γ) (ys : List Extracted) :
    (s.pipeline c).Ends [g x] ⟨ys, none⟩ ↔ ∃ outs, outs = [g x] ∧ ys = outs.reverse := by
  rw [pipeline_result (h x)]
  simp

theorem structureOnlyAct_ok {r : LawRawText} {a : Act} : structureOnlyAct s r = .ok a ↔
    ∃ body, doAllFixups s.fixups r.identifier r.body = .ok body ∧
      parseAct r.identifier r.publicationDate r.subject body = .ok a := by
  unfold structureOnlyAct
  cases doAllFixups s.fixups r.identifier r.body with
  | error e => simp [bind, Except.bind]
  | ok b => simp [bind, Except.bind]

theorem raw_gives (hc : IsStep c) (r : LawRawText) (ys : List Extracted) :
    (s.pipeline c).Ends [.raw r] ⟨ys, none⟩ ↔ ∃ outs, (∃ o, Produces s c r o ∧ outs = [o]) ∧ ys = outs.reverse := by
  rcases hc with rfl | rfl | rfl | rfl
  · rw [result_gives (g := .raw) fun _ => rfl]
    simp [Produces]
  · rw [pipeline_single (f := .raw) (g := .structureOnly) (F := structureOnlyAct s) (by simp [Extracted.cls])
      (by simp [Extracted.cls]) rfl (result_gives fun _ => rfl)]
    simp only [Produces, structureOnlyAct_ok]
    constructor
    · rintro ⟨outs, ⟨a, ⟨body, h1, h2⟩, rfl⟩, rfl⟩
      exact ⟨_, ⟨_, ⟨body, a, h1, h2, rfl⟩, rfl⟩, rfl⟩
    · rintro ⟨outs, ⟨o, ⟨body, a, h1, h2, rfl⟩, rfl⟩, rfl⟩
      exact ⟨_, ⟨a, ⟨body, h1, h2⟩, rfl⟩, rfl⟩
  · rw [pipeline_single (f := .raw) (g := .structureOnly) (F := structureOnlyAct s) (by simp [Extracted.cls])
      (by simp [Extracted.cls]) rfl fun x ys =>
        pipeline_single (f := .structureOnly) (g := .blockOnly) (F := parseBlockAmendments s.analyze) (by simp [Extracted.cls])
          (by simp [Extracted.cls]) rfl (result_gives fun _ => rfl) ys]
    simp only [Produces, structureOnlyAct_ok]
    constructor
    · rintro ⟨outs, ⟨a, ⟨body, h1, h2⟩, b, h3, rfl⟩, rfl⟩
      exact ⟨_, ⟨_, ⟨body, a, b, h1, h2, h3, rfl⟩, rfl⟩, rfl⟩
    · rintro ⟨outs, ⟨o, ⟨body, a, b, h1, h2, h3, rfl⟩, rfl⟩, rfl⟩
      exact ⟨_, ⟨a, ⟨body, h1, h2⟩, b, h3, rfl⟩, rfl⟩
  · rw [pipeline_single (f := .raw) (g := .structureOnly) (F := structureOnlyAct s) (by simp [Extracted.cls])
      (by simp [Extracted.cls]) rfl fun x ys =>
        pipeline_single (f := .structureOnly) (g := .blockOnly) (F := parseBlockAmendments s.analyze) (by simp [Extracted.cls])
          (by simp [Extracted.cls]) rfl (fun x ys =>
            pipeline_single (f := .blockOnly) (g := .act) (F := addSemantics s.analyze) (by simp [Extracted.cls])
              (by simp [Extracted.cls]) rfl (result_gives fun _ => rfl) ys) ys]
    simp only [Produces, structureOnlyAct_ok]
    constructor
    · rintro ⟨outs, ⟨a, ⟨body, h1, h2⟩, b, h3, d, h4, rfl⟩, rfl⟩
      exact ⟨_, ⟨_, ⟨body, a, b, d, h1, h2, h3, h4, rfl⟩, rfl⟩, rfl⟩
    · rintro ⟨outs, ⟨o, ⟨body, a, b, d, h1, h2, h3, h4, rfl⟩, rfl⟩, rfl⟩
      exact ⟨_, ⟨a, ⟨body, h1, h2⟩, b, h3, d, h4, rfl⟩, rfl⟩

theorem both_single {α β : Type} {R : α → β → Prop} {as : List α} {bss : List (List β)}
    (h : Both (fun a bs => ∃ b, R a b ∧ bs = [b]) as bss) : Both R as bss.flatten := by
  induction h with
  | nil => exact .nil
  | cons h _ ih =>
    obtain ⟨b, h, rfl⟩ := h
    exact .cons h ih

theorem both_to_single {α β : Type} {R : α → β → Prop} {as : List α} {bs : List β} (h : Both R as bs) :
    ∃ bss, Both (fun a bs => ∃ b, R a b ∧ bs = [b]) as bss ∧ bss.flatten = bs := by
  induction h with
  | nil => exact ⟨[], .nil, rfl⟩
  | cons h _ ih =>
    obtain ⟨bss, h1, h2⟩ := ih
    exact ⟨[_] :: bss, .cons ⟨_, h, rfl⟩ h1, by simp [h2]⟩

theorem raws_give (hc : IsStep c) (rs : List LawRawText) (ys : List Extracted) :
    (s.pipeline c).Ends (rs.map .raw) ⟨ys, none⟩ ↔ ∃ outs, Both (Produces s c) rs outs ∧ ys = outs.reverse := by
  rw [ends_map (raw_gives hc)]
  constructor
  · rintro ⟨outss, h, rfl⟩
    exact ⟨_, both_single h, rfl⟩
  · rintro ⟨outs, h, rfl⟩
    obtain ⟨bss, h1, h2⟩ := both_to_single h
    exact ⟨bss, h1, by rw [h2]⟩

/-! ## From an issue -/

theorem laws_give (hc : IsStep c) (l : LawsSection) (ys : List Extracted) :
    (s.pipeline c).Ends [.laws l] ⟨ys, none⟩ ↔
      ∃ outs, (∃ rs, lawExtractor l = ⟨rs, none⟩ ∧ Both (Produces s c) rs outs) ∧ ys = outs.reverse := by
  have hn : (Extracted.laws l).cls ≠ c := by rcases hc with rfl | rfl | rfl | rfl <;> exact nofun
  rw [pipeline_expand hn (by exact nofun)]
  show (∃ q, (⟨(lawExtractor l).yields.map .raw, (lawExtractor l).stop⟩ : Gen Extracted) = ⟨q, none⟩ ∧ _) ↔ _
  constructor
  · rintro ⟨q, h1, h2⟩
    simp only [Gen.mk.injEq] at h1
    obtain ⟨rfl, hs⟩ := h1
    obtain ⟨outs, h3, rfl⟩ := (raws_give hc _ _).1 h2
    exact ⟨outs, ⟨(lawExtractor l).yields, by rw [← hs], h3⟩, rfl⟩
  · rintro ⟨outs, ⟨rs, h1, h2⟩, rfl⟩
    exact ⟨_, by rw [h1], (raws_give hc _ _).2 ⟨outs, h2, rfl⟩⟩

theorem pages_give (hc : IsStep c) (k : KozlonyPages) (ys : List Extracted) :
    (s.pipeline c).Ends [.pages k] ⟨ys, none⟩ ↔ ∃ outs, (∃ sections laws, sectionExtractor k = ⟨sections, none⟩ ∧
      Both (fun s l => lawExtractor s = ⟨l, none⟩) sections laws ∧ Both (Produces s c) laws.flatten outs) ∧
      ys = outs.reverse := by
  have hn : (Extracted.pages k).cls ≠ c := by rcases hc with rfl | rfl | rfl | rfl <;> exact nofun
  rw [pipeline_expand hn (by exact nofun)]
  show (∃ q, (⟨(sectionExtractor k).yields.map .laws, (sectionExtractor k).stop⟩ : Gen Extracted) = ⟨q, none⟩ ∧ _) ↔ _
  constructor
  · rintro ⟨q, h1, h2⟩
    simp only [Gen.mk.injEq] at h1
    obtain ⟨rfl, hs⟩ := h1
    obtain ⟨outss, h3, rfl⟩ := (ends_map (laws_give hc) _ _).1 h2
    obtain ⟨laws, h4, h5⟩ := both_trans_iff.1 h3
    exact ⟨_, ⟨_, laws, by rw [← hs], h4, both_flatten_iff.2 ⟨outss, h5, rfl⟩⟩, rfl⟩
  · rintro ⟨outs, ⟨sections, laws, h1, h2, h3⟩, rfl⟩
    obtain ⟨outss, h4, rfl⟩ := both_flatten_iff.1 h3
    exact ⟨_, by rw [h1], (ends_map (laws_give hc) _ _).2 ⟨outss, both_trans_iff.2 ⟨laws, h2, h4⟩, rfl⟩⟩

theorem pdf_gives (hc : IsStep c) (p : PdfOfLines) (ys : List Extracted) :
    (s.pipeline c).Ends [.pdf p] ⟨ys, none⟩ ↔
      ∃ outs, (∃ laws, IssueLaws p laws ∧ Both (Produces s c) laws outs) ∧ ys = outs.reverse := by
  have hn : (Extracted.pdf p).cls ≠ c := by rcases hc with rfl | rfl | rfl | rfl <;> exact nofun
  rw [pipeline_expand hn (by exact nofun)]
  show (∃ q, genOf Extracted.pages ((headerExtractor p).map Option.toList) = ⟨q, none⟩ ∧ _) ↔ _
  constructor
  · rintro ⟨q, h1, h2⟩
    obtain ⟨l, h3, rfl⟩ := genOf_ok.1 h1
    cases hp : headerExtractor p with
    | error e => rw [hp] at h3; cases h3
    | ok k =>
      rw [hp] at h3
      cases h3
      cases k with
      | none =>
        have := ends_unique h2 ends_nil
        cases this
        exact ⟨[], ⟨[], .other hp, .nil⟩, rfl⟩
      | some k =>
        obtain ⟨outs, ⟨sections, laws, h4, h5, h6⟩, rfl⟩ := (pages_give hc k ys).1 h2
        exact ⟨outs, ⟨_, .gazette hp h4 h5, h6⟩, rfl⟩
  · rintro ⟨outs, ⟨laws, h, h6⟩, rfl⟩
    cases h with
    | other hp =>
      cases h6
      exact ⟨[], genOf_ok.2 ⟨[], by rw [hp]; rfl, rfl⟩, ends_nil⟩
    | @gazette k _ _ hp h4 h5 =>
      exact ⟨[.pages k], genOf_ok.2 ⟨[k], by rw [hp]; rfl, rfl⟩, (pages_give hc _ _).2 ⟨outs, ⟨_, _, h4, h5, h6⟩, rfl⟩⟩

theorem issue_gives (hc : IsStep c) (i : Issue) (ys : List Extracted) :
    (s.pipeline c).Ends [.issue i] ⟨ys, none⟩ ↔ ∃ outs, (∃ p, s.read i = .ok p ∧ ∃ laws, IssueLaws p laws ∧
      Both (Produces s c) laws outs) ∧ ys = outs.reverse := by
  have hn : (Extracted.issue i).cls ≠ c := by rcases hc with rfl | rfl | rfl | rfl <;> exact nofun
  have hn' : ExtractedClass.file ≠ c := by rcases hc with rfl | rfl | rfl | rfl <;> exact nofun
  rw [pipeline_expand hn (by exact nofun)]
  have := pipeline_single (s := s) (c := c) (f := .file) (g := .pdf) (F := s.read) (b := i) hn' (by exact nofun) rfl
    (pdf_gives hc) ys
  rw [← this]
  show (∃ q, (⟨[.file i], none⟩ : Gen Extracted) = ⟨q, none⟩ ∧ _) ↔ _
  constructor
  · rintro ⟨q, h1, h2⟩
    cases h1
    exact h2
  · intro h
    exact ⟨_, rfl, h⟩

theorem issues_give (hc : IsStep c) (issues : List Issue) (ys : List Extracted) :
    (s.pipeline c).Ends (issues.map .issue) ⟨ys, none⟩ ↔ ∃ outs, IssuesGive s c issues outs ∧ ys = outs.reverse := by
  rw [ends_map (issue_gives hc)]
  unfold IssuesGive
  constructor
  · rintro ⟨outss, h, rfl⟩
    obtain ⟨pdfs, h1, h2⟩ := both_trans_iff.1 h
    obtain ⟨laws, h3, h4⟩ := both_trans_iff.1 h2
    exact ⟨_, ⟨pdfs, laws, h1, h3, both_flatten_iff.2 ⟨outss, h4, rfl⟩⟩, rfl⟩
  · rintro ⟨outs, ⟨pdfs, laws, h1, h3, h⟩, rfl⟩
    obtain ⟨outss, h4, rfl⟩ := both_flatten_iff.1 h
    exact ⟨outss, both_trans_iff.2 ⟨pdfs, h1, both_trans_iff.2 ⟨laws, h3, h4⟩⟩, rfl⟩

/-! ## It always ends -/

/-- How many steps a class is from the last one. -/
def ExtractedClass.rank : ExtractedClass → Nat
  | .issue => 8 | .file => 7 | .pdf => 6 | .pages => 5 | .laws => 4 | .raw => 3 | .structureOnly => 2 | .blockOnly => 1
  | .act => 0

theorem genOf_yields {α β : Type} (f : β → α) (r : Res (List β)) : ∀ o ∈ (genOf f r).yields, ∃ x, o = f x := by
  intro o ho
  cases r with
  | ok l =>
    obtain ⟨x, -, rfl⟩ := List.mem_map.1 ho
    exact ⟨x, rfl⟩
  | error e => cases ho

theorem extractor_rank (o : Extracted) : ∀ q ∈ (s.extractor o).yields, q.cls.rank + 1 = o.cls.rank := by
  intro q hq
  cases o with
  | issue i => obtain rfl := List.mem_singleton.1 hq; rfl
  | file i => obtain ⟨x, rfl⟩ := genOf_yields _ _ _ hq; rfl
  | pdf i => obtain ⟨x, rfl⟩ := genOf_yields _ _ _ hq; rfl
  | pages i => obtain ⟨x, -, rfl⟩ := List.mem_map.1 hq; rfl
  | laws i => obtain ⟨x, -, rfl⟩ := List.mem_map.1 hq; rfl
  | raw i => obtain ⟨x, rfl⟩ := genOf_yields _ _ _ hq; rfl
  | structureOnly i => obtain ⟨x, rfl⟩ := genOf_yields _ _ _ hq; rfl
  | blockOnly i => obtain ⟨x, rfl⟩ := genOf_yields _ _ _ hq; rfl
  | act i => cases hq

theorem object_ends (c : ExtractedClass) : ∀ (n : Nat) (o : Extracted), o.cls.rank ≤ n → ∃ g, (s.pipeline c).Ends [o] g := by
  intro n
  induction n with
  | zero =>
    intro o h
    by_cases hc : (s.pipeline c).classOf o ∈ (s.pipeline c).resultClasses
    · exact ⟨_, (ends_result hc _).2 rfl⟩
    · cases o with
      | act a => exact ⟨_, (ends_expand hc _).2 (.inr ⟨.keyError, rfl, rfl⟩)⟩
      | _ => exact absurd h (by simp [Extracted.cls, ExtractedClass.rank])
  | succ n ih =>
    intro o h
    by_cases hc : (s.pipeline c).classOf o ∈ (s.pipeline c).resultClasses
    · exact ⟨_, (ends_result hc _).2 rfl⟩
    · cases he : (s.pipeline c).expand o [] with
      | error e => exact ⟨_, (ends_expand hc _).2 (.inr ⟨e, he, rfl⟩)⟩
      | ok q =>
        have hq : ∀ x ∈ q, x.cls.rank + 1 = o.cls.rank := by
          unfold Extraction.expand at he
          by_cases ha : o.cls = .act
          · simp [Sources.pipeline, ha] at he
          · simp only [Sources.pipeline, ha, if_false] at he
            unfold appendExtracted at he
            cases hs : (s.extractor o).stop with
            | some e => rw [hs] at he; cases he
            | none =>
              rw [hs] at he
              simp only [appendExtracted, List.nil_append] at he
              cases he
              exact extractor_rank o
        obtain ⟨g, hg⟩ := ends_of_parts (x := s.pipeline c) fun x hx => ih x (by have := hq x hx; omega)
        exact ⟨g, (ends_expand hc _).2 (.inl ⟨q, he, hg⟩)⟩

/-! ## Where the texts come from -/

theorem sectionLoop_lines (date : Date) (A : Line → Prop) (he : A emptyLine) : ∀ (pages : List PageWithHeader) (current : Option Str)
    (content : List Line), (∀ l ∈ content, A l) → (∀ p ∈ pages, ∀ l ∈ p.lines, A l) →
    ∀ x ∈ (sectionLoop date current content pages).yields, x.publicationDate = date ∧ ∀ l ∈ x.lines, A l := by
  have ofSection : ∀ (t : Str) (content : List Line), (∀ l ∈ content, A l) → ∀ x ∈ sectionOf date t content,
      x.publicationDate = date ∧ ∀ l ∈ x.lines, A l := by
    intro t content hc x hx
    unfold sectionOf at hx
    split at hx
    · rw [List.mem_singleton.1 hx]
      exact ⟨rfl, hc⟩
    · cases hx
  intro pages
  induction pages with
  | nil =>
    intro current content hc hp x hx
    cases current with
    | none => cases hx
    | some t => exact ofSection t content hc x hx
  | cons page pages ih =>
    intro current content hc hp x hx
    have hp' : ∀ p ∈ pages, ∀ l ∈ p.lines, A l := fun p h => hp p (by simp [h])
    cases hl : page.lines with
    | nil => rw [sectionLoop_empty hl] at hx; exact ih current content hc hp' x hx
    | cons line lines =>
      have hpl : ∀ l ∈ line :: lines, A l := fun l h => hp page (by simp) l (by rw [hl]; exact h)
      have hnew : ∀ l ∈ lines ++ [emptyLine], A l := by
        intro l h
        rcases List.mem_append.1 h with h | h
        · exact hpl l (by simp [h])
        · rw [List.mem_singleton.1 h]; exact he
      have hmore : ∀ l ∈ content ++ (lines ++ [emptyLine]), A l := by
        intro l h
        rcases List.mem_append.1 h with h | h
        · exact hc l h
        · exact hnew l h
      have hmore' : ∀ l ∈ content ++ line :: lines ++ [emptyLine], A l := by
        intro l h
        rcases List.mem_append.1 h with h | h
        · rcases List.mem_append.1 h with h | h
          · exact hc l h
          · exact hpl l h
        · rw [List.mem_singleton.1 h]; exact he
      unfold sectionLoop at hx
      simp only [hl] at hx
      by_cases h1 : line.content ∈ sectionTypes
      · rw [if_pos h1] at hx
        by_cases h2 : current = some line.content
        · rw [if_pos h2] at hx
          exact ih _ _ (by simpa [List.append_assoc] using hmore) hp' x hx
        · rw [if_neg h2] at hx
          cases current with
          | none => exact ih _ _ hnew hp' x hx
          | some t =>
            rcases List.mem_append.1 hx with h | h
            · exact ofSection t content hc x h
            · exact ih _ _ hnew hp' x h
      · rw [if_neg h1] at hx
        cases current with
        | none => cases hx
        | some t => exact ih _ _ hmore' hp' x hx

theorem cutOut_mem {P : LawRawText → List Line → Prop} {lines : List Line} {acts : List LawRawText} (h : CutOut P lines acts) :
    ∀ a ∈ acts, ∃ seg, P a seg ∧ ∀ l ∈ seg, l ∈ lines := by
  induction h with
  | rest => simp
  | @act between lines rest act acts h hs ih =>
    intro a ha
    rcases List.mem_cons.1 ha with rfl | ha
    · exact ⟨lines, h, fun l hl => by simp [hl]⟩
    · obtain ⟨seg, h1, h2⟩ := ih a ha
      exact ⟨seg, h1, fun l hl => by simp [h2 l hl]⟩

theorem filled_append (xs ys : List Line) : filledLines (xs ++ ys) = filledLines xs ++ filledLines ys := List.filter_append ..

theorem filled_sublist {xs ys : List Line} (h : xs.Sublist ys) : (filledLines xs).Sublist (filledLines ys) := h.filter _

theorem filled_end (xs : List Line) : filledLines (xs ++ [emptyLine]) = filledLines xs := by
  rw [filled_append]
  exact List.append_nil _

theorem sectionLoop_order (date : Date) : ∀ (pages : List PageWithHeader) (current : Option Str) (content : List Line),
    (filledLines ((sectionLoop date current content pages).yields.flatMap (·.lines))).Sublist
      (filledLines content ++ filledLines (pages.flatMap (·.lines))) := by
  have ofSection : ∀ (t : Str) (content : List Line),
      (filledLines ((sectionOf date t content).flatMap (·.lines))).Sublist (filledLines content) := by
    intro t content
    unfold sectionOf
    split
    · simp
    · exact List.nil_sublist _
  intro pages
  induction pages with
  | nil =>
    intro current content
    cases current with
    | none => exact List.nil_sublist _
    | some t => exact (ofSection t content).trans (List.sublist_append_left ..)
  | cons page pages ih =>
    intro current content
    rw [List.flatMap_cons, filled_append]
    cases hl : page.lines with
    | nil => rw [sectionLoop_empty hl]; exact ih current content
    | cons line lines =>
      have hsub : (filledLines lines).Sublist (filledLines (line :: lines)) := filled_sublist (List.sublist_cons_self ..)
      have more : ∀ t (ls : List Line), (filledLines ls).Sublist (filledLines (line :: lines)) →
          (filledLines ((sectionLoop date t (content ++ ls ++ [emptyLine]) pages).yields.flatMap (·.lines))).Sublist
            (filledLines content ++ (filledLines (line :: lines) ++ filledLines (pages.flatMap (·.lines)))) := by
        intro t ls h
        refine (ih t _).trans ?_
        rw [filled_end, filled_append, List.append_assoc]
        exact (List.Sublist.refl _).append (h.append (.refl _))
      rw [sectionLoop]
      · simp only [hl]
        split
        · split
          · exact more _ _ hsub
          · have fresh := ih (some line.content) (lines ++ [emptyLine])
            rw [filled_end] at fresh
            have fresh' := fresh.trans (hsub.append (.refl _))
            cases current with
            | none => exact fresh'.trans (List.sublist_append_right ..)
            | some t =>
              show (filledLines ((sectionOf date t content ++ _).flatMap _)).Sublist _
              rw [List.flatMap_append, filled_append]
              exact (ofSection t content).append fresh'
        · cases current with
          | none => exact List.nil_sublist _
          | some t => exact more _ _ (.refl _)

theorem footnoted_filled {raw body : List Line} (h : Footnoted raw body) : (filledLines body).Sublist (filledLines raw) := by
  cases h with
  | same => exact .refl _
  | @removed before blank note blank' after =>
    rw [filled_append, filled_end, filled_append, filled_append]
    exact (List.sublist_append_left ..).append (.refl _)

theorem cutOut_order {P : LawRawText → List Line → Prop} {lines : List Line} {acts : List LawRawText} {date : Date} (h : CutOut P lines acts)
    (hP : ∀ act seg, P act seg → ActLines Footnoted date act seg) :
    ∃ titles, Both (fun r t => ActTitle t.content ∧ r.identifier = t.content) acts titles ∧
      (filledLines ((acts.zip titles).flatMap fun q => q.2 :: q.1.body)).Sublist (filledLines lines) := by
  induction h with
  | rest => exact ⟨[], .nil, List.nil_sublist _⟩
  | @act between lines rest act acts h hs ih =>
    obtain ⟨titles, g1, g2⟩ := ih
    obtain ⟨title, subject, raw, blank, names, signature, rfl, h1, h2, -, -, -, -, -, -, h9⟩ := hP _ _ h
    refine ⟨title :: titles, .cons ⟨h1, h2⟩ g1, ?_⟩
    rw [List.zip_cons_cons, List.flatMap_cons, filled_append, filled_append, filled_append]
    refine .append (.trans ?_ (List.sublist_append_right ..)) g2
    have hb := (filled_sublist (List.sublist_append_left act.body [blank, names, signature])).trans (footnoted_filled h9)
    show (filledLines ([title] ++ act.body)).Sublist (filledLines ([title] ++ subject ++ raw))
    rw [filled_append, filled_append, filled_append]
    exact (List.sublist_append_left ..).append hb

end Verif
