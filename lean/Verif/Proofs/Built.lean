import Verif.Proofs.ParsedAct
import Verif.Proofs.Headed
import Verif.Proofs.Children
import Verif.Proofs.Semantics
import Verif.Proofs.Amendments

/-! # What the parsers make is built through the constructors -/

namespace Verif

open Spec

/-- A property of everything that is made through the constructors without semantic data. -/
structure Closed (Q : Node → Prop) : Prop where
  sae : ∀ {k : SaeKind} {i t intro w : Option Str} {children : Option (List Node)} {n : Node},
    (∀ cs, children = some cs → ∀ c ∈ cs, Q c) → (children = none → t ≠ none) →
    mkSae k { identifier := i, text := t, intro := intro, wrapUp := w } children = .ok n → Q n
  article : ∀ {i : Str} {t : Option Str} {cs : List Node} {n : Node}, (∀ c ∈ cs, Q c) →
    (∀ c ∈ cs, c.type = .sae .paragraph) → mkArticle i t cs = .ok n → Q n
  quoted : ∀ lines, Q (.quoted lines)
  structural : ∀ e : StructuralElement, (∃ s, e.formattedIdentifier = .ok s) → (e.special = true → e.kind = .part) → Q (.structural e)

theorem closed_built : Closed Built where
  sae h _ hm := .sae _ h hm
  article h ht hm := .article _ h ht hm
  quoted := .quoted
  structural e _ _ := .structural e

mutual
/-- Nothing in an object was analysed. -/
def Unanalysed : Node → Prop
  | .sae _ d cs => (d.abbreviations = none ∧ d.references = none ∧ d.semantic = none) ∧ UnanalysedL cs
  | .article _ _ cs => UnanalysedL cs
  | _ => True

/-- The same for each of some objects. -/
def UnanalysedL : List Node → Prop
  | [] => True
  | c :: cs => Unanalysed c ∧ UnanalysedL cs
end

theorem unanalysedL_iff (cs : List Node) : UnanalysedL cs ↔ ∀ c ∈ cs, Unanalysed c := by
  induction cs with
  | nil => simp [UnanalysedL]
  | cons c cs ih => simp [UnanalysedL, ih]

theorem closed_unanalysed : Closed Unanalysed where
  sae := by
    intro k i t intro w children n h _ hm
    obtain ⟨rfl, -⟩ := mkSae_ok hm
    rw [Unanalysed, unanalysedL_iff]
    refine ⟨⟨rfl, rfl, rfl⟩, ?_⟩
    cases children with
    | none => simp
    | some cs => exact h cs rfl
  article := by
    intro i t cs n h _ hm
    obtain rfl := mkArticle_ok hm
    rw [Unanalysed, unanalysedL_iff]
    exact h
  quoted _ := trivial
  structural _ _ _ := trivial

section
variable {Q : Node → Prop} (hQ : Closed Q)
include hQ

/-- The children that a reader gives have the property. -/
def KidsHave (Q : Node → Prop) (kids : ChildReader) : Prop :=
  ∀ lines i pi intro cs w, kids lines i pi = .ok (intro, cs, w) → ∀ c ∈ cs, Q c

theorem parseElement_has {P : ElementParser} {kids : ChildReader} (hk : KidsHave Q kids) {lines : List Line} {pi : Bool}
    {n : Node} (h : parseElement P kids lines pi = .ok n) : Q n := by
  cases lines with
  | nil => cases h
  | cons first rest =>
    simp only [parseElement] at h
    obtain ⟨p, hp, h⟩ := resBind_ok h
    by_cases hs : (!startsWith first.content p) = true
    · rw [if_pos hs] at h; cases h
    · rw [if_neg hs] at h
      obtain ⟨first', hf, h⟩ := resBind_ok h
      cases hc : kids (first' :: rest) (P.header first.content) pi with
      | ok r =>
        obtain ⟨intro, cs, w⟩ := r
        simp only [hc] at h
        exact hQ.sae (children := some cs) (fun cs' e c hm => by cases e; exact hk _ _ _ _ _ _ hc c hm) (fun e => by cases e) h
      | error e =>
        simp only [hc] at h
        cases e <;> first | exact hQ.sae (children := none) (fun _ e => nomatch e) (fun _ => Option.some_ne_none _) h | cases h

omit hQ in
theorem parseBetween_has {parse : List Line → Res Node} (hp : ∀ ls n, parse ls = .ok n → Q n) (lines : List Line) :
    ∀ (more : List Nat) (start : Nat) {r : List Node × Nat}, parseBetween parse lines start more = .ok r → ∀ c ∈ r.1, Q c := by
  intro more
  induction more with
  | nil => intro start r h; cases h; simp
  | cons stop more ih =>
    intro start r h
    rw [parseBetween] at h
    obtain ⟨e, he, h⟩ := resBind_ok h
    obtain ⟨r', hr, h⟩ := resBind_ok h
    cases h
    intro c hc
    rcases List.mem_cons.1 hc with rfl | hc
    · exact hp _ _ he
    · exact ih _ hr c hc

theorem extractMultiple_has {P : ElementParser} {kids : ChildReader} (hk : KidsHave Q kids) {lines : List Line} {pi : Bool}
    {r : List Node × Option Str} (h : extractMultiple P kids lines pi = .ok r) : ∀ c ∈ r.1, Q c := by
  unfold extractMultiple at h
  obtain ⟨hs, -, h⟩ := resBind_ok h
  cases hs with
  | nil => cases h
  | cons a more =>
    simp only at h
    by_cases h1 : a ≠ 0
    · rw [if_pos h1] at h; cases h
    · rw [if_neg h1] at h
      by_cases h2 : (lines.head?.bind fun l => P.header l.content) ≠ some P.first
      · rw [if_pos h2] at h; cases h
      · rw [if_neg h2] at h
        by_cases h3 : (more.isEmpty && P.mustHaveMultiple) = true
        · rw [if_pos h3] at h; cases h
        · rw [if_neg h3] at h
          obtain ⟨x, hx, h⟩ := resBind_ok h
          obtain ⟨y, hy, h⟩ := resBind_ok h
          obtain ⟨e, he, h⟩ := resBind_ok h
          cases h
          intro c hc
          rcases List.mem_append.1 hc with hc | hc
          · exact parseBetween_has (fun ls n hn => parseElement_has hQ hk hn) lines _ _ hx c hc
          · rw [List.mem_singleton.1 hc]
            exact parseElement_has hQ hk he

omit hQ in
theorem childrenBy_has {ps : List SubParser} (hp : ∀ p ∈ ps, ∀ lines pi r, p.extract lines pi = .ok r → ∀ c ∈ r.1, Q c)
    {lines : List Line} {pi : Bool} {r : Parts} (h : childrenBy ps lines pi = .ok r) : ∀ c ∈ r.2.1, Q c := by
  obtain ⟨p, hm, n, -, he, -⟩ := childrenBy_choice (show _ = Except.ok (r.1, r.2.1, r.2.2) from h)
  exact hp p hm _ _ _ he

theorem openBlock_has {blocks : List Node} {line : Line} {r : QuoteState × List Node} (hb : ∀ c ∈ blocks, Q c)
    (h : openBlock blocks line = .ok r) : ∀ c ∈ r.2, Q c := by
  unfold openBlock at h
  obtain ⟨b, -, h⟩ := resBind_ok h
  cases b with
  | true =>
    simp only [if_true] at h
    obtain ⟨l, -, h⟩ := resBind_ok h
    cases h
    intro c hc
    rcases List.mem_append.1 hc with hc | hc
    · exact hb c hc
    · rw [List.mem_singleton.1 hc]; exact hQ.quoted _
  | false =>
    simp only [Bool.false_eq_true, if_false] at h
    obtain ⟨l, -, h⟩ := resBind_ok h
    cases h
    exact hb

theorem quotedStep_has {st : QuoteState} {blocks : List Node} {level : Int} {line : Line} {r : QuoteState × List Node}
    (hb : ∀ c ∈ blocks, Q c) (h : quotedStep st blocks level line = .ok r) : ∀ c ∈ r.2, Q c := by
  unfold quotedStep at h
  by_cases he : line.isEmptyLine = true
  · cases st <;> simp only [he, if_true] at h <;> cases h <;> exact hb
  · cases st with
    | start =>
      simp only [he, Bool.false_eq_true, if_false] at h
      obtain ⟨b, -, h⟩ := resBind_ok h
      by_cases hc : (b && level == 0) = true
      · rw [if_pos hc] at h; exact openBlock_has hQ hb h
      · rw [if_neg hc] at h; cases h
    | block q =>
      simp only [he, Bool.false_eq_true, if_false] at h
      obtain ⟨b, -, h⟩ := resBind_ok h
      by_cases hc : (b && level + quoteLevelDiff line.content == 0) = true
      · rw [if_pos hc] at h
        obtain ⟨l, -, h⟩ := resBind_ok h
        cases h
        intro c hc
        rcases List.mem_append.1 hc with hc | hc
        · exact hb c hc
        · rw [List.mem_singleton.1 hc]; exact hQ.quoted _
      · rw [if_neg hc] at h; cases h; exact hb
    | maybe =>
      simp only [he, Bool.false_eq_true, if_false] at h
      obtain ⟨b, -, h⟩ := resBind_ok h
      by_cases hc : (b && level == 0) = true
      · rw [if_pos hc] at h; exact openBlock_has hQ hb h
      · rw [if_neg hc] at h; cases h; exact hb
    | wrapUp w =>
      simp only [he, Bool.false_eq_true, if_false] at h
      cases h; exact hb

theorem quotedLoop_has (ys : List (Int × Line)) : ∀ (st : QuoteState) (blocks : List Node) {r : QuoteState × List Node},
    (∀ c ∈ blocks, Q c) → quotedLoop st blocks ys = .ok r → ∀ c ∈ r.2, Q c := by
  induction ys with
  | nil => intro st blocks r hb h; cases h; exact hb
  | cons y ys ih =>
    intro st blocks r hb h
    rw [quotedLoop] at h
    obtain ⟨x, hx, h⟩ := resBind_ok h
    exact ih _ _ (quotedStep_has hQ hb hx) h

theorem quotedExtract_has {lines : List Line} {r : List Node × Option Str} (h : quotedExtract lines = .ok r) :
    ∀ c ∈ r.1, Q c := by
  unfold quotedExtract at h
  obtain ⟨x, hx, h⟩ := resBind_ok h
  have := quotedLoop_has hQ _ _ _ (by simp) hx
  cases hs : (iterateWithQuoteLevel lines).stop with
  | some e => simp [hs] at h
  | none =>
    simp only [hs] at h
    cases hst : x.1 with
    | maybe => simp only [hst] at h; cases h; exact this
    | wrapUp w => simp only [hst] at h; cases h; exact this
    | start => simp [hst] at h
    | block q => simp [hst] at h

omit hQ in
theorem subpointKids_has : KidsHave Q subpointKids := by
  intro lines i pi intro cs w h
  exact childrenBy_has (ps := []) (by simp) h

theorem numericPointKids_has : KidsHave Q numericPointKids := by
  intro lines i pi intro cs w h
  refine childrenBy_has ?_ h
  intro p hp lines pi r hr
  rw [List.mem_singleton.1 hp] at hr
  exact extractMultiple_has hQ subpointKids_has hr

theorem alphabeticPointKids_has : KidsHave Q alphabeticPointKids := by
  intro lines i pi intro cs w h
  cases i with
  | none => cases h
  | some i =>
    refine childrenBy_has ?_ h
    intro p hp lines pi r hr
    simp only [List.mem_cons, List.not_mem_nil, or_false] at hp
    rcases hp with rfl | rfl <;> exact extractMultiple_has hQ subpointKids_has hr

theorem paragraphKids_has : KidsHave Q paragraphKids := by
  intro lines i pi intro cs w h
  refine childrenBy_has ?_ h
  intro p hp lines pi r hr
  simp only [List.mem_cons, List.not_mem_nil, or_false] at hp
  rcases hp with rfl | rfl | rfl
  · exact quotedExtract_has hQ hr
  · exact extractMultiple_has hQ (alphabeticPointKids_has hQ) hr
  · exact extractMultiple_has hQ (numericPointKids_has hQ) hr

theorem articleParagraphs_has {lines : List Line} {pi : Bool} {ps : List Node} (h : articleParagraphs lines pi = .ok ps) :
    ∀ c ∈ ps, Q c := by
  cases lines with
  | nil => cases h
  | cons first rest =>
    rw [articleParagraphs] at h
    by_cases hh : paragraphParser.header first.content ≠ some paragraphParser.first
    · rw [if_pos hh] at h
      obtain ⟨p, hp, h⟩ := resBind_ok h
      cases h
      intro c hc
      rw [List.mem_singleton.1 hc]
      exact parseElement_has hQ (paragraphKids_has hQ) hp
    · rw [if_neg hh] at h
      obtain ⟨x, hx, h⟩ := resBind_ok h
      obtain ⟨qs, w⟩ := x
      simp only at h
      by_cases hw : w.isSome = true
      · rw [if_pos hw] at h; cases h
      · rw [if_neg hw] at h; cases h
        exact extractMultiple_has hQ (paragraphKids_has hQ) hx

theorem parseArticle_has {lines : List Line} {pi : Bool} {n : Node} (h : parseArticle lines pi = .ok n) :
    Q n ∧ n.isArticle = true := by
  cases lines with
  | nil => cases h
  | cons first rest =>
    rw [parseArticle] at h
    cases hm : matchArticle first.content with
    | none => simp [hm] at h
    | some i =>
      simp only [hm] at h
      cases hf : strFind (py"§ ") first.content with
      | none => simp [hf] at h
      | some k =>
        simp only [hf] at h
        obtain ⟨first', -, h⟩ := resBind_ok h
        cases hb : articleBody i (first' :: rest) pi with
        | error e => simp [hb] at h
        | ok a =>
          simp only [hb] at h
          cases h
          unfold articleBody at hb
          obtain ⟨x, -, hb⟩ := resBind_ok hb
          obtain ⟨ls, -, hb⟩ := resBind_ok hb
          obtain ⟨ps, hp, hb⟩ := resBind_ok hb
          refine ⟨hQ.article ?_ ?_ hb, by rw [mkArticle_ok hb]; rfl⟩
          · exact fun c hc => articleParagraphs_has hQ hp c (List.mem_filter.1 hc).1
          · exact fun c hc => by simpa using (List.mem_filter.1 hc).2

theorem bodyParser_has {p : BodyParser} {lines : List Line} {pi : Bool} {n : Node} (h : p.parse lines pi = .ok n) :
    Q n ∧ InAct n := by
  cases p with
  | article =>
    obtain ⟨h1, h2⟩ := parseArticle_has hQ h
    refine ⟨h1, ?_⟩
    cases n <;> simp_all [Node.isArticle, InAct, Node.type]
  | struct k =>
    obtain ⟨e, rfl, -⟩ := struct_reads h
    exact ⟨hQ.structural _ (struct_headed h) (struct_special h), .inr ⟨_, rfl⟩⟩

theorem parseElements_has {strict pi : Bool} {lines : List Line} {es : List Node} (h : parseElements strict lines pi = .ok es) :
    ∀ c ∈ es, Q c ∧ InAct c := by
  obtain ⟨-, pre, blocks, -, -, hb, -⟩ := parseElements_spec h
  intro c hc
  obtain ⟨b, -, q, hq⟩ := hb.mem_right hc
  exact bodyParser_has hQ hq

/-- What is parsed has the property. -/
theorem parseAct_has {identifier subject : Str} {date : Date} {lines : List Line} {act : Act}
    (h : parseAct identifier date subject lines = .ok act) : ∀ c ∈ act.children, Q c ∧ InAct c := by
  obtain ⟨pre, blocks, _, _, _, _, h5⟩ := parseAct_spec h
  intro c hc
  obtain ⟨b, -, q, hq⟩ := h5.mem_right hc
  exact bodyParser_has hQ hq

theorem asBlock_has {P : ElementParser} {kids : ChildReader} (hk : KidsHave Q kids) :
    ∀ ls n, (P.asBlock kids).parse ls = .ok n → Q n :=
  fun _ _ h => parseElement_has hQ hk h

theorem blockParser_has {r : Reference} {P : BlockParser} {i : Str} (h : blockParser r = .ok (P, i)) :
    ∀ ls n, P.parse ls = .ok n → Q n := by
  unfold blockParser at h
  obtain ⟨⟨e, t⟩, -, h⟩ := resBind_ok h
  cases e with
  | none => simp at h
  | some e =>
    cases t with
    | none => simp at h
    | some t =>
      cases t with
      | act => cases h
      | article => cases h; exact fun ls n hn => (parseArticle_has hQ hn).1
      | paragraph => cases h; exact asBlock_has hQ (paragraphKids_has hQ)
      | alphabeticPoint => cases h; exact asBlock_has hQ (alphabeticPointKids_has hQ)
      | numericPoint => cases h; exact asBlock_has hQ (numericPointKids_has hQ)
      | alphabeticSubpoint => cases h; exact asBlock_has hQ subpointKids_has
      | numericSubpoint => cases h; exact asBlock_has hQ subpointKids_has

omit hQ in
theorem blockLoop_has {P : BlockParser} (hp : ∀ ls n, P.parse ls = .ok n → Q n) (ys : List (Int × Line)) :
    ∀ (last : Str) (current : List Line) (done : List Node) {r : List Node × List Line}, (∀ c ∈ done, Q c) →
      blockLoop P last current done ys = .ok r → ∀ c ∈ r.1, Q c := by
  induction ys with
  | nil => intro last current done r hd h; cases h; exact hd
  | cons y ys ih =>
    intro last current done r hd h
    obtain ⟨level, line⟩ := y
    rw [blockLoop] at h
    obtain ⟨o, -, h⟩ := resBind_ok h
    cases o with
    | none => exact ih _ _ _ hd h
    | some i =>
      obtain ⟨e, he, h⟩ := resBind_ok h
      refine ih _ _ _ ?_ h
      intro c hc
      rcases List.mem_append.1 hc with hc | hc
      · exact hd c hc
      · rw [List.mem_singleton.1 hc]; exact hp _ _ he

theorem blockChildren_has {position : Position} {lines : List Line} {cs : List Node}
    (h : blockChildren position lines = .ok cs) : ∀ c ∈ cs, Q c := by
  cases position with
  | struct e => exact fun c hc => (parseElements_has hQ h c hc).1
  | ref r =>
    unfold blockChildren at h
    obtain ⟨⟨P, i⟩, hP, h⟩ := resBind_ok h
    have hp := blockParser_has hQ hP
    unfold parseBlocks at h
    obtain ⟨⟨done, current⟩, hl, h⟩ := resBind_ok h
    cases hs : (iterateWithQuoteLevel lines).stop with
    | some e => simp [hs] at h
    | none =>
      simp only [hs] at h
      obtain ⟨e, he, h⟩ := resBind_ok h
      cases h
      intro c hc
      rcases List.mem_append.1 hc with hc | hc
      · exact blockLoop_has hp _ _ _ _ (by simp) hl c hc
      · rw [List.mem_singleton.1 hc]; exact hp _ _ he

theorem parseBlockAmendment_has {position : Position} {intro w : Option Str} {lines : List Line} {n : Node}
    (h : parseBlockAmendment position intro w lines = .ok n) : Q n := by
  unfold parseBlockAmendment at h
  cases hb : (do
    let children ← blockChildren position lines
    mkSae .blockAmendmentContainer { intro := intro, wrapUp := w } (some children) : Res Node) with
  | error e => simp only [hb] at h; cases h
  | ok m =>
    simp only [hb] at h
    cases h
    obtain ⟨cs, hc, hb⟩ := resBind_ok hb
    exact hQ.sae (children := some cs) (fun cs' e => Option.some.inj e ▸ blockChildren_has hQ hc) (fun e => by cases e) hb

end

/-! ## The later steps -/

theorem mapRes_has {α β : Type} {f : α → Res β} {R : β → Prop} : ∀ {as : List α} {bs : List β}, mapRes f as = .ok bs →
    (∀ a ∈ as, ∀ b, f a = .ok b → R b) → ∀ b ∈ bs, R b
  | [], bs, h, _ => by cases h; simp
  | a :: as, bs, h, hf => by
    rw [mapRes] at h
    obtain ⟨b, hb, h⟩ := resBind_ok h
    obtain ⟨bs', hbs, h⟩ := resBind_ok h
    cases h
    intro x hx
    rcases List.mem_cons.1 hx with rfl | hx
    · exact hf a (List.mem_cons_self ..) _ hb
    · exact mapRes_has hbs (fun a ha => hf a (List.mem_cons_of_mem _ ha)) x hx

/-- A block amendment replaces the children of a paragraph or nothing changes. -/
theorem blockParagraph_cases {analyze : Analyzer} {n m : Node} (h : blockParagraph analyze n = .ok m) :
    m = n ∨ ∃ k d lines b position intro w intro' , n = .sae k d [.quoted lines] ∧
      parseBlockAmendment position intro w lines = .ok b ∧
      mkSae k { d with intro := some intro', wrapUp := some [] } (some [b]) = .ok m := by
  cases n with
  | sae k d cs =>
    rw [blockParagraph] at h
    by_cases hc : childrenType k (optChildren cs) ≠ .ok (some .quoted)
    · rw [if_pos hc] at h; cases h; exact .inl rfl
    · rw [if_neg hc] at h
      cases hi : d.intro with
      | none => simp [hi] at h
      | some intro =>
        simp only [hi] at h
        by_cases hl : intro.length > 10000
        · rw [if_pos hl] at h; cases h; exact .inl rfl
        · rw [if_neg hl] at h
          cases ha : analyze (splitContext intro d.wrapUp).1 with
          | error e => simp [ha] at h
          | ok r =>
            simp only [ha] at h
            cases hp : firstBlockAmendment r.semantic with
            | none => simp only [hp] at h; cases h; exact .inl rfl
            | some position =>
              simp only [hp] at h
              split at h
              · rename_i lines
                split at h
                · rename_i b hb
                  exact .inr ⟨k, d, lines, b, position, _, _, _, rfl, hb, h⟩
                · cases h; exact .inl rfl
                · cases h
              · cases h
  | _ => cases h; exact .inl rfl

theorem blockParagraph_built {analyze : Analyzer} {n m : Node} (hn : Built n) (h : blockParagraph analyze n = .ok m) :
    Built m ∧ m.type = n.type ∧ m.identifier = n.identifier := by
  rcases blockParagraph_cases h with rfl | ⟨k, d, lines, b, position, intro, w, intro', rfl, hb, hm⟩
  · exact ⟨hn, rfl, rfl⟩
  · refine ⟨.sae (some [b]) ?_ hm, ?_, ?_⟩
    · rintro cs ⟨⟩ c hc
      rw [List.mem_singleton.1 hc]
      exact parseBlockAmendment_has closed_built hb
    · rw [(mkSae_ok hm).1]; rfl
    · rw [(mkSae_ok hm).1]; rfl

theorem blockParagraph_unanalysed {analyze : Analyzer} {n m : Node} (hn : Unanalysed n)
    (h : blockParagraph analyze n = .ok m) : Unanalysed m := by
  rcases blockParagraph_cases h with rfl | ⟨k, d, lines, b, position, intro, w, intro', rfl, hb, hm⟩
  · exact hn
  · rw [(mkSae_ok hm).1, Unanalysed]
    exact ⟨hn.1, parseBlockAmendment_has closed_unanalysed hb, trivial⟩

theorem blockArticle_has {analyze : Analyzer} {n m : Node} (h : blockArticle analyze n = .ok m) :
    (Built n → Built m) ∧ (Unanalysed n → Unanalysed m) ∧ m.type = n.type := by
  cases n with
  | article i t ps =>
    rw [blockArticle] at h
    obtain ⟨ps', hp, h⟩ := resBind_ok h
    refine ⟨fun hb => ?_, fun hu => ?_, by rw [mkArticle_ok h]; rfl⟩
    · obtain ⟨h1, h2, -⟩ := built_article hb
      have := mapRes_has (R := fun c => Built c ∧ c.type = .sae .paragraph) hp fun c hc c' hc' => by
        obtain ⟨x, y, -⟩ := blockParagraph_built (h1 c hc) hc'
        exact ⟨x, y.trans (h2 c hc)⟩
      exact .article ps' (fun c hc => (this c hc).1) (fun c hc => (this c hc).2) h
    · rw [mkArticle_ok h, Unanalysed, unanalysedL_iff]
      rw [Unanalysed, unanalysedL_iff] at hu
      exact mapRes_has hp fun c hc c' hc' => blockParagraph_unanalysed (hu c hc) hc'
  | _ => cases h; exact ⟨id, id, rfl⟩

/-- Parsing the amendments keeps an act well made. -/
theorem parseBlockAmendments_has {analyze : Analyzer} {a b : Act} (h : parseBlockAmendments analyze a = .ok b) :
    ((∀ c ∈ a.children, Built c) → ∀ c ∈ b.children, Built c) ∧
    ((∀ c ∈ a.children, Unanalysed c) → ∀ c ∈ b.children, Unanalysed c) ∧
    ((∀ c ∈ a.children, InAct c) → ∀ c ∈ b.children, InAct c) := by
  unfold parseBlockAmendments at h
  obtain ⟨cs, hc, h⟩ := resBind_ok h
  cases h
  exact ⟨fun ha => mapRes_has hc fun c hm c' hc' => (blockArticle_has hc').1 (ha c hm),
    fun ha => mapRes_has hc fun c hm c' hc' => (blockArticle_has hc').2.1 (ha c hm),
    fun ha => mapRes_has hc fun c hm c' hc' => by
      have := ha c hm
      unfold InAct at this ⊢
      rw [(blockArticle_has hc').2.2]
      exact this⟩

mutual
theorem semanticsSae_built {analyze : Analyzer} : ∀ {n n' : Node} {pre post : Str} {s s' : SemState},
    semanticsSae analyze n pre post s = .ok (n', s') → Built n → Built n'
  | .sae k d cs, n', pre, post, s, s', h, hb => by
    rw [semanticsSae] at h
    by_cases hskip : (!s.changed && (Node.sae k d cs).isSemanticParsed) = true
    · rw [if_pos hskip] at h
      obtain ⟨t, -, h⟩ := resBind_ok h
      cases h
      exact hb
    · rw [if_neg hskip] at h
      cases hk : k.canBeSemanticParsed with
      | false =>
        simp only [hk, Bool.not_false, if_true] at h
        cases h
        exact hb
      | true =>
        simp only [hk, Bool.not_true, Bool.false_eq_true, if_false] at h
        cases ht : d.text with
        | some t =>
          simp only [ht] at h
          obtain ⟨p, hp, h⟩ := resBind_ok h
          obtain ⟨m, hm, h⟩ := resBind_ok h
          cases h
          obtain ⟨rfl, -⟩ := optChildren_text (d := d.withSemantics p.1) ht hm
          exact .sae none (fun _ e => nomatch e) hm
        | none =>
          simp only [ht] at h
          obtain ⟨p, hp, h⟩ := resBind_ok h
          by_cases hcs : cs.isEmpty = true
          · rw [if_pos hcs] at h; cases h
          · rw [if_neg hcs] at h
            obtain ⟨y, hy, h⟩ := resBind_ok h
            obtain ⟨m, hm, h⟩ := resBind_ok h
            cases h
            refine .sae (some y.1) ?_ hm
            rintro es ⟨⟩
            exact semanticsL_built (show _ = Except.ok (y.1, y.2) from hy) (built_sae hb).1
  | .article .., n', pre, post, s, s', h, hb => by
    rw [semanticsSae] at h
    · cases h; exact hb
    · intros; simp_all
  | .quoted .., n', pre, post, s, s', h, hb => by
    rw [semanticsSae] at h
    · cases h; exact hb
    · intros; simp_all
  | .structural .., n', pre, post, s, s', h, hb => by
    rw [semanticsSae] at h
    · cases h; exact hb
    · intros; simp_all

theorem semanticsL_built {analyze : Analyzer} : ∀ {cs cs' : List Node} {pre post : Str} {s s' : SemState},
    semanticsL analyze cs pre post s = .ok (cs', s') → (∀ c ∈ cs, Built c) → ∀ c ∈ cs', Built c
  | [], cs', pre, post, s, s', h, _ => by rw [semanticsL] at h; cases h; simp
  | c :: cs, cs', pre, post, s, s', h, hb => by
    rw [semanticsL] at h
    obtain ⟨x, hx, h⟩ := resBind_ok h
    obtain ⟨y, hy, h⟩ := resBind_ok h
    cases h
    intro d hd
    rcases List.mem_cons.1 hd with rfl | hd
    · exact semanticsSae_built (show _ = Except.ok (x.1, x.2) from hx) (hb _ (List.mem_cons_self ..))
    · exact semanticsL_built (show _ = Except.ok (y.1, y.2) from hy) (fun c hc => hb c (List.mem_cons_of_mem _ hc)) d hd
end

theorem semanticsArticle_built {analyze : Analyzer} {n n' : Node} {s s' : SemState}
    (h : semanticsArticle analyze n s = .ok (n', s')) (hb : Built n) : Built n' ∧ n'.type = n.type := by
  cases n with
  | article i t ps =>
    have typed := (semanticsArticle_ok h).2.2 (typedArticle_of_built hb)
    unfold semanticsArticle at h
    simp only at h
    by_cases hskip : (!s.changed && (Node.article i t ps).isSemanticParsed) = true
    · rw [if_pos hskip] at h
      obtain ⟨t, -, h⟩ := resBind_ok h
      cases h
      exact ⟨hb, rfl⟩
    · rw [if_neg hskip] at h
      obtain ⟨y, hy, h⟩ := resBind_ok h
      obtain ⟨m, hm, h⟩ := resBind_ok h
      cases h
      obtain rfl := mkArticle_ok hm
      exact ⟨.article y.1 (semanticsL_built (show _ = Except.ok (y.1, y.2) from hy) (built_article hb).1) typed hm, rfl⟩
  | _ => cases h; exact ⟨hb, rfl⟩

theorem semanticsArticles_built {analyze : Analyzer} : ∀ {cs cs' : List Node} {s s' : SemState},
    semanticsArticles analyze cs s = .ok (cs', s') → (∀ c ∈ cs, Built c) →
    (∀ c ∈ cs', Built c) ∧ ((∀ c ∈ cs, InAct c) → ∀ c ∈ cs', InAct c) := by
  intro cs
  induction cs with
  | nil => intro cs' s s' h _; cases h; simp
  | cons c cs ih =>
    intro cs' s s' h hb
    rw [semanticsArticles] at h
    obtain ⟨x, hx, h⟩ := resBind_ok h
    obtain ⟨y, hy, h⟩ := resBind_ok h
    cases h
    obtain ⟨h1, h2⟩ := semanticsArticle_built (show _ = Except.ok (x.1, x.2) from hx) (hb _ (List.mem_cons_self ..))
    obtain ⟨i1, i2⟩ := ih (show _ = Except.ok (y.1, y.2) from hy) fun c hc => hb c (List.mem_cons_of_mem _ hc)
    constructor
    · intro d hd
      rcases List.mem_cons.1 hd with rfl | hd
      · exact h1
      · exact i1 d hd
    · intro hs d hd
      rcases List.mem_cons.1 hd with rfl | hd
      · have := hs _ (List.mem_cons_self ..)
        unfold InAct at this ⊢
        rw [h2]
        exact this
      · exact i2 (fun c hc => hs c (List.mem_cons_of_mem _ hc)) d hd

/-- Analysing keeps an act well made. -/
theorem addSemantics_built {analyze : Analyzer} {a b : Act} (h : addSemantics analyze a = .ok b)
    (hb : ∀ c ∈ a.children, Built c) :
    (∀ c ∈ b.children, Built c) ∧ ((∀ c ∈ a.children, InAct c) → ∀ c ∈ b.children, InAct c) := by
  unfold addSemantics at h
  by_cases hp : a.isSemanticParsed = true
  · rw [if_pos hp] at h
    cases h
    exact ⟨hb, id⟩
  · rw [if_neg hp] at h
    obtain ⟨x, hx, h⟩ := resBind_ok h
    cases h
    exact semanticsArticles_built (show _ = Except.ok (x.1, x.2) from hx) hb

/-! ## Inside -/

theorem unanalysed_inside {k : SaeKind} {d : SaeData} {cs : List Node} {n : Node} (h : Inside (.sae k d cs) n)
    (hu : Unanalysed n) : d.abbreviations = none ∧ d.references = none ∧ d.semantic = none := by
  generalize hm : Node.sae k d cs = m at h
  induction h with
  | self => subst hm; exact hu.1
  | @deeper c n hc _ ih =>
    refine ih ?_
    cases n with
    | sae k d cs => exact (unanalysedL_iff _).1 hu.2 c hc
    | article i t cs => exact (unanalysedL_iff _).1 hu c hc
    | quoted => cases hc
    | structural => cases hc

mutual
theorem elements_inside : ∀ {n : Node} {pre post : Str} {e : Entry}, e ∈ elements pre post n →
    ∃ k cs, Inside (.sae k e.data cs) n
  | .sae k d cs, pre, post, e, h => by
    rw [elements] at h
    by_cases hk : k = .blockAmendmentContainer
    · rw [if_pos hk] at h; cases h
    · rw [if_neg hk] at h
      rcases List.mem_cons.1 h with rfl | h
      · exact ⟨k, cs, .self _⟩
      · obtain ⟨c, hc, k', cs', hi⟩ := elementsL_inside h
        exact ⟨k', cs', .deeper hc hi⟩
  | .article .., _, _, e, h => by cases h
  | .quoted .., _, _, e, h => by cases h
  | .structural .., _, _, e, h => by cases h

theorem elementsL_inside : ∀ {cs : List Node} {pre post : Str} {e : Entry}, e ∈ elementsL pre post cs →
    ∃ c ∈ cs, ∃ k ds, Inside (.sae k e.data ds) c
  | [], _, _, e, h => by cases h
  | c :: cs, pre, post, e, h => by
    rw [elementsL] at h
    rcases List.mem_append.1 h with h | h
    · obtain ⟨k, ds, hi⟩ := elements_inside h
      exact ⟨c, by simp, k, ds, hi⟩
    · obtain ⟨d, hd, k, ds, hi⟩ := elementsL_inside h
      exact ⟨d, by simp [hd], k, ds, hi⟩
end

theorem articleElements_inside {n : Node} {e : Entry} (h : e ∈ articleElements n) : ∃ k cs, Inside (.sae k e.data cs) n := by
  cases n with
  | article i t ps =>
    obtain ⟨c, hc, k, ds, hi⟩ := elementsL_inside h
    exact ⟨k, ds, .deeper hc hi⟩
  | _ => cases h

theorem parseAct_attributes {identifier subject : Str} {date : Date} {lines : List Line} {act : Act}
    (h : parseAct identifier date subject lines = .ok act) :
    act.identifier = identifier ∧ act.publicationDate = date ∧ act.subject = subject := by
  unfold parseAct at h
  split at h
  · cases h
  · cases h
    exact ⟨rfl, rfl, rfl⟩

end Verif
