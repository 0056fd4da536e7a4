import Verif.Proofs.Referable
import Verif.Props.Txt

/-! # Which objects can be shown -/

namespace Verif

open Spec Props

theorem minIndent_iff (lines : List Line) : (∃ x, minIndent lines = .ok x) ↔ ∃ l ∈ lines, l.isEmptyLine = false := by
  unfold minIndent
  constructor
  · rintro ⟨x, h⟩
    split at h
    · cases h
    · rename_i y ys he
      cases hf : lines.filter (! ·.isEmptyLine) with
      | nil => rw [hf] at he; cases he
      | cons l ls =>
        have : l ∈ lines.filter (! ·.isEmptyLine) := by rw [hf]; simp
        obtain ⟨h1, h2⟩ := List.mem_filter.1 this
        exact ⟨l, h1, by simpa using h2⟩
  · rintro ⟨l, hl, he⟩
    split
    · rename_i he'
      rw [List.map_eq_nil_iff, List.filter_eq_nil_iff] at he'
      exact absurd (by simpa using he) (he' l hl)
    · exact ⟨_, rfl⟩

theorem resBind_iff {α β : Type} {x : Res α} {f : α → Res β} :
    (∃ b, (x >>= f) = .ok b) ↔ ∃ a, x = .ok a ∧ ∃ b, f a = .ok b := by
  constructor
  · rintro ⟨b, h⟩
    obtain ⟨a, ha, hb⟩ := resBind_ok h
    exact ⟨a, ha, b, hb⟩
  · rintro ⟨a, rfl, b, hb⟩
    exact ⟨b, hb⟩

/-- What an object needs to be shown. -/
def ShownBelow (n : Node) : Prop := ∀ m, Inside m n → HasContent m ∧ LinksApart m ∧ HeaderWritable m

theorem shownBelow_iff (n : Node) :
    ShownBelow n ↔ (HasContent n ∧ LinksApart n ∧ HeaderWritable n) ∧ ∀ c ∈ n.children, ShownBelow c := by
  constructor
  · exact fun h => ⟨h n (.self n), fun c hc m hm => h m (.deeper hc hm)⟩
  · rintro ⟨h1, h2⟩ m hm
    cases hm with
    | self => exact h1
    | deeper hc hm => exact h2 _ hc m hm

theorem htmlNodes_iff {cs : List Node}
    (ih : ∀ c ∈ cs, ∀ cls p, (∃ es, htmlNode cls p c = .ok es) ↔ ShownBelow c) (cls : Str) (p : Reference) :
    (∃ es, htmlNodes cls p cs = .ok es) ↔ ∀ c ∈ cs, ShownBelow c := by
  induction cs with
  | nil => simp [htmlNodes]
  | cons c cs ihs =>
    have h1 := ih c (by simp) cls p
    have h2 := ihs fun d hd => ih d (by simp [hd])
    rw [htmlNodes, resBind_iff]
    constructor
    · rintro ⟨a, ha, h⟩
      obtain ⟨b, hb, -⟩ := resBind_iff.1 h
      intro d hd
      rcases List.mem_cons.1 hd with rfl | hd
      · exact h1.1 ⟨a, ha⟩
      · exact h2.1 ⟨b, hb⟩ d hd
    · intro h
      obtain ⟨a, ha⟩ := h1.2 (h c (by simp))
      obtain ⟨b, hb⟩ := h2.2 fun d hd => h d (by simp [hd])
      exact ⟨a, ha, by rw [hb]; exact ⟨_, rfl⟩⟩

theorem htmlNode_iff (n : Node) : Built n → ∀ cls p, (∃ es, htmlNode cls p n = .ok es) ↔ ShownBelow n := by
  induction n using Node.ind with
  | quoted lines =>
    intro _ cls p
    rw [shownBelow_iff, htmlNode, htmlQuoted, resBind_iff]
    have := minIndent_iff lines
    simp only [Except.ok.injEq, exists_eq', and_true]
    rw [this]
    simp [HasContent, LinksApart, HeaderWritable, Node.children]
  | structural e =>
    intro _ cls p
    rw [shownBelow_iff, htmlNode, htmlStructural, resBind_iff]
    have : ∀ i, ∃ b, (if e.kind = .subtitle then
        (.ok [.div ((py"se_") ++ e.kind.className) (some (i ++ ' ' :: e.title))] : Res (List Elem))
      else .ok [.div ((py"se_") ++ e.kind.className) (some i) [.mk (py"br") [] none [] (some e.title)]]) = .ok b := by
      intro i
      split <;> exact ⟨_, rfl⟩
    constructor
    · rintro ⟨i, hi, -⟩
      exact ⟨⟨trivial, trivial, i, hi⟩, nofun⟩
    · rintro ⟨⟨-, -, i, hi⟩, -⟩
      exact ⟨i, hi, this i⟩
  | article i t cs ih =>
    intro hb cls p
    have hk := htmlNodes_iff (fun c hc => ih c hc ((built_article hb).1 c hc)) (py"article")
      (Reference.relativeTo { article := some (.one i) } p)
    rw [shownBelow_iff, htmlNode, resBind_iff]
    simp only [Except.ok.injEq, exists_eq', and_true]
    rw [hk]
    simp [HasContent, LinksApart, HeaderWritable, Node.children]
  | sae k d cs ih =>
    intro hb cls p
    obtain ⟨hbc, hw⟩ := built_sae hb
    have hk := fun cls p => htmlNodes_iff (fun c hc => ih c hc (hbc c hc)) cls p
    rw [shownBelow_iff]
    by_cases hba : k = .blockAmendmentContainer
    · subst hba
      rw [htmlNode]
      by_cases hc : cs = []
      · subst hc
        simp [HasContent]
      · rw [if_neg (by simpa using hc), resBind_iff]
        simp only [Except.ok.injEq, exists_eq', and_true]
        rw [hk]
        simp [HasContent, LinksApart, HeaderWritable, Node.children, hc]
    · have hh : ∃ h, k.headerPrefix d.identifier = .ok h := by
        cases k <;> first | exact absurd rfl hba | exact ⟨_, rfl⟩ | (cases d.identifier <;> exact ⟨_, rfl⟩)
      obtain ⟨header, hh⟩ := hh
      rw [htmlNode]
      · simp only [hh]
        rw [resBind_iff]
        simp only [Except.ok.injEq, exists_eq_left']
        cases ht : truthy d.text with
        | some t =>
          obtain ⟨h1, h2⟩ := truthy_some ht
          obtain rfl := (hw.1 (by rw [h1]; simp)).2.2
          simp only
          rw [resBind_iff]
          simp only [Except.ok.injEq, exists_eq', and_true]
          rw [apart_iff]
          simp [HasContent, LinksApart, HeaderWritable, Node.children, h1, h2, hba]
        | none =>
          have ht' := truthy_none ht
          simp only
          rw [resBind_iff]
          cases hi : truthy d.intro with
          | none =>
            have hi' := truthy_none hi
            simp only [Except.ok.injEq, exists_eq_left']
            by_cases hc : cs = []
            · subst hc
              simp [HasContent, ht']
            · rw [if_neg (by simpa using hc), resBind_iff]
              simp only [Except.ok.injEq, exists_eq', and_true]
              rw [hk]
              simp [HasContent, LinksApart, HeaderWritable, Node.children, hc, ht', hi']
          | some s =>
            obtain ⟨h1, h2⟩ := truthy_some hi
            simp only
            by_cases hc : cs = []
            · subst hc
              simp [HasContent, ht']
            · have rest : ∀ a : List Elem, (∃ b, (if cs.isEmpty then (.error .typeError : Res (List Elem)) else do
                  let children ← htmlNodes k.className (((Node.sae k d cs).relativeReference.getD {}).relativeTo p) cs
                  .ok (idDiv (k.className ++ (py"_id")) (((Node.sae k d cs).relativeReference.getD {}).relativeTo p) header :: a ++
                    children ++ (match truthy d.wrapUp with
                      | some t => [Elem.div (k.className ++ (py"_text")) (some t)]
                      | none => []))) = .ok b) ↔ ∀ c ∈ cs, ShownBelow c := by
                intro a
                rw [if_neg (by simpa using hc), resBind_iff]
                simp only [Except.ok.injEq, exists_eq', and_true]
                exact hk _ _
              constructor
              · rintro ⟨a, ha, hrest⟩
                obtain ⟨e, he, -⟩ := resBind_ok ha
                have := (apart_iff _ _ _ _).1 ⟨e, he⟩
                exact ⟨⟨.inl hc, fun _ _ => this, trivial⟩, (rest a).1 hrest⟩
              · rintro ⟨⟨-, h3, -⟩, h4⟩
                obtain ⟨e, he⟩ := (apart_iff (k.className ++ (py"_text")) s
                  (((Node.sae k d cs).relativeReference.getD {}).relativeTo p) _).2 (h3 hba (.inr (by rw [h1]; exact h2)))
                exact ⟨[e], by rw [he]; rfl, (rest [e]).2 h4⟩
      · exact hba

/-! ## Text -/

theorem andThen_none {α : Type} (a b : Gen α) : (a.andThen b).stop = none ↔ a.stop = none ∧ b.stop = none := by
  unfold Gen.andThen
  cases h : a.stop with
  | none => simp
  | some e => simp [h]

theorem using_none {α β : Type} (x : Res β) (f : β → Gen α) : (Gen.using x f).stop = none ↔ ∃ b, x = .ok b ∧ (f b).stop = none := by
  unfold Gen.using
  cases x <;> simp

theorem wrapped_none {wrap : Wrap} (hw : WrapsAll wrap) (s indent : Str) {width : Int} (h : width = 0 ∨ (indent.length : Int) < width)
    (file : Option Dest) : (wrappedPrint wrap s indent width file).stop = none := by
  unfold wrappedPrint
  by_cases h0 : width = 0
  · rw [if_pos h0]; rfl
  · rw [if_neg h0, using_none]
    obtain ⟨ls, hl⟩ := hw s (width - indent.length) (by omega)
    exact ⟨ls, hl, rfl⟩

theorem ifAny_none {wrap : Wrap} (hw : WrapsAll wrap) (s : Option Str) (f : Str → Str) (indent : Str) {width : Int}
    (h : width = 0 ∨ (indent.length : Int) < width) : (printIfAny wrap s f indent width).stop = none := by
  unfold printIfAny
  split
  · exact wrapped_none hw _ _ h _
  · rfl

/-- What an object needs to be printed. -/
def PrintedBelow (n : Node) : Prop := ∀ m, Inside m n → HasContent m ∧ HeaderWritable m

theorem printedBelow_iff (n : Node) :
    PrintedBelow n ↔ (HasContent n ∧ HeaderWritable n) ∧ ∀ c ∈ n.children, PrintedBelow c := by
  constructor
  · exact fun h => ⟨h n (.self n), fun c hc m hm => h m (.deeper hc hm)⟩
  · rintro ⟨h1, h2⟩ m hm
    cases hm with
    | self => exact h1
    | deeper hc hm => exact h2 _ hc m hm

theorem reach_le {cs : List Node} {c : Node} (h : c ∈ cs) : reach c ≤ farthest cs := by
  induction cs with
  | nil => cases h
  | cons d ds ih =>
    rw [farthest]
    rcases List.mem_cons.1 h with rfl | h
    · omega
    · have := ih h; omega

theorem blank_length (s : Str) : (blank s).length = s.length := by simp [blank]

theorem padRight_length (n : Nat) (s : Str) : (padRight n s).length = max n s.length := by
  simp [padRight]; omega

theorem writeNodes_iff {wrap : Wrap} {width : Int} {cs : List Node}
    (ih : ∀ c ∈ cs, ∀ indent : Str, (width = 0 ∨ ((indent.length + reach c : Nat) : Int) < width) →
      ((writeNode wrap width indent c).stop = none ↔ PrintedBelow c)) (keep : Bool) :
    ∀ indent : Str, (width = 0 ∨ ((indent.length + farthest cs : Nat) : Int) < width) →
      ((writeNodes wrap width keep indent cs).stop = none ↔ ∀ c ∈ cs, PrintedBelow c) := by
  induction cs with
  | nil => intro indent _; simp [writeNodes]
  | cons c cs ihs =>
    intro indent h
    rw [farthest] at h
    rw [writeNodes, andThen_none, ih c (by simp) indent (by omega), ihs (fun d hd => ih d (by simp [hd])) _ (by
      split
      · omega
      · rw [blank_length]; omega)]
    simp

theorem writeNode_iff {wrap : Wrap} (hw : WrapsAll wrap) {width : Int} (n : Node) : Built n → ∀ indent : Str,
    (width = 0 ∨ ((indent.length + reach n : Nat) : Int) < width) →
      ((writeNode wrap width indent n).stop = none ↔ PrintedBelow n) := by
  induction n using Node.ind with
  | quoted lines =>
    intro _ indent _
    rw [printedBelow_iff, writeNode, writeQuoted, andThen_none, using_none]
    have := minIndent_iff lines
    simp only [and_true]
    rw [this]
    simp [HasContent, HeaderWritable, Node.children, printTo]
  | structural e =>
    intro _ indent h
    have h' : width = 0 ∨ (indent.length : Int) < width := by omega
    rw [printedBelow_iff, writeNode, writeStructural, using_none]
    have hs : ∀ i, ((if e.kind = .subtitle then
        wrappedPrint wrap (pyStrip ((if i.isEmpty then [] else i ++ (py" ")) ++ e.title)) indent width (some .file)
      else (wrappedPrint wrap i indent width (some .file)).andThen
        (printIfAny wrap (some e.title) id (blank indent) width)).stop = none) := by
      intro i
      split
      · exact wrapped_none hw _ _ h' _
      · rw [andThen_none]
        exact ⟨wrapped_none hw _ _ h' _, ifAny_none hw _ _ _ (by rw [blank_length]; exact h')⟩
    constructor
    · rintro ⟨i, hi, -⟩
      exact ⟨⟨trivial, i, hi⟩, nofun⟩
    · rintro ⟨⟨-, i, hi⟩, -⟩
      exact ⟨i, hi, hs i⟩
  | article i t cs ih =>
    intro hb indent h
    rw [reach] at h
    have hl : (indent ++ padRight 10 (i ++ (py". §"))).length = indent.length + max 10 (i.length + 3) := by
      rw [List.length_append, padRight_length]; simp
    rw [printedBelow_iff, writeNode, andThen_none,
      writeNodes_iff (fun c hc indent hi => ih c hc ((built_article hb).1 c hc) indent hi) false _ (by
        split
        · rw [blank_length, hl]; omega
        · rw [hl]; omega)]
    have := fun f => ifAny_none hw t f (indent ++ padRight 10 (i ++ (py". §"))) (width := width) (by rw [hl]; omega)
    simp [HasContent, HeaderWritable, Node.children, this]
  | sae k d cs ih =>
    intro hb indent h
    obtain ⟨hbc, hwf⟩ := built_sae hb
    rw [reach] at h
    have hk := fun keep indent hi => writeNodes_iff (fun c hc indent hi => ih c hc (hbc c hc) indent hi) keep indent hi
    rw [printedBelow_iff]
    by_cases hba : k = .blockAmendmentContainer
    · subst hba
      rw [if_pos rfl] at h
      rw [writeNode, andThen_none, andThen_none]
      have h' : width = 0 ∨ (indent.length : Int) < width := by omega
      by_cases hc : cs = []
      · subst hc
        simp [HasContent]
      · rw [if_neg (by simpa using hc), andThen_none, andThen_none, hk _ _ (by
          rw [List.length_append, List.length_replicate]; omega)]
        have h1 := fun f => ifAny_none hw d.intro f indent h'
        have h2 := fun f => ifAny_none hw d.wrapUp f indent h'
        simp [HasContent, HeaderWritable, Node.children, hc, h1, h2, printTo]
    · rw [if_neg hba] at h
      rw [writeNode_sae hba, using_none]
      have hh : ∃ inner : Str, (match truthy d.identifier with
          | some i => (k.headerPrefix (some i)).map fun h => indent ++ padRight 5 h
          | none => .ok (indent ++ List.replicate 5 ' ')) = .ok inner ∧
          inner.length ≤ indent.length + max 5 ((d.identifier.getD []).length + 3) := by
        cases hi : truthy d.identifier with
        | none =>
          refine ⟨_, rfl, ?_⟩
          rw [List.length_append, List.length_replicate]; omega
        | some i =>
          obtain ⟨h1, -⟩ := truthy_some hi
          rw [h1]
          cases k <;> first
            | exact absurd rfl hba
            | (refine ⟨_, rfl, ?_⟩
               rw [List.length_append, padRight_length]
               simp
               done)
            | (refine ⟨_, rfl, ?_⟩
               rw [List.length_append, padRight_length]
               simp
               omega)
      obtain ⟨inner, hh, hl⟩ := hh
      have h' : width = 0 ∨ (inner.length : Int) < width := by omega
      have conv : ∀ {x : Res Str} {inner : Str} {P : Str → Prop}, x = .ok inner → ((∃ b, x = .ok b ∧ P b) ↔ P inner) := by
        rintro _ inner P rfl
        simp
      refine (conv hh).trans ?_
      cases ht : truthy d.text with
      | some t =>
        obtain ⟨h1, h2⟩ := truthy_some ht
        obtain rfl := (hwf.1 (by rw [h1]; simp)).2.2
        have := wrapped_none hw t inner h' (some .file)
        simp [HasContent, HeaderWritable, Node.children, h1, h2, hba, this]
      | none =>
        have ht' := truthy_none ht
        simp only
        rw [andThen_none]
        by_cases hc : cs = []
        · subst hc
          simp [HasContent, ht']
        · rw [if_neg (by simpa using hc), andThen_none, hk _ _ (by
            split
            · rw [blank_length]; omega
            · omega)]
          have h1 := ifAny_none hw d.intro id inner h'
          have h2 := ifAny_none hw d.wrapUp id (blank inner) (width := width) (by rw [blank_length]; exact h')
          simp [HasContent, HeaderWritable, Node.children, hc, h1, h2]

theorem writeActChildren_iff {wrap : Wrap} (hw : WrapsAll wrap) {width : Int} : ∀ {cs : List Node}, (∀ c ∈ cs, Built c) →
    ∀ indent : Str, (width = 0 ∨ ((indent.length + farthest cs : Nat) : Int) < width) →
      ((writeActChildren wrap width indent cs).stop = none ↔ ∀ c ∈ cs, PrintedBelow c)
  | [], _, indent, _ => by simp [writeActChildren]
  | c :: cs, hb, indent, h => by
    rw [farthest] at h
    rw [writeActChildren, andThen_none, andThen_none, writeNode_iff hw c (hb c (by simp)) indent (by omega),
      writeActChildren_iff hw (fun d hd => hb d (by simp [hd])) _ (by rw [blank_length]; omega)]
    simp [printTo]

/-! ## What is below the things that are made -/

/-- Analysis leaves such an object as it is. -/
def Untouched (m : Node) : Prop := m.isArticle = false ∧ ∀ k d cs, m = .sae k d cs → k = .blockAmendmentContainer

theorem untouched_strip {m : Node} (h : Untouched m) : strip m = m := by
  cases m with
  | sae k d cs => rw [strip, if_pos (h.2 k d cs rfl)]
  | _ => rfl

theorem inside_trans {k m n : Node} (h : Inside k m) (h' : Inside m n) : Inside k n := by
  induction h' with
  | self => exact h
  | deeper hc _ ih => exact .deeper hc ih

theorem inside_strip {m n : Node} (hm : Untouched m) (h : Inside m n) : Inside m (strip n) := by
  induction h with
  | self => rw [untouched_strip hm]; exact .self _
  | @deeper c n hc hi ih =>
    cases n with
    | sae k d cs =>
      rw [strip]
      split
      · exact .deeper hc hi
      · refine .deeper (c := strip c) ?_ ih
        show strip c ∈ stripL cs
        rw [stripL_map]
        exact List.mem_map.2 ⟨c, hc, rfl⟩
    | _ => exact .deeper hc hi

theorem inside_of_strip {m : Node} (hm : Untouched m) (n : Node) : Inside m (strip n) → Inside m n := by
  induction n using Node.ind with
  | sae k d cs ih =>
    intro h
    rw [strip] at h
    split at h
    · exact h
    · rename_i hk
      generalize hn : Node.sae k _ (stripL cs) = n at h
      cases h with
      | self => exact absurd (hm.2 _ _ _ hn.symm) hk
      | deeper hc hi =>
        subst hn
        have hc' : _ ∈ stripL cs := hc
        rw [stripL_map] at hc'
        obtain ⟨c, hcs, rfl⟩ := List.mem_map.1 hc'
        exact .deeper (n := .sae k d cs) hcs (ih c hcs hi)
  | _ => exact id

/-- What analysis leaves as it is is the same before and after it. -/
theorem addSemantics_untouched {analyze : Analyzer} {a a' : Act} (h : addSemantics analyze a = .ok a') {m : Node} (hm : Untouched m)
    {n' : Node} (hn : n' ∈ a'.children) (hi : Inside m n') : ∃ n ∈ a.children, Inside m n := by
  have hs := congrArg Act.children (addSemantics_ok h).1
  have : stripArticle n' ∈ (stripAct a).children := by
    rw [← hs]
    exact List.mem_map.2 ⟨n', hn, rfl⟩
  obtain ⟨n, hn, he⟩ := List.mem_map.1 this
  refine ⟨n, hn, ?_⟩
  cases n' with
  | article i t ps' =>
    cases n with
    | article j u ps =>
      obtain ⟨rfl, rfl, e⟩ := Node.article.inj he
      cases hi with
      | self => cases hm.1
      | deeper hc hi =>
        obtain ⟨b, hb, hbc⟩ := mem_of_stripL e hc
        refine .deeper (n := .article j u ps) hb (inside_of_strip hm b ?_)
        rw [hbc]
        exact inside_strip hm hi
    | _ => cases he
  | _ =>
    cases n with
    | article => cases he
    | _ => cases he <;> exact hi

/-- The numbers below an object can be written. -/
def HeadedBelow (n : Node) : Prop := ∀ m, Inside m n → HeaderWritable m

theorem headedBelow_of {n : Node} (h : HeaderWritable n) (hc : ∀ c ∈ n.children, HeadedBelow c) : HeadedBelow n := by
  intro m hm
  cases hm with
  | self => exact h
  | deeper hd hm => exact hc _ hd m hm

theorem closed_headed : Closed HeadedBelow where
  sae := by
    intro k i t intro w children n h _ hm
    obtain ⟨rfl, -⟩ := mkSae_ok hm
    refine headedBelow_of trivial ?_
    cases children with
    | none => exact nofun
    | some cs => exact h cs rfl
  article := by
    intro i t cs n h _ hm
    obtain rfl := mkArticle_ok hm
    exact headedBelow_of trivial h
  quoted _ := headedBelow_of trivial nofun
  structural _ h _ := headedBelow_of h nofun

theorem blockArticle_headed {analyze : Analyzer} {n m : Node} (hn : HeadedBelow n) (h : blockArticle analyze n = .ok m) :
    HeadedBelow m := by
  cases n with
  | article i t ps =>
    rw [blockArticle] at h
    obtain ⟨ps', hp, h⟩ := resBind_ok h
    rw [mkArticle_ok h]
    refine headedBelow_of trivial (mapRes_has hp fun p hp p' hp' => ?_)
    have hpn : HeadedBelow p := fun x hx => hn x (.deeper (n := .article i t ps) hp hx)
    rcases blockParagraph_cases hp' with rfl | ⟨k, d, lines, b, position, intro, w, intro', rfl, hb, hm⟩
    · exact hpn
    · rw [(mkSae_ok hm).1]
      refine headedBelow_of trivial ?_
      intro c hc
      obtain rfl := List.mem_singleton.1 hc
      exact parseBlockAmendment_has closed_headed hb
  | _ => cases h; exact hn

theorem parseBlockAmendments_headed {analyze : Analyzer} {a b : Act} (h : parseBlockAmendments analyze a = .ok b)
    (hf : ∀ c ∈ a.children, HeadedBelow c) : ∀ c ∈ b.children, HeadedBelow c := by
  unfold parseBlockAmendments at h
  obtain ⟨cs, hc, h⟩ := resBind_ok h
  cases h
  exact mapRes_has hc fun c hm c' hc' => blockArticle_headed (hf c hm) hc'

theorem addSemantics_headed {analyze : Analyzer} {a a' : Act} (h : addSemantics analyze a = .ok a')
    (hf : ∀ c ∈ a.children, HeadedBelow c) : ∀ c ∈ a'.children, HeadedBelow c := by
  intro c hc m hm
  cases m with
  | structural e =>
    obtain ⟨n, hn, hi⟩ := addSemantics_untouched h ⟨rfl, by intros; contradiction⟩ hc hm
    exact hf n hn _ hi
  | _ => trivial

/-! ## References -/

theorem apart_perm {xs ys : List OutgoingReference}
    (h : (xs.map fun x => (x.startPos, x.endPos)).Perm (ys.map fun x => (x.startPos, x.endPos))) (hy : Spec.Apart ys) : Spec.Apart xs := by
  obtain ⟨h1, h2⟩ := hy
  have key : ∀ zs : List OutgoingReference, Spec.Apart zs ↔ (∀ z ∈ zs.map fun x => (x.startPos, x.endPos), 0 ≤ z.1 ∧ z.1 < z.2) ∧
      (zs.map fun x => (x.startPos, x.endPos)).Pairwise fun o p => o.2 ≤ p.1 ∨ p.2 ≤ o.1 := by
    intro zs
    unfold Spec.Apart
    rw [List.pairwise_map]
    simp
  obtain ⟨k1, k2⟩ := (key ys).1 ⟨h1, h2⟩
  exact (key xs).2 ⟨fun z hz => k1 z (h.mem_iff.1 hz), (h.pairwise_iff (fun h => h.symm)).2 k2⟩

/-- References that are cut at the beginning of a text are apart if they were. -/
theorem apart_cut {xs ys : List OutgoingReference} {n : Nat} {p : OutgoingReference → Bool} (hp : ∀ x, p x = true → (n : Int) < x.endPos)
    (h : (xs.map fun x => (x.startPos, x.endPos)).Perm
      ((ys.filter p).map fun x => (max (x.startPos - n) 0, x.endPos - n))) (hy : Spec.Apart ys) : Spec.Apart xs := by
  refine apart_perm (ys := (ys.filter p).map fun x => { x with startPos := max (x.startPos - n) 0, endPos := x.endPos - n }) ?_ ?_
  · rw [List.map_map]; exact h
  · obtain ⟨h1, h2⟩ := hy
    constructor
    · intro o ho
      obtain ⟨x, hx, rfl⟩ := List.mem_map.1 ho
      obtain ⟨hx, hpx⟩ := List.mem_filter.1 hx
      have := h1 x hx
      have := hp x hpx
      dsimp only
      omega
    · rw [List.pairwise_map]
      refine (h2.filter p).imp_of_mem ?_
      intro x y hx hy hxy
      have := hp x (List.mem_filter.1 hx).2
      have := hp y (List.mem_filter.1 hy).2
      dsimp only
      omega

theorem mem_elementsL {pre post : Str} {cs : List Node} {c : Node} (hc : c ∈ cs) {x : Entry} (hx : x ∈ elements pre post c) :
    x ∈ elementsL pre post cs := by
  induction cs with
  | nil => cases hc
  | cons d ds ih =>
    rw [elementsL]
    rcases List.mem_cons.1 hc with rfl | hc
    · exact List.mem_append_left _ hx
    · exact List.mem_append_right _ (ih hc)

/-- An element is analysed, or it is in an amendment. -/
theorem inside_cases {k : SaeKind} {d : SaeData} {cs : List Node} (n : Node) : ∀ pre post : Str,
    Built n → n.isArticle = false → Inside (.sae k d cs) n → (∃ e ∈ elements pre post n, e.data = d) ∨
      ∃ d' cs', Inside (.sae .blockAmendmentContainer d' cs') n ∧ Inside (.sae k d cs) (.sae .blockAmendmentContainer d' cs') := by
  induction n using Node.ind with
  | sae l e es ih =>
    intro pre post hb _ h
    by_cases hl : l = .blockAmendmentContainer
    · subst hl
      exact .inr ⟨e, es, .self _, h⟩
    · rw [elements, if_neg hl]
      generalize hn : Node.sae l e es = n at h
      cases h with
      | self => cases hn; exact .inl ⟨_, List.mem_cons_self .., rfl⟩
      | deeper hc hi =>
        subst hn
        rename_i c
        have hc' : c ∈ es := hc
        have hna : c.isArticle = false := by
          have := (built_sae hb).2.2.1 c hc'
          cases c with
          | article => cases this; exact absurd rfl hl
          | _ => rfl
        rcases ih c hc' (withIntro pre e.intro) (withWrapUp post e.wrapUp) ((built_sae hb).1 c hc') hna hi with ⟨x, hx, he⟩ | ⟨d', cs', h1, h2⟩
        · exact .inl ⟨x, List.mem_cons_of_mem _ (mem_elementsL hc' hx), he⟩
        · exact .inr ⟨d', cs', .deeper hc h1, h2⟩
  | article i t es ih => intro pre post _ ha; cases ha
  | quoted ls =>
    intro pre post _ _ h
    cases h with
    | deeper hc => cases hc
  | structural s =>
    intro pre post _ _ h
    cases h with
    | deeper hc => cases hc

end Verif
