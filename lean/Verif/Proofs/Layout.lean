import Verif.Spec.Layout
import Verif.Proofs.Printout
import Verif.Proofs.Showable
import Verif.Proofs.Cli

/-! # Lemmas about the layout of texts -/

namespace Verif
open Spec

/-! ## Cells -/

theorem blank_blank (s : Str) : blank (blank s) = blank s := by simp [blank]

theorem blank_append (s t : Str) : blank (s ++ t) = blank s ++ blank t := by simp [blank]

theorem beside_blank {c : Str} (h : blank c = c) (ls : List Str) : beside c ls = ls.map (c ++ ·) := by
  cases ls with
  | nil => rfl
  | cons l ls => rw [beside, List.map_cons, show List.replicate c.length ' ' = c from h]

theorem beside_beside (a b : Str) (ls : List Str) : beside a (beside b ls) = beside (a ++ b) ls := by
  cases ls with
  | nil => rfl
  | cons l ls =>
    have : List.replicate (a ++ b).length ' ' = List.replicate a.length ' ' ++ List.replicate b.length ' ' := by simp
    simp only [beside, List.map_map, List.append_assoc, this]
    rfl

theorem beside_append {c : Str} {as : List Str} (h : as ≠ []) (bs : List Str) : beside c (as ++ bs) = beside c as ++ beside (blank c) bs := by
  rw [beside_blank (blank_blank c)]
  cases as with
  | nil => exact absurd rfl h
  | cons a as => simp [beside, blank]

theorem beside_append_blank {c : Str} (h : blank c = c) (as bs : List Str) : beside c (as ++ bs) = beside c as ++ beside c bs := by
  simp only [beside_blank h, List.map_append]

/-- The lines as they are printed. -/
def onFile (ls : List Str) : List Printed := ls.map fun l => ⟨.file, l⟩

theorem onFile_append (as bs : List Str) : onFile (as ++ bs) = onFile as ++ onFile bs := List.map_append

theorem printLines_beside : ∀ (ls : List Str) (c : Str), printLines .file c ls = onFile (beside c ls)
  | [], _ => rfl
  | l :: ls, c => by
    rw [printLines, printLines_beside ls, beside_blank (blank_blank c)]
    rfl

/-! ## Texts -/

theorem wrapped_lines {wrap : Wrap} {s indent : Str} {width : Int} (hw : width ≠ 0)
    (h : (wrappedPrint wrap s indent width (some .file)).stop = none) :
    ∃ ls, wrap s (width - indent.length) = .ok ls ∧ (wrappedPrint wrap s indent width (some .file)).yields = onFile (beside indent ls) := by
  unfold wrappedPrint at h ⊢
  rw [if_neg hw] at h ⊢
  obtain ⟨ls, hl, h, e⟩ := using_ended h
  rw [e]
  exact ⟨ls, hl, printLines_beside ls indent⟩

theorem ifAny_lines {wrap : Wrap} {s : Option Str} {f : Str → Str} {indent : Str} {width : Int} (hw : width ≠ 0)
    (hf : ∀ t, f t = [] → t = []) (h : (printIfAny wrap s f indent width).stop = none) :
    ∃ ls, Broken wrap (width - indent.length) ((truthy s).map f) ls ∧ (printIfAny wrap s f indent width).yields = onFile (beside indent ls) := by
  unfold printIfAny at h ⊢
  cases ht : truthy s with
  | none => exact ⟨[], .none, rfl⟩
  | some t =>
    rw [ht] at h
    obtain ⟨ls, h1, h2⟩ := wrapped_lines hw h
    exact ⟨ls, .text (fun e => (truthy_some ht).2 (hf t e)) h1, h2⟩

theorem broken_truthy {wrap : Wrap} {w : Int} {s : Option Str} {ls : List Str} (h : Broken wrap w ((truthy s).map id) ls) : Broken wrap w s ls := by
  match s, h with
  | none, h => exact h
  | some [], h => cases h; exact .empty
  | some (c :: t), h => exact h

theorem enclosed_truthy (o c : Str) (s : Option Str) : (truthy s).map (fun t => o ++ t ++ c) = enclosed o c s := by
  match s with
  | none | some [] | some (_ :: _) => rfl

theorem wraps_some {wrap : Wrap} (hw : KeepsText wrap) {s : Str} {w : Int} {ls : List Str} (h : wrap s w = .ok ls) (hs : noSpaces s ≠ []) :
    ls ≠ [] := by
  rintro rfl
  exact hs (by rw [← hw _ _ _ h]; rfl)

/-! ## Objects -/

theorem structural_lines {wrap : Wrap} {e : StructuralElement} {indent : Str} {width : Int} (hw : width ≠ 0) (hi : blank indent = indent)
    (h : (writeStructural wrap e indent width).stop = none) :
    ∃ ls, Box wrap (width - indent.length) (.structural e) ls ∧ (writeStructural wrap e indent width).yields = onFile (beside indent ls) := by
  unfold writeStructural at h ⊢
  obtain ⟨i, he, h, eq⟩ := using_ended h
  rw [eq]
  by_cases hk : e.kind = .subtitle
  · rw [if_pos hk] at h ⊢
    obtain ⟨ls, h1, h2⟩ := wrapped_lines hw h
    cases i with
    | nil => exact ⟨ls, .unnumbered hk he h1, h2⟩
    | cons c i => exact ⟨ls, .numbered hk he (by simp) h1, h2⟩
  · rw [if_neg hk] at h ⊢
    obtain ⟨h1, h2, e1⟩ := andThen_ended h
    obtain ⟨is, g1, g2⟩ := wrapped_lines hw h1
    obtain ⟨ts, g3, g4⟩ := ifAny_lines (f := id) hw (fun t ht => ht) h2
    rw [blank_length] at g3
    refine ⟨is ++ ts, .header hk he g1 (broken_truthy g3), ?_⟩
    rw [e1, g2, g4, hi, beside_append_blank hi, onFile_append]

theorem quoted_lines {wrap : Wrap} {lines : List Line} {indent : Str} {width : Int} (h : (writeQuoted lines indent).stop = none) :
    ∃ ls, Box wrap width (.quoted lines) ls ∧ (writeQuoted lines indent).yields = onFile (beside indent ls) ∧ ls ≠ [] := by
  unfold writeQuoted at h ⊢
  obtain ⟨h1, h2, e1⟩ := andThen_ended h
  obtain ⟨b, hb, h3, e2⟩ := using_ended h2
  rcases minIndent_spec lines with ⟨base, hb', hmin, hex⟩ | ⟨hb', -⟩
  · obtain rfl := Except.ok.inj (hb.symm.trans hb')
    refine ⟨_, .quoted (ls := lines.map fun l => List.replicate (5 + (pyTrunc ((l.indent - b) * (1 / 5))).toNat) ' ' ++ l.content) hmin hex ?_, ?_, by simp⟩
    · refine both_map _ (fun l => ⟨_, rfl, fun h => ?_, fun h => ?_⟩) _
      · have h0 : 0 ≤ (l.indent - b) * (1 / 5) := by grind
        obtain ⟨h1, h2⟩ := pyTrunc_nonneg h0
        constructor <;> grind
      · exact pyTrunc_nonpos (by grind)
    · rw [e1, e2, List.append_assoc, beside_append (by simp), beside_blank (blank_blank _)]
      simp only [printTo, printQuoted, onFile, beside, List.map_append, List.map_map, List.map_cons, List.map_nil]
      congr 2
      apply List.map_congr_left
      intro l _
      simp only [Function.comp]
      rw [← List.replicate_append_replicate]
      simp only [List.append_assoc]
  · rw [hb] at hb'
    cases hb'

theorem numberCell_of {k : SaeKind} {identifier : Option Str} {indent indent' : Str} (hk : k ≠ .blockAmendmentContainer)
    (hn : identifier ≠ some []) (h : (match truthy identifier with
      | some i => (k.headerPrefix (some i)).map fun h => indent ++ padRight 5 h
      | none => .ok (indent ++ List.replicate 5 ' ')) = Except.ok indent') : indent' = indent ++ numberCell k identifier := by
  rw [truthy_named hn] at h
  cases identifier with
  | none => cases h; rfl
  | some i =>
    cases k <;> first
      | exact absurd rfl hk
      | (cases h
         simp [numberCell, heading, cell, padRight])

/-- What is printed of an object is its box, beside the indent. -/
theorem writeNode_lines {wrap : Wrap} (hw : KeepsText wrap) {width : Int} (h0 : width ≠ 0) (n : Node) : ∀ {indent : Str}, Built n → Filled n →
    Named n → Introduced n → (blank indent = indent ∨ (∀ k, n.type ≠ .structural k) ∧ n.type ≠ .sae .blockAmendmentContainer) →
    (writeNode wrap width indent n).stop = none →
    ∃ ls, Box wrap (width - indent.length) n ls ∧ (writeNode wrap width indent n).yields = onFile (beside indent ls) ∧
      ((∀ k, n.type ≠ .structural k) → ls ≠ []) := by
  have list : ∀ cs : List Node, (∀ c ∈ cs, ∀ {indent : Str}, Built c → Filled c → Named c → Introduced c →
      (blank indent = indent ∨ (∀ k, c.type ≠ .structural k) ∧ c.type ≠ .sae .blockAmendmentContainer) →
      (writeNode wrap width indent c).stop = none →
      ∃ ls, Box wrap (width - indent.length) c ls ∧ (writeNode wrap width indent c).yields = onFile (beside indent ls) ∧
        ((∀ k, c.type ≠ .structural k) → ls ≠ [])) →
      ∀ {keep : Bool} {indent : Str}, (∀ c ∈ cs, Built c) → FilledAll cs → (∀ c ∈ cs, Named c) → (∀ c ∈ cs, Introduced c) →
      (blank indent = indent ∨ keep = false ∧
        ∀ c ∈ cs, (∀ k, c.type ≠ .structural k) ∧ c.type ≠ .sae .blockAmendmentContainer) →
      (writeNodes wrap width keep indent cs).stop = none →
      ∃ ls, Boxes wrap (width - indent.length) cs ls ∧ (writeNodes wrap width keep indent cs).yields = onFile (beside indent ls) ∧
        (cs ≠ [] → (∀ c ∈ cs, ∀ k, c.type ≠ .structural k) → ls ≠ []) := by
    intro cs
    induction cs with
    | nil =>
      intro _ keep indent _ _ _ _ _ h
      exact ⟨[], .nil _, rfl, fun h => absurd rfl h⟩
    | cons c cs ih =>
      intro hc keep indent hb hf hn hin hi h
      rw [writeNodes] at h ⊢
      obtain ⟨h1, h2, e⟩ := andThen_ended h
      obtain ⟨l1, b1, y1, n1⟩ := hc c (by simp) (hb c (by simp)) hf.1 (hn c (by simp)) (hin c (by simp))
        (hi.imp_right fun h => h.2 c (by simp)) h1
      have hind : (if keep = true then indent else blank indent) = blank indent := by
        rcases hi with hi | ⟨hi, -⟩
        · rw [hi, ite_self]
        · rw [if_neg (by rw [hi]; decide)]
      rw [hind] at h2
      obtain ⟨l2, b2, y2, -⟩ := ih (fun c h => hc c (by simp [h])) (fun c h => hb c (by simp [h])) hf.2 (fun c h => hn c (by simp [h]))
        (fun c h => hin c (by simp [h])) (.inl (blank_blank indent)) h2
      rw [blank_length] at b2
      refine ⟨l1 ++ l2, .cons b1 b2, ?_, fun _ hs h => n1 (hs c (by simp)) (List.append_eq_nil_iff.1 h).1⟩
      rw [e, hind, y1, y2, ← onFile_append]
      rcases hi with hi | ⟨-, hi⟩
      · rw [hi, beside_append_blank hi]
      · rw [beside_append (n1 (hi c (by simp)).1)]
  induction n using Node.ind with
  | structural e =>
    intro indent _ _ _ _ hi h
    have hi := hi.resolve_right fun h => h.1 e.kind rfl
    rw [writeNode] at h ⊢
    obtain ⟨ls, h1, h2⟩ := structural_lines h0 hi h
    exact ⟨ls, h1, h2, fun h => absurd rfl (h e.kind)⟩
  | quoted l =>
    intro indent _ _ _ _ _ h
    rw [writeNode] at h ⊢
    obtain ⟨ls, h1, h2, h3⟩ := quoted_lines (wrap := wrap) (width := width - indent.length) h
    exact ⟨ls, h1, h2, fun _ => h3⟩
  | article i t cs ih =>
    intro indent hb hf hn hin _ h
    rw [writeNode] at h ⊢
    obtain ⟨h1, h2, e⟩ := andThen_ended h
    have hp : ∀ c ∈ cs, (∀ k, c.type ≠ .structural k) ∧ c.type ≠ .sae .blockAmendmentContainer := fun c hc => by
      rw [(built_article hb).2.1 c hc]
      exact ⟨by simp, by simp⟩
    obtain ⟨bs, b1, b2, b3⟩ := list cs ih (built_article hb).1 hf.2.2 (fun c hc => Named.child hn hc)
      (fun c hc => Introduced.child hin hc) (.inr ⟨rfl, hp⟩) h2
    obtain ⟨ts, t1, t2⟩ := ifAny_lines h0 (fun t ht => by simp at ht) h1
    rw [enclosed_truthy] at t1
    have hbs := b3 hf.2.1 fun c hc => (hp c hc).1
    have hcell : padRight 10 (i ++ py". §") = cell 10 (i ++ py". §") := rfl
    have hlen : ((if (truthy t).isSome then blank (indent ++ padRight 10 (i ++ py". §")) else indent ++ padRight 10 (i ++ py". §")).length : Int) =
        indent.length + (cell 10 (i ++ py". §")).length := by
      split <;> simp [blank_length, hcell]
    have hlen' : (((indent ++ padRight 10 (i ++ py". §")).length : Nat) : Int) = indent.length + (cell 10 (i ++ py". §")).length := by simp [hcell]
    rw [hlen, ← Int.sub_sub] at b1
    rw [hlen', ← Int.sub_sub] at t1
    refine ⟨_, .article t1 b1, ?_, fun _ h => ?_⟩
    · rw [e, t2, b2, ← onFile_append, beside_beside, hcell]
      congr 1
      cases ht : truthy t with
      | none =>
        have : ts = [] := by
          rw [← enclosed_truthy, ht] at t1
          cases t1
          rfl
        rw [this]
        rfl
      | some s =>
        have : ts ≠ [] := by
          rw [← enclosed_truthy, ht] at t1
          cases t1 with
          | text full wraps => exact wraps_some hw wraps (by rw [noSpaces_append]; simp [show noSpaces (py"]") ≠ [] by decide])
        rw [beside_append this]
        rfl
    · cases hx : ts ++ bs with
      | nil => exact hbs (List.append_eq_nil_iff.1 hx).2
      | cons x xs => rw [hx] at h; cases h
  | sae k d cs ih =>
    intro indent hb hf hn hin hi h
    obtain ⟨hbc, hwf⟩ := built_sae hb
    have hnc : ∀ c ∈ cs, Named c := fun c hc => Named.child hn hc
    have hic : ∀ c ∈ cs, Introduced c := fun c hc => Introduced.child hin hc
    by_cases hk : k = .blockAmendmentContainer
    · subst hk
      have hi := hi.resolve_right fun h => h.2 rfl
      rw [writeNode] at h ⊢
      obtain ⟨h1, h2, e1⟩ := andThen_ended h
      obtain ⟨h3, h4, e2⟩ := andThen_ended h2
      by_cases hcs : cs.isEmpty = true
      · rw [if_pos hcs] at h4
        cases h4
      rw [if_neg hcs] at h4 e1 e2
      rw [if_neg hcs]
      obtain ⟨h5, h6, e3⟩ := andThen_ended h4
      obtain ⟨h7, h8, e4⟩ := andThen_ended h6
      have hb5 : blank (indent ++ List.replicate 5 ' ') = indent ++ List.replicate 5 ' ' := by
        rw [blank_append, hi]; rfl
      obtain ⟨bs, b1, b2, -⟩ := list cs ih hbc hf.2.2 hnc hic (.inl hb5) h5
      have hlen' : (((indent ++ List.replicate 5 ' ').length : Nat) : Int) = indent.length + 5 := by simp
      rw [hlen', ← Int.sub_sub] at b1
      obtain ⟨is, i1, i2⟩ := ifAny_lines h0 (fun t ht => by simp at ht) h1
      obtain ⟨us, u1, u2⟩ := ifAny_lines h0 (fun t ht => by simp at ht) h8
      rw [enclosed_truthy] at i1 u1
      refine ⟨_, .amendment (by simpa using hcs) i1 b1 u1, ?_, fun _ h => by simp at h⟩
      rw [e1, e2, e3, e4, i2, u2, b2]
      simp only [beside_append_blank hi, beside_beside, onFile_append, List.append_assoc]
      rfl
    · rw [writeNode_sae hk] at h ⊢
      obtain ⟨indent', hi', h, e⟩ := using_ended h
      rw [e]
      have hid := numberCell_of hk (hn _ _ _ (.self _)) hi'
      subst hid
      have hlen' : (((indent ++ numberCell k d.identifier).length : Nat) : Int) = indent.length + (numberCell k d.identifier).length := by simp
      cases ht : truthy d.text with
      | some t =>
        rw [ht] at h
        simp only at h ⊢
        obtain ⟨ls, h1, h2⟩ := wrapped_lines h0 h
        rw [hlen', ← Int.sub_sub] at h1
        refine ⟨_, .text hk (truthy_some ht).1 (truthy_some ht).2 h1, by rw [h2, beside_beside], fun _ he => ?_⟩
        have := wraps_some hw h1 (notBlank_truthy hf.1 ht)
        cases ls with
        | nil => exact this rfl
        | cons l ls => cases he
      | none =>
        rw [ht] at h
        simp only at h ⊢
        obtain ⟨h1, h2, e1⟩ := andThen_ended h
        by_cases hcs : cs.isEmpty = true
        · rw [if_pos hcs] at h2
          cases h2
        rw [if_neg hcs] at h2 e1 ⊢
        obtain ⟨h3, h4, e2⟩ := andThen_ended h2
        have hcs' : cs ≠ [] := by simpa using hcs
        have nostruct : ∀ c ∈ cs, ∀ k, c.type ≠ .structural k := fun c hc s hs => by
          have := hwf.2.1 c hc
          rw [hs] at this
          cases this
          exact hk rfl
        obtain ⟨bs, b1, b2, b3⟩ := list cs ih hbc hf.2.2 hnc hic (by
          by_cases hint : (truthy d.intro).isSome = true
          · rw [if_pos hint]
            exact .inl (blank_blank _)
          · refine .inr ⟨rfl, fun c hc => ⟨nostruct c hc, fun hs => ?_⟩⟩
            refine hin k d cs (.self _) c hc hs ?_
            rw [truthy_notBlank hf.2.1] at hint
            simpa using hint) h3
        have hbs := b3 hcs' nostruct
        obtain ⟨is, i1, i2⟩ := ifAny_lines (f := id) h0 (fun t ht => ht) h1
        obtain ⟨us, u1, u2⟩ := ifAny_lines (f := id) h0 (fun t ht => ht) h4
        have hlen : ((if (truthy d.intro).isSome then blank (indent ++ numberCell k d.identifier) else indent ++ numberCell k d.identifier).length : Int) =
            indent.length + (numberCell k d.identifier).length := by
          split <;> simp [blank_length]
        rw [hlen, ← Int.sub_sub] at b1
        rw [hlen', ← Int.sub_sub] at i1
        rw [blank_length, hlen', ← Int.sub_sub] at u1
        have htext : d.text = none ∨ d.text = some [] := by
          cases hd : d.text with
          | none => exact .inl rfl
          | some t => cases t with
            | nil => exact .inr rfl
            | cons c t => rw [hd] at ht; cases ht
        refine ⟨_, .list hk htext hcs' (broken_truthy i1) b1 (broken_truthy u1), ?_, fun _ he => ?_⟩
        · rw [e1, e2, i2, b2, u2, ← onFile_append, ← onFile_append, beside_beside]
          congr 1
          cases hint : truthy d.intro with
          | none =>
            have : is = [] := by
              rw [hint] at i1
              cases i1
              rfl
            rw [this, List.nil_append, beside_append hbs]
            rfl
          | some s =>
            have : is ≠ [] := by
              rw [hint] at i1
              cases i1 with
              | empty => exact absurd rfl (truthy_some hint).2
              | text full wraps => exact wraps_some hw wraps (notBlank_truthy hf.2.1 hint)
            rw [List.append_assoc, beside_append this, beside_append_blank (blank_blank _)]
            rfl
        · cases hx : is ++ bs ++ us with
          | nil => exact hbs (List.append_eq_nil_iff.1 (List.append_eq_nil_iff.1 hx).1).2
          | cons x xs => rw [hx] at he; cases he

theorem actChildren_lines {wrap : Wrap} (hw : KeepsText wrap) {width : Int} (h0 : width ≠ 0) : ∀ (cs : List Node),
    (∀ c ∈ cs, Built c) → FilledAll cs → (∀ c ∈ cs, Named c) → (∀ c ∈ cs, Introduced c) →
    (writeActChildren wrap width [] cs).stop = none →
    ∃ bs, Both (Box wrap width) cs bs ∧ (writeActChildren wrap width [] cs).yields = onFile (bs.flatMap (· ++ [[]]))
  | [], _, _, _, _, _ => ⟨[], .nil, rfl⟩
  | c :: cs, hb, hf, hn, hin, h => by
    rw [writeActChildren] at h ⊢
    obtain ⟨h1, h2, e1⟩ := andThen_ended h
    obtain ⟨h3, h4, e2⟩ := andThen_ended h2
    obtain ⟨b, b1, b2, -⟩ := writeNode_lines hw h0 c (indent := []) (hb c (by simp)) hf.1 (hn c (by simp)) (hin c (by simp)) (.inl rfl) h1
    obtain ⟨bs, c1, c2⟩ := actChildren_lines hw h0 cs (fun c h => hb c (by simp [h])) hf.2 (fun c h => hn c (by simp [h]))
        (fun c h => hin c (by simp [h])) h4
    refine ⟨b :: bs, .cons (by simpa using b1) c1, ?_⟩
    have e3 : beside [] b = b := by
      rw [beside_blank rfl]
      simp
    rw [e3] at b2
    rw [e1, e2, b2]
    rw [show (blank ([] : Str)) = [] from rfl, c2]
    simp [onFile, printTo]

theorem act_lines {wrap : Wrap} (hw : KeepsText wrap) {width : Int} (h0 : width ≠ 0) {a : Act}
    (hb : ∀ c ∈ a.children, Built c) (hf : FilledAll a.children) (hn : ∀ c ∈ a.children, Named c)
    (hin : ∀ c ∈ a.children, Introduced c) (h : (writeAct wrap a [] width).stop = none) :
    ∃ ps bs, wrap a.preamble width = .ok ps ∧ Both (Box wrap width) a.children bs ∧
      (writeAct wrap a [] width).yields = onFile (titleLine a.identifier a.subject :: ps ++ bs.flatMap (· ++ [[]])) := by
  unfold writeAct at h ⊢
  obtain ⟨h1, h2, e1⟩ := andThen_ended h
  obtain ⟨h3, h4, e2⟩ := andThen_ended h2
  obtain ⟨ps, p1, p2⟩ := wrapped_lines h0 h3
  obtain ⟨bs, b1, b2⟩ := actChildren_lines hw h0 a.children hb hf hn hin h4
  refine ⟨ps, bs, by simpa using p1, b1, ?_⟩
  have e3 : beside [] ps = ps := by
    rw [beside_blank rfl]
    simp
  rw [e3] at p2
  rw [e1, e2, p2, b2]
  simp [onFile, printTo]

/-! ## Widths -/

theorem beside_fits {c : Str} {ls : List Str} {w : Int} (h : ∀ l ∈ ls, (l.length : Int) ≤ w - c.length) : ∀ l ∈ beside c ls, (l.length : Int) ≤ w := by
  intro l hl
  cases ls with
  | nil => cases hl
  | cons x xs =>
    rcases List.mem_cons.1 hl with rfl | hl
    · have := h x (by simp)
      rw [List.length_append]
      omega
    · obtain ⟨y, hy, rfl⟩ := List.mem_map.1 hl
      have := h y (by simp [hy])
      rw [List.length_append, List.length_replicate]
      omega

theorem broken_fits {wrap : Wrap} (hw : KeepsWidth wrap) {w : Int} {s : Option Str} {ls : List Str} (h : Broken wrap w s ls) :
    ∀ l ∈ ls, (l.length : Int) ≤ w := by
  cases h with
  | none | empty => intro l hl; cases hl
  | text _ wraps => exact (hw _ _ _ wraps).2

theorem box_fits {wrap : Wrap} (hw : KeepsWidth wrap) (n : Node) : ∀ {w : Int} {ls : List Str}, Filled n → Unquoted n → Box wrap w n ls →
    0 < w ∧ ∀ l ∈ ls, (l.length : Int) ≤ w := by
  have list : ∀ cs : List Node, (∀ c ∈ cs, ∀ {w : Int} {ls : List Str}, Filled c → Unquoted c → Box wrap w c ls → 0 < w ∧ ∀ l ∈ ls, (l.length : Int) ≤ w) →
      ∀ {w : Int} {ls : List Str}, FilledAll cs → (∀ c ∈ cs, Unquoted c) → Boxes wrap w cs ls → (cs ≠ [] → 0 < w) ∧ ∀ l ∈ ls, (l.length : Int) ≤ w := by
    intro cs
    induction cs with
    | nil =>
      intro _ w ls _ _ h
      cases h
      exact ⟨fun h => absurd rfl h, fun l hl => by cases hl⟩
    | cons c cs ih =>
      intro hc w ls hf hq h
      cases h with
      | cons first others =>
        obtain ⟨h1, h2⟩ := hc c (by simp) hf.1 (hq c (by simp)) first
        obtain ⟨-, h3⟩ := ih (fun c h => hc c (by simp [h])) hf.2 (fun c h => hq c (by simp [h])) others
        refine ⟨fun _ => h1, fun l hl => ?_⟩
        rcases List.mem_append.1 hl with hl | hl
        · exact h2 l hl
        · exact h3 l hl
  have below : ∀ {n c : Node}, Unquoted n → c ∈ n.children → Unquoted c := fun hn hc ls hl => hn ls (.deeper hc hl)
  induction n using Node.ind with
  | structural e =>
    intro w ls _ _ h
    cases h with
    | header _ _ lines title =>
      refine ⟨(hw _ _ _ lines).1, fun l hl => ?_⟩
      rcases List.mem_append.1 hl with hl | hl
      · exact (hw _ _ _ lines).2 l hl
      · exact broken_fits hw title l hl
    | numbered _ _ _ lines => exact hw _ _ _ lines
    | unnumbered _ _ lines => exact hw _ _ _ lines
  | quoted l =>
    intro w ls _ hq _
    exact absurd (.self _) (hq l)
  | article i t cs ih =>
    intro w ls hf hq h
    cases h with
    | article title boxes =>
      obtain ⟨h1, h2⟩ := list cs ih hf.2.2 (fun c hc => below hq hc) boxes
      have := h1 hf.2.1
      refine ⟨by omega, beside_fits fun l hl => ?_⟩
      rcases List.mem_append.1 hl with hl | hl
      · exact broken_fits hw title l hl
      · exact h2 l hl
  | sae k d cs ih =>
    intro w ls hf hq h
    cases h with
    | text _ _ _ lines =>
      obtain ⟨h1, h2⟩ := hw _ _ _ lines
      exact ⟨by omega, beside_fits h2⟩
    | list _ _ some intro boxes wrapUp =>
      obtain ⟨h1, h2⟩ := list cs ih hf.2.2 (fun c hc => below hq hc) boxes
      have := h1 some
      refine ⟨by omega, beside_fits fun l hl => ?_⟩
      rcases List.mem_append.1 hl with hl | hl
      · rcases List.mem_append.1 hl with hl | hl
        · exact broken_fits hw intro l hl
        · exact h2 l hl
      · exact broken_fits hw wrapUp l hl
    | amendment some intro boxes wrapUp =>
      obtain ⟨h1, h2⟩ := list cs ih hf.2.2 (fun c hc => below hq hc) boxes
      have := h1 some
      refine ⟨by omega, fun l hl => ?_⟩
      simp only [List.mem_append, List.mem_singleton] at hl
      rcases hl with (((hl | rfl) | hl) | rfl) | hl
      · exact broken_fits hw intro l hl
      · simp; omega
      · exact beside_fits (c := cell 5 []) h2 l hl
      · simp; omega
      · exact broken_fits hw wrapUp l hl

/-! ## Semantic data -/

theorem boxes_map {wrap : Wrap} {cs : List Node}
    (h : ∀ c ∈ cs, ∀ {w : Int} {ls : List Str}, Box wrap w (strip c) ls ↔ Box wrap w c ls) :
    ∀ {w : Int} {ls : List Str}, Boxes wrap w (stripL cs) ls ↔ Boxes wrap w cs ls := by
  induction cs with
  | nil => intro w ls; rw [stripL]
  | cons c cs ih =>
    intro w ls
    have ih := @ih fun c hc => h c (by simp [hc])
    rw [stripL]
    constructor
    · intro hb
      cases hb with
      | cons first others => exact .cons ((h c (by simp)).1 first) (ih.1 others)
    · intro hb
      cases hb with
      | cons first others => exact .cons ((h c (by simp)).2 first) (ih.2 others)

theorem box_strip {wrap : Wrap} (n : Node) : ∀ {w : Int} {ls : List Str}, Box wrap w (strip n) ls ↔ Box wrap w n ls := by
  induction n using Node.ind with
  | structural e => intro w ls; exact .rfl
  | quoted l => intro w ls; exact .rfl
  | article i t cs ih => intro w ls; exact .rfl
  | sae k d cs ih =>
    intro w ls
    rw [strip]
    by_cases hk : k = .blockAmendmentContainer
    · rw [if_pos hk]
    · rw [if_neg hk]
      constructor
      · intro h
        cases h with
        | text kind text full lines => exact .text kind text full lines
        | list kind noText some intro boxes wrapUp =>
          exact .list kind noText (fun h => some (by rw [h, stripL])) intro ((boxes_map ih).1 boxes) wrapUp
        | amendment => exact absurd rfl hk
      · intro h
        cases h with
        | text kind text full lines =>
          exact .text (d := { d with references := none, semantic := none, abbreviations := none }) kind text full lines
        | list kind noText some intro boxes wrapUp =>
          exact .list (d := { d with references := none, semantic := none, abbreviations := none }) kind noText (fun h => some (stripL_nil.1 h))
            intro ((boxes_map ih).2 boxes) wrapUp
        | amendment => exact absurd rfl hk

theorem box_stripArticle {wrap : Wrap} {n : Node} {w : Int} {ls : List Str} : Box wrap w (stripArticle n) ls ↔ Box wrap w n ls := by
  cases n with
  | article i t cs =>
    rw [stripArticle]
    constructor
    · intro h
      cases h with
      | article title boxes => exact .article title ((boxes_map fun c _ => box_strip c).1 boxes)
    · intro h
      cases h with
      | article title boxes => exact .article title ((boxes_map fun c _ => box_strip c).2 boxes)
  | _ => exact .rfl

theorem both_stripArticle {wrap : Wrap} {w : Int} : ∀ {cs : List Node} {bs : List (List Str)},
    Both (Box wrap w) (cs.map stripArticle) bs ↔ Both (Box wrap w) cs bs
  | [], _ => .rfl
  | c :: cs, bs => by
    constructor
    · intro h
      cases h with
      | cons first others => exact .cons (box_stripArticle.1 first) (both_stripArticle.1 others)
    · intro h
      cases h with
      | cons first others => exact .cons (box_stripArticle.2 first) (both_stripArticle.2 others)

end Verif
