import Verif.Proofs.Printout
import Verif.Props.Txt
import Verif.Props.Pipeline
import Verif.Props.Amendments
import Verif.Props.Shown

/-! # What exactly a text file says (C68) -/

namespace Verif.Props

open Spec

variable {s : Sources} {c : ExtractedClass}

/-- C68. Apart from spaces, exactly this is printed of an act, whatever the width: its identifier and subject between equals signs, its
preamble, and what its children have to say. Wrapping is assumed to keep everything but spaces. -/
theorem txt_says_exactly {wrap : Wrap} (hw : KeepsText wrap) {a : Act} {indent : Str} {width : Int} (hi : noSpaces indent = [])
    (hb : ∀ n ∈ a.children, Built n) (hf : FilledAll a.children) (hn : ∀ n ∈ a.children, Named n)
    (hin : ∀ n ∈ a.children, Introduced n) (h : (writeTxt wrap (.act a) indent width).stop = none) :
    printedText (writeTxt wrap (.act a) indent width).yields =
      noSpaces (py"====" ++ a.identifier ++ py"-" ++ a.subject ++ py"=====" ++ a.preamble ++ shownL a.children) :=
  act_exact hw hi hb hf hn hin h

/-! ## Acts that are made -/

theorem named_article {i : Str} {t : Option Str} {ps : List Node} (h : ∀ p ∈ ps, Named p ∧ Introduced p) :
    Named (.article i t ps) ∧ Introduced (.article i t ps) := by
  refine ⟨fun k d cs hm => ?_, fun k d cs hm => ?_⟩
  · cases hm with
    | deeper hc hm => exact (h _ hc).1 k d cs hm
  · cases hm with
    | deeper hc hm => exact (h _ hc).2 k d cs hm

theorem amended_named {position : Position} {p p' : Node} (h : Amended position p p') (hp : Proper p) : Named p' ∧ Introduced p' := by
  obtain ⟨k, d, lines, intro, actual, inner, w, cs, rfl, hi, hb, hc, rfl⟩ := h
  have hkids : ∀ c ∈ cs, Named c ∧ Introduced c ∧ c.type ≠ .sae .blockAmendmentContainer := by
    intro c hc
    rcases blockChildren_proper hb c hc with ⟨s, rfl⟩ | hq
    · exact ⟨fun _ _ _ hm => (by cases hm with | deeper hc => cases hc), fun _ _ _ hm => (by cases hm with | deeper hc => cases hc),
        by simp [Node.type]⟩
    · refine ⟨proper_named hq, proper_introduced hq, fun ht => ?_⟩
      cases c with
      | sae k d cs =>
        cases ht
        exact absurd rfl hq.1
      | _ => cases ht
  refine ⟨fun k' d' cs' hm => ?_, fun k' d' cs' hm c hc ht => ?_⟩
  · cases hm with
    | self => exact hp.2.1
    | deeper hc hm =>
      obtain rfl := List.mem_singleton.1 hc
      cases hm with
      | self => simp
      | deeper hc hm => exact (hkids _ hc).1 _ _ _ hm
  · cases hm with
    | self => simp
    | deeper hc' hm =>
      obtain rfl := List.mem_singleton.1 hc'
      cases hm with
      | self => exact absurd ht (hkids c hc).2.2
      | deeper hc' hm => exact (hkids _ hc').2.1 _ _ _ hm c hc ht

theorem structural_named (e : StructuralElement) : Named (.structural e) ∧ Introduced (.structural e) :=
  ⟨fun _ _ _ hm => (by cases hm with | deeper hc => cases hc), fun _ _ _ hm => (by cases hm with | deeper hc => cases hc)⟩

/-- The children of a parsed act. -/
theorem parseAct_proper {identifier subject : Str} {date : Date} {lines : List Line} {act : Act}
    (h : parseAct identifier date subject lines = .ok act) :
    ∀ n ∈ act.children, (∃ e, n = .structural e) ∨ (∃ i t ps, n = .article i t ps) ∧ Proper n := by
  obtain ⟨pre, blocks, _, _, _, _, h5⟩ := parseAct_spec h
  intro n hn
  obtain ⟨b, -, q, hq⟩ := h5.mem_right hn
  exact body_proper hq

theorem parseAct_named {identifier subject : Str} {date : Date} {lines : List Line} {act : Act}
    (h : parseAct identifier date subject lines = .ok act) : ∀ n ∈ act.children, Named n ∧ Introduced n := by
  intro n hn
  rcases parseAct_proper h n hn with ⟨e, rfl⟩ | ⟨-, hp⟩
  · exact structural_named e
  · exact ⟨proper_named hp, proper_introduced hp⟩

theorem amendments_named {analyze : Analyzer} {a b : Act} (h : parseBlockAmendments analyze a = .ok b)
    (ha : ∀ n ∈ a.children, (∃ e, n = .structural e) ∨ (∃ i t ps, n = .article i t ps) ∧ Proper n) :
    ∀ n ∈ b.children, Named n ∧ Introduced n := by
  intro n hn
  obtain ⟨m, hm, hr⟩ := (rest_left_partial h).2.mem_right hn
  rcases hr with ⟨-, rfl⟩ | ⟨i, t, ps, ps', rfl, rfl, hps⟩
  · rcases ha n hm with ⟨e, rfl⟩ | ⟨-, hp⟩
    · exact structural_named e
    · exact ⟨proper_named hp, proper_introduced hp⟩
  · have hp : ProperL ps := by
      rcases ha _ hm with ⟨e, he⟩ | ⟨-, hp⟩
      · cases he
      · exact hp
    refine named_article fun p' hp' => ?_
    obtain ⟨p, hpm, hr⟩ := hps.mem_right hp'
    have hpp := properL_iff.1 hp p hpm
    rcases hr with ⟨-, rfl⟩ | ⟨position, -, hr⟩
    · exact ⟨proper_named hpp, proper_introduced hpp⟩
    · exact amended_named hr hpp

/-- C68. So it is for every act that is made, at each step, if texts are more than spaces. -/
theorem produced_txt_exact {wrap : Wrap} (hw : KeepsText wrap) {r : LawRawText} {o : Extracted} {a : Act} (h : Produces s c r o)
    (ho : o = .structureOnly a ∨ o = .blockOnly a ∨ o = .act a) {indent : Str} {width : Int} (hi : noSpaces indent = [])
    (hf : FilledAll a.children) (hs : (writeTxt wrap (.act a) indent width).stop = none) :
    printedText (writeTxt wrap (.act a) indent width).yields =
      noSpaces (py"====" ++ r.identifier ++ py"-" ++ r.subject ++ py"=====" ++ a.preamble ++ shownL a.children) := by
  obtain ⟨⟨h1, -, h2⟩, h3⟩ := produced_well_made h ho
  rw [← h1, ← h2]
  cases c with
  | raw => obtain rfl := h; simp at ho
  | structureOnly =>
    obtain ⟨body, a', -, hp, rfl⟩ := h
    simp only [Extracted.structureOnly.injEq, reduceCtorEq, or_false] at ho
    subst ho
    exact txt_says_exactly hw hi (fun n hn => (h3 n hn).2.1) hf (fun n hn => (parseAct_named hp n hn).1)
      (fun n hn => (parseAct_named hp n hn).2) hs
  | blockOnly =>
    obtain ⟨body, a', b, -, hp, hb, rfl⟩ := h
    simp only [Extracted.blockOnly.injEq, reduceCtorEq, or_false, false_or] at ho
    subst ho
    have := amendments_named hb (parseAct_proper hp)
    exact txt_says_exactly hw hi (fun n hn => (h3 n hn).2.1) hf (fun n hn => (this n hn).1) (fun n hn => (this n hn).2) hs
  | act =>
    obtain ⟨body, a', b, c', hx, hp, hb, hc, rfl⟩ := h
    simp only [Extracted.act.injEq, reduceCtorEq, false_or] at ho
    subst ho
    have := amendments_named hb (parseAct_proper hp)
    have h3' := (produced_well_made (s := s) (c := .blockOnly) (r := r) ⟨body, a', b, hx, hp, hb, rfl⟩ (.inr (.inl rfl))).2
    have e := semantics_keep_act hc
    have e1 : c'.identifier = b.identifier ∧ c'.subject = b.subject ∧ c'.preamble = b.preamble :=
      by
      injection e with e1 _ e3 e4 _
      exact ⟨e1, e3, e4⟩
    have e2 : writeTxt wrap (.act c') indent width = writeTxt wrap (.act b) indent width := by
      show writeAct wrap c' indent width = writeAct wrap b indent width
      rw [← writeAct_strip, e, writeAct_strip]
    rw [e2] at hs ⊢
    rw [e1.1, e1.2.1, e1.2.2, ← shown_stripAct, e, shown_stripAct]
    refine txt_says_exactly hw hi (fun n hn => (h3' n hn).2.1) ?_ (fun n hn => (this n hn).1) (fun n hn => (this n hn).2) hs
    rw [← filled_stripAct, ← e, filled_stripAct]
    exact hf
  | _ => cases h

/-! ## The lines of an act -/

theorem subtitle_told {b : List Line} {e : StructuralElement} (hk : e.kind = .subtitle) (h : Reads b (.structural e)) :
    ink (shown (.structural e)) = ink (linesText b) := by
  rw [Reads, if_pos hk] at h
  rw [h, shown, StructuralElement.formattedIdentifier, hk]
  cases e.identifier <;> rfl

/-- What is shown of a child of a parsed act. -/
theorem child_told {b : List Line} {n : Node} (h : Reads b n) (hp : (∃ e, n = .structural e) ∨ (∃ i t ps, n = .article i t ps) ∧ Proper n)
    (hf : Filled n) : ink (shown n) = ink (retold b n) := by
  rcases hp with ⟨e, rfl⟩ | ⟨⟨i, t, ps, rfl⟩, hp⟩
  · rw [retold]
    split
    · rename_i hk
      exact subtitle_told hk h
    · rfl
  · rw [shown_printed hp hf]
    exact h.symm

theorem told_all {f : Str → Str} (happ : ∀ a b, f (a ++ b) = f a ++ f b) {blocks : List (List Line)} {cs : List Node}
    (h : Both (fun b n => f (shown n) = f (retold b n)) blocks cs) : f (shownL cs) = f (List.zipWith retold blocks cs).flatten := by
  induction h with
  | nil => exact rfl
  | cons h _ ih => rw [shownL, happ, h, ih, List.zipWith_cons_cons, List.flatten_cons, happ]

/-- C68. The text of an act whose amendments are not looked at says what its lines say, apart from spaces and the kind of opening
quotation marks: the preamble first, then article by article. Only the headers of books, parts, titles and chapters may be written
differently. -/
theorem txt_tells_lines_partial {wrap : Wrap} (hw : KeepsText wrap) {r : LawRawText} {a : Act}
    (h : Produces s .structureOnly r (.structureOnly a)) {indent : Str} {width : Int} (hi : noSpaces indent = [])
    (hf : FilledAll a.children) (hs : (writeTxt wrap (.act a) indent width).stop = none) :
    ∃ body, doAllFixups s.fixups r.identifier r.body = .ok body ∧ ((∀ l ∈ body, FineEnd l) → ¬ LongTitle body →
      ∃ pre blocks, body = pre ++ blocks.flatten ∧ Both Reads blocks a.children ∧
        inkOnly (printedText (writeTxt wrap (.act a) indent width).yields) =
          inkOnly (py"====" ++ r.identifier ++ py"-" ++ r.subject ++ py"=====" ++ linesText pre ++
            (List.zipWith retold blocks a.children).flatten)) := by
  have key := produced_txt_exact hw h (.inl rfl) hi hf hs
  obtain ⟨body, a', h1, hp, ho⟩ := h
  cases ho
  refine ⟨body, h1, fun hfine hlong => ?_⟩
  obtain ⟨pre, blocks, h2, h3, h4⟩ := act_keeps_text_partial hp hfine hlong
  refine ⟨pre, blocks, h2, h4, ?_⟩
  have hall : Both (fun b n => inkOnly (shown n) = inkOnly (retold b n)) blocks a.children :=
    h4.imp fun b _ n hn hr => inkOnly_of_ink (child_told hr (parseAct_proper hp n hn) (filledAll_iff.1 hf n hn))
  rw [key, inkOnly_noSpaces, inkOnly_append, inkOnly_append, told_all inkOnly_append hall, ← inkOnly_of_ink h3, ← inkOnly_append,
    ← inkOnly_append]

/-- The text of an amendment is the one of the paragraph it was made of. -/
theorem amended_told {analyze : Analyzer} {position : Position} {p p' : Node} (ha : Announces analyze p position)
    (hw : WholeAmendment analyze p) (h : Amended position p p') (hb : Built p) (hp : Proper p) (hf : Filled p') :
    inkFolded (shown p') = inkFolded (printed p) := by
  obtain ⟨⟨r, rfl⟩, hw⟩ := hw position ha
  have hkeep := amendment_keeps_lines_partial h fun lines hl => by
    cases p with
    | sae k d cs =>
      cases hl
      exact (hw _ _ _ rfl).1
    | article =>
      obtain ⟨_, _, _, _, _, _, _, _, h, _⟩ := h
      cases h
    | quoted => cases hl
    | structural => cases hl
  obtain ⟨k, d, lines, intro, actual, inner, w, cs, rfl, hi, hbc, hc, rfl⟩ := h
  obtain ⟨_, _, _, _, _, hl, hcs, -, -, hink, -⟩ := hkeep
  obtain rfl := Node.quoted.inj (List.cons.inj hl).1
  obtain ⟨-, rfl, rfl⟩ := Node.sae.inj (List.cons.inj hcs).1
  obtain ⟨-, hink⟩ := hink ⟨r, rfl⟩
  have hprop : ProperL cs := properL_iff.2 fun c hcm => by
    obtain ⟨⟨P, expected⟩, hP, hbl⟩ := resBind_ok (show (blockParser r >>= fun x => parseBlocks x.1 x.2 lines) = .ok cs from hbc)
    obtain ⟨blocks, -, h2, -, -⟩ := parseBlocks_spec hbl
    obtain ⟨b, -, hb⟩ := h2.mem_right hcm
    exact blockParser_proper hP hb
  have hfc := hf.2.2.1
  have hshown : inkFolded (shownL cs) = inkFolded (linesText lines) := by
    rw [shownL_printed hprop hfc.2.2]
    exact (inkFolded_of_ink hink).symm
  have htext : d.text = none := by
    cases ht : d.text with
    | none => rfl
    | some t => exact absurd ((built_sae hb).2.1 (by rw [ht]; simp)).2.2 (by simp)
  obtain ⟨-, hwrap⟩ := hw k d lines rfl
  rw [shown, if_neg hp.1, printed, shownL, shownL, shown, if_pos rfl, printedL, printedL, printed, htext, hi]
  simp only [Option.getD_some, Option.getD_none, List.append_nil, inkFolded_append, hshown, List.append_assoc]
  rcases hc with ⟨i, ⟨x, rest, rfl, rfl, hx, ⟨space, o, c, newline, rfl, hspace, hnl, -, hoc⟩, hlast⟩, rfl, rfl⟩ | ⟨hno, rfl, rfl, rfl⟩
  · have hne : i ≠ [] := by
      rintro rfl
      exact hfc.2.1 [] rfl rfl
    have e1 : inBrackets (py"(") (py")") (some i) = py"(" ++ i ++ py")" := by
      cases i with
      | nil => exact absurd rfl hne
      | cons => rfl
    have e2 : inkFolded (space ++ o :: (i ++ c :: newline)) = inkFolded (py"(" ++ i ++ py")") := by
      rw [show o :: (i ++ c :: newline) = (o :: (i ++ [c])) ++ newline by simp, inkFolded_append, inkFolded_append,
        inkFolded_brackets hoc]
      have hs : inkFolded space = [] := by rcases hspace with rfl | rfl <;> rfl
      have hn : inkFolded newline = [] := by rcases hnl with rfl | rfl <;> rfl
      rw [hs, hn]
      simp
    have e3 : inkFolded (inBrackets (py"(") (py")") (d.wrapUp.map fun w => (w.drop 1).dropLast)) = inkFolded (d.wrapUp.getD []) := by
      cases hwu : d.wrapUp with
      | none => rfl
      | some w =>
        rcases hwrap w hwu with rfl | ⟨_, _, _, _, _, o', c', text, rfl, hne, hoc'⟩
        · rfl
        · have : ((o' :: (text ++ [c'])).drop 1).dropLast = text := by simp
          rw [Option.map_some, this, Option.getD_some, inkFolded_brackets hoc']
          cases text with
          | nil => exact absurd rfl hne
          | cons => rfl
    rw [e1, e3, inkFolded_append _ (space ++ _), e2]
    simp only [inkFolded_append, List.append_assoc]
  · have e3 : d.wrapUp.getD [] = [] := by
      cases hwu : d.wrapUp with
      | none => rfl
      | some w =>
        rcases hwrap w hwu with rfl | ⟨_, a, i, h1, h2, _⟩
        · rfl
        · rw [hi] at h1
          cases h1
          exact absurd h2 (hno a i)
    rw [e3]
    simp [inBrackets, show inkFolded [] = [] from rfl]

theorem amended_all {analyze : Analyzer} {ps ps' : List Node} (h : Both (fun p p' =>
      ((∀ position, ¬ Announces analyze p position) ∧ p' = p) ∨ ∃ position, Announces analyze p position ∧ Amended position p p') ps ps')
    (hw : ∀ p ∈ ps, WholeAmendment analyze p) (hb : ∀ p ∈ ps, Built p) (hp : ProperL ps) (hf : FilledAll ps') :
    inkFolded (shownL ps') = inkFolded (printedL ps) := by
  induction h with
  | nil => rfl
  | @cons p p' ps ps' h _ ih =>
    rw [shownL, printedL, inkFolded_append, inkFolded_append,
      ih (fun p h => hw p (by simp [h])) (fun p h => hb p (by simp [h])) hp.2 hf.2]
    congr 1
    rcases h with ⟨-, rfl⟩ | ⟨position, ha, h⟩
    · rw [shown_printed hp.1 hf.1]
    · exact amended_told ha (hw p (by simp)) h (hb p (by simp)) hp.1 hf.1

theorem both_zip {α β γ : Type} {R : α → β → Prop} {S : β → γ → Prop} {as : List α} {bs : List β} {cs : List γ} (h : Both R as bs)
    (h' : Both S bs cs) : Both (fun a c => ∃ b ∈ bs, R a b ∧ S b c) as cs := by
  induction h generalizing cs with
  | nil => cases h'; exact .nil
  | @cons a b as bs h _ ih =>
    cases h' with
    | cons h1 h2 => exact .cons ⟨b, by simp, h, h1⟩ ((ih h2).imp fun _ _ _ _ ⟨b, hb, x⟩ => ⟨b, by simp [hb], x⟩)

/-- What is told of the children of an act whose amendments were looked at. -/
theorem amendments_told {analyze : Analyzer} {a b : Act} (h : parseBlockAmendments analyze a = .ok b)
    (ha : ∀ n ∈ a.children, (∃ e, n = .structural e) ∨ (∃ i t ps, n = .article i t ps) ∧ Proper n) (hb : ∀ n ∈ a.children, Built n)
    (hw : ∀ n ∈ a.children, ∀ p ∈ n.children, WholeAmendment analyze p) (hf : FilledAll b.children) {blocks : List (List Line)}
    (hr : Both Reads blocks a.children) :
    Both (fun b n => inkFolded (shown n) = inkFolded (retold b n)) blocks b.children := by
  refine (both_zip hr (rest_left_partial h).2).imp fun ls _ n' hn' ⟨n, hn, hread, hn''⟩ => ?_
  rcases hn'' with ⟨-, rfl⟩ | ⟨i, t, ps, ps', rfl, rfl, hps⟩
  · exact inkFolded_of_ink (child_told hread (ha _ hn) (filledAll_iff.1 hf _ hn'))
  · have hp : ProperL ps := by
      rcases ha _ hn with ⟨e, he⟩ | ⟨-, hp⟩
      · cases he
      · exact hp
    have hfn := filledAll_iff.1 hf _ hn'
    have := amended_all hps (hw _ hn) (built_article (hb _ hn)).1 hp hfn.2.2
    rw [shown, inBrackets_notBlank hfn.1, inkFolded_append, this, ← inkFolded_append]
    refine Eq.trans ?_ (inkFolded_of_ink hread).symm
    rw [printed.eq_def]
    cases t <;> rfl

/-- C68. With amendments and semantic data it is the same, apart from spaces and the kind of opening quotation marks and of brackets,
if the amendments are of articles or their parts, can be made out completely and are all wrapped up in brackets or not at all. -/
theorem txt_tells_all_partial {wrap : Wrap} (hw : KeepsText wrap) {r : LawRawText} {o : Extracted} {a : Act} (h : Produces s c r o)
    (ho : o = .blockOnly a ∨ o = .act a) {indent : Str} {width : Int} (hi : noSpaces indent = [])
    (hf : FilledAll a.children) (hs : (writeTxt wrap (.act a) indent width).stop = none) :
    ∃ body plain, doAllFixups s.fixups r.identifier r.body = .ok body ∧ Produces s .structureOnly r (.structureOnly plain) ∧
      ((∀ l ∈ body, FineEnd l) → ¬ LongTitle body → (∀ n ∈ plain.children, ∀ p ∈ n.children, WholeAmendment s.analyze p) →
      ∃ pre blocks, body = pre ++ blocks.flatten ∧ Both Reads blocks plain.children ∧
        inkFolded (printedText (writeTxt wrap (.act a) indent width).yields) =
          inkFolded (py"====" ++ r.identifier ++ py"-" ++ r.subject ++ py"=====" ++ linesText pre ++
            (List.zipWith retold blocks plain.children).flatten)) := by
  have key := produced_txt_exact hw h (.inr ho) hi hf hs
  have second : ∀ {body : List Line} {plain b : Act}, doAllFixups s.fixups r.identifier r.body = .ok body →
      parseAct r.identifier r.publicationDate r.subject body = .ok plain → parseBlockAmendments s.analyze plain = .ok b →
      FilledAll b.children → shownL a.children = shownL b.children → a.preamble = b.preamble →
      ∃ body plain, doAllFixups s.fixups r.identifier r.body = .ok body ∧ Produces s .structureOnly r (.structureOnly plain) ∧
        ((∀ l ∈ body, FineEnd l) → ¬ LongTitle body → (∀ n ∈ plain.children, ∀ p ∈ n.children, WholeAmendment s.analyze p) →
        ∃ pre blocks, body = pre ++ blocks.flatten ∧ Both Reads blocks plain.children ∧
          inkFolded (printedText (writeTxt wrap (.act a) indent width).yields) =
            inkFolded (py"====" ++ r.identifier ++ py"-" ++ r.subject ++ py"=====" ++ linesText pre ++
              (List.zipWith retold blocks plain.children).flatten)) := by
    intro body plain b h1 hp hb hfb hsh hpre
    refine ⟨body, plain, h1, ⟨body, plain, h1, hp, rfl⟩, fun hfine hlong hwhole => ?_⟩
    obtain ⟨pre, blocks, h2, h3, h4⟩ := act_keeps_text_partial hp hfine hlong
    refine ⟨pre, blocks, h2, h4, ?_⟩
    have hall := amendments_told hb (parseAct_proper hp) (fun n hn => (parseAct_has closed_built hp n hn).1) hwhole hfb h4
    have hpre' : b.preamble = plain.preamble := by
      injection (rest_left_partial hb).1
    have hre : List.zipWith retold blocks b.children = List.zipWith retold blocks plain.children := by
      clear hall hsh hfb hwhole key
      have h5 := (rest_left_partial hb).2
      clear h2 hp hb h3 hpre hpre'
      revert h4
      generalize plain.children = xs at h5
      generalize b.children = ys at h5
      intro h4
      induction h5 generalizing blocks with
      | nil => simp
      | cons h _ ih =>
        cases h4 with
        | cons _ h4 =>
          rw [List.zipWith_cons_cons, List.zipWith_cons_cons, ih _ h4]
          congr 1
          rcases h with ⟨-, rfl⟩ | ⟨i, t, ps, ps', rfl, rfl, -⟩ <;> rfl
    rw [key, inkFolded_noSpaces, inkFolded_append, inkFolded_append, hsh, told_all inkFolded_append hall, hre, hpre, hpre',
      ← inkFolded_of_ink h3, ← inkFolded_append, ← inkFolded_append]
  cases c with
  | raw => obtain rfl := h; simp at ho
  | structureOnly =>
    obtain ⟨body, a', -, hp, rfl⟩ := h
    simp at ho
  | blockOnly =>
    obtain ⟨body, a', b, h1, hp, hb, rfl⟩ := h
    simp only [Extracted.blockOnly.injEq, reduceCtorEq, or_false] at ho
    subst ho
    exact second h1 hp hb hf rfl rfl
  | act =>
    obtain ⟨body, a', b, c', hx, hp, hb, hc, rfl⟩ := h
    simp only [Extracted.act.injEq, reduceCtorEq, false_or] at ho
    subst ho
    have e := semantics_keep_act hc
    refine second hx hp hb ?_ ?_ ?_
    · rw [← filled_stripAct, ← e, filled_stripAct]
      exact hf
    · rw [← shown_stripAct, e, shown_stripAct]
    · injection e
  | _ => cases h

theorem retold_lines {blocks : List (List Line)} {cs : List Node} (h : Both Reads blocks cs)
    (hc : ∀ e, .structural e ∈ cs → e.kind = .subtitle) : (List.zipWith retold blocks cs).flatten = linesText blocks.flatten := by
  induction h with
  | nil => rfl
  | @cons b n bs ns _ _ ih =>
    rw [List.zipWith_cons_cons, List.flatten_cons, List.flatten_cons, linesText_append, ih fun e he => hc e (by simp [he])]
    congr 1
    cases n with
    | structural e => exact if_pos (hc e (by simp))
    | _ => rfl

/-- C68. The text of an act of articles and subtitles says all that its lines say and nothing else, in the same order. -/
theorem articles_told_whole {wrap : Wrap} (hw : KeepsText wrap) {r : LawRawText} {o : Extracted} {a : Act} (h : Produces s c r o)
    (ho : o = .blockOnly a ∨ o = .act a) {indent : Str} {width : Int} (hi : noSpaces indent = [])
    (hf : FilledAll a.children) (hs : (writeTxt wrap (.act a) indent width).stop = none) :
    ∃ body plain, doAllFixups s.fixups r.identifier r.body = .ok body ∧ Produces s .structureOnly r (.structureOnly plain) ∧
      ((∀ l ∈ body, FineEnd l) → ¬ LongTitle body → (∀ n ∈ plain.children, ∀ p ∈ n.children, WholeAmendment s.analyze p) →
        (∀ e, .structural e ∈ plain.children → e.kind = .subtitle) →
        inkFolded (printedText (writeTxt wrap (.act a) indent width).yields) =
          inkFolded (py"====" ++ r.identifier ++ py"-" ++ r.subject ++ py"=====" ++ linesText body)) := by
  obtain ⟨body, plain, h1, h2, h3⟩ := txt_tells_all_partial hw h ho hi hf hs
  refine ⟨body, plain, h1, h2, fun hfine hlong hwhole hk => ?_⟩
  obtain ⟨pre, blocks, rfl, hr, hp⟩ := h3 hfine hlong hwhole
  rw [hp, retold_lines hr hk, linesText_append, List.append_assoc]

/-- C68. Where headers are written differently: a book or part that is numbered in words is shown with the same words, in capitals, and
a part that has a name with its name. -/
theorem header_told {ls : List Line} {e : StructuralElement} (h : Reads ls (.structural e)) (hk : e.kind = .book ∨ e.kind = .part)
    (hsp : e.special = true → e.kind = .part) : ∃ shown header more newline, e.formattedIdentifier = .ok shown ∧ ls = header :: more ∧
      (newline = [] ∨ newline = ['\n']) ∧ lower header.content = lower (shown ++ newline) := by
  obtain ⟨k, i, t, special⟩ := e
  cases special with
  | true =>
    obtain rfl : k = .part := hsp rfl
    obtain ⟨header, more, n, rfl, hn, rfl, rfl⟩ := h
    have h3 : n < 3 := by
      have := (List.getElem?_eq_some_iff.1 hn).1
      simpa [namedParts] using this
    obtain ⟨hex, hall⟩ := shown_named_reads_back (n + 1) [] (by omega)
    obtain ⟨s, hs⟩ := hex.2 (by omega)
    have := (hall s hs).1
    rw [Nat.add_sub_cancel, hn] at this
    obtain rfl := Option.some.inj this
    exact ⟨_, header, more, [], hs, rfl, .inl rfl, by simp⟩
  | false =>
    have key : ∀ (number name newline : Str) (n : Nat), Spec.OrdinalOf number n → i = natStr n →
        ((k = .book ∧ name = py" KÖNYV") ∨ (k = .part ∧ name = py" RÉSZ")) →
        ∃ shown, (StructuralElement.mk k i t false).formattedIdentifier = .ok shown ∧
          lower (number ++ name ++ newline) = lower (shown ++ newline) := by
      intro number name newline n h1 h2 h3
      have hw := (ordinal_read_iff number n).1 ((textToIntHun_ok number n).mpr h1)
      have hm := List.mem_of_getElem? ((ordinal_written n _).1 hw).2
      refine ⟨upper (lower number) ++ name, ?_, ?_⟩
      · rcases h3 with ⟨rfl, rfl⟩ | ⟨rfl, rfl⟩ <;>
          simp [StructuralElement.formattedIdentifier, h2, pyInt_natStr, hw, bind, Except.bind]
      · have happ : ∀ x y : Str, lower (x ++ y) = lower x ++ lower y := fun x y => List.map_append ..
        rw [happ, happ, happ, happ, (ordinals_shown _ hm).1]
    rcases hk with rfl | rfl
    · obtain ⟨header, more, rfl, ⟨number, name, newline, hc, hnl, rfl, n, h1, h2⟩, -⟩ := h
      obtain ⟨shown, hs, hl⟩ := key number _ newline n h1 h2 (.inl ⟨rfl, rfl⟩)
      exact ⟨shown, header, more, newline, hs, rfl, hnl, by rw [hc, hl]⟩
    · obtain ⟨header, more, rfl, ⟨number, name, newline, hc, hnl, rfl, n, h1, h2⟩, -⟩ := h
      obtain ⟨shown, hs, hl⟩ := key number _ newline n h1 h2 (.inr ⟨rfl, rfl⟩)
      exact ⟨shown, header, more, newline, hs, rfl, hnl, by rw [hc, hl]⟩

/-! ## A sample -/

/-- The lines of an act with an amendment between brackets. -/
def printLines : List Line :=
  [spread 0 (py"Az Országgyűlés:"), emptyLine, spread 0 (py"1. § (1) A 2. § (2) bekezdése helyébe lép:"),
   spread 0 (py"[Ha igen,]"), spread 10 (py"„(3) Ha"), spread 20 (py"a) egy,"), spread 20 (py"b) kettő,"),
   spread 10 (py"(4) vége.”"), spread 0 (py"(úgy.)"), spread 0 (py"(2) Más."), spread 0 (py"2. § Vége.")]

/-- The text of an act of these lines. -/
def printRaw : LawRawText :=
  { identifier := py"2020. évi I. törvény", publicationDate := ⟨2020, 1, 1⟩, subject := py"Tárgy", body := printLines }

/-- Only the amendment is recognised, and nothing is fixed. -/
def printSources : Sources where
  read _ := .error .valueError
  fixups := []
  analyze := announcer thirdParagraph (py"A 2. § (2) bekezdése helyébe lép:")

/-- The amending paragraph. -/
def printQuoting : Node := quoting (py"A 2. § (2) bekezdése helyébe lép: [Ha igen,]")
  [spread 15 (py"(3) Ha"), spread 20 (py"a) egy,"), spread 20 (py"b) kettő,"), { spread 10 (py"(4) vége.") with marginRight := 20 }]
  (some (py"(úgy.)"))

/-- The act before amendments are looked at. -/
def printPlain : Act := { amendingAct printQuoting with preamble := py"Az Országgyűlés:" }

/-- Whether all texts are more than spaces. -/
def notBlank (s : Option Str) : Bool := s.all fun t => noSpaces t != []

mutual
/-- Whether a node is filled. -/
def filled : Node → Bool
  | .sae _ d cs => notBlank d.text && notBlank d.intro && filledAll cs
  | .article _ t cs => notBlank t && !cs.isEmpty && filledAll cs
  | _ => true

/-- The same for siblings. -/
def filledAll : List Node → Bool
  | [] => true
  | c :: cs => filled c && filledAll cs
end

theorem notBlank_sound {s : Option Str} (h : notBlank s = true) : NotBlank s := by
  intro t ht
  subst ht
  simpa [notBlank] using h

mutual
theorem filled_sound : ∀ n : Node, filled n = true → Filled n
  | .sae k d cs, h => by
    simp only [filled, Bool.and_eq_true] at h
    exact ⟨notBlank_sound h.1.1, notBlank_sound h.1.2, filledAll_sound cs h.2⟩
  | .article i t cs, h => by
    simp only [filled, Bool.and_eq_true] at h
    exact ⟨notBlank_sound h.1.1, by rintro rfl; simp at h, filledAll_sound cs h.2⟩
  | .structural _, _ => trivial
  | .quoted _, _ => trivial

theorem filledAll_sound : ∀ ns : List Node, filledAll ns = true → FilledAll ns
  | [], _ => trivial
  | c :: cs, h => by
    simp only [filledAll, Bool.and_eq_true] at h
    exact ⟨filled_sound c h.1, filledAll_sound cs h.2⟩
end

theorem printPlain_parsed : parseAct printRaw.identifier printRaw.publicationDate printRaw.subject printLines = .ok printPlain := by
  decide +kernel

theorem print_produced : ∃ b a, Produces printSources .structureOnly printRaw (.structureOnly printPlain) ∧
    Produces printSources .blockOnly printRaw (.blockOnly b) ∧ Produces printSources .act printRaw (.act a) ∧
    FilledAll printPlain.children ∧ FilledAll b.children ∧ FilledAll a.children ∧ (writeTxt noWrap (.act printPlain)).stop = none ∧
    (writeTxt noWrap (.act b)).stop = none ∧ (writeTxt noWrap (.act a)).stop = none := by
  have h : (match parseBlockAmendments printSources.analyze printPlain with
    | .ok b => match addSemantics printSources.analyze b with
      | .ok a => filledAll printPlain.children && filledAll b.children && filledAll a.children && decide ((writeTxt noWrap (.act printPlain)).stop = none ∧
          (writeTxt noWrap (.act b)).stop = none ∧ (writeTxt noWrap (.act a)).stop = none)
      | _ => false
    | _ => false) = true := by decide +kernel
  cases hb : parseBlockAmendments printSources.analyze printPlain with
  | error e => rw [hb] at h; cases h
  | ok b =>
    rw [hb] at h
    cases ha : addSemantics printSources.analyze b with
    | error e => simp only [ha] at h; cases h
    | ok a =>
      simp only [ha, Bool.and_eq_true] at h
      obtain ⟨⟨⟨h1, h2⟩, h3⟩, h4⟩ := h
      exact ⟨b, a, ⟨_, _, rfl, printPlain_parsed, rfl⟩, ⟨_, _, b, rfl, printPlain_parsed, hb, rfl⟩,
        ⟨_, _, b, a, rfl, printPlain_parsed, hb, ha, rfl⟩, filledAll_sound _ h1, filledAll_sound _ h2, filledAll_sound _ h3,
        of_decide_eq_true h4⟩

theorem print_whole : ∀ n ∈ printPlain.children, ∀ p ∈ n.children, WholeAmendment printSources.analyze p := by
  have hq : ∀ k d cs, (∀ c ∈ cs, c.type ≠ NodeType.quoted) → WholeAmendment printSources.analyze (.sae k d cs) := by
    intro k d cs hc position ⟨_, _, _, _, _, _, _, _, _, he, hne, hall, _⟩
    cases he
    cases cs with
    | nil => exact absurd rfl hne
    | cons c cs => exact absurd (hall c (by simp)) (hc c (by simp))
  have hmain : WholeAmendment printSources.analyze printQuoting := by
    rintro position ⟨k, d, cs, intro, actual, analysis, before, pure, after, he, -, -, -, -, -, hana, hsem, -⟩
    refine ⟨?_, fun k d lines he => ?_⟩
    · simp only [printSources, announcer, Except.ok.injEq] at hana
      subst hana
      split at hsem
      · refine ⟨{ article := some (.one (py"2")), paragraph := some (.one (py"3")) }, ?_⟩
        have : SemanticData.blockAmendment position pure ∈ before ++ .blockAmendment position pure :: after := by simp
        rw [← hsem] at this
        simp [thirdParagraph] at this
        exact this.1
      · simp at hsem
    · cases he
      refine ⟨⟨fine_of_all (by decide +kernel), short_titles (by decide +kernel), ?_⟩, ?_⟩
      · rintro ⟨l, s, h1, h2⟩
        obtain rfl := Option.some.inj h1
        have := congrArg List.head? h2
        rw [show (spread 15 (py"(3) Ha")).content.head? = some '(' by decide] at this
        cases this
      · rintro w ⟨⟩
        exact .inr ⟨_, _, _, rfl, (matchContext_iff _ _ _).mp
          (show matchContext [] _ = some (py"A 2. § (2) bekezdése helyébe lép:", py"Ha igen,") by decide +kernel),
          '(', ')', py"úgy.", rfl, by decide, .inl ⟨rfl, rfl⟩⟩
  intro n hn p hp
  simp only [printPlain, amendingAct, List.mem_cons, List.not_mem_nil, or_false] at hn
  rcases hn with rfl | rfl
  · simp only [Node.children, List.mem_cons, List.not_mem_nil, or_false] at hp
    rcases hp with rfl | rfl
    · exact hmain
    · exact hq _ _ _ (by simp)
  · simp only [Node.children, List.mem_cons, List.not_mem_nil, or_false] at hp
    subst hp
    exact hq _ _ _ (by simp)

/-- The sample says what its lines say. -/
example : ∃ a, Produces printSources .act printRaw (.act a) ∧ (writeTxt noWrap (.act a)).stop = none ∧
    inkFolded (printedText (writeTxt noWrap (.act a)).yields) = inkFolded (py"====2020.éviI.törvény-Tárgy=====" ++ linesText printLines) := by
  obtain ⟨b, a, -, -, h, -, -, hf, -, -, hs⟩ := print_produced
  refine ⟨a, h, hs, ?_⟩
  obtain ⟨body, plain, h1, ⟨body', plain', h1', h2, h2'⟩, h3⟩ := articles_told_whole noWrap_keeps h (.inr rfl) rfl hf hs
  cases h2'
  cases h1
  cases h1'
  cases h2.symm.trans printPlain_parsed
  refine (h3 (fine_of_all (by decide +kernel)) (short_titles (by decide +kernel)) print_whole ?_).trans ?_
  · intro e he
    simp [printPlain, amendingAct] at he
  · rfl

example : (writeTxt noWrap (.act printPlain)).stop = none ∧ FilledAll printPlain.children ∧ (∀ l ∈ printLines, FineEnd l) ∧
    ¬ LongTitle printLines ∧ printedText (writeTxt noWrap (.act printPlain)).yields =
      py"====2020.éviI.törvény-Tárgy=====AzOrszággyűlés:1.§(1)A2.§(2)bekezdésehelyébelép:[Haigen,]„(3)Haa)egy,b)kettő,(4)vége.”(úgy.)(2)Más.2.§Vége." := by
  obtain ⟨_, _, -, -, -, h1, -, -, h2, -, -⟩ := print_produced
  exact ⟨h2, h1, fine_of_all (by decide +kernel), short_titles (by decide +kernel), by decide +kernel⟩

example : Reads [spread 0 (py"Huszonkettedik KÖNYV"), spread 0 (py"CÍM")] (.structural ⟨.book, py"22", py"CÍM", false⟩) ∧
    (StructuralElement.mk .book (py"22") (py"CÍM") false).formattedIdentifier = .ok (py"HUSZONKETTEDIK KÖNYV") :=
  ⟨⟨_, _, rfl, ⟨py"Huszonkettedik", _, [], rfl, .inl rfl, rfl, 22, by unfold Spec.OrdinalOf; decide +kernel, rfl⟩, rfl⟩, by decide +kernel⟩

/-- C68. What follows quoted text is not printed if nothing in brackets comes before it. -/
theorem wrap_up_not_printed : ∃ a, parseBlockAmendments (announcer thirdParagraph (py"Lép:"))
      (amendingAct (quoting (py"Lép:") amendmentLines (some (py"(úgy.)")))) = .ok a ∧
    isInfix (py"úgy") (shownL a.children) = false := by
  have h : (match parseBlockAmendments (announcer thirdParagraph (py"Lép:"))
      (amendingAct (quoting (py"Lép:") amendmentLines (some (py"(úgy.)")))) with
    | .ok a => !isInfix (py"úgy") (shownL a.children)
    | _ => false) = true := by decide +kernel
  split at h
  · rename_i a ha
    exact ⟨a, ha, by simpa using h⟩
  · cases h

end Verif.Props
