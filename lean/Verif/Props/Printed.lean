import Verif.Props.CachedPdf
import Verif.Props.Cli
import Verif.Proofs.Printout
import Verif.Props.Showable
import Verif.Props.Understood
import Verif.Spec.Printed

/-! # Issues that are printed in the usual way (C97) -/

namespace Verif.Props
open Spec

variable {o : Outside}

theorem typeset_contents : ∀ (row : List TextBox) (x : Placed), x ∈ typeset row → x.2.1 = py" " ∨ ∃ b ∈ row, x.2.1 = b.content
  | [], _, h => by simp [typeset] at h
  | [a], x, h => by
    simp only [typeset, List.mem_singleton] at h
    exact .inr ⟨a, by simp, by rw [h]⟩
  | a :: b :: row, x, h => by
    rw [typeset] at h
    rcases List.mem_append.1 h with h | h
    · rcases List.mem_cons.1 h with h | h
      · exact .inr ⟨a, by simp, by rw [h]⟩
      · split at h
        · exact .inl (by rw [List.mem_singleton.1 h])
        · cases h
    · rcases typeset_contents (b :: row) x h with h | ⟨c, hc, h⟩
      · exact .inl h
      · exact .inr ⟨c, by simp only [List.mem_cons] at hc ⊢; exact .inr hc, h⟩

theorem printed_fine {pages : List (List TextBox)} {l : Line} (h : PrintedLine pages l)
    (hone : ∀ page ∈ pages, ∀ b ∈ page, b.content.length = 1) : Fine l := by
  obtain ⟨row, ⟨boxes, hb, rows, hrows, base, hrow⟩, he⟩ := h
  intro q hq
  have hm : q.content ∈ l.parts.map (·.content) := List.mem_map.2 ⟨q, hq, rfl⟩
  rw [← place_contents l.parts 0, he] at hm
  obtain ⟨x, hx, hxq⟩ := List.mem_map.1 hm
  rcases typeset_contents row x hx with h | ⟨b, hbm, h⟩
  · rw [← hxq, h]; rfl
  · rw [← hxq, h]
    exact hone boxes hb b ((hrows.all b).mpr ⟨_, hrow, hbm⟩)

theorem produces_unique {s : Sources} {r : LawRawText} {x y : Extracted} (h : Produces s .act r x) (h' : Produces s .act r y) : x = y := by
  obtain ⟨body, a, b, c, h1, h2, h3, h4, rfl⟩ := h
  obtain ⟨body', a', b', c', k1, k2, k3, k4, rfl⟩ := h'
  obtain rfl := Except.ok.inj (h1.symm.trans k1)
  obtain rfl := Except.ok.inj (h2.symm.trans k2)
  obtain rfl := Except.ok.inj (h3.symm.trans k3)
  obtain rfl := Except.ok.inj (h4.symm.trans k4)
  rfl

theorem printed_bodies_fine (hx : Adds o.extra)
    (hjson : ∀ b p t, o.linesOf b = .ok p → o.read (o.write t (pdfData p)) = .ok (pdfData p))
    {rs : List (Issue × Res PdfOfLines)} {m : Machine PdfOfLines}
    (h : Runs o.world Undisturbed (fun p => ¬ p.writing) emptyMachine rs m)
    {s : Sources} (hs : ∀ i p, s.read i = .ok p → (i, .ok p) ∈ rs) {issues : List Issue} {pdfs : List PdfOfLines}
    {laws : List (List LawRawText)} (hp : Both (fun i p => s.read i = .ok p) issues pdfs) (hl : Both IssueLaws pdfs laws)
    (hprint : ∀ i ∈ issues, TypedApart o i) : ∀ r ∈ laws.flatten, ∀ l ∈ r.body, Fine l := by
  intro r hr l hlb
  obtain ⟨ls, hls, hr⟩ := List.mem_flatten.1 hr
  obtain ⟨p, hpm, hil⟩ := hl.mem_right hls
  obtain ⟨i, him, hip⟩ := hp.mem_right hpm
  obtain ⟨events, pages, k1, k2, k3⟩ := texts_printed hx hjson h (hs i p hip)
  obtain ⟨hc, hone⟩ := hprint i him events pages k1 k2
  rcases (k3 hc ls hil r hr).2 l hlb with rfl | hk
  · intro q hq; cases hq
  · exact printed_fine hk hone

theorem printed_given (hx : Adds o.extra)
    (hjson : ∀ b p t, o.linesOf b = .ok p → o.read (o.write t (pdfData p)) = .ok (pdfData p))
    {rs : List (Issue × Res PdfOfLines)} {m : Machine PdfOfLines}
    (h : Runs o.world Undisturbed (fun p => ¬ p.writing) emptyMachine rs m)
    {s : Sources} (hs : ∀ i p, s.read i = .ok p → (i, .ok p) ∈ rs) {issues : List Issue} {pdfs : List PdfOfLines}
    {laws : List (List LawRawText)} (hp : Both (fun i p => s.read i = .ok p) issues pdfs) (hl : Both IssueLaws pdfs laws)
    (hprint : ∀ i ∈ issues, TypedApart o i) (hu : ∀ r ∈ laws.flatten, ∃ preamble ns, UsualText s r preamble ns) :
    ∃ acts : List Act, IssuesGive s .act issues (acts.map .act) ∧
      Both (fun r a => a.identifier = r.identifier ∧ Produces s .act r (.act a) ∧ MadeAsWritten s r a) laws.flatten acts := by
  have hfine := printed_bodies_fine hx hjson h hs hp hl hprint
  have made : ∀ r ∈ laws.flatten, ∃ a, Produces s .act r (.act a) ∧ a.identifier = r.identifier ∧ MadeAsWritten s r a := by
    intro r hr
    have key : ∀ preamble ns, UsualText s r preamble ns → ∃ a, Produces s .act r (.act a) ∧
        stripAct a = ⟨r.identifier, r.publicationDate, r.subject, preamble, ns⟩ ∧
        ∀ before e after, actElements a = before ++ e :: after → ∀ t stop, SentenceOf e t stop →
          ∃ x, SaidIn s.analyze t x ∧ Records (definitions (before ++ [e])) x stop e := by
      rintro preamble ns ⟨ns', h1, h2, h3, h4⟩
      exact usual_act_made h1 h2 (hfine r hr) h3 h4
    obtain ⟨preamble, ns, hun⟩ := hu r hr
    obtain ⟨a, ha, hstrip, -⟩ := key preamble ns hun
    refine ⟨a, ha, congrArg Act.identifier hstrip, fun preamble' ns' hun' => ?_⟩
    obtain ⟨a', ha', k⟩ := key preamble' ns' hun'
    cases produces_unique ha ha'
    exact k
  have hacts : ∀ ls : List LawRawText, (∀ r ∈ ls, r ∈ laws.flatten) → ∃ acts : List Act, Both (Produces s .act) ls (acts.map .act) ∧
      Both (fun r a => a.identifier = r.identifier ∧ Produces s .act r (.act a) ∧ MadeAsWritten s r a) ls acts := by
    intro ls
    induction ls with
    | nil => exact fun _ => ⟨[], .nil, .nil⟩
    | cons r ls ih =>
      intro hsub
      obtain ⟨acts, ho, ho'⟩ := ih fun x hx => hsub x (List.mem_cons_of_mem _ hx)
      obtain ⟨a, ha, ha'⟩ := made r (hsub r List.mem_cons_self)
      exact ⟨a :: acts, .cons ha ho, .cons ⟨ha'.1, ha, ha'.2⟩ ho'⟩
  obtain ⟨acts, ho, ho'⟩ := hacts _ fun _ hr => hr
  exact ⟨acts, ⟨pdfs, laws, hp, hl, ho⟩, ho'⟩

/-- C97. If the files draw single characters, no two of them at one place, and the texts of their acts are written in the usual way, then
extraction from these issues, with any number of workers and with a cache that processes have filled before, raises no exception and gives
exactly one act for each of these texts: the one that is written there, with the semantic data that its sentences say. With at most one worker they
come from the last one to the first one. -/
theorem printed_acts_made (hx : Adds o.extra)
    (hjson : ∀ b p t, o.linesOf b = .ok p → o.read (o.write t (pdfData p)) = .ok (pdfData p))
    {rs : List (Issue × Res PdfOfLines)} {m : Machine PdfOfLines}
    (h : Runs o.world Undisturbed (fun p => ¬ p.writing) emptyMachine rs m)
    {s : Sources} (hs : ∀ i p, s.read i = .ok p → (i, .ok p) ∈ rs) {issues : List Issue} {pdfs : List PdfOfLines}
    {laws : List (List LawRawText)} (hp : Both (fun i p => s.read i = .ok p) issues pdfs) (hl : Both IssueLaws pdfs laws)
    (hprint : ∀ i ∈ issues, TypedApart o i) (hu : ∀ r ∈ laws.flatten, ∃ preamble ns, UsualText s r preamble ns)
    {workers : Nat} {g : Gen Extracted} (hg : (s.pipeline .act).Extracts (issues.map .issue) workers g) :
    g.stop = none ∧ ∃ acts : List Act, g.yields.Perm (acts.map .act) ∧ (workers ≤ 1 → g.yields = (acts.map .act).reverse) ∧
      Both (MadeAsWritten s) laws.flatten acts := by
  obtain ⟨acts, ho, ho'⟩ := printed_given hx hjson h hs hp hl hprint hu
  obtain ⟨g1, g2⟩ := pipeline_succeeds (.inr (.inr (.inr rfl))) ho hg
  refine ⟨g1, acts, g2, ?_, ho'.imp fun r _ a _ hra => hra.2.2⟩
  intro hone
  have h1 := (pipeline_in_order (s := s) (issues := issues) (.inr (.inr (.inr rfl))) _).2 ⟨_, ho, rfl⟩
  unfold Extraction.Extracts at h1 hg
  rw [if_neg (by omega)] at h1
  rw [if_neg (by omega)] at hg
  rw [ends_unique hg h1]

/-- C97. Extraction up to the structure of the acts only, or up to their amendments, gives exactly what is written in the texts, too; for the
structure the sentences need not be understood. -/
theorem printed_steps_made (hx : Adds o.extra)
    (hjson : ∀ b p t, o.linesOf b = .ok p → o.read (o.write t (pdfData p)) = .ok (pdfData p))
    {rs : List (Issue × Res PdfOfLines)} {m : Machine PdfOfLines}
    (h : Runs o.world Undisturbed (fun p => ¬ p.writing) emptyMachine rs m)
    {s : Sources} (hs : ∀ i p, s.read i = .ok p → (i, .ok p) ∈ rs) {issues : List Issue} {pdfs : List PdfOfLines}
    {laws : List (List LawRawText)} (hp : Both (fun i p => s.read i = .ok p) issues pdfs) (hl : Both IssueLaws pdfs laws)
    (hprint : ∀ i ∈ issues, TypedApart o i)
    (hfix : ∀ r ∈ laws.flatten, doAllFixups s.fixups r.identifier r.body = .ok r.body)
    (hu : ∀ r ∈ laws.flatten, ∃ preamble ns, BodyWritten r.body preamble ns) {workers : Nat} {g : Gen Extracted} :
    ((s.pipeline .structureOnly).Extracts (issues.map .issue) workers g → g.stop = none ∧ ∃ acts : List Act, g.yields.Perm (acts.map .structureOnly) ∧
      Both (fun r a => ∀ preamble ns, BodyWritten r.body preamble ns →
        a = ⟨r.identifier, r.publicationDate, r.subject, preamble, ns⟩) laws.flatten acts) ∧
    ((∀ r ∈ laws.flatten, ∃ preamble ns ns', BodyWritten r.body preamble ns ∧ Both (ElementAfterAmendments s.analyze) ns ns') →
      (s.pipeline .blockOnly).Extracts (issues.map .issue) workers g → g.stop = none ∧ ∃ acts : List Act, g.yields.Perm (acts.map .blockOnly) ∧
      Both (fun r a => ∀ preamble ns ns', BodyWritten r.body preamble ns → Both (ElementAfterAmendments s.analyze) ns ns' →
        a = ⟨r.identifier, r.publicationDate, r.subject, preamble, ns'⟩) laws.flatten acts) := by
  have hfine := printed_bodies_fine hx hjson h hs hp hl hprint
  have collect : ∀ (f : Act → Extracted) (c : ExtractedClass) (P : LawRawText → Act → Prop),
      (∀ r ∈ laws.flatten, ∃ a, Produces s c r (f a) ∧ P r a) → ∀ ls : List LawRawText, (∀ r ∈ ls, r ∈ laws.flatten) →
      ∃ acts : List Act, Both (Produces s c) ls (acts.map f) ∧ Both P ls acts := by
    intro f c P hP ls
    induction ls with
    | nil => exact fun _ => ⟨[], .nil, .nil⟩
    | cons r ls ih =>
      intro hsub
      obtain ⟨acts, ho, ho'⟩ := ih fun x hx => hsub x (List.mem_cons_of_mem _ hx)
      obtain ⟨a, ha, ha'⟩ := hP r (hsub r List.mem_cons_self)
      exact ⟨a :: acts, .cons ha ho, .cons ha' ho'⟩
  constructor
  · intro hg
    obtain ⟨acts, k1, k2⟩ := collect .structureOnly .structureOnly (fun r a => ∀ preamble ns, BodyWritten r.body preamble ns →
        a = ⟨r.identifier, r.publicationDate, r.subject, preamble, ns⟩) (fun r hr => by
      obtain ⟨preamble, ns, hb⟩ := hu r hr
      refine ⟨_, ⟨r.body, _, hfix r hr, act_parsed hb (hfine r hr) r.identifier r.subject r.publicationDate, rfl⟩, fun preamble' ns' hb' => ?_⟩
      obtain ⟨rfl, rfl⟩ := written_once hb hb' (hfine r hr)
      rfl) _ fun _ hr => hr
    obtain ⟨g1, g2⟩ := pipeline_succeeds (.inr (.inl rfl)) ⟨pdfs, laws, hp, hl, k1⟩ hg
    exact ⟨g1, acts, g2, k2⟩
  · intro ham hg
    obtain ⟨acts, k1, k2⟩ := collect .blockOnly .blockOnly (fun r a => ∀ preamble ns ns', BodyWritten r.body preamble ns →
        Both (ElementAfterAmendments s.analyze) ns ns' → a = ⟨r.identifier, r.publicationDate, r.subject, preamble, ns'⟩) (fun r hr => by
      obtain ⟨preamble, ns, ns', hb, hn⟩ := ham r hr
      obtain ⟨a, e1, e2⟩ := amended_act_as_written hb (hfine r hr) hn r.identifier r.subject r.publicationDate
      refine ⟨_, ⟨r.body, a, _, hfix r hr, e1, e2, rfl⟩, fun preamble' ms ms' hb' hn' => ?_⟩
      obtain ⟨rfl, rfl⟩ := amended_written_once hb hb' (hfine r hr) hn hn'
      rfl) _ fun _ hr => hr
    obtain ⟨g1, g2⟩ := pipeline_succeeds (.inr (.inr (.inl rfl))) ⟨pdfs, laws, hp, hl, k1⟩ hg
    exact ⟨g1, acts, g2, k2⟩

/-- C97. So a command that is to write these acts into a directory, or one of them, ends without exception if acts like these can be written in
the format, and for each wanted text the file with its name has the whole output of the act that is written there, or in another text with the
same name. -/
theorem printed_files_written (hx : Adds o.extra)
    (hjson : ∀ b p t, o.linesOf b = .ok p → o.read (o.write t (pdfData p)) = .ok (pdfData p))
    {rs : List (Issue × Res PdfOfLines)} {m : Machine PdfOfLines}
    (h : Runs o.world Undisturbed (fun p => ¬ p.writing) emptyMachine rs m)
    {s : Sources} (hs : ∀ i p, s.read i = .ok p → (i, .ok p) ∈ rs) {args : CliArgs} {pdfs : List PdfOfLines}
    {laws : List (List LawRawText)} (hp : Both (fun i p => s.read i = .ok p) args.issues pdfs) (hl : Both IssueLaws pdfs laws)
    (hprint : ∀ i ∈ args.issues, TypedApart o i) (hu : ∀ r ∈ laws.flatten, ∃ preamble ns, UsualText s r preamble ns)
    (hstep : args.step = .act) {dir : Str} (hd : args.outputDir = some dir) {p : Printers}
    (hwrite : ∀ r ∈ laws.flatten, ∀ a, Produces s .act r (.act a) → MadeAsWritten s r a → ∃ text, Writes p args.format (.act a) text)
    {w w' : CliWorld} {err : Option Err} (hr : CliRuns s p args w (w', err)) :
    err = none ∧ ∀ r ∈ laws.flatten, args.singleAct = none ∨ args.singleAct = some r.identifier →
      ∃ r' ∈ laws.flatten, r'.identifier = r.identifier ∧ ∃ a, MadeAsWritten s r' a ∧
        ∃ text, Writes p args.format (.act a) text ∧ w'.files.get? (filePath dir (.raw r) args.format) = some text := by
  obtain ⟨acts, ho, ho'⟩ := printed_given hx hjson h hs hp hl hprint hu
  have hc : IsStep args.step := by rw [hstep]; exact .inr (.inr (.inr rfl))
  have hgiven : Given s args (acts.map .act) := by
    refine ⟨acts.map .act, by rw [hstep]; exact ho, ?_⟩
    clear ho ho'
    induction acts with
    | nil => exact .nil
    | cons a acts ih => exact .cons (.act a) ih
  have he : err = none := by
    refine (run_succeeds_iff hc hr).2 ⟨_, hgiven, fun out hout _ => ?_⟩
    obtain ⟨a, ham, rfl⟩ := List.mem_map.1 hout
    obtain ⟨r, hrm, -, hprod, hmade⟩ := ho'.mem_right ham
    exact hwrite r hrm a hprod hmade
  subst he
  refine ⟨rfl, fun r hrm hone => ?_⟩
  obtain ⟨a, ham, hai, -⟩ := ho'.mem_left hrm
  have hw : WantedOutput args (.act a) := by
    rcases hone with h | h
    · exact .inr (.inr (.inl h))
    · exact .inr (.inr (.inr (by rw [h]; exact congrArg some hai.symm)))
  obtain ⟨out, hout, -, hid, text, ht, hf⟩ := (files_written hc hgiven hd hr).1 (.act a) (List.mem_map_of_mem ham) hw
  obtain ⟨a', ham', rfl⟩ := List.mem_map.1 hout
  obtain ⟨r', hrm', hai', -, hmade⟩ := ho'.mem_right ham'
  refine ⟨r', hrm', ?_, a', hmade, text, ht, ?_⟩
  · rw [← hai', ← hai]; exact hid
  · rw [← hf]
    simp only [filePath, Output.identifier, hai]

/-- C97. As text, the file has the lines that are printed of what is written in the text. -/
theorem printed_texts_written (hx : Adds o.extra)
    (hjson : ∀ b p t, o.linesOf b = .ok p → o.read (o.write t (pdfData p)) = .ok (pdfData p))
    {rs : List (Issue × Res PdfOfLines)} {m : Machine PdfOfLines}
    (h : Runs o.world Undisturbed (fun p => ¬ p.writing) emptyMachine rs m)
    {s : Sources} (hs : ∀ i p, s.read i = .ok p → (i, .ok p) ∈ rs) {args : CliArgs} {pdfs : List PdfOfLines}
    {laws : List (List LawRawText)} (hp : Both (fun i p => s.read i = .ok p) args.issues pdfs) (hl : Both IssueLaws pdfs laws)
    (hprint : ∀ i ∈ args.issues, TypedApart o i) (hstep : args.step = .act) (hformat : args.format = .txt) {dir : Str}
    (hd : args.outputDir = some dir) {p : Printers} (hu : ∀ r ∈ laws.flatten, ∃ preamble ns, UsualText s r preamble ns ∧
      (writeTxt p.wrap (.act ⟨r.identifier, r.publicationDate, r.subject, preamble, ns⟩)).stop = none)
    {w w' : CliWorld} {err : Option Err} (hr : CliRuns s p args w (w', err)) :
    err = none ∧ ∀ r ∈ laws.flatten, args.singleAct = none ∨ args.singleAct = some r.identifier →
      ∃ r' ∈ laws.flatten, r'.identifier = r.identifier ∧ ∀ preamble ns, UsualText s r' preamble ns →
        ∃ lines, writeTxt p.wrap (.act ⟨r'.identifier, r'.publicationDate, r'.subject, preamble, ns⟩) = ⟨lines, none⟩ ∧
          w'.files.get? (filePath dir (.raw r) .txt) = some (endedLines (lines.map Printed.text)) := by
  have key : ∀ r a, MadeAsWritten s r a → ∀ preamble ns, UsualText s r preamble ns →
      writeTxt p.wrap (.act a) = writeTxt p.wrap (.act ⟨r.identifier, r.publicationDate, r.subject, preamble, ns⟩) := by
    intro r a hm preamble ns hun
    rw [← (hm preamble ns hun).1]
    exact (writeAct_strip p.wrap 90 [] a).symm
  obtain ⟨he, hf⟩ := printed_files_written hx hjson h hs hp hl hprint (fun r hrm => (hu r hrm).imp fun _ hns => hns.imp fun _ hns => hns.1)
    hstep hd (p := p) (fun r hrm a _ hm => by
    obtain ⟨preamble, ns, hun, hstop⟩ := hu r hrm
    rw [← key r a hm preamble ns hun] at hstop
    rw [hformat]
    exact ⟨_, .txtAct (ls := (writeTxt p.wrap (.act a)).yields) (by rw [← hstop])⟩) hr
  refine ⟨he, fun r hrm hone => ?_⟩
  obtain ⟨r', hrm', hid, a, hm, text, ht, hget⟩ := hf r hrm hone
  refine ⟨r', hrm', hid, fun preamble ns hun => ?_⟩
  rw [hformat] at ht hget
  cases ht with
  | txtAct hls => exact ⟨_, (key r' a hm preamble ns hun) ▸ hls, hget⟩

theorem content_strip {m n : Node} (h : Inside m n) : ∃ m', Inside m' (strip n) ∧ (HasContent m' → HasContent m) := by
  induction h with
  | self =>
    refine ⟨_, .self _, ?_⟩
    cases m with
    | sae k d cs =>
      rw [strip]
      split
      · exact id
      · simp only [HasContent, stripL_map, ne_eq, List.map_eq_nil_iff]
        exact id
    | _ => exact id
  | @deeper c n hc hi ih =>
    cases n with
    | sae k d cs =>
      rw [strip]
      split
      · exact ⟨_, .deeper hc hi, id⟩
      · obtain ⟨m', h1, h2⟩ := ih
        refine ⟨m', .deeper (c := strip c) ?_ h1, h2⟩
        show strip c ∈ stripL cs
        rw [stripL_map]
        exact List.mem_map.2 ⟨c, hc, rfl⟩
    | _ => exact ⟨_, .deeper hc hi, id⟩

theorem content_stripArticle {m n : Node} (h : Inside m n) : ∃ m', Inside m' (stripArticle n) ∧ (HasContent m' → HasContent m) := by
  cases n with
  | article i t ps =>
    cases h with
    | self => exact ⟨_, .self _, id⟩
    | deeper hc hi =>
      rename_i c
      obtain ⟨m', h1, h2⟩ := content_strip hi
      refine ⟨m', .deeper (c := strip c) ?_ h1, h2⟩
      show strip c ∈ stripL ps
      rw [stripL_map]
      exact List.mem_map.2 ⟨c, hc, rfl⟩
  | _ => exact ⟨_, h, id⟩

mutual
theorem strip_said {analyze : Analyzer} : ∀ (n : Node) (pre post : Str), ∀ e ∈ elements pre post n,
    ∃ e' ∈ elements pre post (strip n), ∀ x stop, Said analyze e x stop → Said analyze e' x stop
  | .sae k d cs, pre, post => by
    cases hk : k.canBeSemanticParsed with
    | true =>
      rw [strip_sae _ _ hk, elements_sae _ _ _ _ hk, elements_sae _ _ _ _ hk]
      intro e he
      rcases List.mem_cons.mp he with rfl | he
      · refine ⟨_, List.mem_cons_self, fun x stop hx => ?_⟩
        cases hx with
        | text own hw hsaid => exact .text own hw hsaid
        | intro own own' hw hsaid => exact .intro own own' hw hsaid
        | bare own own' => exact .bare own own'
      · obtain ⟨e', he', k⟩ := stripL_said cs _ _ e he
        exact ⟨e', List.mem_cons_of_mem _ he', k⟩
    | false =>
      rw [elements_container _ _ _ _ hk]
      simp
  | .article .., _, _ => by simp [elements]
  | .quoted .., _, _ => by simp [elements]
  | .structural .., _, _ => by simp [elements]

theorem stripL_said {analyze : Analyzer} : ∀ (cs : List Node) (pre post : Str), ∀ e ∈ elementsL pre post cs,
    ∃ e' ∈ elementsL pre post (stripL cs), ∀ x stop, Said analyze e x stop → Said analyze e' x stop
  | [], _, _ => by simp [elementsL]
  | c :: cs, pre, post => by
    rw [stripL, elementsL, elementsL]
    intro e he
    rcases List.mem_append.mp he with he | he
    · obtain ⟨e', he', k⟩ := strip_said c pre post e he
      exact ⟨e', List.mem_append_left _ he', k⟩
    · obtain ⟨e', he', k⟩ := stripL_said cs pre post e he
      exact ⟨e', List.mem_append_right _ he', k⟩
end

theorem stripAct_said {analyze : Analyzer} {a : Act} {e : Entry} (he : e ∈ actElements a) :
    ∃ e' ∈ actElements (stripAct a), ∀ x stop, Said analyze e x stop → Said analyze e' x stop := by
  obtain ⟨c, hc, he⟩ := List.mem_flatMap.mp he
  cases c with
  | article i t ps =>
    obtain ⟨e', he', k⟩ := stripL_said ps [] [] e he
    exact ⟨e', List.mem_flatMap.2 ⟨.article i t (stripL ps), List.mem_map.2 ⟨_, hc, rfl⟩, he'⟩, k⟩
  | _ => cases he

/-- C97. As pages, too, if there is something to show everywhere in what is written, and no two references in a sentence of it have a character
in common: the file has the page of the act. -/
theorem printed_pages_written (hx : Adds o.extra)
    (hjson : ∀ b p t, o.linesOf b = .ok p → o.read (o.write t (pdfData p)) = .ok (pdfData p))
    {rs : List (Issue × Res PdfOfLines)} {m : Machine PdfOfLines}
    (h : Runs o.world Undisturbed (fun p => ¬ p.writing) emptyMachine rs m)
    {s : Sources} (hs : ∀ i p, s.read i = .ok p → (i, .ok p) ∈ rs) {args : CliArgs} {pdfs : List PdfOfLines}
    {laws : List (List LawRawText)} (hp : Both (fun i p => s.read i = .ok p) args.issues pdfs) (hl : Both IssueLaws pdfs laws)
    (hprint : ∀ i ∈ args.issues, TypedApart o i) (hstep : args.step = .act) (hformat : args.format = .html) {dir : Str}
    (hd : args.outputDir = some dir) {p : Printers} (hu : ∀ r ∈ laws.flatten, ∃ preamble ns, UsualText s r preamble ns ∧
      (∀ n ∈ ns, ∀ m, Inside m n → HasContent m) ∧
      ∀ e ∈ ns.flatMap articleElements, ∀ x stop, Said s.analyze e x stop → Spec.Apart x.references)
    {w w' : CliWorld} {err : Option Err} (hr : CliRuns s p args w (w', err)) :
    err = none ∧ ∀ r ∈ laws.flatten, args.singleAct = none ∨ args.singleAct = some r.identifier →
      ∃ r' ∈ laws.flatten, r'.identifier = r.identifier ∧ ∃ a, MadeAsWritten s r' a ∧ ∃ page, htmlDocument a = .ok page ∧
        w'.files.get? (filePath dir (.raw r) .html) = some ((py"<!DOCTYPE html>\n") ++ p.html page) := by
  obtain ⟨he, hf⟩ := printed_files_written hx hjson h hs hp hl hprint (fun r hrm => (hu r hrm).imp fun _ hns => hns.imp fun _ hns => hns.1)
    hstep hd (p := p) (fun r hrm a hprod hm => by
    obtain ⟨preamble, ns, hun, hcontent, hapart⟩ := hu r hrm
    have hstrip := (hm preamble ns hun).1
    have hns : a.children.map stripArticle = ns := congrArg Act.children hstrip
    obtain ⟨content, hc⟩ := (produced_page_late hprod (fun e he x stop hx => by
      obtain ⟨e', he', k⟩ := stripAct_said (analyze := s.analyze) he
      rw [hstrip] at he'
      exact hapart e' he' x stop (k x stop hx)) true).2 (fun n hn m hi => by
      obtain ⟨m', h1, h2⟩ := content_stripArticle hi
      exact h2 (hcontent _ (hns ▸ List.mem_map.2 ⟨n, hn, rfl⟩) m' h1))
    rw [hformat]
    exact ⟨_, .html (by unfold htmlDocument; rw [hc]; rfl)⟩) hr
  refine ⟨he, fun r hrm hone => ?_⟩
  obtain ⟨r', hrm', hid, a, hm, text, ht, hget⟩ := hf r hrm hone
  rw [hformat] at ht hget
  cases ht with
  | html hpage => exact ⟨r', hrm', hid, a, hm, _, hpage, hget⟩

/-! ## The issue with two acts of C96 -/

/-- The characters of a line of this issue. -/
def typedParts (dx : Rat) : Str → List Part
  | [] => []
  | c :: cs => ⟨dx, [c], false⟩ :: typedParts (if c = ' ' then 21/4 else if cs.head? = some ' ' then 27/4 else 6) cs

/-- A line of this issue. -/
def typedLine (dx margin : Rat) (s : Str) : Line := ⟨typedParts dx s, margin⟩

def typedBody : List Line := [typedLine 50 228 (py"1. § Elem.")]
def typedBody' : List Line := [typedLine 50 204 (py"1. § (1) Elem."), typedLine 50 234 (py"(2) Elem.")]

def typedNodes : List Node := [.article (py"1") none [.sae .paragraph { text := some (py"Elem.") } []]]
def typedNodes' : List Node := [.article (py"1") none
  [.sae .paragraph { identifier := some (py"1"), text := some (py"Elem.") } [],
   .sae .paragraph { identifier := some (py"2"), text := some (py"Elem.") } []]]

theorem typed_begins {previous line : Line} {i : Str} (hm : matchArticle line.content = some i) :
    BeginsElement true {} previous line (.article i) := by
  refine ⟨⟨matchArticle_iff.1 hm, fun x hx => ?_⟩, fun k i h => by cases h⟩
  cases hx

theorem typed_written : BodyWritten typedBody [] typedNodes := by
  refine .act (pre := []) (o := .article (py"1")) (.done _) (typed_begins (by decide +kernel)) ?_
  refine .element (o := .article (py"1")) (more := []) (typed_begins (by decide +kernel)) ?_ (no_quotes (by decide +kernel)) (.done _ _) (.done _ _)
  exact line_article (l' := typedLine 80 228 (py"Elem.")) (text := py"Elem.") (.inl (.inl ⟨by decide, by decide⟩)) rfl (by decide)
    (by unfold CutLine; decide +kernel) ⟨_, _, rfl, by decide⟩ rfl (by decide +kernel) (by decide +kernel)

theorem typed_written' : BodyWritten typedBody' [] typedNodes' := by
  refine .act (pre := []) (o := .article (py"1")) (.done _) (typed_begins (by decide +kernel)) ?_
  refine .element (o := .article (py"1")) (more := [typedLine 50 234 (py"(2) Elem.")]) (rest := []) (typed_begins (by decide +kernel)) ?_
    (no_quotes (by decide +kernel)) (.outside (by decide +kernel) (no_element (by decide +kernel)) (.done _ _)) (.done _ _)
  refine .article (first' := typedLine 80 204 (py"(1) Elem.")) (gap := py" ") (text := py"(1) Elem.") (.inl (.inl ⟨by decide, by decide⟩))
    (.inr rfl) rfl (by decide) (by unfold CutLine; decide +kernel) (.none ⟨_, _, rfl, by decide⟩) (.inl rfl) (by intro l hl; cases hl; rfl) (.list ?_)
  refine .item (line := typedLine 80 204 (py"(1) Elem.")) (own := []) (i := py"1") rfl (by simp) ?_ (no_quotes (by decide +kernel)) alone ?_
  · refine ⟨⟨.inl ⟨by decide, by decide⟩, py"Elem.", rfl⟩, typedLine 104 204 (py"Elem."), by unfold CutLine; decide +kernel, ?_⟩
    exact .text (no_quotes (by decide +kernel)) ⟨_, _, rfl, rfl⟩ (no_list (by simp))
  · refine .last (.inr rfl) ?_ ?_ (i := py"2") ?_ (no_quotes (by decide +kernel)) alone
    · exact ⟨py"1", [], py"2", [], by decide, by decide, ⟨by decide, by decide⟩, ⟨by decide, by decide⟩, by decide, .inl ⟨rfl, by decide⟩⟩
    · intro l hl
      cases hl
      decide +kernel
    · refine ⟨⟨.inl ⟨by decide, by decide⟩, py"Elem.", rfl⟩, typedLine 74 234 (py"Elem."), by unfold CutLine; decide +kernel, ?_⟩
      exact .text (no_quotes (by decide +kernel)) ⟨_, _, rfl, rfl⟩ (no_list (by simp))

/-- What is made of it; sentences are analysed. -/
def typedRead : Sources := { typedSources with analyze := analyze }

theorem typed_understood (i : Option Str) : Understood analyze ⟨[], { identifier := i, text := some (py"Elem.") }, []⟩ := by
  refine whole_sentence (t := py"Elem.") ?_ rfl rfl ⟨'.', by simp, by decide⟩ fun h => ?_
  · rintro u (h | ⟨h, _⟩)
    · exact (Option.some.inj h).symm
    · cases h
  · obtain ⟨w, hw, hi⟩ := h.2
    exact absurd ((isInfix_iff w _).2 hi) (by revert w; decide)

theorem typed_usual {r : LawRawText} (h : r.body = typedBody) : UsualText typedRead r [] typedNodes := by
  refine ⟨typedNodes, rfl, by rw [h]; exact typed_written, .cons (.article (.cons (.plain (.inl rfl)) .nil)) .nil, fun e he => ?_⟩
  obtain rfl : e = ⟨[], { text := some (py"Elem.") }, []⟩ := by
    simpa [typedNodes, articleElements, elementsL, elements] using he
  exact typed_understood none

theorem typed_usual' {r : LawRawText} (h : r.body = typedBody') : UsualText typedRead r [] typedNodes' := by
  refine ⟨typedNodes', rfl, by rw [h]; exact typed_written',
    .cons (.article (.cons (.plain (.inl rfl)) (.cons (.plain (.inl rfl)) .nil))) .nil, fun e he => ?_⟩
  have : e = ⟨[], { identifier := some (py"1"), text := some (py"Elem.") }, []⟩ ∨
      e = ⟨[], { identifier := some (py"2"), text := some (py"Elem.") }, []⟩ := by
    simpa [typedNodes', articleElements, elementsL, elements] using he
  rcases this with rfl | rfl <;> exact typed_understood _

set_option maxRecDepth 100000 in
theorem typed_laws : ∃ p r r', typedRead.read (2011, 71) = .ok p ∧ IssueLaws p [r, r'] ∧ r.body = typedBody ∧ r'.body = typedBody' := by
  have h : (match (typedRead.pipeline .raw).doWork 20 [.issue ⟨2011, 71⟩] with
    | some ⟨[.raw r', .raw r], none⟩ => decide (r.body = typedBody ∧ r'.body = typedBody')
    | _ => false) = true := by decide +kernel
  have hg : ∀ ys, (typedRead.pipeline .raw).doWork 20 [.issue ⟨2011, 71⟩] = some ⟨ys, none⟩ →
      ∃ outs, IssuesGive typedRead .raw [(2011, 71)] outs ∧ ys = outs.reverse := fun ys hg =>
    (issues_give (s := typedRead) (c := .raw) (.inl rfl) [(2011, 71)] ys).1 ⟨20, hg⟩
  revert hg
  generalize (typedRead.pipeline .raw).doWork 20 [.issue ⟨2011, 71⟩] = g at h
  intro hg
  split at h
  · rename_i r' r
    obtain ⟨outs, ⟨pdfs, laws, k1, k2, k3⟩, ho⟩ := hg _ rfl
    obtain rfl : outs = [.raw r, .raw r'] := by rw [← List.reverse_reverse outs, ← ho]; rfl
    cases k1 with
    | cons hp k1 =>
      cases k1
      cases k2 with
      | cons hl k2 =>
        cases k2
        simp only [List.flatten_cons, List.flatten_nil, List.append_nil] at k3
        cases k3 with
        | @cons x _ _ _ e1 k3 =>
          cases k3 with
          | @cons y _ _ _ e2 k3 =>
            cases k3
            have e1 : Extracted.raw r = .raw x := e1
            have e2 : Extracted.raw r' = .raw y := e2
            cases e1
            cases e2
            exact ⟨_, _, _, hp, hl, of_decide_eq_true h⟩
  · cases h

/-- Everything that is needed is met. -/
theorem typed_meets : ∃ rs m p r r', Runs typedOutside.world Undisturbed (fun p => ¬ p.writing) emptyMachine rs m ∧
    (∀ i q, typedRead.read i = .ok q → (i, .ok q) ∈ rs) ∧ typedRead.read (2011, 71) = .ok p ∧ IssueLaws p [r, r'] ∧
    (∀ i ∈ [(2011, 71)], TypedApart typedOutside i) ∧ (∀ x ∈ [[r, r']].flatten, ∃ preamble ns, UsualText typedRead x preamble ns) ∧
    r.body = typedBody ∧ r'.body = typedBody' := by
  obtain ⟨p, m, hd, hrun⟩ := typed_run
  obtain ⟨p', r, r', h1, h2, h3, h4⟩ := typed_laws
  obtain ⟨pages, q1, q2, q3⟩ := typed_apart
  refine ⟨_, m, p', r, r', hrun, ?_, h1, h2, ?_, ?_, h3, h4⟩
  · intro i q hq
    dsimp only [typedRead, typedSources] at hq
    split at hq
    · rename_i hi
      rw [hd] at hq
      cases hq
      simp [hi]
    · cases hq
  · intro i _ events pages' e1 e2
    dsimp only [typedOutside] at e1 e2
    cases e1
    rw [q1] at e2
    cases e2
    exact ⟨q2, q3⟩
  · intro x hx
    simp only [List.flatten_cons, List.flatten_nil, List.append_nil, List.mem_cons, List.not_mem_nil, or_false] at hx
    rcases hx with rfl | rfl
    · exact ⟨_, _, typed_usual h3⟩
    · exact ⟨_, _, typed_usual' h4⟩

/-- The acts of this issue are made, with any number of workers. -/
example {workers : Nat} {g : Gen Extracted} (hg : (typedRead.pipeline .act).Extracts ([(2011, 71)].map .issue) workers g) :
    g.stop = none ∧ ∃ a b, g.yields.Perm [.act a, .act b] ∧ (stripAct a).children = typedNodes ∧ (stripAct b).children = typedNodes' := by
  obtain ⟨rs, m, p, r, r', h, hs, h1, h2, hprint, hu, h3, h4⟩ := typed_meets
  obtain ⟨g1, acts, g2, -, g3⟩ := printed_acts_made addsNone_adds typed_json.1 h hs (.cons h1 .nil) (.cons h2 .nil) hprint hu hg
  refine ⟨g1, ?_⟩
  cases g3 with
  | cons x1 g3 =>
    cases g3 with
    | cons x2 g3 =>
      cases g3
      exact ⟨_, _, g2, by rw [(x1 _ _ (typed_usual h3)).1], by rw [(x2 _ _ (typed_usual' h4)).1]⟩

/-- A command writes one of them into a file: they have the same name. -/
example : ∃ w' a, CliRuns typedRead countPrinters { format := .json, issues := [(2011, 71)], outputDir := some (py"ki") } ⟨[], []⟩ (w', none) ∧
    ((stripAct a).children = typedNodes ∨ (stripAct a).children = typedNodes') ∧
    ∃ path text, Writes countPrinters .json (.act a) text ∧ w'.files.get? path = some text := by
  obtain ⟨rs, m, p, r, r', h, hs, h1, h2, hprint, hu, h3, h4⟩ := typed_meets
  obtain ⟨⟨w', err⟩, hr⟩ := run_ends typedRead countPrinters { format := .json, issues := [(2011, 71)], outputDir := some (py"ki") } ⟨[], []⟩
  obtain ⟨rfl, k⟩ := printed_files_written addsNone_adds typed_json.1 h hs
    (args := { format := .json, issues := [(2011, 71)], outputDir := some (py"ki") }) (.cons h1 .nil) (.cons h2 .nil) hprint hu rfl rfl
    (fun _ _ _ _ _ => ⟨_, .json rfl⟩) hr
  obtain ⟨x, hx, -, a, ha, text, ht, hf⟩ := k r (by simp) (.inl rfl)
  refine ⟨w', a, hr, ?_, _, text, ht, hf⟩
  simp only [List.flatten_cons, List.flatten_nil, List.append_nil, List.mem_cons, List.not_mem_nil, or_false] at hx
  rcases hx with rfl | rfl
  · exact .inl (by rw [(ha _ _ (typed_usual h3)).1])
  · exact .inr (by rw [(ha _ _ (typed_usual' h4)).1])

/-- As text. -/
example : ∃ w', CliRuns typedRead countPrinters { sampleCommand with outputDir := some (py"ki") } ⟨[], []⟩ (w', none) ∧
    ∃ path, ∃ ns, (ns = typedNodes ∨ ns = typedNodes') ∧ ∃ i d subject lines, writeTxt noWrap (.act ⟨i, d, subject, [], ns⟩) = ⟨lines, none⟩ ∧
      w'.files.get? path = some (endedLines (lines.map Printed.text)) := by
  obtain ⟨rs, m, p, r, r', h, hs, h1, h2, hprint, hu, h3, h4⟩ := typed_meets
  obtain ⟨⟨w', err⟩, hr⟩ := run_ends typedRead countPrinters { sampleCommand with outputDir := some (py"ki") } ⟨[], []⟩
  have hw : ∀ x ∈ [[r, r']].flatten, ∃ preamble ns, UsualText typedRead x preamble ns ∧
      (writeTxt countPrinters.wrap (.act ⟨x.identifier, x.publicationDate, x.subject, preamble, ns⟩)).stop = none := by
    intro x hx
    simp only [List.flatten_cons, List.flatten_nil, List.append_nil, List.mem_cons, List.not_mem_nil, or_false] at hx
    rcases hx with rfl | rfl
    · exact ⟨_, _, typed_usual h3, rfl⟩
    · exact ⟨_, _, typed_usual' h4, rfl⟩
  obtain ⟨rfl, k⟩ := printed_texts_written addsNone_adds typed_json.1 h hs (args := { sampleCommand with outputDir := some (py"ki") })
    (.cons h1 .nil) (.cons h2 .nil) hprint rfl rfl rfl hw hr
  obtain ⟨x, hx, -, ha⟩ := k r (by simp) (.inl rfl)
  simp only [List.flatten_cons, List.flatten_nil, List.append_nil, List.mem_cons, List.not_mem_nil, or_false] at hx
  rcases hx with rfl | rfl
  · obtain ⟨lines, k1, k2⟩ := ha _ _ (typed_usual h3)
    exact ⟨w', hr, _, _, .inl rfl, _, _, _, lines, k1, k2⟩
  · obtain ⟨lines, k1, k2⟩ := ha _ _ (typed_usual' h4)
    exact ⟨w', hr, _, _, .inr rfl, _, _, _, lines, k1, k2⟩

/-- Nothing is said in the sentence of these acts. -/
theorem typed_silent {i : Option Str} {x : Analysis} {stop : Nat}
    (h : Said analyze ⟨[], { identifier := i, text := some (py"Elem.") }, []⟩ x stop) : Spec.Apart x.references := by
  have key : ∀ {t : Str}, SaidIn analyze t x → ¬ LookedAt t → Spec.Apart x.references := by
    intro t ht hn
    cases ht with
    | said hl => exact absurd hl hn
    | nothing => exact ⟨nofun, .nil⟩
  cases h with
  | text own hw hsaid =>
    obtain rfl := Option.some.inj own
    obtain ⟨t, ht, -, hm⟩ := hw
    obtain rfl := trimmed_complete ht ⟨'.', by simp, by decide⟩
    rcases hm with ⟨rfl, -⟩ | ⟨-, -, hn⟩
    · refine key (t := py"Elem.") hsaid fun hl => ?_
      obtain ⟨w, hw, hi⟩ := hl.2
      exact absurd ((isInfix_iff w _).2 hi) (by revert w; decide)
    · exact absurd (by decide) (hn '.' (by simp))
  | intro own => cases own
  | bare own => cases own

theorem typed_content {i : Str} {t : Option Str} {ps : List Node} (h : ∀ p ∈ ps, ∃ d, p = .sae .paragraph d [] ∧ d.text = some (py"Elem.")) :
    ∀ m, Inside m (.article i t ps) → HasContent m := by
  intro m hm
  cases hm with
  | self => trivial
  | deeper hc hi =>
    obtain ⟨d, rfl, hd⟩ := h _ hc
    cases hi with
    | self => exact .inr ⟨by decide, by rw [hd]; decide⟩
    | deeper hc => cases hc

/-- As a page. -/
example : ∃ w' a, CliRuns typedRead countPrinters { format := .html, issues := [(2011, 71)], outputDir := some (py"ki") } ⟨[], []⟩ (w', none) ∧
    ((stripAct a).children = typedNodes ∨ (stripAct a).children = typedNodes') ∧
    ∃ path page, htmlDocument a = .ok page ∧ w'.files.get? path = some ((py"<!DOCTYPE html>\n") ++ countPrinters.html page) := by
  obtain ⟨rs, m, p, r, r', h, hs, h1, h2, hprint, hu, h3, h4⟩ := typed_meets
  obtain ⟨⟨w', err⟩, hr⟩ := run_ends typedRead countPrinters { format := .html, issues := [(2011, 71)], outputDir := some (py"ki") } ⟨[], []⟩
  have hw : ∀ x ∈ [[r, r']].flatten, ∃ preamble ns, UsualText typedRead x preamble ns ∧ (∀ n ∈ ns, ∀ m, Inside m n → HasContent m) ∧
      ∀ e ∈ ns.flatMap articleElements, ∀ x stop, Said typedRead.analyze e x stop → Spec.Apart x.references := by
    intro x hx
    simp only [List.flatten_cons, List.flatten_nil, List.append_nil, List.mem_cons, List.not_mem_nil, or_false] at hx
    rcases hx with rfl | rfl
    · refine ⟨_, _, typed_usual h3, fun n hn => ?_, fun e he x stop hx => ?_⟩
      · obtain rfl := List.mem_singleton.1 hn
        exact typed_content (by simp)
      · obtain rfl : e = ⟨[], { text := some (py"Elem.") }, []⟩ := by
          simpa [typedNodes, articleElements, elementsL, elements] using he
        exact typed_silent hx
    · refine ⟨_, _, typed_usual' h4, fun n hn => ?_, fun e he x stop hx => ?_⟩
      · obtain rfl := List.mem_singleton.1 hn
        exact typed_content (by simp)
      · have : e = ⟨[], { identifier := some (py"1"), text := some (py"Elem.") }, []⟩ ∨
            e = ⟨[], { identifier := some (py"2"), text := some (py"Elem.") }, []⟩ := by
          simpa [typedNodes', articleElements, elementsL, elements] using he
        rcases this with rfl | rfl <;> exact typed_silent hx
  obtain ⟨rfl, k⟩ := printed_pages_written addsNone_adds typed_json.1 h hs
    (args := { format := .html, issues := [(2011, 71)], outputDir := some (py"ki") }) (.cons h1 .nil) (.cons h2 .nil) hprint rfl rfl rfl hw hr
  obtain ⟨x, hx, -, a, ha, page, hpage, hf⟩ := k r (by simp) (.inl rfl)
  refine ⟨w', a, hr, ?_, _, page, hpage, hf⟩
  simp only [List.flatten_cons, List.flatten_nil, List.append_nil, List.mem_cons, List.not_mem_nil, or_false] at hx
  rcases hx with rfl | rfl
  · exact .inl (by rw [(ha _ _ (typed_usual h3)).1])
  · exact .inr (by rw [(ha _ _ (typed_usual' h4)).1])

/-- Up to the structure only. -/
example {workers : Nat} {g : Gen Extracted} (hg : (typedRead.pipeline .structureOnly).Extracts ([(2011, 71)].map .issue) workers g) :
    g.stop = none ∧ ∃ a b, g.yields.Perm [.structureOnly a, .structureOnly b] ∧ a.children = typedNodes ∧ b.children = typedNodes' := by
  obtain ⟨rs, m, p, r, r', h, hs, h1, h2, hprint, hu, h3, h4⟩ := typed_meets
  obtain ⟨g1, acts, g2, g3⟩ := (printed_steps_made addsNone_adds typed_json.1 h hs (.cons h1 .nil) (.cons h2 .nil) hprint (fun _ _ => rfl)
    (fun x hx => by
      obtain ⟨preamble, ns, ns', -, hb, -⟩ := hu x hx
      exact ⟨_, _, hb⟩)).1 hg
  refine ⟨g1, ?_⟩
  cases g3 with
  | cons x1 g3 =>
    cases g3 with
    | cons x2 g3 =>
      cases g3
      exact ⟨_, _, g2, by rw [x1 _ _ (h3 ▸ typed_written)], by rw [x2 _ _ (h4 ▸ typed_written')]⟩

/-- Up to the amendments. -/
example {workers : Nat} {g : Gen Extracted} (hg : (typedRead.pipeline .blockOnly).Extracts ([(2011, 71)].map .issue) workers g) :
    g.stop = none ∧ g.yields.length = 2 := by
  obtain ⟨rs, m, p, r, r', h, hs, h1, h2, hprint, hu, -, -⟩ := typed_meets
  have hb : ∀ x ∈ [[r, r']].flatten, ∃ preamble ns ns', BodyWritten x.body preamble ns ∧ Both (ElementAfterAmendments typedRead.analyze) ns ns' := by
    intro x hx
    obtain ⟨preamble, ns', ns, -, hb, hn, -⟩ := hu x hx
    exact ⟨_, _, _, hb, hn⟩
  obtain ⟨g1, acts, g2, g3⟩ := (printed_steps_made addsNone_adds typed_json.1 h hs (.cons h1 .nil) (.cons h2 .nil) hprint (fun _ _ => rfl)
    (fun x hx => by
      obtain ⟨preamble, ns, ns', hb, -⟩ := hb x hx
      exact ⟨_, _, hb⟩)).2 hb hg
  exact ⟨g1, by rw [g2.length_eq, List.length_map, ← g3.length]; rfl⟩

end Verif.Props
