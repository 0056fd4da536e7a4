import Verif.Proofs.Cli
import Verif.Props.Pipeline
import Verif.Props.Html
import Verif.Props.Txt

/-! # The command line (C67) -/

namespace Verif.Props
open Spec

variable {s : Sources} {p : Printers} {args : CliArgs} {w w' : CliWorld} {err : Option Err} {objs : List Output}

/-- How a command ends if everything can be extracted. -/
theorem run_cases (hc : IsStep args.step) (hg : Given s args objs) (h : CliRuns s p args w (w', err)) :
    ∃ all, all.Perm objs ∧ (args.workers ≤ 1 → all = objs.reverse) ∧
    ((err = none ∧ (∀ o ∈ objs, WantedOutput args o → (p.output args.format o).stop = none) ∧
        w' = written p args w (all.filter fun o => WantedOutput args o)) ∨
     ∃ objs₁ o objs₂ x, all = objs₁ ++ o :: objs₂ ∧ (∀ o ∈ objs₁, WantedOutput args o → (p.output args.format o).stop = none) ∧
        WantedOutput args o ∧ (p.output args.format o).stop = some x ∧ err = some x ∧
        w' = written p args w ((objs₁.filter fun o => WantedOutput args o) ++ [o])) := by
  obtain ⟨outs, ho, hb⟩ := hg
  obtain ⟨g, hx, hr⟩ := h
  obtain ⟨h1, h2⟩ := pipeline_succeeds hc ho hx
  obtain ⟨all, ha, hp⟩ := both_output_perm hb h2
  have hrev : args.workers ≤ 1 → all = objs.reverse := by
    intro hw
    have hx1 : (s.pipeline args.step).Extracts (args.issues.map .issue) 1 ⟨g.yields, none⟩ := by
      unfold Extraction.Extracts at hx ⊢
      rw [if_neg (by omega)] at hx ⊢
      rw [← h1]; exact hx
    have hx2 : (s.pipeline args.step).Extracts (args.issues.map .issue) 1 ⟨outs.reverse, none⟩ :=
      (pipeline_in_order hc _).2 ⟨outs, ho, rfl⟩
    have he : g.yields = outs.reverse := by
      unfold Extraction.Extracts at hx1 hx2
      rw [if_neg (by omega)] at hx1 hx2
      have := ends_unique hx1 hx2
      exact congrArg Gen.yields this
    rw [(both_output.1 ha).1, (both_output.1 hb).1, he, List.filterMap_reverse]
  refine ⟨all, hp, hrev, ?_⟩
  obtain ⟨es₁, es₂, objs₁, hes, hb₁, hs, hcase⟩ := runLoop_cases p args hc g.stop _ _ _ _ hr.symm
  rcases hcase with ⟨rfl, rfl, rfl⟩ | ⟨e, es₃, rfl, hn, -⟩ | ⟨e, es₃, o, x, rfl, hoo, hw, hx', rfl, rfl⟩
  · rw [List.append_nil] at hes
    rw [hes] at ha
    obtain rfl := both_output_unique ha hb₁
    exact .inl ⟨h1, fun o ho => hs o (hp.mem_iff.2 ho), rfl⟩
  · obtain ⟨o, hoo⟩ := (both_output.1 ha).2 e (by rw [hes]; simp)
    rw [outputOf_iff.1 hoo] at hn
    cases hn
  · rw [hes] at ha
    obtain ⟨as, bs, rfl, ha1, ha2⟩ := both_append_left ha
    obtain rfl := both_output_unique ha1 hb₁
    cases ha2 with
    | @cons _ o' _ bs ho' ha2 =>
      have : o' = o := by
        have := outputOf_iff.1 ho'
        rw [outputOf_iff.1 hoo] at this
        exact (Option.some.inj this).symm
      subst this
      exact .inr ⟨as, o', bs, x, rfl, hs, hw, hx', rfl, rfl⟩

/-- What is given is named by a line of its issue that looks like the title of an act. -/
theorem given_titles (hg : Given s args objs) : ∀ o ∈ objs, ActTitle o.identifier := by
  obtain ⟨outs, ⟨pdfs, laws, -, h2, h3⟩, hb⟩ := hg
  intro o ho
  obtain ⟨e, he, hoo⟩ := hb.mem_right ho
  obtain ⟨r, hr, hp⟩ := h3.mem_right he
  obtain ⟨l, hl, hrl⟩ := List.mem_flatten.1 hr
  obtain ⟨pdf, -, hi⟩ := h2.mem_right hl
  have hid : o.identifier = r.identifier := by
    cases hoo with
    | raw r' =>
      have : r' = r := by
        cases hs : args.step <;> rw [hs] at hp <;> simp only [Produces, Extracted.raw.injEq, reduceCtorEq, and_false, exists_false] at hp
        exact hp
      rw [this]; rfl
    | structureOnly a => exact (produced_well_made hp (.inl rfl)).1.1
    | blockOnly a => exact (produced_well_made hp (.inr (.inl rfl))).1.1
    | act a => exact (produced_well_made hp (.inr (.inr rfl))).1.1
  obtain ⟨⟨page, hpage, line, hline, ht, he⟩, -⟩ := texts_of_issue hi r hrl
  rw [hid, he]
  exact ht

theorem title_not_rooted {i : Str} (h : ActTitle i) : i.head? ≠ some '/' := by
  obtain ⟨a, b, c, d, e, f, roman, rest, ha, -, -, -, -, -, -, -, rfl⟩ := h
  rcases ha with rfl | rfl <;> simp

/-- C67. The command ends without exception if and only if everything asked for can be extracted and what is to be written of it
can be written; this does not depend on the number of workers or on when they finish. -/
theorem run_succeeds_iff (hc : IsStep args.step) (h : CliRuns s p args w (w', err)) :
    err = none ↔ ∃ objs, Given s args objs ∧ ∀ o ∈ objs, WantedOutput args o → ∃ text, Writes p args.format o text := by
  constructor
  · rintro rfl
    obtain ⟨g, hx, hr⟩ := h
    obtain ⟨es₁, es₂, objs₁, hes, hb₁, hs, hcase⟩ := runLoop_cases p args hc g.stop _ _ _ _ hr.symm
    rcases hcase with ⟨rfl, hstop, -⟩ | ⟨e, es₃, rfl, hn, he, -⟩ | ⟨e, es₃, o, x, rfl, hoo, hw, hx', he, -⟩
    · rw [List.append_nil] at hes
      have hx' : (s.pipeline args.step).Extracts (args.issues.map .issue) args.workers.toNat ⟨g.yields, none⟩ := by
        rw [hstop]; exact hx
      obtain ⟨outs, ho, hp⟩ := pipeline_results hc hx'
      rw [← hes] at hb₁
      obtain ⟨objs, hb, hp'⟩ := both_output_perm hb₁ hp.symm
      exact ⟨objs, ⟨outs, ho, hb⟩, fun o ho hw => output_writes.1 (hs o (hp'.mem_iff.1 ho) hw)⟩
    · cases he
    · cases he
  · rintro ⟨objs, hg, hw⟩
    obtain ⟨all, hp, -, ⟨h1, -⟩ | ⟨objs₁, o, objs₂, x, rfl, -, hwo, hx, -⟩⟩ := run_cases hc hg h
    · exact h1
    · have := output_writes.2 (hw o (hp.mem_iff.1 (by simp)) hwo)
      rw [hx] at this
      cases this

/-- C67. Every command ends. -/
theorem run_ends (s : Sources) (p : Printers) (args : CliArgs) (w : CliWorld) : ∃ result, CliRuns s p args w result := by
  obtain ⟨g, hg⟩ := pipeline_ends s args.step (args.issues.map .issue) args.workers.toNat
  exact ⟨_, g, hg, rfl⟩

/-- C67. With an output directory, every object that is wanted has a file with the whole output of an object of its name, every
other file is as it was, and nothing is printed. -/
theorem files_written (hc : IsStep args.step) (hg : Given s args objs) {dir : Str} (hd : args.outputDir = some dir)
    (h : CliRuns s p args w (w', none)) :
    (∀ o ∈ objs, WantedOutput args o → ∃ o' ∈ objs, WantedOutput args o' ∧ o'.identifier = o.identifier ∧ ∃ text,
      Writes p args.format o' text ∧ w'.files.get? (filePath dir o args.format) = some text) ∧
    (∀ path, (∀ o ∈ objs, WantedOutput args o → path ≠ filePath dir o args.format) → w'.files.get? path = w.files.get? path) ∧
    w'.stdout = w.stdout := by
  obtain ⟨all, hp, -, ⟨-, h1, rfl⟩ | ⟨_, _, _, _, -, -, -, -, h1, -⟩⟩ := run_cases hc hg h
  · refine ⟨?_, ?_, written_dir_stdout hd _ _⟩
    · intro o ho hw
      rcases written_files (p := p) hd (filePath dir o args.format) (all.filter fun o => WantedOutput args o) w with
        ⟨o', ho', hp', he⟩ | ⟨hn, -⟩
      · obtain ⟨ho', hw'⟩ := List.mem_filter.1 ho'
        have ho' := hp.mem_iff.1 ho'
        have hw' : WantedOutput args o' := by simpa using hw'
        exact ⟨o', ho', hw', filePath_inj (title_not_rooted (given_titles hg o' ho')) (title_not_rooted (given_titles hg o ho)) hp',
          _, writes_of_stop (h1 o' ho' hw'), he⟩
      · exact absurd rfl (hn o (List.mem_filter.2 ⟨hp.mem_iff.2 ho, by simpa using hw⟩))
    · intro path hpath
      rcases written_files (p := p) hd path (all.filter fun o => WantedOutput args o) w with ⟨o', ho', hp', -⟩ | ⟨-, he⟩
      · obtain ⟨ho', hw'⟩ := List.mem_filter.1 ho'
        exact absurd hp'.symm (hpath o' (hp.mem_iff.1 ho') (by simpa using hw'))
      · exact he
  · cases h1

/-- C67. In particular, an object whose name no other has gets a file with its own output. -/
theorem own_file (hc : IsStep args.step) (hg : Given s args objs) {dir : Str} (hd : args.outputDir = some dir)
    (h : CliRuns s p args w (w', none)) {o : Output} (ho : o ∈ objs) (hw : WantedOutput args o)
    (hn : ∀ o' ∈ objs, o'.identifier = o.identifier → o' = o) :
    ∃ text, Writes p args.format o text ∧ w'.files.get? (filePath dir o args.format) = some text := by
  obtain ⟨o', ho', -, hi, text, ht, he⟩ := (files_written hc hg hd h).1 o ho hw
  exact ⟨text, hn o' ho' hi ▸ ht, he⟩

/-- C67. Without an output directory no file is touched and the outputs of what is wanted are printed one after another, each
entirely; with one worker from the last act of the last issue to the first of the first. -/
theorem all_printed (hc : IsStep args.step) (hg : Given s args objs) (hd : args.outputDir = none)
    (h : CliRuns s p args w (w', none)) :
    w'.files = w.files ∧ ∃ all texts, all.Perm objs ∧ (args.workers ≤ 1 → all = objs.reverse) ∧
      Both (Writes p args.format) (all.filter fun o => WantedOutput args o) texts ∧ w'.stdout = w.stdout ++ texts.flatten := by
  obtain ⟨all, hp, hr, ⟨-, h1, rfl⟩ | ⟨_, _, _, _, -, -, -, -, h1, -⟩⟩ := run_cases hc hg h
  · obtain ⟨h2, h3⟩ := written_stdout (p := p) hd (all.filter fun o => WantedOutput args o) w
    refine ⟨h2, all, _, hp, hr, ?_, h3⟩
    have : ∀ l : List Output, (∀ o ∈ l, Writes p args.format o (p.output args.format o).yields.flatten) →
        Both (Writes p args.format) l (l.map fun o => (p.output args.format o).yields.flatten) := by
      intro l hl
      induction l with
      | nil => exact .nil
      | cons o l ih => exact .cons (hl o (by simp)) (ih fun o ho => hl o (by simp [ho]))
    refine this _ fun o ho => ?_
    obtain ⟨ho, hw⟩ := List.mem_filter.1 ho
    exact writes_of_stop (h1 o (hp.mem_iff.1 ho) (by simpa using hw))
  · cases h1

/-- C67. If the command ends with an exception, every file is as it was or has the whole output of an object that was extracted,
except for one at most. -/
theorem one_file_broken (hc : IsStep args.step) {dir : Str} (hd : args.outputDir = some dir) (h : CliRuns s p args w (w', err)) :
    ∃ g, (s.pipeline args.step).Extracts (args.issues.map .issue) args.workers.toNat g ∧ w'.stdout = w.stdout ∧
      ∃ broken, ∀ path, path ≠ broken → w'.files.get? path = w.files.get? path ∨
        ∃ e ∈ g.yields, ∃ o text, OutputOf e o ∧ WantedOutput args o ∧ filePath dir o args.format = path ∧ Writes p args.format o text ∧
          w'.files.get? path = some text := by
  obtain ⟨g, hx, hr⟩ := h
  refine ⟨g, hx, ?_⟩
  obtain ⟨es₁, es₂, objs₁, hes, hb₁, hs, hcase⟩ := runLoop_cases p args hc g.stop _ _ _ _ hr.symm
  have key : ∀ path, (written p args w (objs₁.filter fun o => WantedOutput args o)).files.get? path = w.files.get? path ∨
        ∃ e ∈ g.yields, ∃ o text, OutputOf e o ∧ WantedOutput args o ∧ filePath dir o args.format = path ∧ Writes p args.format o text ∧
          (written p args w (objs₁.filter fun o => WantedOutput args o)).files.get? path = some text := by
    intro path
    rcases written_files (p := p) hd path (objs₁.filter fun o => WantedOutput args o) w with ⟨o, ho, hp, he⟩ | ⟨-, he⟩
    · obtain ⟨ho, hw⟩ := List.mem_filter.1 ho
      obtain ⟨e, hee, hoo⟩ := hb₁.mem_right ho
      exact .inr ⟨e, by rw [hes]; simp [hee], o, _, hoo, by simpa using hw, hp, writes_of_stop (hs o ho (by simpa using hw)), he⟩
    · exact .inl he
  rcases hcase with ⟨-, -, rfl⟩ | ⟨-, -, -, -, -, rfl⟩ | ⟨e, es₃, o, x, -, hoo, hw, hx', -, rfl⟩
  · exact ⟨written_dir_stdout hd _ _, [], fun path _ => key path⟩
  · exact ⟨written_dir_stdout hd _ _, [], fun path _ => key path⟩
  · refine ⟨written_dir_stdout hd _ _, filePath dir o args.format, fun path hp => ?_⟩
    rw [written_append]
    rcases written_files (p := p) hd path [o] (written p args w (objs₁.filter fun o => WantedOutput args o)) with ⟨o', ho', hp', -⟩ | ⟨-, he⟩
    · obtain rfl := List.mem_singleton.1 ho'
      exact absurd hp'.symm hp
    · rw [he]
      exact key path

/-- C67. A page can be asked for at every step, but that of the text of an act cannot be written. Its file is emptied all the same before the exception. -/
theorem raw_page_empties (hf : args.format = .html) (hs : args.step = .raw) (hg : Given s args objs) {dir : Str}
    (hd : args.outputDir = some dir) (hw : ∃ o ∈ objs, WantedOutput args o) (h : CliRuns s p args w (w', err)) :
    err = some .typeError ∧ ∃ o ∈ objs, WantedOutput args o ∧ w'.files.get? (filePath dir o args.format) = some [] := by
  have hraw : ∀ o ∈ objs, ∃ r, o = .raw r := by
    obtain ⟨outs, ⟨pdfs, laws, -, h2, h3⟩, hb⟩ := hg
    intro o ho
    obtain ⟨e, he, hoo⟩ := hb.mem_right ho
    obtain ⟨r, hr, hp⟩ := h3.mem_right he
    rw [hs] at hp
    obtain rfl : e = .raw r := hp
    cases hoo
    exact ⟨r, rfl⟩
  have hout : ∀ o ∈ objs, p.output args.format o = ⟨[], some .typeError⟩ := by
    intro o ho
    obtain ⟨r, rfl⟩ := hraw o ho
    rw [hf]; rfl
  obtain ⟨all, hp, -, ⟨-, h1, -⟩ | ⟨objs₁, o, objs₂, x, rfl, -, hwo, hx, rfl, rfl⟩⟩ := run_cases (.inl hs) hg h
  · obtain ⟨o, ho, hwo⟩ := hw
    have := h1 o ho hwo
    rw [hout o ho] at this
    cases this
  · have ho : o ∈ objs := hp.mem_iff.1 (by simp)
    rw [hout o ho] at hx
    refine ⟨hx.symm, o, ho, hwo, ?_⟩
    rw [written_append]
    rcases written_files (p := p) hd (filePath dir o args.format) [o] (written p args w (objs₁.filter fun o => WantedOutput args o)) with
      ⟨o', ho', -, he⟩ | ⟨hn, -⟩
    · obtain rfl := List.mem_singleton.1 ho'
      rw [he, hout o' ho]
      rfl
    · exact absurd rfl (hn o (by simp))

/-- C67. At the two steps between, `--single-act` makes no difference. -/
theorem single_act_ignored (hs : args.step = .structureOnly ∨ args.step = .blockOnly) (result : CliWorld × Option Err) :
    CliRuns s p args w result ↔ CliRuns s p { args with singleAct := none } w result := by
  have hn : ∀ o, notOutput args o = notOutput { args with singleAct := none } o := by
    intro o
    unfold notOutput
    rcases hs with h | h <;> simp [h]
  have hl : ∀ stop es w, runLoop p args stop es w = runLoop p { args with singleAct := none } stop es w := by
    intro stop es
    induction es with
    | nil => intro w; rfl
    | cons e es ih =>
      intro w
      simp only [runLoop, hn, ih]
      rfl
  unfold CliRuns
  simp only [hl]

/-- C67. The file of an object is directly in the directory if there is no slash in the name. -/
theorem path_in_directory_partial {o : Output} (ho : '/' ∉ o.identifier) {dir : Str} (f : Format) :
    ∃ name, '/' ∉ name ∧ name = o.identifier ++ ['.'] ++ f.name ∧
      (filePath dir o f = dir ++ '/' :: name ∨ (dir = [] ∨ dir.getLast? = some '/') ∧ filePath dir o f = dir ++ name) := by
  have hname : '/' ∉ o.identifier ++ ['.'] ++ f.name := by
    simp only [List.mem_append, List.mem_singleton, not_or]
    exact ⟨⟨ho, by decide⟩, by cases f <;> decide⟩
  refine ⟨_, hname, rfl, ?_⟩
  unfold filePath pathJoin
  have he : o.identifier ++ '.' :: f.name = o.identifier ++ ['.'] ++ f.name := by simp
  rw [he, if_neg (fun hh => hname (List.mem_of_mem_head? (by rw [hh]; rfl)))]
  by_cases hd : dir.isEmpty ∨ dir.getLast? = some '/'
  · rw [if_pos (by simpa using hd)]
    exact .inr ⟨by simpa using hd, rfl⟩
  · rw [if_neg (by simpa using hd)]
    exact .inl rfl

/-- C67. The name is a whole line of the issue that looks like the title of an act, and it can have slashes: such an act is not
written into the directory but to where the name leads. -/
theorem path_leads_out : ∃ name : Str, ActTitle name ∧ ∀ (r : LawRawText), r.identifier = name → ∀ dir : Str, dir ≠ [] →
    dir.getLast? ≠ some '/' → filePath dir (.raw r) .txt = dir ++ (py"/2010. évi V. törvény/../../x.txt") := by
  refine ⟨(py"2010. évi V. törvény/../../x"), ⟨'2', '0', '1', '0', '.', '.', ['V'], (py"/../../x"), by simp, by simp, by decide,
    by decide, by decide, by simp, by simp, by decide, by decide⟩, ?_⟩
  intro r hr dir hd hl
  unfold filePath pathJoin
  have : (Output.raw r).identifier = r.identifier := rfl
  rw [this, hr, if_neg (by decide), if_neg (by simp [hd, hl])]
  rfl

/-- C67. Issues are given as the year and the number. -/
theorem issue_read (year number : Nat) : parseIssue (natStr year ++ '/' :: natStr number) = .ok ((year : Int), (number : Int)) := by
  have hy : '/' ∉ natStr year := fun h => absurd (natStr_ascii year _ h) (by decide)
  have hf : strFind ['/'] (natStr year ++ '/' :: natStr number) = some (natStr year).length := by
    rw [strFind_skip '/' [] _ _ hy]
    simp [strFind]
  simp [parseIssue, splitOnce, hf, pyInt_natStr, bind, Except.bind]

/-- C67. Without a slash the command does not begin. -/
theorem issue_refused {s : Str} (h : '/' ∉ s) : parseIssue s = .error .valueError := by
  have hf : strFind ['/'] s = none := by
    have := strFind_skip '/' [] s [] h
    simpa [strFind] using this
  simp [parseIssue, splitOnce, hf]

/-- C67. The page of an act is titled with its name and has its body. -/
theorem page_written {a : Act} {page : Elem} (h : htmlDocument a = .ok page) :
    ∃ encoding style content, htmlBody a = .ok content ∧
      page = .mk (py"html") [] none
        [.mk (py"head") [] none [.mk (py"title") [] (some a.identifier) [] none, encoding, style] none,
         .mk (py"body") [] (some (py"\n")) [content] none] none := by
  unfold htmlDocument at h
  obtain ⟨content, hc, h⟩ := resBind_ok h
  cases h
  exact ⟨_, _, content, hc, rfl⟩

/-- C67. The links to the elements of an act lead to the file that is written for its page, from the directory. -/
theorem links_lead_to_file {a : Act} {r : Reference} {n : Node} (he : ElementAt a r n) (ha : '/' ∉ a.identifier) {dir : Str}
    (hd : dir ≠ []) (hl : dir.getLast? ≠ some '/') :
    ∃ name id, hrefForRef r = name ++ '#' :: id ∧ filePath dir (.act a) .html = dir ++ '/' :: name := by
  refine ⟨a.identifier ++ (py".html"), r.relativeIdString, ?_, ?_⟩
  · unfold hrefForRef
    have : r.act = some a.identifier := by
      clear ha
      induction he with
      | article => rfl
      | _ => assumption
    rw [this]
  · obtain ⟨name, -, rfl, h | ⟨h, -⟩⟩ := path_in_directory_partial (o := .act a) ha (dir := dir) .html
    · rw [h]; simp [Output.identifier, Format.name]
    · exact (h.elim hd hl).elim

/-- C67. The text of an act is written below its name and subject with every line of it, in order, if a line has something in it;
otherwise there is an exception. -/
theorem raw_lines_written (wrap : Wrap) (r : LawRawText) :
    ((∃ l ∈ r.body, l.isEmptyLine = false) ∧ ∃ base shown, (∃ l ∈ r.body, l.isEmptyLine = false ∧ l.indent = base) ∧
      (∀ l ∈ r.body, l.isEmptyLine = false → base ≤ l.indent) ∧ Both (RawLine base) r.body shown ∧
      (writeTxt wrap (.raw r)).stop = none ∧
      (writeTxt wrap (.raw r)).yields.map Printed.text =
        ((py"==== ") ++ r.identifier ++ (py" - ") ++ r.subject ++ (py" =====\n")) :: shown ++ [[]]) ∨
    ((∀ l ∈ r.body, l.isEmptyLine = true) ∧ (writeTxt wrap (.raw r)).stop = some .valueError) := by
  rcases minIndent_spec r.body with ⟨base, hb, hmin, l, hl, hle, hlb⟩ | ⟨hb, hall⟩
  · refine .inl ⟨⟨l, hl, hle⟩, base, r.body.map fun l => List.replicate (pyTrunc ((l.indent - base) * (1 / 5))).toNat ' ' ++
        (if l.bold then py"<BOLD> " else py"       ") ++ l.content, ⟨l, hl, hle, hlb⟩, hmin, ?_, ?_, ?_⟩
    · refine both_map _ (fun l => ⟨_, rfl, fun h => ?_, fun h => ?_⟩) _
      · have h0 : 0 ≤ (l.indent - base) * (1 / 5) := by grind
        obtain ⟨h1, h2⟩ := pyTrunc_nonneg h0
        constructor <;> grind
      · exact pyTrunc_nonpos (by grind)
    · simp [writeTxt, writeRaw, printTo, Gen.andThen, Gen.using, hb]
    · simp [writeTxt, writeRaw, printTo, Gen.andThen, Gen.using, hb, titleLine]
  · exact .inr ⟨hall, by simp [writeTxt, writeRaw, printTo, Gen.andThen, Gen.using, hb]⟩

/-- Json that tells how many children the children of an act have. -/
def countPrinters : Printers where
  wrap := noWrap
  json
    | .act a => ⟨(a.children.map fun c => natStr c.children.length), none⟩
    | .raw _ => ⟨[], none⟩
  html _ := []

/-- What is needed of the two acts of the sample. -/
def SampleActs (a b : Act) : Prop :=
  a.identifier = (py"2010. évi CLVIII. törvény") ∧ b.identifier = (py"2010. évi CLVIII. törvény") ∧
    a.children.map (fun c => c.children.length) = [2] ∧ b.children.map (fun c => c.children.length) = [1] ∧
    (writeTxt noWrap (.act a)).stop = none ∧ (writeTxt noWrap (.act b)).stop = none

instance (a b : Act) : Decidable (SampleActs a b) := by unfold SampleActs; infer_instance

theorem sampleActs_given : ∃ a b, SampleActs a b ∧ IssuesGive sampleSources .act [(2011, 71)] [.act b, .act a] := by
  have h : (match sampleGiven with
    | some ⟨[.act a, .act b], none⟩ => decide (SampleActs a b)
    | _ => false) = true := by decide +kernel
  have hg : ∃ a b, sampleGiven = some ⟨[.act a, .act b], none⟩ ∧ SampleActs a b := by
    generalize sampleGiven = g at h
    split at h
    · exact ⟨_, _, rfl, of_decide_eq_true h⟩
    · cases h
  obtain ⟨a, b, hg, hs⟩ := hg
  obtain ⟨outs, ho, he⟩ := (issues_give (s := sampleSources) (c := .act) (.inr (.inr (.inr rfl))) [(2011, 71)] [.act a, .act b]).1
    ⟨20, hg⟩
  refine ⟨a, b, hs, ?_⟩
  rw [← List.reverse_reverse outs, ← he] at ho
  exact ho

theorem sample_given {args : CliArgs} (hi : args.issues = [(2011, 71)]) (hs : args.step = .act) :
    ∃ a b, SampleActs a b ∧ Given sampleSources args [.act b, .act a] := by
  obtain ⟨a, b, h, hg⟩ := sampleActs_given
  exact ⟨a, b, h, [.act b, .act a], by rw [hi, hs]; exact hg, .cons (.act b) (.cons (.act a) .nil)⟩

/-- C67. If two acts have the same name the output of one of them is in no file. -/
theorem same_name_lost : ∃ (s : Sources) (p : Printers) (args : CliArgs) (objs : List Output) (w' : CliWorld) (o : Output),
    IsStep args.step ∧ Given s args objs ∧ CliRuns s p args ⟨[], []⟩ (w', none) ∧ o ∈ objs ∧ WantedOutput args o ∧
    args.outputDir ≠ none ∧ ∀ text, Writes p args.format o text → ∀ path, w'.files.get? path ≠ some text := by
  let args : CliArgs := { format := .json, issues := [(2011, 71)], outputDir := some (py"ki") }
  have hc : IsStep args.step := .inr (.inr (.inr rfl))
  obtain ⟨a, b, ⟨ha, hb, hac, hbc, -, -⟩, hg⟩ := sample_given (args := args) rfl rfl
  obtain ⟨⟨w', err⟩, hr⟩ := run_ends sampleSources countPrinters args ⟨[], []⟩
  have hwr : ∀ o : Output, ∃ text, Writes countPrinters .json o text := fun o => by
    cases o <;> exact ⟨_, .json rfl⟩
  have he : err = none := (run_succeeds_iff hc hr).2 ⟨_, hg, fun o _ _ => hwr o⟩
  subst he
  refine ⟨sampleSources, countPrinters, args, _, w', .act a, hc, hg, hr, by simp, .inr (.inr (.inl rfl)), by simp [args], ?_⟩
  obtain ⟨all, -, hall, ⟨-, -, rfl⟩ | ⟨_, _, _, _, -, -, -, -, h1, -⟩⟩ := run_cases hc hg hr
  · have hall := hall (by decide)
    subst hall
    intro text ht path hp
    have hta := writes_text ht
    rcases written_files (p := countPrinters) (args := args) rfl path
      ((([.act b, .act a] : List Output).reverse).filter fun o => WantedOutput args o) ⟨[], []⟩ with ⟨o, ho, hpath, he⟩ | ⟨-, he⟩
    · have hfa : (countPrinters.output args.format (.act a)).yields = [['2']] := by
        have : (countPrinters.output args.format (.act a)).yields = (a.children.map (fun c => c.children.length)).map natStr := by
          simp [args, Printers.output, countPrinters]
        rw [this, hac]; decide
      have hfb : (countPrinters.output args.format (.act b)).yields = [['1']] := by
        have : (countPrinters.output args.format (.act b)).yields = (b.children.map (fun c => c.children.length)).map natStr := by
          simp [args, Printers.output, countPrinters]
        rw [this, hbc]; decide
      have hpe : filePath (py"ki") (.act a) args.format = filePath (py"ki") (.act b) args.format := by
        simp only [filePath, Output.identifier, ha, hb]
      have hlast : (written countPrinters args ⟨[], []⟩
          ((([.act b, .act a] : List Output).reverse).filter fun o => WantedOutput args o)).files.get? path = some ['1'] := by
        have hw : ((([.act b, .act a] : List Output).reverse).filter fun o => WantedOutput args o) = [.act a, .act b] := by
          simp [WantedOutput, args]
        have hpb : path = filePath (py"ki") (.act b) args.format := by
          rw [hw] at ho
          simp only [List.mem_cons, List.not_mem_nil, or_false] at ho
          rcases ho with rfl | rfl
          · rw [← hpath, hpe]
          · rw [hpath]
        rw [hw]
        have : written countPrinters args ⟨[], []⟩ [.act a, .act b] =
          (writeOutput countPrinters args (.act b) (writeOutput countPrinters args (.act a) ⟨[], []⟩).1).1 := rfl
        rw [this]
        simp only [writeOutput, args] at hfb ⊢
        rw [hfb, Dict.get?_set, if_pos hpb]
        rfl
      rw [hp, hta, hfa] at hlast
      revert hlast
      decide
    · rw [hp] at he
      simp [Dict.get?] at he
  · cases h1

/-- A command that writes the acts of the sample into a directory, and one that prints them. -/
def sampleCommand : CliArgs := { format := .txt, issues := [(2011, 71)], outputDir := some (py"ki"), workers := 4 }

theorem sample_runs (dir : Option Str) : ∃ a b w', SampleActs a b ∧ Given sampleSources { sampleCommand with outputDir := dir } [.act b, .act a] ∧
    CliRuns sampleSources countPrinters { sampleCommand with outputDir := dir } ⟨[], []⟩ (w', none) := by
  obtain ⟨a, b, h, hg⟩ := sample_given (args := { sampleCommand with outputDir := dir }) rfl rfl
  obtain ⟨⟨w', err⟩, hr⟩ := run_ends sampleSources countPrinters { sampleCommand with outputDir := dir } ⟨[], []⟩
  have he : err = none := by
    refine (run_succeeds_iff (.inr (.inr (.inr rfl))) hr).2 ⟨_, hg, fun o ho _ => output_writes.1 ?_⟩
    simp only [List.mem_cons, List.not_mem_nil, or_false] at ho
    rcases ho with rfl | rfl
    · exact h.2.2.2.2.2
    · exact h.2.2.2.2.1
  subst he
  exact ⟨a, b, w', h, hg, hr⟩

example : ∃ objs w' text, Given sampleSources sampleCommand objs ∧ objs.length = 2 ∧
    CliRuns sampleSources countPrinters sampleCommand ⟨[], []⟩ (w', none) ∧
    w'.files.get? (py"ki/2010. évi CLVIII. törvény.txt") = some text := by
  obtain ⟨a, b, w', h, hg, hr⟩ := sample_runs (some (py"ki"))
  obtain ⟨o', -, -, -, text, -, ht⟩ := (files_written (.inr (.inr (.inr rfl))) hg rfl hr).1 (.act a) (by simp) (.inr (.inr (.inl rfl)))
  refine ⟨_, w', text, hg, rfl, hr, ?_⟩
  have : filePath (py"ki") (.act a) .txt = (py"ki/2010. évi CLVIII. törvény.txt") := by
    simp only [filePath, Output.identifier, h.1]
    decide
  rw [← this]
  exact ht

example : ∃ objs w', Given sampleSources { sampleCommand with outputDir := none } objs ∧ objs.length = 2 ∧
    CliRuns sampleSources countPrinters { sampleCommand with outputDir := none } ⟨[], []⟩ (w', none) := by
  obtain ⟨a, b, w', -, hg, hr⟩ := sample_runs none
  exact ⟨_, w', hg, rfl, hr⟩

example : ∃ (args : CliArgs) (objs : List Output) (w' : CliWorld), args.format = .html ∧ args.step = .raw ∧
    Given sampleSources args objs ∧ (∃ o ∈ objs, WantedOutput args o) ∧
    CliRuns sampleSources countPrinters args ⟨[], []⟩ (w', some .typeError) := by
  let args : CliArgs := { sampleCommand with format := .html, step := .raw }
  obtain ⟨a, b, -, pdfs, laws, h1, h2, h3⟩ := sampleActs_given
  have hg : Given sampleSources args (laws.flatten.map .raw) := by
    refine ⟨laws.flatten.map .raw, ⟨pdfs, laws, h1, h2, both_map (R := Produces sampleSources .raw) Extracted.raw (fun _ => rfl) _⟩, ?_⟩
    generalize laws.flatten = l
    induction l with
    | nil => exact .nil
    | cons r l ih => exact .cons (.raw r) ih
  obtain ⟨r, hr, -⟩ := h3.mem_right (show Extracted.act a ∈ _ by simp)
  have hw : ∃ o ∈ laws.flatten.map Output.raw, WantedOutput args o := ⟨.raw r, List.mem_map_of_mem hr, .inr (.inr (.inl rfl))⟩
  obtain ⟨⟨w', err⟩, hrun⟩ := run_ends sampleSources countPrinters args ⟨[], []⟩
  obtain ⟨rfl, -⟩ := raw_page_empties rfl rfl hg rfl hw hrun
  exact ⟨args, _, w', rfl, rfl, hg, hw, hrun⟩

example : parseIssue (py"2013/31") = .ok (2013, 31) := issue_read 2013 31

example : ∃ r : LawRawText, (∃ l ∈ r.body, l.isEmptyLine = false) ∧
    (writeTxt noWrap (.raw r)).yields.map Printed.text =
      [py"==== 2010. évi I. törvény - tárgy =====\n", py"       1. § Elem.", py"       ", py"         a) pont", py""] := by
  refine ⟨⟨py"2010. évi I. törvény", ⟨2010, 1, 1⟩, py"tárgy", [spread 10 (py"1. § Elem."), emptyLine, spread 20 (py"a) pont")]⟩, ?_, ?_⟩
  · exact ⟨spread 10 (py"1. § Elem."), by simp, by decide⟩
  · decide +kernel

end Verif.Props
