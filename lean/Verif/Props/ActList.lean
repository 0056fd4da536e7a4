import Verif.Proofs.ActList

/-! # The list of acts (C75) -/

namespace Verif.Props

open Verif.Spec Verif.ActList

/-- C75. What is printed for a page is a line for each act of it, in order: the acts are the texts that begin with the number of an act, each
with the text that comes after it, unless this is the number of an act too. -/
theorem acts_listed {page : Int × Int → Res (List Event)} {year issue : Int} {events : List Event} (h : page (year, issue) = .ok events) :
    ∃ texts, Both TidyText (pageTexts events) texts ∧ (issueRows page year issue).stop = none ∧
      (issueRows page year issue).yields = (actsOf (texts.filter (· ≠ []))).map fun p => row year issue p.1 p.2 := by
  obtain ⟨ts, h1, h2⟩ := keptTexts_tidy events
  refine ⟨ts, h1, ?_, ?_⟩
  · rw [issueRows, h]; rfl
  · rw [issueRows, h, ← h2, ← rows_none]
    rfl

/-- C75. All issues of all years are looked at in order, if none of the pages fails. -/
theorem all_listed {page : Int × Int → Res (List Event)} (h : ∀ x, ∃ events, page x = .ok events) :
    (allRows page).stop = none ∧ (allRows page).yields =
      (List.range 11).flatMap fun y => (List.range 359).flatMap fun i => (issueRows page (2009 + (y : Nat)) (1 + (i : Nat))).yields := by
  have one : ∀ year issue, (issueRows page year issue).stop = none := by
    intro year issue
    obtain ⟨e, he⟩ := h (year, issue)
    rw [issueRows, he]
    rfl
  have inner : ∀ year, overRange 1 (issueRows page year) 359 =
      { yields := (List.range 359).flatMap fun k => (issueRows page year (1 + (k : Nat))).yields } :=
    fun year => overRange_yields 1 _ 359 fun k _ => one _ _
  rw [allRows, overRange_yields 2009 _ 11 fun k _ => by rw [inner]]
  refine ⟨rfl, ?_⟩
  simp only [inner]

/-- C75. A line can be read back as comma separated values if there is no comma and no quote in the number of the act and no quote in the
text after it. -/
theorem row_read_back_partial {year issue : Int} {id title : Str} (hi : ',' ∉ id) (hq : '"' ∉ id) (hd : '"' ∉ title) :
    ∃ line, row year issue id title = line ++ (py"\n") ∧ csvLine line = [intStr year, intStr issue, id, title] :=
  row_reads hi (not_head fun c hc e => hq (e ▸ hc)) hd

example : ',' ∉ (py"2009. évi III. törvény") ∧ '"' ∉ (py"2009. évi III. törvény") ∧ '"' ∉ (py"Az egyes, fontos") ∧
    row 2009 28 (py"2009. évi III. törvény") (py"Az egyes, fontos") = py"2009,28,2009. évi III. törvény,\"Az egyes, fontos\"\n" := by
  decide +kernel

/-- C75. Quotes are not doubled and numbers of acts are not quoted: such lines are read back as something else. -/
theorem row_not_read_back :
    row 2009 28 (py"2009. évi III. törvény") (py"Az \"A, B\" után") = py"2009,28,2009. évi III. törvény,\"Az \"A, B\" után\"\n" ∧
    csvLine (py"2009,28,2009. évi III. törvény,\"Az \"A, B\" után\"") = [py"2009", py"28", py"2009. évi III. törvény", py"Az A", py" B\" után\""] ∧
    row 2009 28 (py"2009. évi III. törvény, végrehajtás") (py"A") = py"2009,28,2009. évi III. törvény, végrehajtás,A\n" ∧
    csvLine (py"2009,28,2009. évi III. törvény, végrehajtás,A") = [py"2009", py"28", py"2009. évi III. törvény", py" végrehajtás", py"A"] := by
  decide +kernel

/-- A page with two acts, of which the first one has no text. -/
def samplePageEvents : List Event :=
  [.startTag (py"b"), .data (py"2009. évi I. törvény"), .endTag (py"b"), .data (py" "), .data (py"2009. évi II. törvény"), .startTag (py"p"),
   .data (py"\n Tárgy \n"), .data (py"Más")]

example : ∃ texts, Both TidyText (pageTexts samplePageEvents) texts ∧
    (issueRows (fun _ => .ok samplePageEvents) 2009 1).yields = [py"2009,1,2009. évi II. törvény,Tárgy\n"] ∧
    (actsOf (texts.filter (· ≠ []))).map (fun p => row 2009 1 p.1 p.2) = [py"2009,1,2009. évi II. törvény,Tárgy\n"] := by
  obtain ⟨ts, h1, -, h3⟩ := acts_listed (page := fun _ => .ok samplePageEvents) (year := 2009) (issue := 1) rfl
  have h4 : (issueRows (fun _ => .ok samplePageEvents) 2009 1).yields = [py"2009,1,2009. évi II. törvény,Tárgy\n"] := by decide +kernel
  exact ⟨ts, h1, h4, h3.symm.trans h4⟩

end Verif.Props
