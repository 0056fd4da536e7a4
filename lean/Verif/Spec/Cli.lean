import Verif.Model.Cli
import Verif.Spec.Pipeline

/-! # What the command line should write -/

namespace Verif.Spec

/-- The act or the text that is written for what has been extracted. -/
inductive OutputOf : Extracted → Output → Prop
  | raw (r) : OutputOf (.raw r) (.raw r)
  | structureOnly (a) : OutputOf (.structureOnly a) (.act a)
  | blockOnly (a) : OutputOf (.blockOnly a) (.act a)
  | act (a) : OutputOf (.act a) (.act a)

/-- What the acts of the issues give, in their order, up to the step asked for. -/
def Given (s : Sources) (args : CliArgs) (objs : List Output) : Prop :=
  ∃ outs, IssuesGive s args.step args.issues outs ∧ Both OutputOf outs objs

/-- Something is to be written if no single act is asked for, if it is the one, and in any case at the two steps at which
`--single-act` is "not supported". -/
def WantedOutput (args : CliArgs) (o : Output) : Prop :=
  args.step = .structureOnly ∨ args.step = .blockOnly ∨ args.singleAct = none ∨ args.singleAct = some o.identifier

instance (args : CliArgs) (o : Output) : Decidable (WantedOutput args o) := by unfold WantedOutput; infer_instance

/-- Lines, each with its end. -/
def endedLines (ls : List Str) : Str := (ls.map fun l => l ++ ['\n']).flatten

/-- The whole output for an object in a format. -/
inductive Writes (p : Printers) : Format → Output → Str → Prop
  | txtAct {a ls} (h : writeTxt p.wrap (.act a) = ⟨ls, none⟩) : Writes p .txt (.act a) (endedLines (ls.map Printed.text))
  | txtRaw {r ls} (h : writeTxt p.wrap (.raw r) = ⟨ls, none⟩) : Writes p .txt (.raw r) (endedLines (ls.map Printed.text))
  | json {o ps} (h : p.json o = ⟨ps, none⟩) : Writes p .json o ps.flatten
  | html {a page} (h : htmlDocument a = .ok page) : Writes p .html (.act a) ((py"<!DOCTYPE html>\n") ++ p.html page)

/-- A line of the text of an act as it is written: a space for each five units by which it is indented, the marker of bold lines or
as many spaces, its content. Lines to the left of all that have something are not indented. -/
def RawLine (base : Rat) (l : Line) (t : Str) : Prop :=
  ∃ n : Nat, t = List.replicate n ' ' ++ (if l.bold then py"<BOLD> " else List.replicate 7 ' ') ++ l.content ∧
    (base ≤ l.indent → (n : Rat) * 5 ≤ l.indent - base ∧ l.indent - base < ((n : Rat) + 1) * 5) ∧ (l.indent ≤ base → n = 0)

end Verif.Spec
