import Verif.Model.ActList
import Verif.Spec.Grammar

/-! # The list of acts -/

namespace Verif.Spec

open Verif.ActList

/-- The texts of a page. -/
def pageTexts (events : List Event) : List Str := events.filterMap fun
  | .data s => some s
  | _ => none

/-- A text without spaces at its ends and with plain spaces. -/
def TidyText (d t : Str) : Prop := ∃ u, Stripped d u ∧ t = u.map fun c => if c = Char.ofNat 0xa0 then ' ' else c

/-- The number of an act, with anything after it: `2010. évi V. törvény`. -/
def ActHeading (s : Str) : Prop :=
  ∃ a b m rest, s = (py"20") ++ [a, b] ++ (py". évi ") ++ m ++ (py" törvény") ++ rest ∧ a ≠ '\n' ∧ b ≠ '\n' ∧ '\n' ∉ m

/-- Neighbours in a list. -/
def neighbours {α : Type} (l : List α) : List (α × α) := l.zip l.tail

open Classical in
/-- The acts of a page: each text that is the number of an act, with the text after it unless that is also one. -/
noncomputable def actsOf (texts : List Str) : List (Str × Str) := (neighbours texts).filter fun p => ActHeading p.1 ∧ ¬ ActHeading p.2

/-- Where a reader of comma separated values is: `csv.reader` of Python in its default dialect. -/
inductive CsvState
  | startField | inField | inQuoted | afterQuote

/-- The fields of a line without its end. -/
def csvFields : CsvState → Str → Str → List Str
  | _, acc, [] => [acc]
  | .startField, _, c :: s =>
    if c = '"' then csvFields .inQuoted [] s else if c = ',' then [] :: csvFields .startField [] s else csvFields .inField [c] s
  | .inField, acc, c :: s => if c = ',' then acc :: csvFields .startField [] s else csvFields .inField (acc ++ [c]) s
  | .inQuoted, acc, c :: s => if c = '"' then csvFields .afterQuote acc s else csvFields .inQuoted (acc ++ [c]) s
  | .afterQuote, acc, c :: s =>
    if c = '"' then csvFields .inQuoted (acc ++ [c]) s else if c = ',' then acc :: csvFields .startField [] s
    else csvFields .inField (acc ++ [c]) s

/-- What a line of comma separated values says. -/
def csvLine (s : Str) : List Str := csvFields .startField [] s

end Verif.Spec
