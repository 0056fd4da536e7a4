import Verif.Spec.Txt
import Verif.Spec.Parser
import Verif.Spec.Amendments

/-! # What exactly a text file says -/

namespace Verif.Spec

/-- A text that is there, in brackets. -/
def inBrackets (o c : Str) (s : Option Str) : Str :=
  match s with
  | none | some [] => []
  | some t => o ++ t ++ c

mutual
/-- Everything that is printed of an object, in the order of printing. -/
def shown : Node → Str
  | .structural e => e.formattedIdentifier.toOption.getD [] ++ e.title
  | .quoted ls => py"„" ++ linesText ls ++ py"”"
  | .article i t cs => i ++ py".§" ++ inBrackets (py"[") (py"]") t ++ shownL cs
  | .sae k d cs =>
    if k = .blockAmendmentContainer then
      inBrackets (py"(") (py")") d.intro ++ py"„" ++ shownL cs ++ py"”" ++ inBrackets (py"(") (py")") d.wrapUp
    else heading k d.identifier ++ d.text.getD [] ++ d.intro.getD [] ++ shownL cs ++ d.wrapUp.getD []

/-- The same for siblings. -/
def shownL : List Node → Str
  | [] => []
  | c :: cs => shown c ++ shownL cs
end

/-- No number of a paragraph or a part of one is the empty text. -/
def Named (n : Node) : Prop := ∀ k d cs, Inside (.sae k d cs) n → d.identifier ≠ some []

/-- Amendments stand below something that has an introduction. -/
def Introduced (n : Node) : Prop :=
  ∀ k d cs, Inside (.sae k d cs) n → ∀ c ∈ cs, c.type = .sae .blockAmendmentContainer → d.intro ≠ none

/-- A text without spaces; the two opening quotation marks are not told apart. -/
def inkOnly (s : Str) : Str := noSpaces (ink s)

/-- The same; in addition square brackets are not told from round ones. -/
def inkFolded (s : Str) : Str := (inkOnly s).map fun c => if c = '[' then '(' else if c = ']' then ')' else c

/-- What is printed for the lines of a child of an act: what they say, except for headers of books, parts, titles and chapters. -/
def retold (lines : List Line) : Node → Str
  | .structural e => if e.kind = .subtitle then linesText lines else shown (.structural e)
  | _ => linesText lines

/-- Whatever follows the quoted text, if anything does, is in brackets, and so is what comes before it. -/
def WrappedUp (d : SaeData) : Prop :=
  ∀ w, d.wrapUp = some w → w = [] ∨ ∃ intro actual inner, d.intro = some intro ∧ HasContext intro actual inner ∧
    ∃ o c text, w = o :: (text ++ [c]) ∧ text ≠ [] ∧ ((o = '(' ∧ c = ')') ∨ (o = '[' ∧ c = ']'))

/-- An amendment at a place in an act that can be made out completely. -/
def WholeAmendment (analyze : Analyzer) (n : Node) : Prop :=
  ∀ position, Announces analyze n position → (∃ r, position = .ref r) ∧ ∀ k d lines, n = .sae k d [.quoted lines] →
    ((∀ l ∈ lines, FineEnd l) ∧ ¬ LongTitle lines ∧ ¬ NoneFirst lines) ∧ WrappedUp d

end Verif.Spec
