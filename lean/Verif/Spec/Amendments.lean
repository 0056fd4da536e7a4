import Verif.Model.SemanticParser
import Verif.Spec.Structure
import Verif.Spec.Parser

/-! # What amendments are -/

namespace Verif.Spec

/-- Round or square brackets around a text without line feeds, perhaps after a space and before a line feed. -/
def InBrackets (s inner : Str) : Prop :=
  ∃ space o c newline, s = space ++ o :: (inner ++ c :: newline) ∧ (space = [] ∨ space = [' ']) ∧
    (newline = [] ∨ newline = ['\n']) ∧ '\n' ∉ inner ∧ ((o = '(' ∧ c = ')') ∨ (o = '[' ∧ c = ']'))

/-- An introduction that ends with a text in brackets after a colon; of several such colons the last one counts. -/
def HasContext (intro actual inner : Str) : Prop :=
  ∃ x rest, actual = x ++ [':'] ∧ intro = actual ++ rest ∧ '\n' ∉ x ∧ InBrackets rest inner ∧
    ∀ y r i, intro = y ++ ':' :: r → '\n' ∉ y → InBrackets r i → y.length ≤ x.length

/-- What is left of an introduction without the text in brackets at its end. -/
def Announcement (intro actual : Str) : Prop :=
  (∃ inner, HasContext intro actual inner) ∨ (actual = intro ∧ ∀ a i, ¬ HasContext intro a i)

/-- An element with quoted text whose introduction announces an amendment at the position. -/
def Announces (analyze : Analyzer) (n : Node) (position : Position) : Prop :=
  ∃ k d cs intro actual analysis before pure after, n = .sae k d cs ∧ cs ≠ [] ∧ (∀ c ∈ cs, c.type = .quoted) ∧
    d.intro = some intro ∧ intro.length ≤ 10000 ∧ Announcement intro actual ∧ analyze actual = .ok analysis ∧
    analysis.semantic = before ++ .blockAmendment position pure :: after ∧
    ∀ x ∈ before, ∀ p q, x ≠ .blockAmendment p q

/-- `n'` is `n` with its only quoted block made into an amendment: the text in brackets at the end of the introduction
and the wrap-up, without its own first and last character, go to the amendment. Without such a text the amendment has
neither. -/
def Amended (position : Position) (n n' : Node) : Prop :=
  ∃ k d lines intro actual inner wrapUp cs, n = .sae k d [.quoted lines] ∧ d.intro = some intro ∧
    blockChildren position lines = .ok cs ∧
    ((∃ i, HasContext intro actual i ∧ inner = some i ∧ wrapUp = d.wrapUp.map fun w => (w.drop 1).dropLast) ∨
      ((∀ a i, ¬ HasContext intro a i) ∧ actual = intro ∧ inner = none ∧ wrapUp = none)) ∧
    n' = .sae k { d with intro := some actual, wrapUp := some [] }
      [.sae .blockAmendmentContainer { intro := inner, wrapUp := wrapUp } cs]

/-- The quoted text, if there is only one, cannot be parsed at the position. -/
def Unparsable (position : Position) (n : Node) : Prop :=
  ∀ lines, n.children = [.quoted lines] → ∀ cs, blockChildren position lines ≠ .ok cs

/-- The first line begins with the word None. -/
def NoneFirst (lines : List Line) : Prop := ∃ l s, lines.head? = some l ∧ l.content = py"None" ++ s

end Verif.Spec
