import Verif.Spec.Numerals
import Verif.Model.Structure
import Verif.Spec.Lines
import Verif.Spec.Identifiers

/-! # What parsing lines into elements should mean -/

namespace Verif.Spec

/-- Members of two lists correspond. -/
inductive Both {α β : Type} (R : α → β → Prop) : List α → List β → Prop
  | nil : Both R [] []
  | cons {a b as bs} (head : R a b) (tail : Both R as bs) : Both R (a :: as) (b :: bs)

/-! ## Text is kept -/

/-- A text without its spaces; the two opening quotation marks are not told apart. -/
def ink (s : Str) : Str := (s.filter (· ≠ ' ')).map fun c => if c = '“' then '„' else c

/-- The text of all lines. -/
def linesText (ls : List Line) : Str := ls.flatMap (·.content)

/-- The number of an element as it is printed. -/
def heading (k : SaeKind) (identifier : Option Str) : Str :=
  match identifier with
  | none => []
  | some i => match k with
    | .paragraph => py"(" ++ i ++ py")"
    | .alphabeticPoint | .alphabeticSubpoint => i ++ py")"
    | .numericPoint | .numericSubpoint => i ++ py"."
    | .blockAmendmentContainer => []

mutual
/-- Everything that an article, a part of it or a quoted block has to say, in the order of printing. -/
def printed : Node → Str
  | .sae k d cs => heading k d.identifier ++ d.text.getD [] ++ d.intro.getD [] ++ printedL cs ++ d.wrapUp.getD []
  | .article i t cs => i ++ py".§" ++ (match t with
      | none => []
      | some t => py"[" ++ t ++ py"]") ++ printedL cs
  | .quoted ls => py"„" ++ linesText ls ++ py"”"
  | .structural _ => []

/-- The same for siblings. -/
def printedL : List Node → Str
  | [] => []
  | c :: cs => printed c ++ printedL cs
end

/-- The header of a book, part, title or chapter says which one it is; one newline may follow it. -/
def HeaderSays (e : StructuralElement) (header : Str) : Prop :=
  ∃ number name newline, header = number ++ name ++ newline ∧ (newline = [] ∨ newline = ['\n']) ∧ match e.kind with
    | .book => name = py" KÖNYV" ∧ ∃ n, OrdinalOf number n ∧ e.identifier = natStr n
    | .part => name = py" RÉSZ" ∧ ∃ n, OrdinalOf number n ∧ e.identifier = natStr n
    | .title => name = py". CÍM" ∧ RomanNumber number e.identifier
    | .chapter => lower name = py". fejezet" ∧ RomanNumber number e.identifier
    | .subtitle => False

/-- The parts that have a name instead of a number. -/
def namedParts : List Str := [py"ÁLTALÁNOS RÉSZ", py"KÜLÖNÖS RÉSZ", py"ZÁRÓ RÉSZ"]

/-- The lines are what the element says. A general, special or closing part has only its name: for it nothing is said
about other lines. -/
def Reads (ls : List Line) : Node → Prop
  | .structural e =>
    if e.kind = .subtitle then
      ink (linesText ls) = ink ((if e.identifier = [] then [] else e.identifier ++ py".") ++ e.title)
    else if e.special then
      ∃ header more i, ls = header :: more ∧ namedParts[i]? = some header.content ∧ e.identifier = natStr (i + 1) ∧
        e.title = []
    else ∃ header more, ls = header :: more ∧ HeaderSays e header.content ∧ ink (linesText more) = ink e.title
  | n => ink (linesText ls) = ink (printed n)

/-- The last part of a line has one character, as in all lines made from a PDF where characters are placed one
by one. -/
def FineEnd (l : Line) : Prop := ∀ p, l.parts.getLast? = some p → p.content.length = 1

/-- A title in brackets after an article number that ends on the third line. -/
def LongTitle (lines : List Line) : Prop :=
  ∃ before a b c after, lines = before ++ a :: b :: c :: after ∧ isInfix (py"§ [") a.content = true ∧
    a.content.getLast? ≠ some ']' ∧ b.content.getLast? ≠ some ']' ∧ c.content.getLast? = some ']'

/-! ## Elements begin outside quotes -/

/-- The same lines, apart from empty ones. -/
def SameLines (a b : List Line) : Prop := a.filter (fun l => !l.isEmptyLine) = b.filter (fun l => !l.isEmptyLine)

mutual
/-- `Divided before ls n`: the element `n` was made from the lines `ls`, which come after the lines `before`. It and
everything in it begins on a line that is outside all quotes, and reads as its lines do. -/
inductive Divided : List Line → List Line → Node → Prop
  | plain {before ls k d} (outside : openQuotes before = 0)
      (text : ink (linesText ls) = ink (printed (.sae k d []))) : Divided before ls (.sae k d [])
  /-- the children stand between an intro, which begins with the header, and a wrap-up -/
  | parent {before first more ls blocks wrapUp k d cs} (outside : openQuotes before = 0)
      (text : ink (linesText ls) = ink (printed (.sae k d cs))) (begins : ls.head? = some first)
      (division : SameLines ls (first :: more ++ blocks.flatten ++ wrapUp))
      (children : DividedL (before ++ first :: more) blocks cs) :
      Divided before ls (.sae k d cs)
  | quoted {before ls qs} (outside : openQuotes before = 0)
      (text : ink (linesText ls) = ink (printed (.quoted qs))) : Divided before ls (.quoted qs)
  /-- the paragraphs follow the number, which has no quotes in it, and the title -/
  | article {before first rest number cut title blocks i t ps} (outside : openQuotes before = 0)
      (header : first.content = number ++ cut.content) (says : ink number = i ++ py".§")
      (plain : (i.map quoteDelta).sum = 0)
      (division : SameLines (cut :: rest) (title ++ blocks.flatten))
      (paragraphs : DividedL (before ++ title) blocks ps) : Divided before (first :: rest) (.article i t ps)
  | structural {before ls e} (outside : openQuotes before = 0) (text : Reads ls (.structural e)) :
      Divided before ls (.structural e)

/-- The same for siblings and the lines of each. -/
inductive DividedL : List Line → List (List Line) → List Node → Prop
  | nil (before) : DividedL before [] []
  | cons {before ls c blocks cs} (head : Divided before ls c) (tail : DividedL (before ++ ls) blocks cs) :
      DividedL before (ls :: blocks) (c :: cs)
end

/-- Line number `n` is the first one outside all quotes that has the property. -/
def FirstLine (p : Line → Prop) (lines : List Line) (n : Nat) : Prop :=
  ∃ before l after, lines = before ++ l :: after ∧ n = before.length ∧ openQuotes before = 0 ∧ p l ∧
    ∀ x y z, before = x ++ y :: z → openQuotes x = 0 → ¬ p y

/-! ## Numbering -/

/-- The identifier of the first child of the given kind. -/
inductive FirstOf : SaeKind → Option Str → SaeKind → Str → Prop
  | letteredPoint (i) : FirstOf .paragraph i .alphabeticPoint (py"a")
  | numberedPoint (i) : FirstOf .paragraph i .numericPoint (py"1")
  | lettersInNumbered (i) : FirstOf .numericPoint i .alphabeticSubpoint (py"a")
  | lettersInLettered (i) : FirstOf .alphabeticPoint (some i) .alphabeticSubpoint (i ++ py"a")
  | numbersInLettered (i) : FirstOf .alphabeticPoint i .numericSubpoint (py"1")

/-- The identifier `b` comes right after `a` among siblings of the kind. -/
def IdentifierAfter (k : SaeKind) (a b : Str) : Prop :=
  match k with
  | .paragraph | .numericPoint | .numericSubpoint => NumberAfter a b
  | .alphabeticPoint => LetterAfter a b
  | .alphabeticSubpoint => ∃ p x y, a = p ++ x ∧ b = p ++ y ∧ LetterAfter x y
  | .blockAmendmentContainer => False

/-- The identifiers of lettered points. -/
def IsLetteredId (i : Str) : Prop := (∃ c, isLowerAz c = true ∧ i = [c]) ∨ i = py"ny" ∨ i = py"sz"

/-- The identifiers that an element of the kind can have. Those of lettered subpoints may begin with the one of their point. -/
def IdentifierOf : SaeKind → Str → Prop
  | .paragraph, i => IsParagraphId i
  | .numericPoint, i | .numericSubpoint, i => IsNumericPointId i
  | .alphabeticPoint, i => IsLetteredId i
  | .alphabeticSubpoint, i => IsLetteredId i ∨ ∃ p c, IsLetteredId p ∧ isLowerAz c = true ∧ i = p ++ [c]
  | .blockAmendmentContainer, _ => False

/-- An element has an identifier of its kind; only paragraphs may have none. -/
def Identified : Node → Prop
  | .sae k d _ => (∀ i, d.identifier = some i → IdentifierOf k i) ∧ (d.identifier = none → k = .paragraph)
  | .article i _ _ => IsArticleId i
  | _ => True

/-- The siblings are all of one kind and their identifiers begin with `first`, follow each other and never repeat. -/
def NumberedFrom (k : SaeKind) (first : Str) (cs : List Node) : Prop :=
  (∀ c ∈ cs, c.type = .sae k) ∧ ∃ ids : List Str, cs.map Node.identifier = ids.map some ∧ ids.head? = some first ∧
    Consecutive (IdentifierAfter k) ids ∧ ids.Nodup

/-- The children of one element are numbered. -/
def ChildrenNumbered : Node → Prop
  | .sae k d cs => (∀ c ∈ cs, c.type = .quoted) ∨
      ∃ kind first, FirstOf k d.identifier kind first ∧ NumberedFrom kind first cs ∧ 2 ≤ cs.length
  | .article _ _ cs => (∃ p, cs = [p]) ∨ NumberedFrom .paragraph (py"1") cs
  | _ => True

end Verif.Spec
