import Verif.Model.Html
import Verif.Spec.Structure

/-! # What a page shows -/

namespace Verif.Spec

mutual
/-- The text an element shows, without what comes after it. -/
def textOf : Elem → Str
  | .mk _ _ text children _ => text.getD [] ++ textOfAll children

/-- The text that elements show one after the other, with what comes after each. -/
def textOfAll : List Elem → Str
  | [] => []
  | .mk g a text children tail :: es => textOf (.mk g a text children tail) ++ tail.getD [] ++ textOfAll es
end

/-- The value of an attribute. -/
def attrOf (name : Str) : Elem → Option Str
  | .mk _ attrs _ _ _ => (attrs.find? fun a => a.1 = name).map (·.2)

/-- The links among elements that begin at a position in a text: where they begin, their address and their text. -/
def linksFrom (position : Nat) : List Elem → List (Nat × Option Str × Str)
  | [] => []
  | e :: es => (position, attrOf (py"href") e, textOf e) ::
      linksFrom (position + (textOf e).length + (e.tail.getD []).length) es

/-- The links directly in an element. -/
def linksIn : Elem → List (Nat × Option Str × Str)
  | .mk _ _ text children _ => linksFrom (text.getD []).length children

/-- References have positive length and no two of them have a character in common. -/
def Apart (references : List OutgoingReference) : Prop :=
  (∀ o ∈ references, 0 ≤ o.startPos ∧ o.startPos < o.endPos) ∧
  references.Pairwise fun o p => o.endPos ≤ p.startPos ∨ p.endPos ≤ o.startPos

/-- There is something to show: an element without children has a text, an amendment has children, and a quoted block has a line that is
not empty. -/
def HasContent : Node → Prop
  | .sae k d cs => cs ≠ [] ∨ k ≠ .blockAmendmentContainer ∧ d.text.getD [] ≠ []
  | .quoted lines => ∃ l ∈ lines, l.isEmptyLine = false
  | _ => True

/-- The references recorded on an element that has something to link from can all be links. -/
def LinksApart : Node → Prop
  | .sae k d _ => k ≠ .blockAmendmentContainer → d.text.getD [] ≠ [] ∨ d.intro.getD [] ≠ [] → Apart (d.references.getD [])
  | _ => True

/-- The number of a book, part, title or chapter can be written. -/
def HeaderWritable : Node → Prop
  | .structural e => ∃ s, e.formattedIdentifier = .ok s
  | _ => True

/-- The characters from one position up to another. -/
def between (text : Str) (start stop : Int) : Str := (text.drop start.toNat).take (stop - start).toNat

mutual
/-- The class and the id of each element that has one, in the order of the page. -/
def marks : Elem → List (Str × Str)
  | .mk g attrs text children tail =>
    (match attrOf (py"id") (.mk g attrs text children tail) with
      | some i => [((attrOf (py"class") (.mk g attrs text children tail)).getD [], i)]
      | none => []) ++ marksAll children

/-- The same for elements one after the other. -/
def marksAll : List Elem → List (Str × Str)
  | [] => []
  | e :: es => marks e ++ marksAll es
end

/-- The class and the id of each element that has an id that is not empty. -/
def idMarks (e : Elem) : List (Str × Str) := (marks e).filter fun m => m.2 ≠ []

/-- The ids in a page. -/
def ids (e : Elem) : List Str := (idMarks e).map (·.2)

/-- What the kinds of elements in articles are called in pages. -/
def kindName : SaeKind → Str
  | .paragraph => py"paragraph"
  | .numericPoint => py"numericpoint"
  | .alphabeticPoint => py"alphabeticpoint"
  | .numericSubpoint => py"numericsubpoint"
  | .alphabeticSubpoint => py"alphabeticsubpoint"
  | .blockAmendmentContainer => py"blockamendmentcontainer"

/-- The class of the element that shows the number of an object. -/
def markClass : Node → Str
  | .sae k _ _ => kindName k ++ (py"_id")
  | .article .. => py"article_id"
  | _ => []

/-- The articles of an act and the elements in them that can be referred to, with their references, in their order. -/
def pageElements (a : Act) : List (Reference × Node) :=
  a.children.flatMap fun c => match c with
    | .article i t cs => (articleRef a i, .article i t cs) :: preorderL (articleRef a i) cs
    | _ => []

/-- Points and subpoints have numbers. -/
def PointsNumbered (a : Act) : Prop := ∀ x ∈ pageElements a, x.2.type = .sae .paragraph ∨ x.2.identifier ≠ none

/-- All elements have numbers. -/
def AllNumbered (a : Act) : Prop := ∀ x ∈ pageElements a, x.2.identifier ≠ none

/-- The texts occur in a text one after the other. -/
inductive Shows : List Str → Str → Prop
  | nil (s) : Shows [] s
  | cons {t ts b} (a) (h : Shows ts b) : Shows (t :: ts) (a ++ t ++ b)

mutual
/-- The texts of an object in their order: number, title or text, what is below it, wrap-up. -/
def texts : Node → List Str
  | .sae k d cs => (if k = .blockAmendmentContainer then [] else [d.identifier.getD []]) ++ [d.text.getD [], d.intro.getD []] ++
      textsAll cs ++ [d.wrapUp.getD []]
  | .article i t cs => [i, t.getD []] ++ textsAll cs
  | .quoted lines => lines.map Line.content
  | .structural e => [(e.formattedIdentifier.toOption.getD []), e.title]

/-- The same for objects one after the other. -/
def textsAll : List Node → List Str
  | [] => []
  | c :: cs => texts c ++ textsAll cs
end

/-- All texts of an act. -/
def actTexts (a : Act) : List Str := [a.identifier, a.subject, a.preamble] ++ textsAll a.children

/-- A text without spaces and line breaks. -/
def noSpaces (s : Str) : Str := s.filter fun c => !isSpace c

end Verif.Spec
