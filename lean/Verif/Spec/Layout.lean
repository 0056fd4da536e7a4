import Verif.Spec.Printout

/-! # How the text of an act is laid out -/

namespace Verif.Spec

/-- Lines with a cell to the left of them: the first one begins with what is in the cell, the others with as many spaces. -/
def beside (cell : Str) : List Str → List Str
  | [] => []
  | l :: ls => (cell ++ l) :: ls.map (List.replicate cell.length ' ' ++ ·)

/-- A cell that is `n` columns wide, or wider if what is in it is longer. -/
def cell (n : Nat) (s : Str) : Str := s ++ List.replicate (n - s.length) ' '

/-- The cell with the number of a paragraph or a part of one. -/
def numberCell (k : SaeKind) : Option Str → Str
  | none => cell 5 []
  | some i => cell 5 (heading k (some i) ++ py" ")

/-- A text broken into lines of a width; there are none if there is no text. -/
inductive Broken (wrap : Str → Int → Res (List Str)) (width : Int) : Option Str → List Str → Prop
  | none : Broken wrap width none []
  | empty : Broken wrap width (some []) []
  | text {s ls} (full : s ≠ []) (wraps : wrap s width = .ok ls) : Broken wrap width (some s) ls

/-- A text that is there, between `o` and `c`. -/
def enclosed (o c : Str) : Option Str → Option Str
  | some (x :: t) => some (o ++ x :: t ++ c)
  | _ => none

/-- A quoted line: a space for each five units by which it is indented, after five spaces. Lines to the left of all that have something are not
indented. -/
def QuotedLine (base : Rat) (l : Line) (t : Str) : Prop :=
  ∃ n : Nat, t = List.replicate (5 + n) ' ' ++ l.content ∧
    (base ≤ l.indent → (n : Rat) * 5 ≤ l.indent - base ∧ l.indent - base < ((n : Rat) + 1) * 5) ∧ (l.indent ≤ base → n = 0)

mutual
/-- The lines of an object, in a box of the width: the number is in a cell to the left of the boxes of what is in it, which are below each
other. -/
inductive Box (wrap : Str → Int → Res (List Str)) : Int → Node → List Str → Prop
  | text {width k d cs t ls} (kind : k ≠ .blockAmendmentContainer) (text : d.text = some t) (full : t ≠ [])
      (lines : wrap t (width - (numberCell k d.identifier).length) = .ok ls) :
      Box wrap width (.sae k d cs) (beside (numberCell k d.identifier) ls)
  | list {width k d cs is bs us} (kind : k ≠ .blockAmendmentContainer) (noText : d.text = none ∨ d.text = some []) (some : cs ≠ [])
      (intro : Broken wrap (width - (numberCell k d.identifier).length) d.intro is)
      (boxes : Boxes wrap (width - (numberCell k d.identifier).length) cs bs)
      (wrapUp : Broken wrap (width - (numberCell k d.identifier).length) d.wrapUp us) :
      Box wrap width (.sae k d cs) (beside (numberCell k d.identifier) (is ++ bs ++ us))
  | amendment {width d cs is bs us} (some : cs ≠ []) (intro : Broken wrap width (enclosed (py"(") (py")") d.intro) is)
      (boxes : Boxes wrap (width - 5) cs bs) (wrapUp : Broken wrap width (enclosed (py"(") (py")") d.wrapUp) us) :
      Box wrap width (.sae .blockAmendmentContainer d cs) (is ++ [py"„"] ++ beside (cell 5 []) bs ++ [py"”"] ++ us)
  | article {width i t cs ts bs} (title : Broken wrap (width - (cell 10 (i ++ py". §")).length) (enclosed (py"     [") (py"]") t) ts)
      (boxes : Boxes wrap (width - (cell 10 (i ++ py". §")).length) cs bs) :
      Box wrap width (.article i t cs) (beside (cell 10 (i ++ py". §")) (ts ++ bs))
  | quoted {width lines base ls} (least : ∀ l ∈ lines, l.isEmptyLine = false → base ≤ l.indent)
      (reached : ∃ l ∈ lines, l.isEmptyLine = false ∧ l.indent = base) (shown : Both (QuotedLine base) lines ls) :
      Box wrap width (.quoted lines) ([py"„"] ++ ls ++ [py"”"])
  | header {width e i is ts} (kind : e.kind ≠ .subtitle) (number : e.formattedIdentifier = .ok i) (lines : wrap i width = .ok is)
      (title : Broken wrap width (some e.title) ts) : Box wrap width (.structural e) (is ++ ts)
  | numbered {width e i ls} (kind : e.kind = .subtitle) (number : e.formattedIdentifier = .ok i) (full : i ≠ [])
      (lines : wrap (pyStrip (i ++ py" " ++ e.title)) width = .ok ls) : Box wrap width (.structural e) ls
  | unnumbered {width e ls} (kind : e.kind = .subtitle) (number : e.formattedIdentifier = .ok []) (lines : wrap (pyStrip e.title) width = .ok ls) :
      Box wrap width (.structural e) ls

/-- Boxes below each other. -/
inductive Boxes (wrap : Str → Int → Res (List Str)) : Int → List Node → List Str → Prop
  | nil (width) : Boxes wrap width [] []
  | cons {width c cs b bs} (first : Box wrap width c b) (others : Boxes wrap width cs bs) : Boxes wrap width (c :: cs) (b ++ bs)
end

/-- The lines that a text is broken into are not longer than the width, which is positive. -/
def KeepsWidth (wrap : Str → Int → Res (List Str)) : Prop := ∀ s width ls, wrap s width = .ok ls → 0 < width ∧ ∀ l ∈ ls, (l.length : Int) ≤ width

/-- Nothing is quoted. -/
def Unquoted (n : Node) : Prop := ∀ ls, ¬ Inside (.quoted ls) n

end Verif.Spec
