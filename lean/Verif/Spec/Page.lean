import Verif.Spec.Html
import Verif.Spec.Parser

/-! # How the page of an act is laid out -/

namespace Verif.Spec

/-- What is in a page, each with its class. -/
inductive Cell
  /-- a text, with the links in it: where they begin, their address and their text -/
  | text (cls shown : Str) (links : List (Nat × Str × Str))
  /-- a number and a title, one below the other -/
  | header (cls number title : Str)
  /-- other cells -/
  | box (cls : Str) (cells : List Cell)
  /-- a quoted text -/
  | quotation (cls : Str) (lines : List Line)

/-- A line of a quoted text, the `i`th of `n`: it is between quotation marks with the others, it is not left empty, and it is moved to
the right by two pixels for each unit by which it is indented. -/
def QuotedDiv (base : Rat) (n : Nat) (l : Line × Nat) (e : Elem) : Prop :=
  ∃ (pixels : Nat) (shown : Str), e = .mk (py"div") [(py"style", (py"padding-left: ") ++ natStr pixels ++ (py"px;"))] (some shown) [] none ∧
    (base ≤ l.1.indent → (pixels : Rat) ≤ (l.1.indent - base) * 2 ∧ (l.1.indent - base) * 2 < pixels + 1) ∧
    (l.1.indent ≤ base → pixels = 0) ∧
    (let quoted := (if l.2 = 0 then py"„" else []) ++ l.1.content ++ (if l.2 + 1 = n then py"”" else [])
     if quoted = [] then shown = [Char.ofNat 0xA0] else shown = quoted)

mutual
/-- The element of the page shows the cell. -/
inductive ShownBy : Cell → Elem → Prop
  | text {cls shown links attrs first as} (attributes : attrs = [(py"class", cls)] ∨ ∃ i, attrs = [(py"id", i), (py"class", cls)])
      (all : textOf (.mk (py"div") attrs first as none) = shown)
      (anchors : ∀ a ∈ as, ∃ address t after, a = .mk (py"a") [(py"href", address)] (some t) [] (some after))
      (linked : (linksIn (.mk (py"div") attrs first as none)).Perm (links.map fun l => (l.1, some l.2.1, l.2.2))) :
      ShownBy (.text cls shown links) (.mk (py"div") attrs first as none)
  | header {cls number title} :
      ShownBy (.header cls number title)
        (.mk (py"div") [(py"class", cls)] (some number) [.mk (py"br") [] none [] (some title)] none)
  | box {cls cells es} (parts : ShownByAll cells es) : ShownBy (.box cls cells) (.mk (py"div") [(py"class", cls)] none es none)
  | quotation {cls lines base es} (least : ∀ l ∈ lines, l.isEmptyLine = false → base ≤ l.indent)
      (reached : ∃ l ∈ lines, l.isEmptyLine = false ∧ l.indent = base) (shown : Both (QuotedDiv base lines.length) lines.zipIdx es) :
      ShownBy (.quotation cls lines) (.mk (py"blockquote") [(py"class", cls)] none es none)

/-- The elements show the cells, in their order. -/
inductive ShownByAll : List Cell → List Elem → Prop
  | nil : ShownByAll [] []
  | cons {c cs e es} (first : ShownBy c e) (others : ShownByAll cs es) : ShownByAll (c :: cs) (e :: es)
end

/-- A cell with a text, if there is one. -/
def textCell (cls o : Str) (s : Option Str) (c : Str) : List Cell :=
  if s.getD [] = [] then [] else [.text cls (o ++ s.getD [] ++ c) []]

/-- A cell with a text and the links in it, if there is a text. The references are read at the place of the text. -/
def linkedCell (cls : Str) (s : Option Str) (place : Reference) (references : List OutgoingReference) : List Cell :=
  if s.getD [] = [] then []
  else [.text cls (s.getD []) (references.map fun o => (min o.startPos.toNat (s.getD []).length,
    hrefForRef (o.reference.relativeTo place), between (s.getD []) o.startPos o.endPos))]

/-- The number of a paragraph or a part of one, as it is shown. Only paragraphs are made without one. -/
def numberShown : SaeKind → Option Str → Str
  | .paragraph, none => []
  | k, i => heading k (some (i.getD (py"None"))) ++ py" "

/-- What the structural elements are called in pages. -/
def structName : StructKind → Str
  | .book => py"book"
  | .part => py"part"
  | .title => py"title"
  | .chapter => py"chapter"
  | .subtitle => py"subtitle"

/-- The place of an element in something at a place; in amendments it does not matter. -/
def placeOf (place : Reference) (n : Node) : Reference := (n.relativeReference.getD {}).relativeTo place

mutual
/-- The cells of an object that is in something of a class at a place. The number, the texts and all that is in an element are cells one
after the other; only what an amendment puts into the law is in a box of its own. -/
def cells (within : Str) (place : Reference) : Node → List Cell
  | .article i title cs => .text (py"article_id") (i ++ py". §") [] :: textCell (py"article_title") (py"[") title (py"]") ++
      cellsAll (py"article") (placeOf place (.article i title cs)) cs ++ [.text (py"space_after_article") [] []]
  | .sae k d cs =>
      if k = .blockAmendmentContainer then textCell (py"blockamendment_text") (py"(") d.intro (py")") ++
        [.text (py"blockamendment_quote") (py"„") [],
          .box (py"blockamendment_container") (cellsAll (py"blockamendmentcontainer") { act := some (py"EXTERNAL") } cs),
          .text (py"blockamendment_quote") (py"”") []] ++ textCell (py"blockamendment_text") (py"(") d.wrapUp (py")")
      else .text (kindName k ++ py"_id") (numberShown k d.identifier) [] ::
        if d.text.getD [] = [] then
          linkedCell (kindName k ++ py"_text") d.intro (placeOf place (.sae k d cs)) (d.references.getD []) ++
            cellsAll (kindName k) (placeOf place (.sae k d cs)) cs ++ textCell (kindName k ++ py"_text") [] d.wrapUp []
        else linkedCell (kindName k ++ py"_text") d.text (placeOf place (.sae k d cs)) (d.references.getD [])
  | .quoted lines => [.quotation ((py"quote_in_") ++ within) lines]
  | .structural e =>
      let number := e.formattedIdentifier.toOption.getD []
      if e.kind = .subtitle then [.text (py"se_subtitle") (number ++ py" " ++ e.title) []]
      else [.header ((py"se_") ++ structName e.kind) number e.title]

/-- The same for objects one after the other. -/
def cellsAll (within : Str) (place : Reference) : List Node → List Cell
  | [] => []
  | c :: cs => cells within place c ++ cellsAll within place cs
end

/-- The page of an act: its identifier and its subject, its preamble, and the cells of its children. -/
def pageCell (a : Act) : Cell :=
  .box (py"act_container") (.header (py"act_title") a.identifier a.subject :: textCell (py"preamble") [] (some a.preamble) [] ++
    cellsAll (py"act") {} a.children)

/-- The texts are the same, or there is nothing but spaces in both. -/
def SameText (a b : Option Str) : Prop := a = b ∨ (∀ c ∈ a.getD [], isSpace c = true) ∧ ∀ c ∈ b.getD [], isSpace c = true

mutual
/-- The elements are the same except for spaces where there is nothing else. -/
inductive SameElem : Elem → Elem → Prop
  | mk {tag attrs x x' es es' t t'} (text : SameText x x') (parts : SameElems es es') (after : SameText t t') :
      SameElem (.mk tag attrs x es t) (.mk tag attrs x' es' t')

/-- The same for elements one after the other. -/
inductive SameElems : List Elem → List Elem → Prop
  | nil : SameElems [] []
  | cons {a b as bs} (first : SameElem a b) (others : SameElems as bs) : SameElems (a :: as) (b :: bs)
end

end Verif.Spec
