import Verif.Model.Structure

/-! # HTML output: /repo/hun_law/output/html.py -/

namespace Verif

/-- `xml.etree.ElementTree.Element`: tag, attributes, text before the first child, children, text after the element. -/
inductive Elem
  | mk (tag : Str) (attrs : List (Str × Str)) (text : Option Str) (children : List Elem) (tail : Option Str)
  deriving Repr

namespace Elem

/-- The text after the element. -/
def tail : Elem → Option Str
  | .mk _ _ _ _ t => t

/-- `element.tail = …`. -/
def setTail : Elem → Option Str → Elem
  | .mk g a x cs _, t => .mk g a x cs t

/-- `ET.Element('div', {'class': …})` with a text. -/
def div (cls : Str) (text : Option Str) (children : List Elem := []) : Elem := .mk (py"div") [(py"class", cls)] text children none

end Elem

/-- `not s or not s.strip()` (html.py:30). -/
def isBlank (s : Option Str) : Bool := (s.getD []).all isSpace

/-- `"\n" + level * "  "` (html.py:28). -/
def indentText (level : Nat) : Str := '\n' :: List.replicate (2 * level) ' '

/-- Lines 36-37 of html.py: the last child. -/
def setLastTail (indent : Str) : List Elem → List Elem
  | [] => []
  | [c] => [if isBlank c.tail then c.setTail (some indent) else c]
  | c :: d :: cs => c :: setLastTail indent (d :: cs)

mutual
/-- `indent_etree_element_in_place` (html.py:27-40). -/
def indentElem (level : Nat) : Elem → Elem
  | .mk g a x [] t => .mk g a x [] (if level ≠ 0 && isBlank t then some (indentText level) else t)
  | .mk g a x (c :: cs) t =>
    .mk g a (if isBlank x then some (indentText level ++ (py"  ")) else x)
      (setLastTail (indentText level) (indentElems (level + 1) (c :: cs)))
      (if isBlank t then some (indentText level) else t)

/-- The loop over the children (html.py:34-35). -/
def indentElems (level : Nat) : List Elem → List Elem
  | [] => []
  | c :: cs => indentElem level c :: indentElems level cs
end

/-- `element.__class__.__name__.lower()` of a structural element. -/
def StructKind.className : StructKind → Str
  | .book => py"book"
  | .part => py"part"
  | .title => py"title"
  | .chapter => py"chapter"
  | .subtitle => py"subtitle"

/-- `e.__class__.__name__.lower()` of a sub-article element. -/
def SaeKind.className : SaeKind → Str
  | .alphabeticSubpoint => py"alphabeticsubpoint"
  | .numericSubpoint => py"numericsubpoint"
  | .numericPoint => py"numericpoint"
  | .alphabeticPoint => py"alphabeticpoint"
  | .blockAmendmentContainer => py"blockamendmentcontainer"
  | .paragraph => py"paragraph"

/-- `generate_html_node_for_structural_element` (html.py:43-50). -/
def htmlStructural (e : StructuralElement) : Res (List Elem) := do
  let i ← e.formattedIdentifier
  let cls := (py"se_") ++ e.kind.className
  if e.kind = .subtitle then .ok [.div cls (some (i ++ ' ' :: e.title))]
  else .ok [.div cls (some i) [.mk (py"br") [] none [] (some e.title)]]

/-- `get_href_for_ref` (html.py:53-58). -/
def hrefForRef (r : Reference) : Str :=
  (match r.act with
    | some a => a ++ (py".html")
    | none => []) ++ '#' :: r.relativeIdString

/-- A link to be made: start, end, address. -/
abbrev Link := Int × Int × Str

/-- `<` of the tuples. -/
def Link.lt (a b : Link) : Bool :=
  if a.1 = b.1 then (if a.2.1 = b.2.1 then strLt a.2.2 b.2.2 else a.2.1 < b.2.1) else a.1 < b.1

/-- Insertion into a sorted list, after what is less. -/
def insertLink (x : Link) : List Link → List Link
  | [] => [x]
  | y :: ys => if Link.lt y x then y :: insertLink x ys else x :: y :: ys

/-- `links_to_create.sort()`; any stable sort gives this. -/
def sortLinks : List Link → List Link
  | [] => []
  | x :: xs => insertLink x (sortLinks xs)

/-- The link of a reference (html.py:68-70). -/
def linkOf (current : Reference) (o : OutgoingReference) : Link :=
  (o.startPos, o.endPos, hrefForRef (o.reference.relativeTo current))

/-- The loop of `generate_text_with_ref_links` and what follows it (html.py:75-89), from the state in which `prev_start` is the
argument. The result is the text that goes to the container or to the tail of the last link, and the links that follow. -/
def linkLoop (text : Str) : Int → List Link → Res (Str × List Elem)
  | prev, [] => .ok (pySlice text prev text.length, [])
  | prev, (start, stop, href) :: links =>
    if ¬ start ≥ prev then .error .assertionError
    else if ¬ stop > start then .error .assertionError
    else do
      let (tail, rest) ← linkLoop text stop links
      .ok (pySlice text prev start,
        .mk (py"a") [(py"href", href)] (some (pySlice text start stop)) [] (some tail) :: rest)

/-- `generate_text_with_ref_links` for a new container of the given class (html.py:61-89). -/
def textWithRefLinks (cls : Str) (text : Str) (current : Reference) (references : List OutgoingReference) : Res Elem := do
  let (first, links) ← linkLoop text 0 (sortLinks (references.map (linkOf current)))
  .ok (.div cls (some first) links)

/-- `if s:` of an optional text. -/
def truthy (s : Option Str) : Option Str :=
  match s with
  | some (c :: cs) => some (c :: cs)
  | _ => none

/-- `int(x)` of a number: towards zero. -/
def pyTrunc (x : Rat) : Int := x.num.tdiv x.den

/-- `min(…)` of a non-empty sequence. -/
def minRat : Rat → List Rat → Rat
  | m, [] => m
  | m, x :: xs => minRat (if x < m then x else m) xs

/-- `min(l.indent for l in lines if l != EMPTY_LINE)` (html.py:170, txt.py:87). -/
def minIndent (lines : List Line) : Res Rat :=
  match (lines.filter (! ·.isEmptyLine)).map Line.indent with
  | [] => .error .valueError
  | x :: xs => .ok (minRat x xs)

/-- The loop over the lines of a quoted block (html.py:171-182); `first` is `index == 0`. -/
def quotedDivs (offset : Rat) : Bool → List Line → List Elem
  | _, [] => []
  | first, l :: ls =>
    let padding := pyTrunc ((l.indent - offset) * 2)
    let padding := if padding < 0 then 0 else padding
    let text := if first then '„' :: l.content else l.content
    let text := if ls.isEmpty then text ++ ['”'] else text
    let text := if text.isEmpty then [Char.ofNat 0xA0] else text
    .mk (py"div") [(py"style", (py"padding-left: ") ++ intStr padding ++ (py"px;"))] (some text) [] none :: quotedDivs offset false ls

/-- `generate_html_nodes_for_quoted_block` (html.py:168-183). -/
def htmlQuoted (lines : List Line) (parentClass : Str) : Res (List Elem) := do
  let offset ← minIndent lines
  .ok [.mk (py"blockquote") [(py"class", (py"quote_in_") ++ parentClass)] none (quotedDivs offset true lines) none]

/-- The div with the id of an element (html.py:143-149, 187-193). -/
def idDiv (cls : Str) (current : Reference) (text : Str) : Elem :=
  .mk (py"div") [(py"id", if current.act = some (py"EXTERNAL") then [] else current.relativeIdString), (py"class", cls)]
    (some text) [] none

/-- The div with the intro or the wrap-up of a block amendment, if there is one (html.py:112-115, 131-134). -/
def amendmentText (s : Option Str) : List Elem :=
  match truthy s with
  | some t => [.div (py"blockamendment_text") (some ('(' :: t ++ [')']))]
  | none => []

/-- The div with a quotation mark (html.py:117-119, 127-129). -/
def amendmentQuote (c : Char) : Elem := .div (py"blockamendment_quote") (some [c])

/-- The div with an optional title of an article (html.py:196-199). -/
def titleDiv (title : Option Str) : List Elem :=
  match truthy title with
  | some t => [.div (py"article_title") (some ('[' :: t ++ [']']))]
  | none => []

mutual
/-- One child in `generate_html_nodes_for_children` (html.py:93-105), with the functions that it calls:
`generate_html_node_for_article` (html.py:186-203), `generate_html_nodes_for_block_amendment` (html.py:108-134),
`generate_html_nodes_for_sub_article_element` (html.py:137-165). `for child in None` is a TypeError. What the generators yield is
always consumed entirely. -/
def htmlNode (parentClass : Str) (parent : Reference) : Node → Res (List Elem)
  | .article i title cs => do
    let current := Reference.relativeTo { article := some (.one i) } parent
    let children ← htmlNodes (py"article") current cs
    .ok (idDiv (py"article_id") current (i ++ (py". §")) :: titleDiv title ++ children ++ [.div (py"space_after_article") none])
  | .sae .blockAmendmentContainer d cs => do
    if cs.isEmpty then .error .typeError
    else
      let children ← htmlNodes (py"blockamendmentcontainer") { act := some (py"EXTERNAL") } cs
      .ok (amendmentText d.intro ++ amendmentQuote '„' :: .div (py"blockamendment_container") none children ::
        amendmentQuote '”' :: amendmentText d.wrapUp)
  | .sae k d cs => do
    let current := ((Node.sae k d cs).relativeReference.getD {}).relativeTo parent
    let header ← k.headerPrefix d.identifier
    let id := idDiv (k.className ++ (py"_id")) current header
    let references := d.references.getD []
    match truthy d.text with
    | some t => do
      let text ← textWithRefLinks (k.className ++ (py"_text")) t current references
      .ok [id, text]
    | none => do
      let intro ← (match truthy d.intro with
        | some t => do
          let text ← textWithRefLinks (k.className ++ (py"_text")) t current references
          .ok [text]
        | none => .ok [])
      if cs.isEmpty then .error .typeError
      else
        let children ← htmlNodes k.className current cs
        let wrapUp := match truthy d.wrapUp with
          | some t => [Elem.div (k.className ++ (py"_text")) (some t)]
          | none => []
        .ok (id :: intro ++ children ++ wrapUp)
  | .quoted lines => htmlQuoted lines parentClass
  | .structural e => htmlStructural e

/-- The loop of `generate_html_nodes_for_children` (html.py:92-105). -/
def htmlNodes (parentClass : Str) (parent : Reference) : List Node → Res (List Elem)
  | [] => .ok []
  | c :: cs => do
    let a ← htmlNode parentClass parent c
    let b ← htmlNodes parentClass parent cs
    .ok (a ++ b)
end

/-- The title of the page and the preamble (html.py:207-213). -/
def pageHead (act : Act) : List Elem :=
  Elem.div (py"act_title") (some act.identifier) [.mk (py"br") [] none [] (some act.subject)] ::
    (if act.preamble.isEmpty then [] else [Elem.div (py"preamble") (some act.preamble)])

/-- `generate_html_body_for_act` (html.py:206-223). A child of an act is an article or a structural element; `htmlNode` does with
these what lines 215-218 do. -/
def htmlBody (act : Act) (indent : Bool := true) : Res Elem := do
  let children ← htmlNodes (py"act") {} act.children
  let body := Elem.div (py"act_container") none (pageHead act ++ children)
  .ok (if indent then indentElem 0 body else body)

end Verif
