import Lean
import Verif.Model.ActGrammar
import Verif.Model.StructureParser
import Verif.Model.SemanticParser
open Verif
open Lean (Json toJson)

def jstr (s : Str) : Json := .str (String.ofList s)
def jopt (n : String) (o : Option Json) : List (String × Json) := match o with | none => [] | some j => [(n, j)]
def ident : Ident → Json | .one a => jstr a | .range a b => .arr #[jstr a, jstr b]
def refJ (r : Reference) : Json := .mkObj <| jopt "act" (r.act.map jstr) ++ jopt "article" (r.article.map ident) ++
  jopt "paragraph" (r.paragraph.map ident) ++ jopt "point" (r.point.map ident) ++ jopt "subpoint" (r.subpoint.map ident)
def srefJ (r : StructuralReference) : Json := .mkObj <| [("struct", .bool true)] ++ jopt "act" (r.act.map jstr) ++ jopt "book" (r.book.map jstr) ++
  jopt "part" (r.part.map jstr) ++ jopt "title" (r.title.map jstr) ++ jopt "chapter" (r.chapter.map jstr) ++
  jopt "subtitle" (r.subtitle.map jstr) ++ jopt "special" (r.special.map fun x => .str (reprStr x.position ++ String.ofList x.articleId))
def posJ : Position → Json | .ref r => refJ r | .struct r => srefJ r
def dateJ (d : Verif.Date) : Json := .mkObj [("year", toJson d.year), ("month", toJson d.month), ("day", toJson d.day)]
def semJ : SemanticData → Json
  | .blockAmendment p i => .mkObj [("kind", Json.str "BlockAmendment"), ("position", posJ p), ("pure", .bool i)]
  | .enforcementDate p d r => .mkObj ([("kind", Json.str "EnforcementDate"), ("date", .str (reprStr d))] ++ jopt "position" (p.map refJ) ++ jopt "repeal" (r.map dateJ))
  | .textAmendment p a b => .mkObj [("kind", Json.str "TextAmendment"), ("position", refJ p), ("original", jstr a), ("replacement", jstr b)]
  | .articleTitleAmendment p a b => .mkObj [("kind", Json.str "ArticleTitleAmendment"), ("position", refJ p), ("original", jstr a), ("replacement", jstr b)]
  | .repeal p t => .mkObj ([("kind", Json.str "Repeal"), ("position", posJ p)] ++ jopt "text" (t.map jstr))
def kindS : SaeKind → String
  | .alphabeticSubpoint => "AlphabeticSubpoint" | .numericSubpoint => "NumericSubpoint" | .numericPoint => "NumericPoint"
  | .alphabeticPoint => "AlphabeticPoint" | .blockAmendmentContainer => "BlockAmendmentContainer" | .paragraph => "Paragraph"
def skindS : StructKind → String
  | .book => "Book" | .part => "Part" | .title => "Title" | .chapter => "Chapter" | .subtitle => "Subtitle"
def outJ (o : OutgoingReference) : Json := .mkObj [("start", toJson o.startPos), ("end", toJson o.endPos), ("ref", refJ o.reference)]
partial def nodeJ : Node → Json
  | .sae k d cs => .mkObj <| [("__type__", Json.str (kindS k))] ++ jopt "identifier" (d.identifier.map jstr) ++ jopt "text" (d.text.map jstr) ++
      jopt "intro" (d.intro.map jstr) ++ jopt "wrap_up" (d.wrapUp.map jstr) ++
      jopt "abbreviations" (d.abbreviations.map fun l => .arr (l.map fun a => .arr #[jstr a.abbreviation, jstr a.act]).toArray) ++
      jopt "references" (d.references.map fun l => .arr (l.map outJ).toArray) ++
      jopt "semantic" (d.semantic.map fun l => .arr (l.map semJ).toArray) ++
      (if cs.isEmpty then [] else [("children", .arr (cs.map nodeJ).toArray)])
  | .article i t cs => .mkObj <| [("__type__", Json.str "Article"), ("identifier", jstr i)] ++ jopt "title" (t.map jstr) ++ [("children", .arr (cs.map nodeJ).toArray)]
  | .quoted ls => .mkObj [("__type__", Json.str "QuotedBlock"), ("lines", .arr (ls.map fun l => jstr l.content).toArray)]
  | .structural e => .mkObj [("__type__", Json.str (skindS e.kind)), ("identifier", jstr e.identifier), ("title", jstr e.title), ("special", Json.bool e.special)]
def actJ (a : Act) : Json := .mkObj [("identifier", jstr a.identifier), ("publication_date", dateJ a.publicationDate), ("subject", jstr a.subject),
  ("preamble", jstr a.preamble), ("children", .arr (a.children.map nodeJ).toArray)]

def lineOf (l : String) : Line := Id.run do
  let bold := (l.splitOn "<BOLD>").length > 1
  let justified := !((l.splitOn "<NJ>").length > 1)
  let l := (l.replace "<BOLD>" "      ").replace "<NJ>" "    "
  let mut parts : Array Part := #[]
  let mut spaces : Nat := 1
  for c in l.toList do
    if c == ' ' then
      if spaces == 0 then parts := parts.push ⟨5, [c], bold⟩
      spaces := spaces + 1
    else
      parts := parts.push ⟨((5 + spaces * 5 : Nat) : Rat), [c], bold⟩
      spaces := 0
  return ⟨parts.toList, if justified then 5 else 40⟩

def show' (r : Res Act) : Json := match r with
  | .ok a => actJ a
  | .error e => .mkObj [("error", .str (reprStr e))]

def main (args : List String) : IO Unit := do
  let mode := args.head!
  for f in args.tail! do
    let t ← IO.FS.readFile f
    let lines := (t.splitOn "\n").map lineOf
    let a := parseAct "2345 évi I. törvény".toList ⟨2345, 6, 7⟩ "A tesztelésről".toList lines
    let r : Res Act := do
      let a ← a
      if mode == "s" then return a
      let a ← parseBlockAmendments (grammaticalAnalyzer ActGrammar.parse) a
      if mode == "b" then return a
      addSemantics (grammaticalAnalyzer ActGrammar.parse) a
    IO.FS.writeFile (f ++ ".out") (show' r).pretty
    IO.println f
