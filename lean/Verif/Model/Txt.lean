import Verif.Model.Html
import Verif.Model.Gazette

/-! # Text output: /repo/hun_law/output/txt.py and `indented_line_wrapped_print` of utils.py

The writers are modelled by what they print, in order, up to the exception that ends them if there is one. -/

namespace Verif

/-- Where a `print` goes: to the `output_file` of the writers, or to the standard output. -/
inductive Dest
  | file | stdout
  deriving DecidableEq, Repr

/-- One `print`: where it goes and its text without the newline at the end. -/
structure Printed where
  dest : Dest
  text : Str
  deriving DecidableEq, Repr

/-- `print(text, file=…)`. -/
def printTo (dest : Dest) (text : Str) : Gen Printed := { yields := [⟨dest, text⟩] }

/-- One statement after another. -/
def Gen.andThen {α : Type} (a b : Gen α) : Gen α :=
  match a.stop with
  | some _ => a
  | none => { yields := a.yields ++ b.yields, stop := b.stop }

/-- A statement that needs a value that may fail to be computed. -/
def Gen.using {α β : Type} (x : Res β) (f : β → Gen α) : Gen α :=
  match x with
  | .ok b => f b
  | .error e => { yields := [], stop := some e }

/-- `" " * len(indent)`. -/
def blank (indent : Str) : Str := List.replicate indent.length ' '

/-- `"{:<n}".format(s)`. -/
def padRight (n : Nat) (s : Str) : Str := s ++ List.replicate (n - s.length) ' '

/-- `s.strip()`. -/
def pyStrip (s : Str) : Str := ((s.dropWhile isSpace).reverse.dropWhile isSpace).reverse

/-- `textwrap.wrap(s, width)` of the standard library is a parameter of the model. -/
abbrev Wrap := Str → Int → Res (List Str)

/-- The loop of `indented_line_wrapped_print` (utils.py:354-359). -/
def printLines (dest : Dest) : Str → List Str → List Printed
  | _, [] => []
  | indent, l :: ls => ⟨dest, indent ++ l⟩ :: printLines dest (blank indent) ls

/-- `indented_line_wrapped_print` (utils.py:350-359). -/
def wrappedPrint (wrap : Wrap) (s indent : Str) (width : Int) (file : Option Dest) : Gen Printed :=
  if width = 0 then printTo .stdout (indent ++ s)
  else Gen.using (wrap s (width - indent.length)) fun ls => { yields := printLines (file.getD .stdout) indent ls }

/-- A `wrappedPrint` to the output file in case there is a text. -/
def printIfAny (wrap : Wrap) (s : Option Str) (f : Str → Str) (indent : Str) (width : Int) : Gen Printed :=
  match truthy s with
  | some t => wrappedPrint wrap (f t) indent width (some .file)
  | none => { yields := [] }

/-- `write_subtitle_as_txt` and `write_structural_element_as_txt` (txt.py:34-49). -/
def writeStructural (wrap : Wrap) (e : StructuralElement) (indent : Str) (width : Int) : Gen Printed :=
  Gen.using e.formattedIdentifier fun i =>
    if e.kind = .subtitle then
      let id := if i.isEmpty then [] else i ++ (py" ")
      wrappedPrint wrap (pyStrip (id ++ e.title)) indent width (some .file)
    else (wrappedPrint wrap i indent width (some .file)).andThen (printIfAny wrap (some e.title) id (blank indent) width)

/-- The loop over the lines of a quoted block (txt.py:90-92). The factor 0.2 is exactly 1/5 here. -/
def printQuoted (indent : Str) (base : Rat) (lines : List Line) : List Printed :=
  lines.map fun l => ⟨.file, indent ++ List.replicate 5 ' ' ++ List.replicate (pyTrunc ((l.indent - base) * (1 / 5))).toNat ' ' ++ l.content⟩

/-- `write_quoted_block_as_txt` (txt.py:85-93). -/
def writeQuoted (lines : List Line) (indent : Str) : Gen Printed :=
  (printTo .file (indent ++ (py"„"))).andThen (Gen.using (minIndent lines) fun base =>
    { yields := printQuoted (blank indent) base lines ++ [⟨.file, blank indent ++ (py"”")⟩] })

mutual
/-- `write_txt` of the objects in acts: the writers of txt.py:34-105 by the class of the object, in the order in which they are
registered (`Subtitle` before `StructuralElement`, `BlockAmendmentContainer` before `SubArticleElement`). -/
def writeNode (wrap : Wrap) (width : Int) (indent : Str) : Node → Gen Printed
  | .structural e => writeStructural wrap e indent width
  | .quoted lines => writeQuoted lines indent
  | .article i t cs =>
    let indent := indent ++ padRight 10 (i ++ (py". §"))
    let first := if (truthy t).isSome then blank indent else indent
    (printIfAny wrap t (fun t => (py"     [") ++ t ++ (py"]")) indent width).andThen (writeNodes wrap width false first cs)
  | .sae .blockAmendmentContainer d cs =>
    (printIfAny wrap d.intro (fun t => (py"(") ++ t ++ (py")")) indent width).andThen <|
    (printTo .file (indent ++ (py"„"))).andThen <|
    if cs.isEmpty then { yields := [], stop := some .assertionError }
    else (writeNodes wrap width true (indent ++ List.replicate 5 ' ') cs).andThen <|
    (printTo .file (indent ++ (py"”"))).andThen <|
    printIfAny wrap d.wrapUp (fun t => (py"(") ++ t ++ (py")")) indent width
  | .sae k d cs =>
    Gen.using (match truthy d.identifier with
      | some i => (k.headerPrefix (some i)).map fun h => indent ++ padRight 5 h
      | none => .ok (indent ++ List.replicate 5 ' ')) fun indent =>
    match truthy d.text with
    | some t => wrappedPrint wrap t indent width (some .file)
    | none =>
      let first := if (truthy d.intro).isSome then blank indent else indent
      (printIfAny wrap d.intro id indent width).andThen <|
      if cs.isEmpty then { yields := [], stop := some .assertionError }
      else (writeNodes wrap width false first cs).andThen (printIfAny wrap d.wrapUp id (blank indent) width)

/-- The loops over children. `keep` says whether the indent is kept for all of them, as in block amendments (txt.py:58-59), or
becomes spaces after the first (txt.py:77-79, 103-105). -/
def writeNodes (wrap : Wrap) (width : Int) (keep : Bool) (indent : Str) : List Node → Gen Printed
  | [] => { yields := [] }
  | c :: cs => (writeNode wrap width indent c).andThen (writeNodes wrap width keep (if keep then indent else blank indent) cs)
end

/-- The title of the text of an act (txt.py:110, 120). -/
def titleLine (identifier subject : Str) : Str := (py"==== ") ++ identifier ++ (py" - ") ++ subject ++ (py" =====\n")

/-- The loop over the children of an act (txt.py:112-115). -/
def writeActChildren (wrap : Wrap) (width : Int) (indent : Str) : List Node → Gen Printed
  | [] => { yields := [] }
  | c :: cs => (writeNode wrap width indent c).andThen <| (printTo .file []).andThen <|
      writeActChildren wrap width (blank indent) cs

/-- `write_act_as_txt` (txt.py:108-115). -/
def writeAct (wrap : Wrap) (a : Act) (indent : Str) (width : Int) : Gen Printed :=
  (printTo .file (titleLine a.identifier a.subject)).andThen <|
  (wrappedPrint wrap a.preamble [] width (some .file)).andThen <|
  writeActChildren wrap width indent a.children

/-- `write_mk_raw_as_txt` (txt.py:118-126). -/
def writeRaw (r : LawRawText) (indent : Str) : Gen Printed :=
  (printTo .file (titleLine r.identifier r.subject)).andThen <|
  Gen.using (minIndent r.body) fun base =>
    { yields := (r.body.map fun l => ⟨.file, indent ++ List.replicate (pyTrunc ((l.indent - base) * (1 / 5))).toNat ' ' ++
        (if l.bold then py"<BOLD> " else py"       ") ++ l.content⟩) ++ [⟨.file, []⟩] }

/-- What `write_txt` can be called with. -/
inductive TxtObject
  | node (n : Node)
  | act (a : Act)
  | raw (r : LawRawText)
  /-- An object of another type, given by `str(type(element))`. -/
  | other (type : Str)

/-- `write_txt` (txt.py:129-136). -/
def writeTxt (wrap : Wrap) (o : TxtObject) (indent : Str := []) (width : Int := 90) : Gen Printed :=
  match o with
  | .node n => writeNode wrap width indent n
  | .act a => writeAct wrap a indent width
  | .raw r => writeRaw r indent
  | .other t => printTo .file ((py"Unkown object type: ") ++ t ++ (py"\n"))

end Verif
