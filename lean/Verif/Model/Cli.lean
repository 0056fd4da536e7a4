import Verif.Model.Pipeline
import Verif.Model.Html
import Verif.Model.Txt
import Verif.Py.Dict

/-! # The command line: /repo/hun_law/cli.py, with the whole page of /repo/hun_law/output/html.py -/

namespace Verif

/-- The choices of `output_format` (cli.py:51). -/
inductive Format
  | txt | json | html
  deriving DecidableEq, Repr

/-- The format as it is given. -/
def Format.name : Format → Str
  | .txt => py"txt"
  | .json => py"json"
  | .html => py"html"

/-- `s.split(c, 1)`. -/
def splitOnce (c : Char) (s : Str) : List Str :=
  match strFind [c] s with
  | some i => [s.take i, s.drop (i + 1)]
  | none => [s]

/-- `issue` (cli.py:57-59). -/
def parseIssue (s : Str) : Res Issue :=
  match splitOnce '/' s with
  | [year, act] => do
    let y ← pyInt year
    let a ← pyInt act
    .ok (y, a)
  | _ => .error .valueError

/-- The arguments (cli.py:48-86). That `argparse` finds them in the command line is left out. -/
structure CliArgs where
  format : Format
  issues : List Issue
  outputDir : Option Str := none
  singleAct : Option Str := none
  /-- `EXTRACTION_STEP_TO_CLASS[parsed_args.extraction_step]` (cli.py:41-46, 101) -/
  step : ExtractedClass := .act
  workers : Int := 1

/-- What is written: an act or the text of one. -/
inductive Output
  | act (a : Act)
  | raw (r : LawRawText)

/-- `extracted.identifier`. -/
def Output.identifier : Output → Str
  | .act a => a.identifier
  | .raw r => r.identifier

/-- What is left out as parameters: `textwrap.wrap`, what `serialize_to_json_file` (json.py:23-29) writes, and the printing of
`xml.etree` with `method="html"`. -/
structure Printers where
  wrap : Wrap
  json : Output → Gen Str
  html : Elem → Str

/-- `generate_head_section_for_act` (html.py:226-232). -/
def htmlHead (title : Str) : Elem :=
  .mk (py"head") [] none
    [.mk (py"title") [] (some title) [] none,
     .mk (py"meta") [(py"http-equiv", py"Content-Type"), (py"content", py"text/html; charset=utf-8")] none [] none,
     .mk (py"link") [(py"rel", py"stylesheet"), (py"href", py"style.css")] none [] none] none

/-- The document of `generate_html_for_act` (html.py:235-242). -/
def htmlDocument (act : Act) : Res Elem := do
  let page ← htmlBody act
  .ok (.mk (py"html") [] none [htmlHead act.identifier, .mk (py"body") [] (some (py"\n")) [page] none] none)

/-- What `generate_html_for_act` writes (html.py:235-244). -/
def htmlFile (p : Printers) (act : Act) : Gen Str :=
  match htmlDocument act with
  | .ok document => ⟨[py"<!DOCTYPE html>\n", p.html document], none⟩
  | .error e => ⟨[], some e⟩

/-- `output_txt`, `output_json` and `output_html` (cli.py:120-132): what they write, and the exception. `print` adds the end of the
line; everything that `write_txt` prints goes to the file (`txt_to_file_partial`). -/
def Printers.output (p : Printers) : Format → Output → Gen Str
  | .txt, .act a => ⟨(writeTxt p.wrap (.act a)).yields.map fun l => l.text ++ ['\n'], (writeTxt p.wrap (.act a)).stop⟩
  | .txt, .raw r => ⟨(writeTxt p.wrap (.raw r)).yields.map fun l => l.text ++ ['\n'], (writeTxt p.wrap (.raw r)).stop⟩
  | .json, o => p.json o
  | .html, .act a => htmlFile p a
  | .html, .raw _ => ⟨[], some .typeError⟩

/-- `os.path.join(a, b)`. -/
def pathJoin (a b : Str) : Str :=
  if b.head? = some '/' then b else if a.isEmpty ∨ a.getLast? = some '/' then a ++ b else a ++ '/' :: b

/-- `file_path` (cli.py:110-113). -/
def filePath (dir : Str) (o : Output) (f : Format) : Str := pathJoin dir (o.identifier ++ '.' :: f.name)

/-- What the command changes: the texts of files, by path, and the standard output. Directories, failures of `open` and what is
printed to the standard error are left out. -/
structure CliWorld where
  files : Dict Str Str
  stdout : Str

/-- Writing one object (cli.py:109-118). A file is emptied when it is opened and has what was written if there is an exception. -/
def writeOutput (p : Printers) (args : CliArgs) (o : Output) (w : CliWorld) : CliWorld × Option Err :=
  let g := p.output args.format o
  match args.outputDir with
  | some dir => ({ w with files := w.files.set (filePath dir o args.format) g.yields.flatten }, g.stop)
  | none => ({ w with stdout := w.stdout ++ g.yields.flatten }, g.stop)

/-- `extracted = extracted.act` for the two classes that have it (cli.py:103-104). The other classes are not asked for. -/
def Extracted.output? : Extracted → Option Output
  | .raw r => some (.raw r)
  | .structureOnly a | .blockOnly a | .act a => some (.act a)
  | _ => none

/-- Whether an object is passed over (cli.py:105-108). -/
def notOutput (args : CliArgs) (o : Output) : Bool :=
  (args.step = .act || args.step = .raw) && match args.singleAct with
    | some i => o.identifier ≠ i
    | none => false

/-- The loop of `run` (cli.py:102-118), over what is yielded before the exception of extraction, if there is one. -/
def runLoop (p : Printers) (args : CliArgs) (stop : Option Err) : List Extracted → CliWorld → CliWorld × Option Err
  | [], w => (w, stop)
  | e :: es, w =>
    match e.output? with
    | none => (w, some .attributeError)
    | some o =>
      if notOutput args o then runLoop p args stop es w
      else match writeOutput p args o w with
        | (w, some err) => (w, some err)
        | (w, none) => runLoop p args stop es w

/-- `run` (cli.py:88-118): what it can lead to. -/
def CliRuns (s : Sources) (p : Printers) (args : CliArgs) (w : CliWorld) (result : CliWorld × Option Err) : Prop :=
  ∃ g, (s.pipeline args.step).Extracts (args.issues.map .issue) args.workers.toNat g ∧
    result = runLoop p args g.stop g.yields w

end Verif
