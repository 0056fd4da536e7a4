import Verif.Py.Basic

/-! # The generated parser: /repo/hun_law/grammar/__init__.py

What TatSu generates is a parameter. A process that loads the module is a sequence of small steps between which it can be killed; only one
process runs at a time. -/

namespace Verif.Generated

/-- A version of TatSu and the content of `grammar.ebnf`. -/
abbrev Input := Str × Str

/-- What the code does not control: `hashlib.sha256(…).hexdigest()`, and what a version of TatSu generates of a grammar with
`to_python_model` and `to_python_sourcecode`. -/
structure Tools where
  sha : Str → Str
  model : Input → Res Str
  source : Input → Res Str

/-- `header_for_generated_files` (__init__.py:30). -/
def Tools.header (t : Tools) (x : Input) : Str :=
  (py"# Version of tatsu: ") ++ x.1 ++ (py", SHA256 of grammar file: ") ++ t.sha x.2 ++ (py"\n")

/-- `model_fixup_from` (__init__.py:48). -/
def fixupFrom : Str := py"def __init__(self, context=None, types=None):"

/-- `model_fixup_to` (__init__.py:49). -/
def fixupTo : Str := py"def __init__(self, context=None, types=None): # type: ignore"

/-- What is written after the header of `model.py`, or the exception (__init__.py:52-55). -/
def Tools.modelBody (t : Tools) (x : Input) : Res Str := do
  let content ← t.model x
  if isInfix fixupFrom content then .ok (replaceAll fixupFrom fixupTo content) else .error .assertionError

/-- What is written after the first two lines of `parser.py`, or the exception (__init__.py:59-61). -/
def Tools.sourceBody (t : Tools) (x : Input) : Res Str := do
  let content ← t.source x
  .ok (replaceAll (py"  # type: ignore") [] content)

/-- All that is written to `model.py` (__init__.py:50-55). -/
def Tools.modelText (t : Tools) (x : Input) : Str :=
  t.header x ++ match t.modelBody x with
    | .ok b => b
    | .error _ => []

/-- All that is written to `parser.py` (__init__.py:56-61). -/
def Tools.sourceText (t : Tools) (x : Input) : Str :=
  t.header x ++ (py"# type: ignore\n") ++ match t.sourceBody x with
    | .ok b => b
    | .error _ => []

/-- `f.readline()`. -/
def readline : Str → Str
  | [] => []
  | c :: s => if c = '\n' then [c] else c :: readline s

/-- The files `model.py` and `parser.py` beside the module, if they are there. -/
structure Files where
  model : Option Str := none
  source : Option Str := none

/-- `need_regen` after `os.path.isfile` and `readline` for one file (__init__.py:33-45). -/
def outdated (header : Str) : Option Str → Bool
  | none => true
  | some content => readline content != header

/-- `need_regen` (__init__.py:32-45). -/
def Tools.needRegen (t : Tools) (x : Input) (f : Files) : Bool := outdated (t.header x) f.model || outdated (t.header x) f.source

/-- Where a process is. -/
inductive Phase
  | start
  /-- So many characters of `model.py` are in the file. -/
  | writeModel (n : Nat)
  /-- So many characters of `parser.py` are in the file. -/
  | writeSource (n : Nat)
  | done (result : Res Unit)

/-- The steps of a process that loads the module (__init__.py:32-61). A file is empty as soon as it is opened for writing, and what is
written to it arrives in pieces of any size; an exception closes the file with what is written so far. -/
inductive Step (t : Tools) (x : Input) : Phase × Files → Phase × Files → Prop
  | skip {f} (h : t.needRegen x f = false) : Step t x (.start, f) (.done (.ok ()), f)
  | openModel {f} (h : t.needRegen x f = true) : Step t x (.start, f) (.writeModel 0, { f with model := some [] })
  | writeModel {f n m} (h : n < m) (hm : m ≤ (t.modelText x).length) :
      Step t x (.writeModel n, f) (.writeModel m, { f with model := some ((t.modelText x).take m) })
  | modelFails {f e} (h : t.modelBody x = .error e) : Step t x (.writeModel (t.modelText x).length, f) (.done (.error e), f)
  | openSource {f b} (h : t.modelBody x = .ok b) :
      Step t x (.writeModel (t.modelText x).length, f) (.writeSource 0, { f with source := some [] })
  | writeSource {f n m} (h : n < m) (hm : m ≤ (t.sourceText x).length) :
      Step t x (.writeSource n, f) (.writeSource m, { f with source := some ((t.sourceText x).take m) })
  | sourceFails {f e} (h : t.sourceBody x = .error e) : Step t x (.writeSource (t.sourceText x).length, f) (.done (.error e), f)
  | finish {f b} (h : t.sourceBody x = .ok b) : Step t x (.writeSource (t.sourceText x).length, f) (.done (.ok ()), f)

/-- Any number of steps. -/
inductive Steps (t : Tools) (x : Input) : Phase × Files → Phase × Files → Prop
  | refl (s) : Steps t x s s
  | tail {a b c} (h : Steps t x a b) (hs : Step t x b c) : Steps t x a c

/-- A history of processes, each with the version and the grammar of its time, that end or are killed where this is allowed. -/
inductive History (t : Tools) (allowed : Input → Prop) (kill : Input → Phase → Prop) : Files → Files → Prop
  | none (f) : History t allowed kill f f
  | ended {f f' f'' x r} (hx : allowed x) (hs : History t allowed kill f f') (h : Steps t x (.start, f') (.done r, f'')) :
      History t allowed kill f f''
  | killed {f f' f'' x p} (hx : allowed x) (hs : History t allowed kill f f') (h : Steps t x (.start, f') (p, f'')) (hp : kill x p) :
      History t allowed kill f f''

end Verif.Generated
