import Verif.Model.Editor
import Verif.Model.Pipeline

/-! # Sessions of the fix-up editor: /repo/fixup_editor.py lines 138-167

What is printed is left out. -/

namespace Verif

/-- What the user does when an act cannot be parsed: the answer, and what happens in the editor if it is opened. -/
structure Visit where
  answer : Str
  edit : Str → Nat → Res Str

/-- The answers after which the editor is opened (fixup_editor.py:151). -/
def goOnAnswers : List Str := [[], py"y", py"Y", py"yes", py"YES", py"Yes"]

/-- How `detect_errors_and_try_fix` ends. -/
inductive SessionEnd
  | parsed
  | leftBroken
  deriving DecidableEq, Repr

/-- The parsers that are tried on the lines after fix-ups (fixup_editor.py:144-146). -/
def tryParsing (analyze : Analyzer) (raw : LawRawText) (body : List Line) : Res Act := do
  let act ← parseAct raw.identifier raw.publicationDate raw.subject body
  let act ← parseBlockAmendments analyze act
  addSemantics analyze act

/-- `detect_errors_and_try_fix` (fixup_editor.py:138-156): the replacements as they are saved at the end, how it ended, and what the
user does afterwards. Every exception of the parsers is caught, other ones are not; `input` raises `EOFError` if there is no answer. -/
def detectErrorsAndTryFix (byHand : List (Str × FixupFn)) (analyze : Analyzer) (raw : LawRawText) :
    List Visit → Replacements → Res (Replacements × SessionEnd × List Visit)
  | [], saved => do
    let fixupped ← doAllFixups (loadFixups byHand saved) raw.identifier raw.body
    match tryParsing analyze raw fixupped with
    | .ok _ => .ok (saved, .parsed, [])
    | .error _ => .error .eofError
  | v :: more, saved => do
    let fixupped ← doAllFixups (loadFixups byHand saved) raw.identifier raw.body
    match tryParsing analyze raw fixupped with
    | .ok _ => .ok (saved, .parsed, v :: more)
    | .error _ =>
      if v.answer ∉ goOnAnswers then .ok (saved, .leftBroken, more)
      else do
        let edited ← doFileEditing v.edit fixupped
        let replacements ← extractReplacements (fixupped.map Line.content) edited
        detectErrorsAndTryFix byHand analyze raw more (saveReplacements saved raw.identifier replacements)

/-- The loop over the texts of acts of an issue (fixup_editor.py:166-167). -/
def editAll (byHand : List (Str × FixupFn)) (analyze : Analyzer) :
    List LawRawText → Replacements → List Visit → Res (Replacements × List SessionEnd)
  | [], saved, _ => .ok (saved, [])
  | raw :: raws, saved, visits => do
    let r ← detectErrorsAndTryFix byHand analyze raw visits saved
    let rs ← editAll byHand analyze raws r.1 r.2.2
    .ok (rs.1, r.2.1 :: rs.2)

end Verif
