import Verif.Model.Fixups
import Verif.Model.Html
import Verif.Model.Txt
import Verif.Py.Dict

/-! # The editor of fix-ups: /repo/fixup_editor.py, and the registrations of /repo/hun_law/fixups/text_fixups.py -/

namespace Verif

/-- `FixupType` (fixup_editor.py:45): the arguments of `replace_line_content`, saved as a dictionary. -/
structure Replacement where
  needle : Str
  replacement : Str
  needlePrevLines : Option (List Str) := none
  deriving DecidableEq, Repr

/-- `replace_line_content(**replace_args)` (text_fixups.py:61). -/
def Replacement.fixup (r : Replacement) : FixupFn := replaceLineContent r.needle r.replacement r.needlePrevLines

/-- `count_sublists` (fixup_editor.py:78-79). -/
def countSublists (haystack needle : List Str) : Nat :=
  ((List.range (haystack.length - needle.length)).filter fun i : Nat => pySlice haystack i (i + needle.length) = needle).length

/-- The loop over the lengths of the context (fixup_editor.py:98-110). -/
def contextLoop (originalLines newLines : List Str) (lineNum : Nat) (originalLine newLine : Str) :
    List Nat → Res Replacement
  | [] => .error .valueError
  | contextLen :: more =>
    let prev := pySlice newLines ((lineNum : Int) - contextLen) lineNum
    if countSublists (newLines.take lineNum ++ originalLines.drop lineNum) (prev ++ [originalLine]) = 1 then
      .ok ⟨originalLine, newLine, some prev⟩
    else contextLoop originalLines newLines lineNum originalLine newLine more

/-- `range(1, 10)` -/
def contextLengths : List Nat := [1, 2, 3, 4, 5, 6, 7, 8, 9]

/-- The loop of `extract_replacements` (fixup_editor.py:88-110). -/
def extractLoop (originalLines newLines : List Str) : Nat → List (Str × Str) → Res (List Replacement)
  | _, [] => .ok []
  | lineNum, (originalLine, newLine) :: more =>
    if originalLine = newLine then extractLoop originalLines newLines (lineNum + 1) more
    else do
      let r ← if originalLines.count originalLine = 1 then .ok ⟨originalLine, newLine, none⟩
        else contextLoop originalLines newLines lineNum originalLine newLine contextLengths
      let rs ← extractLoop originalLines newLines (lineNum + 1) more
      .ok (r :: rs)

/-- `extract_replacements` (fixup_editor.py:82-111). -/
def extractReplacements (originalLines newLines : List Str) : Res (List Replacement) :=
  if originalLines.length ≠ newLines.length then .error .valueError
  else extractLoop originalLines newLines 0 (originalLines.zip newLines)

/-- `"{:>n}".format(i)`. -/
def padLeft (n : Nat) (s : Str) : Str := List.replicate (n - s.length) ' ' ++ s

/-- A line of the file to edit (fixup_editor.py:55-56). The factor 0.2 is exactly 1/5 here. -/
def editLine (level : Int) (l : Line) : Str :=
  padLeft 4 (intStr level) ++ ' ' :: List.replicate (pyTrunc (l.indent * (1 / 5))).toNat ' ' ++ ' ' :: l.content ++ ['\n']

/-- The loop that writes the file (fixup_editor.py:53-57). -/
def writeEditLines : List (Int × Line) → Res Str
  | [] => .ok []
  | (level, l) :: more =>
    if pyStrip l.content ≠ l.content then .error .assertionError
    else do
      let rest ← writeEditLines more
      .ok (editLine level l ++ rest)

/-- `first_negative` and `last_zero` after the loop (fixup_editor.py:51-52, 58-61). -/
def markLines : Nat → Option Nat → Option Nat → List (Int × Line) → Option Nat × Option Nat
  | _, firstNegative, lastZero, [] => (firstNegative, lastZero)
  | i, firstNegative, lastZero, (level, _) :: more =>
    markLines (i + 1) (if level < 0 ∧ firstNegative = none then some i else firstNegative)
      (if level = 0 then some i else lastZero) more

/-- `open_at_line` (fixup_editor.py:64-69). -/
def openAtLine (levels : List (Int × Line)) : Nat :=
  match markLines 0 none none levels with
  | (some i, _) => i
  | (none, some i) => i
  | (none, none) => 0

/-- Reading in text mode: `\r\n` and `\r` are read as `\n`. -/
def universalNewlines : Str → Str
  | [] => []
  | '\r' :: '\n' :: cs => '\n' :: universalNewlines cs
  | c :: cs => (if c = '\r' then '\n' else c) :: universalNewlines cs

/-- Iterating over a file that is open in text mode: the lines with their newlines. -/
def fileLines : Str → List Str
  | [] => []
  | c :: cs =>
    if c = '\n' then [c] :: fileLines cs
    else match fileLines cs with
      | [] => [[c]]
      | l :: ls => (c :: l) :: ls

/-- What is read back from the file (fixup_editor.py:73). -/
def readEditLines (file : Str) : List Str := (fileLines (universalNewlines file)).map fun fl => pyStrip (fl.drop 5)

/-- `do_file_editing` (fixup_editor.py:49-75). The editor is a parameter: it is given the file and the line to open it at (counted
from 1) and leaves a file, or fails. Creating and deleting the temporary file are left out. -/
def doFileEditing (edit : Str → Nat → Res Str) (body : List Line) : Res (List Str) := do
  let levels := (iterateWithQuoteLevel body false).yields
  let file ← writeEditLines levels
  let edited ← edit file (openAtLine levels + 1)
  .ok (readEditLines edited)

/-- `replacement_fixups` (replacement_fixups.py): the replacements of each act. -/
abbrev Replacements := Dict Str (List Replacement)

/-- What `save_replacements_and_reload` writes (fixup_editor.py:114-135), as it is read by reloading the module: with the keys in
order. Writing the file and `json.dump` are left out. -/
def saveReplacements (saved : Replacements) (identifier : Str) (replacements : List Replacement) : Replacements :=
  let saved := if (saved.get? identifier).isNone then saved.set identifier [] else saved
  let saved := saved.set identifier ((saved.get? identifier).getD [] ++ replacements)
  saved.mergeSort fun a b => !strLt b.1 a.1

/-- The registrations by hand (text_fixups.py:26-55). -/
def textFixups : List (Str × FixupFn) := [
  (py"2013. évi V. törvény", addEmptyLineAfter (py"A SZERZŐDÉS ÁLTALÁNOS SZABÁLYAI")),
  (py"2013. évi CLXXVII. törvény", ptkeArticleHeaderFixer),
  (py"2011. évi CLXIX. törvény", replaceLineContent
    (py"(2) Az Mktv. 36. §-a a következő (4)–(6) bekezdéssel egészül ki:")
    (py"(2) Az Mktv. 36. §-a a következő (4)–(9) bekezdéssel egészül ki:") none),
  (py"2011. évi CLXIX. törvény", replaceLineContent
    (py"adatot át kell adni az NMHH részére, amely azokat tárolja és kezeli.”")
    (py"adatot át kell adni az NMHH részére, amely azokat tárolja és kezeli.") none),
  (py"2011. évi CLXIX. törvény", deleteLine (py"„(3) Az Mktv. 36. §-a a következő (7)–(9) bekezdéssel egészül ki:")),
  (py"2011. évi CLXIX. törvény", replaceLineContent
    (py"„(7) 2012. január 1-je előtt a kiskorúak védelme érdekében")
    (py"(7) 2012. január 1-je előtt a kiskorúak védelme érdekében") none),
  (py"2013. évi LXXVIII. törvény", deleteLine (py"212/A. §")),
  (py"2013. évi LXXVIII. törvény", replaceLineContent
    (py"(1) Aki gyermekének szülője, továbbá az elkövetéskor vagy korábban vele közös háztartásban vagy egy lakásban")
    (py"212/A. § (1) Aki gyermekének szülője, továbbá az elkövetéskor vagy korábban vele közös háztartásban vagy egy lakásban")
    none)]

/-- The registrations of saved replacements (text_fixups.py:57-61). -/
def savedFixups (saved : Replacements) : List (Str × FixupFn) :=
  saved.flatMap fun e => e.2.map fun r => (e.1, r.fixup)

/-- `all_fixups` after `text_fixups.py` has been run; `byHand` are the registrations before the loop, `textFixups` in the code. -/
def loadFixups (byHand : List (Str × FixupFn)) (saved : Replacements) : Fixups :=
  (byHand ++ savedFixups saved).foldl (fun f e => addFixup f e.1 e.2) []

/-- One round of `detect_errors_and_try_fix` in which the act is edited (fixup_editor.py:142, 154-156). Parsing the act and asking
whether to edit are left out. -/
def editRound (byHand : List (Str × FixupFn)) (edit : Str → Nat → Res Str) (saved : Replacements) (identifier : Str)
    (body : List Line) : Res Replacements := do
  let fixupped ← doAllFixups (loadFixups byHand saved) identifier body
  let edited ← doFileEditing edit fixupped
  let replacements ← extractReplacements (fixupped.map Line.content) edited
  .ok (saveReplacements saved identifier replacements)

end Verif
