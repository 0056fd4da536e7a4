import Verif.Py.Dict
import Verif.Model.Line

/-! # Text boxes to lines: /repo/hun_law/extractors/pdf.py lines 37-44 and 169-244

The distance 0.2 is the rational number 1/5. -/

namespace Verif

/-- `TextBox` (pdf.py:37-44). -/
structure TextBox where
  x : Rat
  y : Rat
  width : Rat
  widthOfSpace : Rat
  content : Str
  bold : Bool := false
  deriving DecidableEq, Repr

/-- The dictionary of dictionaries: by `y`, then by `x`. -/
abbrev BoxDict := Dict Rat (Dict Rat TextBox)

/-- One step of the first loop of `sort_textboxes_into_dicts` (pdf.py:171-185). -/
def insertBox (d : BoxDict) (tb : TextBox) : Res BoxDict :=
  let d := if (d.get? tb.y).isNone then d.set tb.y [] else d
  let row := (d.get? tb.y).getD []
  match row.get? tb.x with
  | some old => if tb.content ≠ old.content then .error .valueError else .ok d
  | none => .ok (d.set tb.y (row.set tb.x tb))

/-- The first loop of `sort_textboxes_into_dicts` (pdf.py:171-185). -/
def insertBoxes : BoxDict → List TextBox → Res BoxDict
  | d, [] => .ok d
  | d, tb :: tbs => do
    let d ← insertBox d tb
    insertBoxes d tbs

/-- The second loop of `sort_textboxes_into_dicts` (pdf.py:189-202), over the sorted keys. -/
def mergeRows : Option Rat → List Rat → BoxDict → BoxDict
  | _, [], d => d
  | none, y :: ys, d => mergeRows (some y) ys d
  | some last, y :: ys, d =>
    if y - last < 1/5 ∧ last - y < 1/5 then
      mergeRows (some last) ys ((d.set last (((d.get? last).getD []).update ((d.get? y).getD []))).del y)
    else mergeRows (some y) ys d

/-- `sort_textboxes_into_dicts` (pdf.py:169-204). -/
def sortTextboxesIntoDicts (tbs : List TextBox) : Res BoxDict := do
  let d ← insertBoxes [] tbs
  .ok (mergeRows none (sortRat d.keys) d)

/-- The loop variables of `convert_textbox_dict_to_line` (pdf.py:208-211). -/
structure LineState where
  parts : List Part := []
  threshold : Option Rat := none
  prevX : Rat := 0
  marginRight : Rat := 0

/-- The space before a box, if any (pdf.py:214-217). -/
def addSpace (s : LineState) (box : TextBox) : Res LineState :=
  match s.threshold with
  | none => .ok s
  | some t =>
    if box.x > t ∨ box.content = ['„'] then
      match s.parts.getLast? with
      | none => .ok s
      | some p =>
        match p.content.getLast? with
        | none => .error .indexError
        | some c =>
          if c ≠ ' ' then .ok { s with parts := s.parts ++ [{ dx := t - s.prevX, content := [' '] }], prevX := t }
          else .ok s
    else .ok s

/-- The loop of `convert_textbox_dict_to_line` over the boxes in order (pdf.py:212-221). The key of a box is its `x`. -/
def lineLoop (rightmost : Rat) : LineState → List TextBox → Res Line
  | s, [] => .ok ⟨s.parts, s.marginRight⟩
  | s, box :: boxes => do
    let s ← addSpace s box
    lineLoop rightmost
      { parts := s.parts ++ [{ dx := box.x - s.prevX, content := box.content, bold := box.bold }],
        prevX := box.x,
        threshold := some (box.x + box.width + box.widthOfSpace * (1/2)),
        marginRight := rightmost - (box.x - box.width) } boxes

/-- The boxes of a row in order of their keys. -/
def rowBoxes (row : Dict Rat TextBox) : List TextBox := (sortRat row.keys).filterMap row.get?

/-- `convert_textbox_dict_to_line` (pdf.py:207-223). -/
def convertTextboxDictToLine (row : Dict Rat TextBox) (rightmost : Rat) : Res Line := lineLoop rightmost {} (rowBoxes row)

/-- `max` of the right borders (pdf.py:229): `ValueError` without boxes. -/
def rightmostOnPage : List TextBox → Res Rat
  | [] => .error .valueError
  | tb :: tbs => .ok (tbs.foldl (fun m t => if m < t.width + t.x then t.width + t.x else m) (tb.width + tb.x))

/-- The loop of `extract_single_page` (pdf.py:230-236). -/
def pageLoop (rightmost : Rat) (d : BoxDict) : Rat → List Rat → Res (List Line)
  | _, [] => .ok []
  | prevY, y :: ys => do
    let line ← convertTextboxDictToLine ((d.get? y).getD []) rightmost
    let lines ← pageLoop rightmost d y ys
    .ok ((if prevY ≠ 0 ∧ prevY - y > 18 then [emptyLine] else []) ++ line :: lines)

/-- `extract_single_page` (pdf.py:226-237). -/
def extractSinglePage (tbs : List TextBox) : Res (List Line) := do
  let d ← sortTextboxesIntoDicts tbs
  let rightmost ← rightmostOnPage tbs
  pageLoop rightmost d 0 (sortRat d.keys).reverse

/-- `extract_lines` (pdf.py:240-244). -/
def extractLines : List (List TextBox) → Res (List (List Line))
  | [] => .ok []
  | p :: ps => do
    let l ← extractSinglePage p
    let ls ← extractLines ps
    .ok (l :: ls)

end Verif
