import Verif.Py.Basic

/-! # Lines: /repo/hun_law/utils.py lines 28-144 and 368-381, 489-495 -/

namespace Verif

/-- `IndentedLinePart` (utils.py:28-32): distance from the previous part, text, boldness. -/
structure Part where
  dx : Rat
  content : Str
  bold : Bool := false
  deriving DecidableEq, Repr

/-- `IndentedLine` (utils.py:35-41). `content`, `indent` and `bold` are computed from the parts by the
constructor; here they are functions. -/
structure Line where
  parts : List Part := []
  marginRight : Rat := 0
  deriving DecidableEq, Repr

/-- `EMPTY_LINE` (utils.py:144). -/
def emptyLine : Line := {}

namespace Line

/-- `_content_default` (utils.py:50-52). -/
def content (l : Line) : Str := l.parts.flatMap (·.content)

/-- `_indent_default` (utils.py:54-58). -/
def indent (l : Line) : Rat :=
  match l.parts with
  | [] => 0
  | p :: _ => p.dx

/-- `_bold_default` (utils.py:60-68). -/
def bold (l : Line) : Bool :=
  let sums := l.parts.foldl (fun (acc : Nat × Nat) p =>
    (acc.1 + p.content.length, if p.bold then acc.2 + p.content.length else acc.2)) (0, 0)
  decide (sums.2 * 2 > sums.1)

/-- `line == EMPTY_LINE`: `margin_right` has `eq=False`, the other attributes are computed from the parts. -/
def isEmptyLine (l : Line) : Bool := l.parts.isEmpty

/-- First loop of `slice` (utils.py:83-89): skips parts until `start` characters are skipped. Returns
`skipped_x`, `skipped_len` and the parts from `skipped_parts_index` on. -/
def skipLoop (start : Int) : Rat → Int → List Part → Rat × Int × List Part
  | x, len, [] => (x, len, [])
  | x, len, p :: ps =>
    if len < start then skipLoop start (x + p.dx) (len + p.content.length) ps else (x, len, p :: ps)

/-- Second loop of `slice` (utils.py:99-103): takes parts until `n` characters are taken. Returns
`included_len`, the parts taken and those left. -/
def takeLoop (n : Int) : Int → List Part → Int × List Part × List Part
  | len, [] => (len, [], [])
  | len, p :: ps =>
    if len < n then
      let r := takeLoop n (len + p.content.length) ps
      (r.1, p :: r.2.1, r.2.2)
    else (len, [], p :: ps)

/-- `slice` (utils.py:70-122). -/
def slice (l : Line) (start : Int) (stop : Option Int := none) : Res Line :=
  let len : Int := l.content.length
  let start := if start < 0 then len + start else start
  let stop := stop.getD len
  let stop := if stop < 0 then len + stop else stop
  if start = 0 ∧ stop = len then .ok l
  else if stop ≤ start then .ok emptyLine
  else
    let (skippedX, skippedLen, rest) := skipLoop start 0 0 l.parts
    match rest with
    | [] => .ok emptyLine
    | _ :: _ =>
      if skippedLen ≠ start then .error .valueError
      else
        let (includedLen, included, left) := takeLoop (stop - start) 0 rest
        if includedLen ≠ stop - start then .error .valueError
        else match included with
          | [] => .error .indexError
          | first :: more =>
            .ok { parts := { first with dx := first.dx + skippedX } :: more,
                  marginRight := l.marginRight + 20 * (left.length : Rat) }

/-- Inner loop of `from_multiple` after the first part of a line (utils.py:136-140). -/
def fromRest : Rat → List Part → List Part × Rat
  | x, [] => ([], x)
  | x, p :: ps => let r := fromRest (x + p.dx) ps; (p :: r.1, r.2)

/-- Outer loop of `from_multiple` (utils.py:128-140). The first part of each line is rebuilt without its
`bold` flag. -/
def fromLoop : Rat → List Line → List Part
  | _, [] => []
  | x, o :: os =>
    match o.parts with
    | [] => fromLoop x os
    | p :: ps =>
      let r := fromRest p.dx ps
      { dx := p.dx - x, content := p.content } :: r.1 ++ fromLoop r.2 os

/-- `from_multiple` (utils.py:124-141). -/
def fromMultiple (others : List Line) : Line :=
  { parts := fromLoop 0 others,
    marginRight := match others.getLast? with
      | some l => l.marginRight
      | none => 0 }

end Line

/-- `quote_level_diff` (utils.py:368-369). -/
def quoteLevelDiff (s : Str) : Int :=
  (s.count '„' : Int) + (s.count '“' : Int) - (s.count '”' : Int)

/-- The loop of `iterate_with_quote_level` (utils.py:373-381). -/
def quoteLevelLoop (throwExceptions : Bool) : Int → List Line → Gen (Int × Line)
  | level, [] =>
    { yields := [], stop := if throwExceptions && level ≠ 0 then some .valueError else none }
  | level, line :: lines =>
    let level' := level + quoteLevelDiff line.content
    if throwExceptions && level' < 0 then { yields := [(level, line)], stop := some .valueError }
    else
      let g := quoteLevelLoop throwExceptions level' lines
      { yields := (level, line) :: g.yields, stop := g.stop }

/-- `iterate_with_quote_level` (utils.py:372-381). -/
def iterateWithQuoteLevel (lines : List Line) (throwExceptions : Bool := true) : Gen (Int × Line) :=
  quoteLevelLoop throwExceptions 0 lines

/-- The loop of `join_line_strs` (utils.py:490-494). -/
def joinLoop : Str → List Str → Str
  | result, [] => result
  | result, s :: ss =>
    joinLoop ((if result ≠ [] ∧ result.getLast? ≠ some '-' then result ++ [' '] else result) ++ s) ss

/-- `join_line_strs` (utils.py:489-495). -/
def joinLineStrs (lines : List Str) : Str := joinLoop [] lines

/-- The loop of `split_list` (utils.py:191-198). -/
def splitListLoop {α : Type} [DecidableEq α] (needle : α) : List α → List α → List (List α)
  | result, [] => if result ≠ [] then [result] else []
  | result, e :: es =>
    if e = needle ∧ result ≠ [] then result :: splitListLoop needle [e] es
    else splitListLoop needle (result ++ [e]) es

/-- `split_list` (utils.py:189-199). -/
def splitList {α : Type} [DecidableEq α] (haystack : List α) (needle : α) : List (List α) :=
  splitListLoop needle [] haystack

end Verif
