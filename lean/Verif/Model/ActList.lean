import Verif.Model.Txt

/-! # The list of acts: /repo/generate_act_to_mk_issue.py

`HTMLParser` is not modelled: a page is the sequence of events that it reports. -/

namespace Verif.ActList

/-- What `HTMLParser` reports. -/
inductive Event
  | startTag (tag : Str)
  | endTag (tag : Str)
  | data (s : Str)

/-- `handle_data` (generate_act_to_mk_issue.py:25-32): the text that is kept. -/
def keptText (data : Str) : Option Str :=
  let data := replaceAll [Char.ofNat 0xa0] (py" ") (pyStrip data)
  if data = [] then none else some data

/-- `parser.tags` after `feed` and `close` (generate_act_to_mk_issue.py:12-35), without the stacks of open tags, which nothing looks at. -/
def keptTexts : List Event → List Str
  | [] => []
  | .data s :: es => (keptText s).toList ++ keptTexts es
  | _ :: es => keptTexts es

/-- `.* törvény` at the beginning of a text: `.` is not the end of a line. -/
def hasActWord : Str → Bool
  | [] => false
  | c :: s => (py" törvény").isPrefixOf (c :: s) || (c != '\n' && hasActWord s)

/-- `ACT_ID_RE.match(data)` (generate_act_to_mk_issue.py:9): the expression is `20..\. évi .* törvény`. -/
def isActId : Str → Bool
  | '2' :: '0' :: a :: b :: s => a != '\n' && b != '\n' && (py". évi ").isPrefixOf s && hasActWord (s.drop 6)
  | _ => false

/-- The printed line (generate_act_to_mk_issue.py:49-51). -/
def row (year issue : Int) (id data : Str) : Str :=
  let data := if isInfix (py",") data then (py"\"") ++ data ++ (py"\"") else data
  intStr year ++ (py",") ++ intStr issue ++ (py",") ++ id ++ (py",") ++ data ++ (py"\n")

/-- The loop over `parser.tags` (generate_act_to_mk_issue.py:44-52). -/
def rows (year issue : Int) : Option Str → List Str → List Str
  | _, [] => []
  | prev, data :: rest =>
    if isActId data then rows year issue (some data) rest
    else match prev with
      | some id => row year issue id data :: rows year issue none rest
      | none => rows year issue none rest

/-- `parse_single_issue` (generate_act_to_mk_issue.py:38-52); downloading a page and decoding it is a parameter. -/
def issueRows (page : Int × Int → Res (List Event)) (year issue : Int) : Gen Str :=
  Gen.using (page (year, issue)) fun events => { yields := rows year issue none (keptTexts events) }

/-- `for … in range(start, start + n)`. -/
def overRange (start : Int) (f : Int → Gen Str) : Nat → Gen Str
  | 0 => { yields := [] }
  | n + 1 => (overRange start f n).andThen (f (start + n))

/-- `parse_all` (generate_act_to_mk_issue.py:55-58): the years 2009 to 2019, the issues 1 to 359. -/
def allRows (page : Int × Int → Res (List Event)) : Gen Str :=
  overRange 2009 (fun year => overRange 1 (issueRows page year) 359) 11

end Verif.ActList
