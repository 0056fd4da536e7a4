import Verif.Model.Line
import Verif.Model.Date

/-! # The gazette: /repo/hun_law/extractors/magyar_kozlony.py -/

namespace Verif

/-- `PdfOfLines` (pdf.py:153-158): the lines of each page. -/
abbrev PdfOfLines := List (List Line)

/-- `is_magyar_kozlony` (magyar_kozlony.py:27-32). -/
def isMagyarKozlony (pdf : PdfOfLines) : Res Bool :=
  match pdf with
  | [] => .error .indexError
  | page :: _ =>
    match page with
    | [] => .error .indexError
    | line :: _ => .ok (isInfix (py"MAGYAR KÖZLÖNY") line.content)

/-- `PageWithHeader` (magyar_kozlony.py:36-38). -/
structure PageWithHeader where
  header : List Line
  lines : List Line
  deriving DecidableEq, Repr

/-- `KozlonyPagesWithHeaderAndFooter` (magyar_kozlony.py:42-44). -/
structure KozlonyPages where
  publicationDate : Date
  pages : List PageWithHeader
  deriving DecidableEq, Repr

/-- `MagyarKozlonyHeaderExtractor` (magyar_kozlony.py:48-68): what it yields, at most one object. -/
def headerExtractor (pdf : PdfOfLines) : Res (Option KozlonyPages) := do
  if ← isMagyarKozlony pdf then
    let first := pdf.headD []
    match first[3]? with
    | none => .error .indexError
    | some line => do
      let date ← Date.fromHungarianText line.content
      .ok (some ⟨date, ⟨first.take 5, first.drop 5⟩ :: pdf.map fun page => ⟨page.take 2, page.drop 2⟩⟩)
  else .ok none

/-- `MagyarKozlonyLawsSection` (magyar_kozlony.py:72-74). -/
structure LawsSection where
  publicationDate : Date
  lines : List Line
  deriving DecidableEq, Repr

/-- The keys of `SECTION_TYPES` (magyar_kozlony.py:79-90); the value of the second is `MagyarKozlonyLawsSection`, of the others
`None`. -/
def sectionTypes : List Str :=
  [py"Tartalomjegyzék", py"II. Törvények", py"III. Kormányrendeletek", py"IV. A Magyar Nemzeti Bank elnökének rendeletei,",
   py"V. A Kormány tagjainak rendeletei", py"VI.Az Alkotmánybíróság határozatai, teljes ülési", py"VII. A Kúria határozatai",
   py"IX. Határozatok Tára"]

/-- `SECTION_TYPES[…] is not None`. -/
def isLawsType (t : Str) : Bool := t == py"II. Törvények"

/-- A section object if the type has a class (magyar_kozlony.py:112-113, 124-126). -/
def sectionOf (date : Date) (t : Str) (content : List Line) : List LawsSection :=
  if isLawsType t then [⟨date, content⟩] else []

/-- The loop and the end of `MagyarKozlonySectionExtractor` (magyar_kozlony.py:98-126). -/
def sectionLoop (date : Date) : Option Str → List Line → List PageWithHeader → Gen LawsSection
  | none, _, [] => ⟨[], some .assertionError⟩
  | some t, content, [] => ⟨sectionOf date t content, none⟩
  | current, content, page :: pages =>
    match page.lines with
    | [] => sectionLoop date current content pages
    | line :: lines =>
      if line.content ∈ sectionTypes then
        if current = some line.content then sectionLoop date current (content ++ lines ++ [emptyLine]) pages
        else
          let g := sectionLoop date (some line.content) (lines ++ [emptyLine]) pages
          match current with
          | none => g
          | some t => ⟨sectionOf date t content ++ g.yields, g.stop⟩
      else match current with
        | none => ⟨[], some .valueError⟩
        | some t => sectionLoop date (some t) (content ++ line :: lines ++ [emptyLine]) pages

/-- `MagyarKozlonySectionExtractor` (magyar_kozlony.py:94-126). -/
def sectionExtractor (k : KozlonyPages) : Gen LawsSection := sectionLoop k.publicationDate none [] k.pages

/-- `MagyarKozlonyLawRawText` (magyar_kozlony.py:130-134). -/
structure LawRawText where
  identifier : Str
  publicationDate : Date
  subject : Str
  body : List Line
  deriving DecidableEq, Repr

/-- The states of the machine: the methods that can be `self.state`. -/
inductive LawState
  | waitingForHeaderNewline | waitingForHeader | header | bodyBeforeAsteriskFooter | bodyAfterAsteriskFooter
  deriving DecidableEq, Repr

/-- `LawExtractorStateMachine` without `publication_date`, which never changes, and `pending_result`, which is returned
(magyar_kozlony.py:144-150). -/
structure LawMachine where
  identifier : Str := []
  subject : Str := []
  body : List Line := []
  state : LawState := .waitingForHeaderNewline
  deriving DecidableEq, Repr

/-- The rest of `HEADER_STARTING_RE` after the year: `[IVXLC]+. törvény`, where `.` is not a line break. -/
def romanTorveny : Str → Bool
  | [] => false
  | c :: cs => "IVXLC".toList.contains c &&
      ((match cs with
        | d :: ds => d != '\n' && startsWith ds (py" törvény")
        | [] => false) || romanTorveny cs)

/-- `HEADER_STARTING_RE.match`: `^[12][09][0-9][0-9]. évi [IVXLC]+. törvény` (magyar_kozlony.py:141). -/
def headerStarting (s : Str) : Bool :=
  match s with
  | a :: b :: c :: d :: e :: rest =>
    (a == '1' || a == '2') && (b == '0' || b == '9') && isAsciiDigit c && isAsciiDigit d && e != '\n' &&
      startsWith rest (py" évi ") && romanTorveny (rest.drop 5)
  | _ => false

/-- `ACT_FOOTER_RE.match`: `köztársasági elnök az Országgyűlés (al)?elnöke` (magyar_kozlony.py:142). -/
def actFooter (s : Str) : Bool :=
  startsWith s (py"köztársasági elnök az Országgyűlés elnöke") || startsWith s (py"köztársasági elnök az Országgyűlés alelnöke")

/-- `HEADER` (magyar_kozlony.py:169-179). -/
def LawMachine.feedHeader (m : LawMachine) (line : Line) : Res LawMachine :=
  let subject := if m.subject ≠ [] then m.subject ++ ' ' :: line.content else line.content
  match subject.getLast? with
  | none => .error .indexError
  | some c =>
    if c = '*' then .ok { m with subject := subject.dropLast, state := .bodyBeforeAsteriskFooter }
    else .ok { m with subject := subject }

/-- `BODY_AFTER_ASTERISK_FOOTER` (magyar_kozlony.py:201-223). The body is at least four long where it is looked at. -/
def LawMachine.feedAfter (m : LawMachine) (date : Date) (line : Line) : LawMachine × Option LawRawText :=
  let body := m.body ++ [line]
  if body.length < 4 then ({ m with body := body }, none)
  else if (body[body.length - 3]?.any Line.isEmptyLine) && actFooter line.content then
    ({}, some ⟨m.identifier, date, m.subject, body.take (body.length - 3)⟩)
  else ({ m with body := body }, none)

/-- `BODY_BEFORE_ASTERISK_FOOTER` (magyar_kozlony.py:181-199). The first character of an empty text is an `IndexError`. -/
def LawMachine.feedBefore (m : LawMachine) (date : Date) (line : Line) : Res (LawMachine × Option LawRawText) :=
  let body := m.body ++ [line]
  if 4 ≤ body.length ∧ (body[body.length - 3]?.any Line.isEmptyLine) ∧ line.isEmptyLine then
    match body[body.length - 2]?.bind (·.content.head?) with
    | none => .error .indexError
    | some c =>
      if c = '*' then
        .ok ({ m with body := body.take (body.length - 3) ++ [emptyLine], state := .bodyAfterAsteriskFooter }, none)
      else .ok (m.feedAfter date line)
  else .ok (m.feedAfter date line)

/-- `feed_line` (magyar_kozlony.py:152-155), with `WAITING_FOR_HEADER_NEWLINE` (157-160) and `WAITING_FOR_HEADER`
(162-167). -/
def LawMachine.feed (m : LawMachine) (date : Date) (line : Line) : Res (LawMachine × Option LawRawText) :=
  match m.state with
  | .waitingForHeaderNewline =>
    .ok (if line.isEmptyLine then { m with state := .waitingForHeader } else m, none)
  | .waitingForHeader =>
    .ok (if headerStarting line.content then { m with identifier := line.content, state := .header }
      else { m with state := .waitingForHeaderNewline }, none)
  | .header => do
    let m ← m.feedHeader line
    .ok (m, none)
  | .bodyBeforeAsteriskFooter => m.feedBefore date line
  | .bodyAfterAsteriskFooter => .ok (m.feedAfter date line)

/-- The loop of `MagyarKozlonyLawExtractor` (magyar_kozlony.py:229-232). -/
def lawLoop (date : Date) : LawMachine → List Line → Gen LawRawText
  | _, [] => ⟨[], none⟩
  | m, line :: lines =>
    match m.feed date line with
    | .error e => ⟨[], some e⟩
    | .ok r =>
      let g := lawLoop date r.1 lines
      ⟨r.2.toList ++ g.yields, g.stop⟩

/-- `MagyarKozlonyLawExtractor` (magyar_kozlony.py:227-232). -/
def lawExtractor (s : LawsSection) : Gen LawRawText := lawLoop s.publicationDate {} s.lines

end Verif
