import Verif.Model.Structure

/-! # The structure parser: /repo/hun_law/parsers/structure_parser.py -/

namespace Verif

/-! ## Header expressions

The regular expressions are written out as functions. `re.match` begins at the start of the text; `.` does not match a
newline and `$` also matches before a newline at the end. -/

/-- The text before the last newline, if it ends with one: where `$` may match. -/
def beforeFinalNewline (s : Str) : Str := if s.getLast? = some '\n' then s.dropLast else s

/-- Letters are equal with `re.IGNORECASE`; only used with the ASCII letters of `fejezet`, for which no other
characters are equal. -/
def ignoreCaseEq (a b : Str) : Bool :=
  a.map (fun c => if isUpperAz c then Char.ofNat (c.toNat + 0x20) else c) == b

/-- `(.*)suffix$`, group 1 (structure_parser.py:135, 145, 169, 179). -/
def matchSuffix (eq : Str → Str → Bool) (suffix s : Str) : Option Str :=
  let body := beforeFinalNewline s
  let n := body.length - suffix.length
  if eq (body.drop n) suffix && !(body.take n).contains '\n' then some (body.take n) else none

/-- `([0-9]+(/[A-Z])?)\. `, group 1 (structure_parser.py:190). -/
def matchSubtitle (s : Str) : Option Str :=
  let ds := s.takeWhile isAsciiDigit
  if ds.isEmpty then none
  else match s.dropWhile isAsciiDigit with
    | '.' :: ' ' :: _ => some ds
    | '/' :: c :: '.' :: ' ' :: _ => if isUpperAz c then some (ds ++ ['/', c]) else none
    | _ => none

/-- The part of the article header after the number: `\. ?§ +(.*)$`. -/
def matchArticleTail (s : Str) : Bool :=
  match s with
  | '.' :: ' ' :: '§' :: ' ' :: rest => !(beforeFinalNewline rest).contains '\n'
  | '.' :: '§' :: ' ' :: rest => !(beforeFinalNewline rest).contains '\n'
  | _ => false

/-- `([0-9]+(/[A-Z])?)\. ?§ +(.*)$`, group 1. -/
def matchArticleNumber (s : Str) : Option Str :=
  let ds := s.takeWhile isAsciiDigit
  if ds.isEmpty then none
  else match s.dropWhile isAsciiDigit with
    | '/' :: c :: rest => if isUpperAz c && matchArticleTail rest then some (ds ++ ['/', c]) else none
    | rest => if matchArticleTail rest then some ds else none

/-- `^(([0-9]+:)?([0-9]+(/[A-Z])?))\. ?§ +(.*)$`, group 1 (structure_parser.py:599). -/
def matchArticle (s : Str) : Option Str :=
  let ds := s.takeWhile isAsciiDigit
  match s.dropWhile isAsciiDigit with
  | ':' :: rest => if ds.isEmpty then none else (matchArticleNumber rest).map fun n => ds ++ ':' :: n
  | _ => matchArticleNumber s

/-- `({prefix}[a-z]|ny|sz)\) `, group 1 (structure_parser.py:420, 437, 491). Simplified: the prefix is taken
literally; in the code it is part of the expression, which is the same for letters. -/
def matchLettered (p s : Str) : Option Str :=
  match (if startsWith s p then s.drop p.length else []) with
  | c :: ')' :: ' ' :: _ => if isLowerAz c then some (p ++ [c]) else none
  | _ => if startsWith s (py"ny) ") then some (py"ny") else if startsWith s (py"sz) ") then some (py"sz") else none

/-- `([0-9]+(/?[a-z])?)\. `, group 1 (structure_parser.py:450, 473). -/
def matchNumbered (s : Str) : Option Str :=
  let ds := s.takeWhile isAsciiDigit
  if ds.isEmpty then none
  else match s.dropWhile isAsciiDigit with
    | '.' :: ' ' :: _ => some ds
    | '/' :: c :: '.' :: ' ' :: _ => if isLowerAz c then some (ds ++ ['/', c]) else none
    | c :: '.' :: ' ' :: _ => if isLowerAz c then some (ds ++ [c]) else none
    | _ => none

/-- `\(([0-9]+[a-z]?)\) `, group 1 (structure_parser.py:509). -/
def matchParagraph (s : Str) : Option Str :=
  match s with
  | '(' :: t =>
    let ds := t.takeWhile isAsciiDigit
    if ds.isEmpty then none
    else match t.dropWhile isAsciiDigit with
      | ')' :: ' ' :: _ => some ds
      | c :: ')' :: ' ' :: _ => if isLowerAz c then some (ds ++ [c]) else none
      | _ => none
  | _ => none

/-! ## Structural elements -/

/-- The index of the content in `SPECIAL_PARTS` plus one, as text (structure_parser.py:152, 159). -/
def specialPartId (content : Str) : Option Str :=
  (specialParts.findIdx? (· == content)).map fun i => natStr (i + 1)

/-- `HEADER_REGEX.match(...)` of the structural parsers, group 1 (structure_parser.py:135, 145, 169, 179, 190). -/
def StructKind.matchHeader (k : StructKind) (content : Str) : Option Str :=
  match k with
  | .book => matchSuffix (· == ·) (py" KÖNYV") content
  | .part => matchSuffix (· == ·) (py" RÉSZ") content
  | .title => matchSuffix (· == ·) (py". CÍM") content
  | .chapter => matchSuffix ignoreCaseEq (py". fejezet") content
  | .subtitle => matchSubtitle content

/-- `StructuralElementParser.extract_identifier` (structure_parser.py:119-126) and the one of `PartParser`
(structure_parser.py:156-160). -/
def StructKind.extractIdentifier (k : StructKind) (line : Line) : Res (Option Str) :=
  match (if k = .part then specialPartId line.content else none) with
  | some i => .ok (some i)
  | none => match k.matchHeader line.content with
    | none => .ok none
    | some g => match k.identifierFromString g with
      | .ok i => .ok (some i)
      | .error e => if e.isValueError then .ok none else .error e

/-- `join_line_strs(l.content for l in lines if l != EMPTY_LINE)`. -/
def joinLines (lines : List Line) : Str := joinLineStrs ((lines.filter fun l => !l.isEmptyLine).map (·.content))

/-- The `parse` methods of the structural parsers (structure_parser.py:111-117, 150-154, 202-209). -/
def StructKind.parse (k : StructKind) (lines : List Line) : Res Node :=
  match lines with
  | [] => .error .indexError
  | first :: rest =>
    if k = .subtitle then do
      let title := joinLines (first :: rest)
      match ← k.extractIdentifier first with
      | none => .ok (.structural ⟨k, [], title, false⟩)
      | some i => match strFind (py". ") title with
        | none => .error .indexError
        | some n => .ok (.structural ⟨k, i, title.drop (n + 2), false⟩)
    else match (if k = .part then specialPartId first.content else none) with
      | some i => .ok (.structural ⟨k, i, [], true⟩)
      | none => do
        match ← k.extractIdentifier first with
        | none => .error .assertionError
        | some i => .ok (.structural ⟨k, i, joinLines rest, false⟩)

/-- `similar_indent` (structure_parser.py:828-830), threshold 1 (structure_parser.py:257). -/
def similarIndent (a b : Rat) : Bool := decide (a - b < 1) && decide (b - a < 1)

/-- The state of the parsers in `STRUCTURE_ELEMENT_PARSERS`: `indent` of `ArticleStructuralParser`
(structure_parser.py:219) and `last_identifier` of the others (structure_parser.py:93). -/
structure BodyState where
  indent : Option Rat := none
  last : StructKind → Str := fun _ => py"0"

/-- A member of `STRUCTURE_ELEMENT_PARSERS` (structure_parser.py:234-241). -/
inductive BodyParser
  | article
  | struct (k : StructKind)
  deriving DecidableEq, Repr

/-- `STRUCTURE_ELEMENT_PARSERS` (structure_parser.py:234-241). -/
def bodyParsers : List BodyParser :=
  [.article, .struct .book, .struct .part, .struct .title, .struct .chapter, .struct .subtitle]

/-- `is_uppercase_hun(line.content[0])`. -/
def beginsUppercase (line : Line) : Res Bool :=
  match line.content with
  | [] => .error .indexError
  | c :: _ => .ok (isUppercaseHun [c])

/-- `StructuralElementParser.is_header` (structure_parser.py:103-109). -/
def StructKind.isHeaderBase (strict : Bool) (last : Str) (k : StructKind) (line : Line) : Res Bool := do
  match ← k.extractIdentifier line with
  | none => .ok false
  | some i => if !strict then .ok true else if i = py"1" then .ok true else isNextNumericIdentifier last i

/-- `SubtitleParser.is_header` (structure_parser.py:192-200). -/
def subtitleIsHeader (strict : Bool) (last : Str) (line previous : Line) : Res Bool :=
  if !line.bold then .ok false
  else if !strict then do
    if ← beginsUppercase line then .ok true
    else .ok (← StructKind.subtitle.extractIdentifier line).isSome
  else if previous.isEmptyLine then do
    if ← beginsUppercase line then .ok true else StructKind.subtitle.isHeaderBase strict last line
  else StructKind.subtitle.isHeaderBase strict last line

/-- The `is_header` methods (structure_parser.py:103-109, 192-200, 224-227). -/
def BodyParser.isHeader (p : BodyParser) (strict : Bool) (st : BodyState) (line previous : Line) : Res Bool :=
  match p with
  | .article =>
    if st.indent.any fun i => !similarIndent line.indent i then .ok false
    else .ok (matchArticle line.content).isSome
  | .struct .subtitle => subtitleIsHeader strict (st.last .subtitle) line previous
  | .struct k => k.isHeaderBase strict (st.last k) line

/-- The `step_to_next` methods (structure_parser.py:96-101, 221-222). -/
def BodyParser.stepToNext (p : BodyParser) (st : BodyState) (line : Line) : Res BodyState :=
  match p with
  | .article => .ok { st with indent := some line.indent }
  | .struct k => do
    let i := (← k.extractIdentifier line).getD (py"0")
    .ok { st with last := fun j => if j = k then i else st.last j }

/-- `get_parser_for_header_line` (structure_parser.py:676-681). -/
def headerParser (strict : Bool) (st : BodyState) (line previous : Line) : List BodyParser → Res (Option BodyParser)
  | [] => .ok none
  | p :: ps => do
    if ← p.isHeader strict st line previous then .ok (some p) else headerParser strict st line previous ps

/-! ## Points and paragraphs -/

/-- A subclass of `SubArticleElementParser` (structure_parser.py:260-266) without its subparsers. -/
structure ElementParser where
  /-- `PARSED_TYPE` -/
  kind : SaeKind
  /-- `HEADER_REGEX`, group 1 -/
  header : Str → Option Str
  /-- `first_identifier()` -/
  first : Str
  /-- `PARENT_MUST_HAVE_INTRO` -/
  mustHaveIntro : Bool := false
  /-- `PARENT_MUST_HAVE_MULTIPLE_OF_THIS` -/
  mustHaveMultiple : Bool := false
  /-- `PARENT_CAN_HAVE_WRAPUP` -/
  canHaveWrapUp : Bool := false

/-- `AlphabeticSubpointParser` with PREFIX `p` (structure_parser.py:412-438). -/
def alphabeticSubpointParser (p : Str) : ElementParser :=
  { kind := .alphabeticSubpoint, header := matchLettered p, first := p ++ py"a", mustHaveIntro := true,
    mustHaveMultiple := true, canHaveWrapUp := true }

/-- `NumericPointParser` (structure_parser.py:441-458). -/
def numericPointParser : ElementParser :=
  { kind := .numericPoint, header := matchNumbered, first := py"1", mustHaveIntro := true,
    mustHaveMultiple := true, canHaveWrapUp := true }

/-- `NumericSubpointParser` (structure_parser.py:461-481). -/
def numericSubpointParser : ElementParser :=
  { kind := .numericSubpoint, header := matchNumbered, first := py"1", mustHaveIntro := true, mustHaveMultiple := true }

/-- `AlphabeticPointParser` (structure_parser.py:484-503). -/
def alphabeticPointParser : ElementParser :=
  { kind := .alphabeticPoint, header := matchLettered [], first := py"a", mustHaveIntro := true,
    mustHaveMultiple := true, canHaveWrapUp := true }

/-- `ParagraphParser` (structure_parser.py:506-517). -/
def paragraphParser : ElementParser :=
  { kind := .paragraph, header := matchParagraph, first := py"1" }

/-- Whether an identifier may come next (structure_parser.py:358-363). -/
def ElementParser.accepts (P : ElementParser) (last : Option (Str × Rat)) (i : Str) : Res Bool :=
  match last with
  | none => .ok (i == P.first)
  | some l => P.kind.isNextIdentifier l.1 i

/-- The loop of `find_header_lines` (structure_parser.py:342-367). `last` holds `last_identifier` and
`header_indentation`, which are set together. -/
def headerLoop (P : ElementParser) : Option (Str × Rat) → Nat → List (Int × Line) → Gen Nat
  | _, _, [] => ⟨[], none⟩
  | last, n, (level, line) :: rest =>
    if level ≠ 0 then headerLoop P last (n + 1) rest
    else if last.any fun l => !similarIndent l.2 line.indent && decide (line.indent > l.2) then
      headerLoop P last (n + 1) rest
    else match P.header line.content with
      | none => headerLoop P last (n + 1) rest
      | some i =>
        match P.accepts last i with
        | .error e => ⟨[], some e⟩
        | .ok false => headerLoop P last (n + 1) rest
        | .ok true =>
          let g := headerLoop P (some (i, line.indent)) (n + 1) rest
          ⟨n :: g.yields, g.stop⟩

/-- `find_header_lines` with the default first identifier (structure_parser.py:338-367). -/
def findHeaderLines (P : ElementParser) (lines : List Line) : Gen Nat :=
  let g := iterateWithQuoteLevel lines
  let h := headerLoop P none 0 g.yields
  ⟨h.yields, h.stop.or g.stop⟩

/-- `find_first_header` (structure_parser.py:334-336). -/
def findFirstHeader (P : ElementParser) (lines : List Line) : Res (Option Nat) := (findHeaderLines P lines).next

/-- The first `i` of `range(1, len(lines))` in ascending order for which the line `i` is not indented
(structure_parser.py:378-382). -/
def wrapUpByIndent (headerIndent : Rat) (lines : List Line) : Option Nat :=
  ((List.range lines.length).filter (0 < ·)).find? fun i => match lines[i]? with
    | some l => decide (l.indent < headerIndent + 1)
    | none => false

/-- The last `i` of `range(1, len(lines))` for which the line before it is not justified
(structure_parser.py:385-387); the threshold is at structure_parser.py:256. -/
def wrapUpByMargin (lines : List Line) : Option Nat :=
  (((List.range lines.length).filter (0 < ·)).reverse).find? fun i => match lines[i - 1]? with
    | some l => decide (l.marginRight > 20)
    | none => false

/-- `split_last_item_and_wrapup` (structure_parser.py:369-388). -/
def splitWrapUp (P : ElementParser) (lines : List Line) (properlyIndented : Bool) : Res (List Line × Option Str) :=
  if !P.canHaveWrapUp then .ok (lines, none)
  else
    let lines := lines.filter fun l => !l.isEmptyLine
    let place : Res (Option Nat) :=
      if properlyIndented then match lines with
        | [] => .error .indexError
        | l :: _ => .ok (wrapUpByIndent l.indent lines)
      else .ok (wrapUpByMargin lines)
    do match ← place with
      | none => .ok (lines, none)
      | some i => .ok (lines.take i, some (joinLineStrs ((lines.drop i).map (·.content))))

/-- The intro, the children and the wrap-up found by `parse_children_and_wrapup`. -/
abbrev Parts := Option Str × List Node × Option Str

/-- The way a subclass reads its children: `parse_children_and_wrapup` with its own subparsers, given the lines, the
identifier of the parent and `properly_indented`. -/
abbrev ChildReader := List Line → Option Str → Bool → Res Parts

/-- `SubArticleElementParser.parse` (structure_parser.py:268-287); `NoSubelementsError` means plain text. -/
def parseElement (P : ElementParser) (kids : ChildReader) (lines : List Line) (properlyIndented : Bool) : Res Node :=
  match lines with
  | [] => .error .indexError
  | first :: rest => do
    let identifier := P.header first.content
    let pre ← P.kind.headerPrefix identifier
    if !startsWith first.content pre then .error .assertionError
    else
      let first' ← first.slice pre.length
      match kids (first' :: rest) identifier properlyIndented with
      | .ok (intro, children, wrapUp) =>
        mkSae P.kind { identifier := identifier, intro := intro, wrapUp := wrapUp } (some children)
      | .error .noSubelements =>
        mkSae P.kind { identifier := identifier, text := some (joinLines (first' :: rest)) } none
      | .error _ => .error .saeParsing

/-- `lines[a:b]` for `a ≤ b` within the list. -/
def lineSlice (lines : List Line) (a b : Nat) : List Line := (lines.take b).drop a

/-- The loop over `zip(header_lines[:-1], header_lines[1:])` (structure_parser.py:402-404); the last header line is
returned too. -/
def parseBetween (parse : List Line → Res Node) (lines : List Line) : Nat → List Nat → Res (List Node × Nat)
  | start, [] => .ok ([], start)
  | start, stop :: more => do
    let e ← parse (lineSlice lines start stop)
    let r ← parseBetween parse lines stop more
    .ok (e :: r.1, r.2)

/-- `extract_multiple_from_text` (structure_parser.py:390-409). -/
def extractMultiple (P : ElementParser) (kids : ChildReader) (lines : List Line) (properlyIndented : Bool) :
    Res (List Node × Option Str) := do
  match ← (findHeaderLines P lines).toList with
  | [] => .error .indexError
  | h :: more =>
    if h ≠ 0 then .error .assertionError
    else if (lines.head?.bind fun l => P.header l.content) ≠ some P.first then .error .assertionError
    else if more.isEmpty && P.mustHaveMultiple then .error .saeNotFound
    else
      let (elements, last) ← parseBetween (fun ls => parseElement P kids ls properlyIndented) lines h more
      let (remaining, wrapUp) ← splitWrapUp P (lines.drop last) properlyIndented
      let element ← parseElement P kids remaining properlyIndented
      .ok (elements ++ [element], wrapUp)

/-- What `parse_children_and_wrapup` uses of a subparser. -/
structure SubParser where
  /-- `find_first_header` -/
  firstHeader : List Line → Res (Option Nat)
  /-- `PARENT_MUST_HAVE_INTRO` -/
  mustHaveIntro : Bool
  /-- `extract_multiple_from_text` -/
  extract : List Line → Bool → Res (List Node × Option Str)

/-- The loop of `parse_children_and_wrapup` over the subparsers (structure_parser.py:296-303). -/
def firstHeaders (lines : List Line) : List SubParser → Res (List (Nat × SubParser))
  | [] => .ok []
  | p :: ps => do
    match ← p.firstHeader lines with
    | none => firstHeaders lines ps
    | some n =>
      if n = 0 && p.mustHaveIntro then firstHeaders lines ps
      else do
        let r ← firstHeaders lines ps
        .ok ((n, p) :: r)

/-- Insertion into a sorted list; two entries with the same line cannot be compared because classes have no order. -/
def insertHeader (e : Nat × SubParser) : List (Nat × SubParser) → Res (List (Nat × SubParser))
  | [] => .ok [e]
  | f :: fs =>
    if e.1 < f.1 then .ok (e :: f :: fs)
    else if e.1 = f.1 then .error .typeError
    else do
      let r ← insertHeader e fs
      .ok (f :: r)

/-- `parsers_with_first_header.sort()` (structure_parser.py:305). Every sort compares equal neighbours, so a tie always
raises the TypeError. -/
def sortHeaders : List (Nat × SubParser) → Res (List (Nat × SubParser))
  | [] => .ok []
  | e :: es => do
    let r ← sortHeaders es
    insertHeader e r

/-- The second loop of `parse_children_and_wrapup` (structure_parser.py:306-316). -/
def tryParsers (lines : List Line) (properlyIndented : Bool) : List (Nat × SubParser) → Res Parts
  | [] => .error .noSubelements
  | (n, p) :: rest =>
    let intro := if n = 0 then none else some (joinLines (lines.take n))
    match p.extract (lines.drop n) properlyIndented with
    | .ok (children, wrapUp) => .ok (intro, children, wrapUp)
    | .error .saeNotFound => tryParsers lines properlyIndented rest
    | .error e => .error e

/-- `parse_children_and_wrapup` for the given subparsers (structure_parser.py:289-316). -/
def childrenBy (parsers : List SubParser) (lines : List Line) (properlyIndented : Bool) : Res Parts := do
  let found ← firstHeaders lines parsers
  let sorted ← sortHeaders found
  tryParsers lines properlyIndented sorted

/-- A subclass of `SubArticleElementParser` as a subparser. -/
def ElementParser.asSub (P : ElementParser) (kids : ChildReader) : SubParser :=
  { firstHeader := findFirstHeader P, mustHaveIntro := P.mustHaveIntro, extract := extractMultiple P kids }

/-! ## Quoted blocks -/

/-- `line.content[0] in ("„", "“")`. -/
def opensWithQuote (line : Line) : Res Bool :=
  match line.content with
  | [] => .error .indexError
  | c :: _ => .ok (c == '„' || c == '“')

/-- `line.content[-1] == "”"`. -/
def closesWithQuote (line : Line) : Res Bool :=
  match line.content.getLast? with
  | none => .error .indexError
  | some c => .ok (c == '”')

/-- `QuotedBlockParser.find_first_header` (structure_parser.py:524-529). -/
def quotedFirstLoop : Nat → List (Int × Line) → Option Err → Res (Option Nat)
  | _, [], none => .ok none
  | _, [], some e => .error e
  | n, (level, line) :: rest, stop =>
    if level = 0 ∧ line.isEmptyLine = false then do
      if ← opensWithQuote line then .ok (some n) else quotedFirstLoop (n + 1) rest stop
    else quotedFirstLoop (n + 1) rest stop

/-- `ParseStates` with the lines or the wrap-up collected so far (structure_parser.py:521). -/
inductive QuoteState
  | start
  | block (quoted : List Line)
  | maybe
  | wrapUp (text : Str)
  deriving DecidableEq, Repr

/-- A line that opens a block: the block is finished if the line also closes the quote
(structure_parser.py:547-553, 568-573). -/
def openBlock (blocks : List Node) (line : Line) : Res (QuoteState × List Node) := do
  if ← closesWithQuote line then do
    let l ← line.slice 1 (some (-1))
    .ok (.maybe, blocks ++ [.quoted [l]])
  else do
    let l ← line.slice 1
    .ok (.block [l], blocks)

/-- The body of the loop of `extract_multiple_from_text` (structure_parser.py:539-584). -/
def quotedStep (st : QuoteState) (blocks : List Node) (level : Int) (line : Line) : Res (QuoteState × List Node) :=
  match st with
  | .start =>
    if line.isEmptyLine then .ok (.start, blocks)
    else do
      if (← opensWithQuote line) && level == 0 then openBlock blocks line else .error .assertionError
  | .block quoted =>
    if line.isEmptyLine then .ok (.block (quoted ++ [line]), blocks)
    else do
      if (← closesWithQuote line) && level + quoteLevelDiff line.content == 0 then do
        let l ← line.slice 0 (some (-1))
        .ok (.maybe, blocks ++ [.quoted (quoted ++ [l])])
      else .ok (.block (quoted ++ [line]), blocks)
  | .maybe =>
    if line.isEmptyLine then .ok (.maybe, blocks)
    else do
      if (← opensWithQuote line) && level == 0 then openBlock blocks line else .ok (.wrapUp line.content, blocks)
  | .wrapUp w =>
    if line.isEmptyLine then .ok (.wrapUp w, blocks) else .ok (.wrapUp (joinLineStrs [w, line.content]), blocks)

/-- The loop of `extract_multiple_from_text` (structure_parser.py:539-584). -/
def quotedLoop : QuoteState → List Node → List (Int × Line) → Res (QuoteState × List Node)
  | st, blocks, [] => .ok (st, blocks)
  | st, blocks, (level, line) :: rest => do
    let (st, blocks) ← quotedStep st blocks level line
    quotedLoop st blocks rest

/-- `QuotedBlockParser.extract_multiple_from_text` (structure_parser.py:531-589). -/
def quotedExtract (lines : List Line) : Res (List Node × Option Str) := do
  let g := iterateWithQuoteLevel lines
  let (st, blocks) ← quotedLoop .start [] g.yields
  match g.stop with
  | some e => .error e
  | none => match st with
    | .maybe => .ok (blocks, none)
    | .wrapUp w => .ok (blocks, some w)
    | _ => .error .saeNotFound

/-- `QuotedBlockParser` as a subparser (structure_parser.py:520-589). -/
def quotedParser : SubParser :=
  { firstHeader := fun lines =>
      let g := iterateWithQuoteLevel lines
      quotedFirstLoop 0 g.yields g.stop
    mustHaveIntro := true
    extract := fun lines _ => quotedExtract lines }

/-! ## The subparsers of each kind -/

/-- Subpoints have no subparsers (structure_parser.py:427-428, 480-481). -/
def subpointKids : ChildReader := fun lines _ pi => childrenBy [] lines pi

/-- The subparsers of `NumericPointParser` (structure_parser.py:457-458). -/
def numericPointKids : ChildReader := fun lines _ pi =>
  childrenBy [(alphabeticSubpointParser []).asSub subpointKids] lines pi

/-- The subparsers of `AlphabeticPointParser` (structure_parser.py:498-503). -/
def alphabeticPointKids : ChildReader := fun lines parent pi =>
  match parent with
  | none => .error .assertionError
  | some i =>
    childrenBy [numericSubpointParser.asSub subpointKids, (alphabeticSubpointParser i).asSub subpointKids] lines pi

/-- The subparsers of `ParagraphParser` (structure_parser.py:516-517). -/
def paragraphKids : ChildReader := fun lines _ pi =>
  childrenBy [quotedParser, alphabeticPointParser.asSub alphabeticPointKids,
    numericPointParser.asSub numericPointKids] lines pi

/-! ## Articles -/

/-- `line.content[-1] == ']'`. -/
def closesBracket (line : Option Line) : Res Bool :=
  match line.bind fun l => l.content.getLast? with
  | none => .error .indexError
  | some c => .ok (c == ']')

/-- The title at the beginning of an article, and the lines after it (structure_parser.py:632-649). -/
def articleTitle (lines : List Line) : Res (Option Str × List Line) :=
  match lines.head?.bind fun l => l.content.head? with
  | none => .error .indexError
  | some c =>
    if c ≠ '[' then .ok (none, lines)
    else
      let content := fun (i : Nat) => ((lines[i]?).map (·.content)).getD []
      do
        if ← closesBracket lines[0]? then .ok (some ((content 0).drop 1).dropLast, lines.drop 1)
        else if ← closesBracket lines[1]? then
          .ok (some (joinLineStrs [(content 0).drop 1, (content 1).dropLast]), lines.drop 2)
        else if ← closesBracket lines[2]? then
          .ok (some (joinLineStrs [(content 0).drop 1, content 1, (content 1).dropLast]), lines.drop 3)
        else .error .valueError

/-- `if lines[0] == EMPTY_LINE: lines = lines[1:]` (structure_parser.py:651-657). -/
def skipEmptyLine (lines : List Line) : Res (List Line) :=
  match lines with
  | [] => .error .indexError
  | l :: ls => .ok (if l.isEmptyLine then ls else l :: ls)

/-- The paragraphs of an article (structure_parser.py:659-664). -/
def articleParagraphs (lines : List Line) (properlyIndented : Bool) : Res (List Node) :=
  match lines with
  | [] => .error .indexError
  | first :: _ =>
    if paragraphParser.header first.content ≠ some paragraphParser.first then do
      let p ← parseElement paragraphParser paragraphKids lines properlyIndented
      .ok [p]
    else do
      let (ps, wrapUp) ← extractMultiple paragraphParser paragraphKids lines properlyIndented
      if wrapUp.isSome then .error .valueError else .ok ps

/-- `ArticleParser.parse_body` (structure_parser.py:630-666). -/
def articleBody (identifier : Str) (lines : List Line) (properlyIndented : Bool) : Res Node := do
  let (title, lines) ← articleTitle lines
  let lines ← skipEmptyLine lines
  let ps ← articleParagraphs lines properlyIndented
  mkArticle identifier title (ps.filter fun p => p.type == .sae .paragraph)

/-- `ArticleParser.parse` without an externally determined identifier (structure_parser.py:601-623). -/
def parseArticle (lines : List Line) (properlyIndented : Bool) : Res Node :=
  match lines with
  | [] => .error .indexError
  | first :: rest =>
    match matchArticle first.content with
    | none => .error .articleParsing
    | some identifier => match strFind (py"§ ") first.content with
      | none => .error .valueError
      | some n => do
        let first' ← first.slice ((n : Int) + 2)
        match articleBody identifier (first' :: rest) properlyIndented with
        | .ok a => .ok a
        | .error _ => .error .articleParsing

/-! ## Acts -/

/-- `current_element_parser.parse(current_lines, properly_indented)`. -/
def BodyParser.parse (p : BodyParser) (lines : List Line) (properlyIndented : Bool) : Res Node :=
  match p with
  | .article => parseArticle lines properlyIndented
  | .struct k => k.parse lines

/-- The variables of `parse_elements` (structure_parser.py:685-688). -/
structure BodyLoop where
  state : BodyState := {}
  elements : List Node := []
  current : List Line := []
  parser : Option BodyParser := none
  previous : Line := emptyLine

/-- Parsing the lines collected for the element before a header, if there is one (structure_parser.py:695-696). -/
def finishElement (properlyIndented : Bool) (v : BodyLoop) : Res (List Node) :=
  match v.parser with
  | none => .ok v.elements
  | some q => do
    let e ← q.parse v.current properlyIndented
    .ok (v.elements ++ [e])

/-- The body of the loop of `parse_elements` (structure_parser.py:690-702). -/
def bodyStep (strict properlyIndented : Bool) (v : BodyLoop) (level : Int) (line : Line) : Res BodyLoop :=
  if level ≠ 0 then .ok { v with current := v.current ++ [line] }
  else do
    match ← headerParser strict v.state line v.previous bodyParsers with
    | none => .ok { v with previous := line, current := v.current ++ [line] }
    | some p =>
      let elements ← finishElement properlyIndented v
      let state ← p.stepToNext v.state line
      .ok { state := state, elements := elements, current := [line], parser := some p, previous := line }

/-- The loop of `parse_elements` (structure_parser.py:689-702). -/
def bodyLoop (strict properlyIndented : Bool) : BodyLoop → List (Int × Line) → Res BodyLoop
  | v, [] => .ok v
  | v, (level, line) :: rest => do
    let v ← bodyStep strict properlyIndented v level line
    bodyLoop strict properlyIndented v rest

/-- `ActBodyParser.parse_elements` with newly created parsers (structure_parser.py:683-705). -/
def parseElements (strict : Bool) (lines : List Line) (properlyIndented : Bool) : Res (List Node) := do
  let g := iterateWithQuoteLevel lines
  let v ← bodyLoop strict properlyIndented {} g.yields
  match g.stop with
  | some e => .error e
  | none => match v.parser with
    | none => .error .assertionError
    | some p => do
      let e ← p.parse v.current properlyIndented
      .ok (v.elements ++ [e])

/-- The loop of `parse_preamble` (structure_parser.py:733-742): the number of lines before the first header. -/
def preambleLength : Line → List Line → Res Nat
  | _, [] => .ok 0
  | previous, line :: rest => do
    match ← headerParser true {} line previous bodyParsers with
    | some _ => .ok 0
    | none => do
      let n ← preambleLength line rest
      .ok (n + 1)

/-- `parse_preamble` (structure_parser.py:730-745). -/
def parsePreamble (lines : List Line) : Res (Str × List Line) := do
  let n ← preambleLength emptyLine lines
  .ok (joinLines (lines.take n), lines.drop n)

/-- `ActStructureParser.parse` (structure_parser.py:715-724): every exception becomes an `ActParsingError`. -/
def parseAct (identifier : Str) (publicationDate : Date) (subject : Str) (lines : List Line) : Res Act :=
  match (do
    let (preamble, rest) ← parsePreamble lines
    let elements ← parseElements true rest true
    Except.ok (preamble, elements) : Res (Str × List Node)) with
  | .error _ => .error .actParsing
  | .ok (preamble, elements) =>
    .ok { identifier := identifier, publicationDate := publicationDate, subject := subject, preamble := preamble,
          children := elements }

/-! ## Block amendments -/

/-- `parser` of `do_parse_block_by_block`: `extract_identifier`, `PARSED_TYPE.is_next_identifier` and `parse`. -/
structure BlockParser where
  header : Str → Option Str
  isNext : Str → Str → Res Bool
  parse : List Line → Res Node

/-- A subclass of `SubArticleElementParser` in that role, without proper indentation. -/
def ElementParser.asBlock (P : ElementParser) (kids : ChildReader) : BlockParser :=
  { header := P.header, isNext := P.kind.isNextIdentifier, parse := fun ls => parseElement P kids ls false }

/-- `ArticleParser` in that role. -/
def articleBlockParser : BlockParser :=
  { header := matchArticle, isNext := articleIsNext, parse := fun ls => parseArticle ls false }

/-- `get_parser_and_id` with `PARSERS_FOR_TYPE` (structure_parser.py:753-760, 814-825). -/
def blockParser (position : Reference) : Res (BlockParser × Str) := do
  let (expected, level) ← position.lastComponentWithType
  match expected, level with
  | some i, some t =>
    let expectedId := match i with
      | .range a _ => a
      | .one s => s
    match t with
    | .alphabeticSubpoint =>
      let p := if expectedId.length ≠ 1 then expectedId.dropLast else []
      .ok ((alphabeticSubpointParser p).asBlock subpointKids, expectedId)
    | .article => .ok (articleBlockParser, expectedId)
    | .paragraph => .ok (paragraphParser.asBlock paragraphKids, expectedId)
    | .alphabeticPoint => .ok (alphabeticPointParser.asBlock alphabeticPointKids, expectedId)
    | .numericPoint => .ok (numericPointParser.asBlock numericPointKids, expectedId)
    | .numericSubpoint => .ok (numericSubpointParser.asBlock subpointKids, expectedId)
    | .act => .error .keyError
  | _, _ => .error .assertionError

/-- `header_found` of `do_parse_block_by_block`, as the new identifier (structure_parser.py:799-805). -/
def blockHeader (P : BlockParser) (last : Str) (current : List Line) (level : Int) (line : Line) : Res (Option Str) :=
  match P.header line.content with
  | none => .ok none
  | some i => if current.isEmpty || level ≠ 0 then .ok none else do
    if ← P.isNext last i then .ok (some i) else .ok none

/-- The loop of `do_parse_block_by_block` (structure_parser.py:796-812). -/
def blockLoop (P : BlockParser) : Str → List Line → List Node → List (Int × Line) → Res (List Node × List Line)
  | _, current, done, [] => .ok (done, current)
  | last, current, done, (level, line) :: rest => do
    match ← blockHeader P last current level line with
    | some i => do
      let e ← P.parse current
      blockLoop P i [line] (done ++ [e]) rest
    | none => blockLoop P last (current ++ [line]) done rest

/-- `do_parse_block_by_block` (structure_parser.py:794-812), consumed to its end. -/
def parseBlocks (P : BlockParser) (expectedId : Str) (lines : List Line) : Res (List Node) := do
  let g := iterateWithQuoteLevel lines
  let (done, current) ← blockLoop P expectedId [] [] g.yields
  match g.stop with
  | some e => .error e
  | none => do
    let e ← P.parse current
    .ok (done ++ [e])

/-- The children of the container (structure_parser.py:772-778). -/
def blockChildren (position : Position) (lines : List Line) : Res (List Node) :=
  match position with
  | .struct _ => parseElements false lines false
  | .ref r => do
    let (P, expectedId) ← blockParser r
    parseBlocks P expectedId lines

/-- `BlockAmendmentStructureParser.parse` (structure_parser.py:762-788): every exception becomes a
`BlockAmendmentStructureParsingError`. -/
def parseBlockAmendment (position : Position) (intro wrapUp : Option Str) (lines : List Line) : Res Node :=
  match (do
    let children ← blockChildren position lines
    mkSae .blockAmendmentContainer { intro := intro, wrapUp := wrapUp } (some children) : Res Node) with
  | .error _ => .error .blockAmendmentParsing
  | .ok n => .ok n

end Verif
