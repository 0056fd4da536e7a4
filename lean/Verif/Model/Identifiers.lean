import Verif.Py.Basic

/-! # Identifiers: /repo/hun_law/utils.py lines 384-511 and the `is_next_identifier` methods of structure.py -/

namespace Verif

/-- A member of the tuple returned by `split_identifier_to_parts`: a text or a number. -/
inductive IdPart
  | str (s : Str)
  | num (n : Int)
  deriving DecidableEq, Repr

/-- State of the loop of `split_identifier_to_parts`. -/
structure SplitState where
  result : List IdPart
  current : Str
  lastWasDigit : Bool

/-- `int(current_str)` or `current_str`, appended to the result (utils.py:450-453 and 457-461). -/
def SplitState.push (st : SplitState) : Res (List IdPart) :=
  if st.lastWasDigit then do
    let n ← pyInt st.current
    .ok (st.result ++ [.num n])
  else .ok (st.result ++ [.str st.current])

/-- The loop of `split_identifier_to_parts` (utils.py:448-461). -/
def splitLoop : SplitState → Str → Res (List IdPart)
  | st, [] => if st.current.isEmpty then .ok st.result else st.push
  | st, c :: cs =>
    if isDigit c != st.lastWasDigit then do
      let r ← st.push
      splitLoop { result := r, current := [c], lastWasDigit := isDigit c } cs
    else splitLoop { st with current := st.current ++ [c] } cs

/-- `split_identifier_to_parts` (utils.py:444-462). -/
def splitIdentifier (s : Str) : Res (List IdPart) :=
  splitLoop { result := [], current := [], lastWasDigit := false } s

/-- Python `a < b` for texts: lexicographic by code point. -/
def strLt : Str → Str → Bool
  | _, [] => false
  | [], _ :: _ => true
  | a :: as, b :: bs => if a = b then strLt as bs else decide (a.toNat < b.toNat)

/-- Python `a < b` for members of the tuples; comparing a text with a number raises TypeError. -/
def IdPart.lt : IdPart → IdPart → Res Bool
  | .str a, .str b => .ok (strLt a b)
  | .num a, .num b => .ok (decide (a < b))
  | _, _ => .error .typeError

/-- Python `a < b` for tuples: the first position where they differ decides, else the length. -/
def partsLt : List IdPart → List IdPart → Res Bool
  | _, [] => .ok false
  | [], _ :: _ => .ok true
  | a :: as, b :: bs => if a = b then partsLt as bs else a.lt b

/-- `identifier_less` (utils.py:465-469). -/
def identifierLess (a b : Str) : Res Bool := do
  let aParts ← splitIdentifier a
  let bParts ← splitIdentifier b
  partsLt aParts bParts

/-- `SPECIAL_NEXT_LETTER_PAIRS` (utils.py:384-401). -/
def specialNextLetterPairs : List (Str × Str) :=
  [(py"g", py"gy"), (py"gy", py"h"), (py"n", py"ny"), (py"ny", py"o"), (py"s", py"sz"), (py"sz", py"t"),
   (py"t", py"ty"), (py"ty", py"u"), (py"G", py"GY"), (py"GY", py"H"), (py"N", py"NY"), (py"NY", py"O"),
   (py"S", py"SZ"), (py"SZ", py"T"), (py"T", py"TY"), (py"TY", py"U")]

/-- `is_next_letter_hun` (utils.py:404-409). -/
def isNextLetterHun (a b : Str) : Bool :=
  specialNextLetterPairs.contains (a, b) ||
    match a, b with
    | [x], [y] => x.toNat + 1 == y.toNat
    | _, _ => false

/-- `is_next_numeric_identifier` (utils.py:472-486). `identifier[-1]` raises IndexError for an empty text. -/
def isNextNumericIdentifier (identifier nextIdentifier : Str) : Res Bool :=
  let identifier := identifier.filter (· ≠ '/')
  let nextIdentifier := nextIdentifier.filter (· ≠ '/')
  if isDigitStr identifier then
    if isDigitStr nextIdentifier then do
      let a ← pyInt identifier
      let b ← pyInt nextIdentifier
      .ok (a + 1 == b)
    else .ok (nextIdentifier == identifier ++ py"a" || nextIdentifier == identifier ++ py"A")
  else if isDigitStr nextIdentifier then do
    let a ← pyInt identifier.dropLast
    let b ← pyInt nextIdentifier
    .ok (a + 1 == b)
  else if identifier.dropLast == nextIdentifier.dropLast then
    match identifier.getLast?, nextIdentifier.getLast? with
    | some x, some y => .ok (isNextLetterHun [x] [y])
    | _, _ => .error .indexError
  else .ok false

/-- `AlphabeticSubpoint.is_next_identifier` (structure.py:383-389). -/
def alphabeticSubpointIsNext (identifier nextIdentifier : Str) : Res Bool :=
  match identifier with
  | [_] => .ok (isNextLetterHun identifier nextIdentifier)
  | [a, b] =>
    match nextIdentifier with
    | [] => .error .indexError
    | c :: rest =>
      if a = c then
        match rest with
        | [] => .error .indexError
        | d :: _ => .ok (isNextLetterHun [b] [d])
      else .ok false
  | _ => .error .valueError

/-- `a, b = s.split(c)`: ValueError unless there are exactly two pieces. -/
def splitTwo (c : Char) (s : Str) : Res (Str × Str) :=
  match splitOn c s with
  | [a, b] => .ok (a, b)
  | _ => .error .valueError

/-- `Article.is_next_identifier` after the book part is dealt with (structure.py:604-618). -/
def articleIsNextTail (identifier nextIdentifier : Str) : Res Bool :=
  if !identifier.contains '/' then
    if !nextIdentifier.contains '/' then do
      let a ← pyInt identifier
      let b ← pyInt nextIdentifier
      .ok (a + 1 == b)
    else .ok (identifier ++ py"/A" == nextIdentifier)
  else do
    let (id1, postfix1) ← splitTwo '/' identifier
    if !nextIdentifier.contains '/' then do
      let a ← pyInt id1
      let b ← pyInt nextIdentifier
      .ok (a + 1 == b)
    else do
      let (id2, postfix2) ← splitTwo '/' nextIdentifier
      .ok (id1 == id2 && isNextLetterHun postfix1 postfix2)

/-- `Article.is_next_identifier` (structure.py:591-618). -/
def articleIsNext (identifier nextIdentifier : Str) : Res Bool :=
  if identifier.contains ':' != nextIdentifier.contains ':' then .ok false
  else if identifier.contains ':' then do
    let (book, identifier) ← splitTwo ':' identifier
    let (nextBook, nextIdentifier) ← splitTwo ':' nextIdentifier
    if book ≠ nextBook then do
      let a ← pyInt book
      let b ← pyInt nextBook
      .ok (a + 1 == b && nextIdentifier == py"1")
    else articleIsNextTail identifier nextIdentifier
  else articleIsNextTail identifier nextIdentifier

/-- `cut_by_identifier` (utils.py:501-511); `ident` gives the `identifier` attribute of an element. -/
def cutByIdentifier {α : Type} (ident : α → Option Str) (fromId toId : Str) : List α → Res (List α)
  | [] => .ok []
  | e :: es =>
    match ident e with
    | none => cutByIdentifier ident fromId toId es
    | some i => do
      if ← identifierLess i fromId then cutByIdentifier ident fromId toId es
      else if ← identifierLess toId i then cutByIdentifier ident fromId toId es
      else do
        let rest ← cutByIdentifier ident fromId toId es
        .ok (e :: rest)

end Verif
