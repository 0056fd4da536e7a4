import Verif.Model.Identifiers

/-! # References: /repo/hun_law/structure.py lines 743-954 -/

namespace Verif

/-- A component of a reference that is not None: a `str` or a `Tuple[str, str]` (`ReferencePartType`, structure.py:743). -/
inductive Ident
  | one (s : Str)
  | range (a b : Str)
  deriving DecidableEq, Repr

/-- `isinstance(part, tuple)`. -/
def isTuple : Option Ident → Bool
  | some (.range _ _) => true
  | _ => false

/-- `Reference` (structure.py:746-756). -/
structure Reference where
  act : Option Str := none
  article : Option Ident := none
  paragraph : Option Ident := none
  point : Option Ident := none
  subpoint : Option Ident := none
  deriving DecidableEq, Repr

namespace Reference

/-- The values of the attributes act, article, paragraph, point, subpoint in the order of the loops over them. -/
def components (r : Reference) : List (Option Ident) :=
  [r.act.map .one, r.article, r.paragraph, r.point, r.subpoint]

/-- The loop of `__lt_gt` (structure.py:763-776). -/
def ltGtLoop (lt : Bool) : List (Option Ident) → List (Option Ident) → Res Bool
  | a :: as, b :: bs =>
    if isTuple a || isTuple b then .error .valueError
    else if a = b then ltGtLoop lt as bs
    else match a, b with
      | none, _ => .ok lt
      | _, none => .ok (!lt)
      | some (.one x), some (.one y) => if lt then identifierLess x y else identifierLess y x
      | _, _ => .error .valueError
  | _, _ => .ok false

/-- `__lt_gt` (structure.py:758-778). Comparison with something that is not a `Reference` is not modelled. -/
def ltGt (a b : Reference) (lt : Bool) : Res Bool := ltGtLoop lt a.components b.components

/-- `__lt__` (structure.py:780-781). -/
def lt (a b : Reference) : Res Bool := ltGt a b true

/-- `__gt__` (structure.py:783-784). -/
def gt (a b : Reference) : Res Bool := ltGt a b false

/-- `__le__` (structure.py:786-787). -/
def le (a b : Reference) : Res Bool := if a = b then .ok true else ltGt a b true

/-- `__ge__` (structure.py:789-790). -/
def ge (a b : Reference) : Res Bool := if a = b then .ok true else ltGt a b false

/-- `is_relative` (structure.py:792-793). -/
def isRelative (r : Reference) : Bool := r.act.isNone

/-- `is_range` (structure.py:795-801). -/
def isRange (r : Reference) : Bool :=
  isTuple r.article || isTuple r.paragraph || isTuple r.point || isTuple r.subpoint

/-- `relative_to` (structure.py:803-810): `my_part` becomes true at the first component of `self` that is set, and
from there on the components are taken from `self`. -/
def relativeTo (r o : Reference) : Reference :=
  let m1 := r.act.isSome
  let m2 := m1 || r.article.isSome
  let m3 := m2 || r.paragraph.isSome
  let m4 := m3 || r.point.isSome
  let m5 := m4 || r.subpoint.isSome
  { act := if m1 then r.act else o.act,
    article := if m2 then r.article else o.article,
    paragraph := if m3 then r.paragraph else o.paragraph,
    point := if m4 then r.point else o.point,
    subpoint := if m5 then r.subpoint else o.subpoint }

/-- The text of one component in `relative_id_string` (structure.py:815-821). -/
def idPart : Option Ident → Str
  | none => []
  | some (.range a b) => a ++ '-' :: b
  | some (.one s) => s

/-- `relative_id_string` (structure.py:812-825). -/
def relativeIdString (r : Reference) : Str :=
  let result := joinWith '_' [idPart r.article, idPart r.paragraph, idPart r.point, idPart r.subpoint]
  let result := replaceAll (py"/") (py"slash") result
  replaceAll (py":") (py"colon") result

/-- One part read back in `from_relative_id_string` (structure.py:835-842). -/
def readIdPart (part : Str) : Option Ident :=
  if part.contains '-' then
    match splitOn '-' part with
    | a :: b :: _ => some (.range a b)
    | _ => none  -- does not occur: the part has a hyphen
  else if part.isEmpty then none
  else some (.one part)

/-- `from_relative_id_string` (structure.py:827-843). -/
def fromRelativeIdString (s : Str) : Res Reference :=
  let s := replaceAll (py"slash") (py"/") s
  let s := replaceAll (py"colon") (py":") s
  match splitOn '_' s with
  | [a, b, c, d] =>
    .ok { act := none, article := readIdPart a, paragraph := readIdPart b, point := readIdPart c,
          subpoint := readIdPart d }
  | _ => .error .valueError

/-- One component of `first_in_range` (structure.py:847-854). -/
def firstOf : Option Ident → Option Ident
  | some (.range a _) => some (.one a)
  | x => x

/-- One component of `last_in_range` (structure.py:859-866). -/
def lastOf : Option Ident → Option Ident
  | some (.range _ b) => some (.one b)
  | x => x

/-- `first_in_range` (structure.py:845-855). -/
def firstInRange (r : Reference) : Reference :=
  { r with article := firstOf r.article, paragraph := firstOf r.paragraph, point := firstOf r.point,
           subpoint := firstOf r.subpoint }

/-- `last_in_range` (structure.py:857-867). -/
def lastInRange (r : Reference) : Reference :=
  { r with article := lastOf r.article, paragraph := lastOf r.paragraph, point := lastOf r.point,
           subpoint := lastOf r.subpoint }

/-- One component of `make_range` (structure.py:872-884). Simplified: two different components of which one is itself a
range make `identifier_less` look at a tuple; here that is refused. -/
def rangeOf : Option Ident → Option Ident → Res (Option Ident)
  | none, none => .ok none
  | none, some _ => .error .assertionError
  | some _, none => .error .assertionError
  | some a, some b =>
    if a = b then .ok (some a)
    else match a, b with
      | .one x, .one y => do
        if ← identifierLess x y then .ok (some (.range x y)) else .error .assertionError
      | _, _ => .error .assertionError

/-- `first.act or last.act` (structure.py:885): the second also if the first is the empty text. -/
def orStr : Option Str → Option Str → Option Str
  | some (c :: cs), _ => some (c :: cs)
  | _, b => b

/-- `make_range` (structure.py:869-886). -/
def makeRange (first last : Reference) : Res Reference := do
  let article ← rangeOf first.article last.article
  let paragraph ← rangeOf first.paragraph last.paragraph
  let point ← rangeOf first.point last.point
  let subpoint ← rangeOf first.subpoint last.subpoint
  .ok { act := orStr first.act last.act, article := article, paragraph := paragraph, point := point, subpoint := subpoint }

/-- `parent` (structure.py:888-897). -/
def parent (r : Reference) : Reference :=
  if r.subpoint.isSome then { r with subpoint := none }
  else if r.point.isSome then { r with point := none }
  else if r.paragraph.isSome then { r with paragraph := none }
  else if r.article.isSome then { r with article := none }
  else {}

/-- The loop of `is_parent_of` (structure.py:900-905). -/
def isParentLoop : List (Option Ident) → List (Option Ident) → Bool
  | a :: as, b :: bs => if a = b then isParentLoop as bs else a.isNone
  | _, _ => false

/-- `is_parent_of` (structure.py:899-906). -/
def isParentOf (a b : Reference) : Bool := isParentLoop a.components b.components

/-- The classes named by `last_component_with_type`. -/
inductive Level
  | act | article | paragraph | numericPoint | alphabeticPoint | numericSubpoint | alphabeticSubpoint
  deriving DecidableEq, Repr

/-- `first_id[0].isdigit()` of the first identifier (structure.py:912-913 and 918-919). -/
def beginsWithDigit (i : Ident) : Res Bool :=
  match (match i with
    | .range a _ => a
    | .one s => s) with
  | c :: _ => .ok (isDigit c)
  | [] => .error .indexError

/-- `last_component_with_type` (structure.py:908-929). -/
def lastComponentWithType (r : Reference) : Res (Option Ident × Option Level) :=
  match r.subpoint with
  | some i => do
    if ← beginsWithDigit i then .ok (some i, some .numericSubpoint) else .ok (some i, some .alphabeticSubpoint)
  | none => match r.point with
    | some i => do
      if ← beginsWithDigit i then .ok (some i, some .numericPoint) else .ok (some i, some .alphabeticPoint)
    | none => match r.paragraph with
      | some i => .ok (some i, some .paragraph)
      | none => match r.article with
        | some i => .ok (some i, some .article)
        | none => match r.act with
          | some s => .ok (some (.one s), some .act)
          | none => .ok (none, none)

/-- `resolve_abbreviations` (structure.py:931-938); the mapping is given by its lookup. -/
def resolveAbbreviations (r : Reference) (abbreviations : Str → Option Str) : Reference :=
  match r.act with
  | none => r
  | some a => match abbreviations a with
    | none => r
    | some b => { r with act := some b }

/-- `contains` (structure.py:940-954). -/
def contains (a b : Reference) : Res Bool := do
  let fst ← if ← le a.firstInRange b.firstInRange then .ok true
    else .ok (isParentOf a.firstInRange b.firstInRange)
  if !fst then .ok false
  else if ← ge a.lastInRange b.lastInRange then .ok true
  else .ok (isParentOf a.lastInRange b.lastInRange)

end Reference

end Verif
