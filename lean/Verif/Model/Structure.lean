import Verif.Model.Numerals
import Verif.Model.Reference
import Verif.Model.Line
import Verif.Model.Date

/-! # Acts and their elements: /repo/hun_law/structure.py lines 86-740 and 957-1076 -/

namespace Verif

/-! ## Structural elements -/

/-- The classes `Book`, `Part`, `Title`, `Chapter`, `Subtitle` (structure.py:103-210), in the order of
`STRUCTURE_ELEMENT_TYPES`. -/
inductive StructKind
  | book | part | title | chapter | subtitle
  deriving DecidableEq, Repr

/-- `StructuralElement` (structure.py:86-90); `special` is an attribute of `Part` only (structure.py:130). -/
structure StructuralElement where
  kind : StructKind
  identifier : Str
  title : Str
  special : Bool := false
  deriving DecidableEq, Repr

/-- `Part.SPECIAL_PARTS` without the final None (structure.py:128). -/
def specialParts : List Str := [py"ÁLTALÁNOS RÉSZ", py"KÜLÖNÖS RÉSZ", py"ZÁRÓ RÉSZ"]

/-- The `formatted_identifier` properties (structure.py:110-112, 132-138, 153-156, 172-175, 192-197). -/
def StructuralElement.formattedIdentifier (e : StructuralElement) : Res Str :=
  match e.kind with
  | .book => do
    let t ← intToTextHun (← pyInt e.identifier)
    .ok (upper t ++ py" KÖNYV")
  | .part =>
    if e.special then do
      let i ← pyInt e.identifier
      match pyIndex 4 (i - 1) with
      | none => .error .indexError
      | some k => match specialParts[k]? with
        | some s => .ok s
        | none => .error .assertionError
    else do
      let t ← intToTextHun (← pyInt e.identifier)
      .ok (upper t ++ py" RÉSZ")
  | .title => do
    let t ← arabicToRomanWithPostfix e.identifier
    .ok (upper t ++ py". CÍM")
  | .chapter => do
    let t ← arabicToRomanWithPostfix e.identifier
    .ok (upper t ++ py". FEJEZET")
  | .subtitle => .ok (if e.identifier.isEmpty then [] else e.identifier ++ py".")

/-- The `identifier_from_string` class methods (structure.py:114-116, 140-142, 158-160, 177-179, 199-201). -/
def StructKind.identifierFromString (k : StructKind) (s : Str) : Res Str :=
  match k with
  | .book | .part => do
    let i ← textToIntHun s
    .ok (natStr i)
  | .title | .chapter => romanToArabicWithPostfix s
  | .subtitle => .ok s

/-! ## Semantic data -/

/-- `SubtitleArticleComboType` (structure.py:957-960). -/
inductive ComboType
  | beforeWithArticle | beforeWithoutArticle | after
  deriving DecidableEq, Repr

/-- `SubtitleArticleCombo` (structure.py:963-966). -/
structure SubtitleArticleCombo where
  position : ComboType
  articleId : Str
  deriving DecidableEq, Repr

/-- `StructuralReference` (structure.py:969-977). -/
structure StructuralReference where
  act : Option Str := none
  book : Option Str := none
  part : Option Str := none
  title : Option Str := none
  chapter : Option Str := none
  subtitle : Option Str := none
  special : Option SubtitleArticleCombo := none
  deriving DecidableEq, Repr

/-- `StructuralReference.resolve_abbreviations` (structure.py:979-986). -/
def StructuralReference.resolveAbbreviations (r : StructuralReference) (abbreviations : Str → Option Str) :
    StructuralReference :=
  match r.act with
  | none => r
  | some a => match abbreviations a with
    | none => r
    | some b => { r with act := some b }

/-- The classes named by `StructuralReference.last_component_with_type`. -/
inductive StructLevel
  | act | struct (k : StructKind)
  deriving DecidableEq, Repr

/-- `StructuralReference.last_component_with_type` (structure.py:988-1005). -/
def StructuralReference.lastComponentWithType (r : StructuralReference) : Res (Option (Str × StructLevel)) :=
  if r.special.isSome then .error .valueError
  else .ok (
    (r.subtitle.map (·, StructLevel.struct .subtitle)).or <|
    (r.chapter.map (·, StructLevel.struct .chapter)).or <|
    (r.title.map (·, StructLevel.struct .title)).or <|
    (r.part.map (·, StructLevel.struct .part)).or <|
    (r.book.map (·, StructLevel.struct .book)).or <|
    (r.act.map (·, StructLevel.act)))

/-- `ActIdAbbreviation` (structure.py:1008-1011). -/
structure ActIdAbbreviation where
  abbreviation : Str
  act : Str
  deriving DecidableEq, Repr

/-- `OutgoingReference` (structure.py:219-224). -/
structure OutgoingReference where
  startPos : Int
  endPos : Int
  reference : Reference
  deriving DecidableEq, Repr

/-- `Union[Reference, StructuralReference]`. -/
inductive Position
  | ref (r : Reference)
  | struct (r : StructuralReference)
  deriving DecidableEq, Repr

/-- `Position.resolve_abbreviations` by class. -/
def Position.resolveAbbreviations (p : Position) (abbreviations : Str → Option Str) : Position :=
  match p with
  | .ref r => .ref (r.resolveAbbreviations abbreviations)
  | .struct r => .struct (r.resolveAbbreviations abbreviations)

/-- `EnforcementDateTypes` (structure.py:1024-1040). -/
inductive EnforcementTime
  | date (d : Date)
  | days (days : Int)
  | dayInMonth (day months : Int)
  | special (description : Str)
  deriving DecidableEq, Repr

/-- The subclasses of `SemanticData` (structure.py:1014-1076). -/
inductive SemanticData
  | blockAmendment (position : Position) (pureInsertion : Bool)
  | enforcementDate (position : Option Reference) (date : EnforcementTime) (repealDate : Option Date)
  | textAmendment (position : Reference) (original replacement : Str)
  | articleTitleAmendment (position : Reference) (original replacement : Str)
  | repeal (position : Position) (text : Option Str)
  deriving DecidableEq, Repr

/-- The `resolve_abbreviations` methods (structure.py:214-216, 1019-1021, 1056-1058, 1067-1069, 1077-1079);
`EnforcementDate` has the inherited one that does nothing. -/
def SemanticData.resolveAbbreviations (d : SemanticData) (abbreviations : Str → Option Str) : SemanticData :=
  match d with
  | .blockAmendment p i => .blockAmendment (p.resolveAbbreviations abbreviations) i
  | .enforcementDate p d r => .enforcementDate p d r
  | .textAmendment p o r => .textAmendment (p.resolveAbbreviations abbreviations) o r
  | .articleTitleAmendment p o r => .articleTitleAmendment (p.resolveAbbreviations abbreviations) o r
  | .repeal p t => .repeal (p.resolveAbbreviations abbreviations) t

/-! ## Elements -/

/-- The subclasses of `SubArticleElement` (structure.py:377-552). -/
inductive SaeKind
  | alphabeticSubpoint | numericSubpoint | numericPoint | alphabeticPoint | blockAmendmentContainer | paragraph
  deriving DecidableEq, Repr

/-- The attributes of `SubArticleElement` other than its children (structure.py:242-250). -/
structure SaeData where
  identifier : Option Str := none
  text : Option Str := none
  intro : Option Str := none
  wrapUp : Option Str := none
  abbreviations : Option (List ActIdAbbreviation) := none
  references : Option (List OutgoingReference) := none
  semantic : Option (List SemanticData) := none
  deriving DecidableEq, Repr

/-- `SubArticleChildType` and `ActChildType`: all objects that occur as children (structure.py:233, 669).
`children = None` of a `SubArticleElement` is the empty list here: `children = ()` cannot be constructed, see
`mkSae`. The attributes with `init=False` are computed from the others and are functions here. -/
inductive Node
  | sae (kind : SaeKind) (data : SaeData) (children : List Node)
  | article (identifier : Str) (title : Option Str) (children : List Node)
  | quoted (lines : List Line)
  | structural (e : StructuralElement)
  deriving Repr

mutual
/-- Equality of objects can be computed (`attr.s` generates `__eq__`). -/
def Node.decEq : (a b : Node) → Decidable (a = b)
  | .sae k d cs, .sae k' d' cs' =>
    if h1 : k = k' then if h2 : d = d' then
      match Node.decEqList cs cs' with
      | isTrue h3 => isTrue (by rw [h1, h2, h3])
      | isFalse h3 => isFalse (by simp [h3])
    else isFalse (by simp [h2]) else isFalse (by simp [h1])
  | .article i t cs, .article i' t' cs' =>
    if h1 : i = i' then if h2 : t = t' then
      match Node.decEqList cs cs' with
      | isTrue h3 => isTrue (by rw [h1, h2, h3])
      | isFalse h3 => isFalse (by simp [h3])
    else isFalse (by simp [h2]) else isFalse (by simp [h1])
  | .quoted l, .quoted l' => if h : l = l' then isTrue (by rw [h]) else isFalse (by simp [h])
  | .structural e, .structural e' => if h : e = e' then isTrue (by rw [h]) else isFalse (by simp [h])
  | .sae .., .article .. => isFalse (by simp)
  | .sae .., .quoted .. => isFalse (by simp)
  | .sae .., .structural .. => isFalse (by simp)
  | .article .., .sae .. => isFalse (by simp)
  | .article .., .quoted .. => isFalse (by simp)
  | .article .., .structural .. => isFalse (by simp)
  | .quoted .., .sae .. => isFalse (by simp)
  | .quoted .., .article .. => isFalse (by simp)
  | .quoted .., .structural .. => isFalse (by simp)
  | .structural .., .sae .. => isFalse (by simp)
  | .structural .., .article .. => isFalse (by simp)
  | .structural .., .quoted .. => isFalse (by simp)

/-- The same for tuples of objects. -/
def Node.decEqList : (a b : List Node) → Decidable (a = b)
  | [], [] => isTrue rfl
  | [], _ :: _ => isFalse (by simp)
  | _ :: _, [] => isFalse (by simp)
  | a :: as, b :: bs =>
    match Node.decEq a b, Node.decEqList as bs with
    | isTrue h1, isTrue h2 => isTrue (by rw [h1, h2])
    | isFalse h1, _ => isFalse (by simp [h1])
    | _, isFalse h2 => isFalse (by simp [h2])
end

instance : DecidableEq Node := Node.decEq

/-- `type(c)`. -/
inductive NodeType
  | sae (kind : SaeKind)
  | article
  | quoted
  | structural (kind : StructKind)
  deriving DecidableEq, Repr

namespace Node

/-- `type(c)`. -/
def type : Node → NodeType
  | .sae k _ _ => .sae k
  | .article .. => .article
  | .quoted _ => .quoted
  | .structural e => .structural e.kind

/-- `c.identifier`; the one of `QuotedBlock` is a class variable that is None (structure.py:230). -/
def identifier : Node → Option Str
  | .sae _ d _ => d.identifier
  | .article i _ _ => some i
  | .quoted _ => none
  | .structural e => some e.identifier

/-- `c.children`; elements without the attribute have none. -/
def children : Node → List Node
  | .sae _ _ cs => cs
  | .article _ _ cs => cs
  | _ => []

/-- `isinstance(c, SubArticleElement)`. -/
def isSae : Node → Bool
  | .sae .. => true
  | _ => false

/-- `isinstance(c, Article)`. -/
def isArticle : Node → Bool
  | .article .. => true
  | _ => false

end Node

/-- `ALLOWED_CHILDREN_TYPE` (structure.py:238, 419, 449, 501-502, 660-667). -/
def SaeKind.allowedChildren : SaeKind → List NodeType
  | .alphabeticSubpoint | .numericSubpoint => []
  | .numericPoint => [.sae .alphabeticSubpoint]
  | .alphabeticPoint => [.sae .alphabeticSubpoint, .sae .numericSubpoint]
  | .paragraph => [.sae .alphabeticPoint, .sae .numericPoint, .quoted, .sae .blockAmendmentContainer]
  | .blockAmendmentContainer =>
    [.article, .sae .paragraph, .sae .alphabeticPoint, .sae .numericPoint, .sae .alphabeticSubpoint,
     .sae .numericSubpoint, .structural .book, .structural .part, .structural .title, .structural .chapter,
     .structural .subtitle]

/-- `ALLOW_DIFFERENTLY_TYPED_CHILDREN` (structure.py:239, 480). -/
def SaeKind.allowsDifferentChildren (k : SaeKind) : Bool := k == .blockAmendmentContainer

/-- `CAN_BE_SEMANTIC_PARSED` (structure.py:240, 481). -/
def SaeKind.canBeSemanticParsed (k : SaeKind) : Bool := k != .blockAmendmentContainer

/-- `_children_type_default` (structure.py:257-272), run by the constructor. -/
def childrenType (k : SaeKind) : Option (List Node) → Res (Option NodeType)
  | none => .ok none
  | some [] => .error .indexError
  | some (c :: cs) =>
    if cs.all fun d => d.type == c.type then .ok (some c.type)
    else if k.allowsDifferentChildren then .ok none
    else .error .typeError

/-- `_content_validator_if_text` (structure.py:292-296). -/
def validText (d : SaeData) (children : Option (List Node)) : Bool :=
  d.text.isNone || (d.intro.isNone && d.wrapUp.isNone && children.isNone)

/-- `_content_validator_if_children` (structure.py:298-304); `isinstance` is type equality as none of the allowed
types has subclasses. -/
def validChildren (k : SaeKind) (children : Option (List Node)) : Bool :=
  (children.getD []).all fun c => k.allowedChildren.contains c.type

/-- The constructor of `SubArticleElement`: first the defaults are computed, then the validators run, in the order of
the attributes (structure.py:236-304). -/
def mkSae (k : SaeKind) (d : SaeData) (children : Option (List Node)) : Res Node := do
  let _ ← childrenType k children
  if !validText d children then .error .valueError
  else if !validChildren k children then .error .typeError
  else .ok (.sae k d (children.getD []))

/-- The constructor of `Article` with `_children_validator` (structure.py:555-572). -/
def mkArticle (identifier : Str) (title : Option Str) (children : List Node) : Res Node :=
  if children.any (fun c => c.identifier.isNone) && children.length ≠ 1 then .error .valueError
  else .ok (.article identifier title children)

/-- `children` attribute as the constructor takes it. -/
def optChildren (cs : List Node) : Option (List Node) := if cs.isEmpty then none else some cs

/-- `attr.evolve(n, children=tuple(cs))`: the constructor runs again. Objects without children are not evolved. -/
def Node.withChildren (n : Node) (cs : List Node) : Res Node :=
  match n with
  | .sae k d _ => mkSae k d (some cs)
  | .article i t _ => mkArticle i t cs
  | _ => .error .typeError

mutual
/-- `_is_semantic_parsed_default` (structure.py:280-290, 578-580): the loop over the children stops at the first one
that is not a `SubArticleElement`. -/
def Node.isSemanticParsed : Node → Bool
  | .sae _ d cs => d.semantic.isSome && semanticChildren cs
  | .article _ _ cs => semanticAll cs
  | _ => true

/-- The condition on one child (structure.py:286-288). -/
def semanticChild : Node → Bool
  | .sae k d cs => !k.canBeSemanticParsed || (d.semantic.isSome && semanticChildren cs)
  | _ => true

/-- The loop of structure.py:284-288. -/
def semanticChildren : List Node → Bool
  | [] => true
  | c :: cs => if c.isSae then semanticChild c && semanticChildren cs else true

/-- `all(p.is_semantic_parsed for p in self.paragraphs)` (structure.py:580). -/
def semanticAll : List Node → Bool
  | [] => true
  | c :: cs => c.isSemanticParsed && semanticAll cs
end

/-- The `header_prefix` class methods (structure.py:379-381, 401-403, 421-423, 451-453, 483-485, 504-510). -/
def SaeKind.headerPrefix (k : SaeKind) (identifier : Option Str) : Res Str :=
  match k with
  | .alphabeticSubpoint | .alphabeticPoint => .ok (identifier.getD (py"None") ++ py") ")
  | .numericSubpoint | .numericPoint => .ok (identifier.getD (py"None") ++ py". ")
  | .blockAmendmentContainer => .error .typeError
  | .paragraph => match identifier with
    | none => .ok []
    | some i => .ok (py"(" ++ i ++ py") ")

/-- The `is_next_identifier` class methods (structure.py:383-389, 405-407, 430-432, 460-462, 487-489, 535-537). -/
def SaeKind.isNextIdentifier (k : SaeKind) (a b : Str) : Res Bool :=
  match k with
  | .alphabeticSubpoint => alphabeticSubpointIsNext a b
  | .numericSubpoint | .numericPoint | .paragraph => isNextNumericIdentifier a b
  | .alphabeticPoint => .ok (isNextLetterHun a b)
  | .blockAmendmentContainer => .error .typeError

/-- The `relative_reference` properties (structure.py:391-393, 409-411, 434-436, 464-466, 491-493, 539-541,
621-623); `none` is the TypeError of `BlockAmendmentContainer`. Other objects have none. -/
def Node.relativeReference : Node → Option Reference
  | .sae k d _ =>
    let i := d.identifier.map Ident.one
    match k with
    | .alphabeticSubpoint | .numericSubpoint => some { subpoint := i }
    | .numericPoint | .alphabeticPoint => some { point := i }
    | .blockAmendmentContainer => none
    | .paragraph => some { paragraph := i }
  | .article i _ _ => some { article := some (.one i) }
  | _ => none

/-! ## Lookup -/

/-- `{c.identifier: c for c in children}[k]`: the last one wins (structure.py:274-278, 574-576, 690-692). -/
def childAt (cs : List Node) (k : Option Str) : Res Node :=
  match cs.reverse.find? fun c => c.identifier == k with
  | some c => .ok c
  | none => .error .keyError

/-- The identifier given as a text; `children_map[...]` with a tuple finds nothing. -/
def cutChildren (cs : List Node) (a b : Str) : Res (List Node) := cutByIdentifier Node.identifier a b cs

/-- `NumericPoint.at_reference` and `AlphabeticPoint.at_reference` (structure.py:425-444, 455-474), for the types of
children that `subpoint` accepts; those of subpoints raise ValueError (structure.py:395-396, 413-414). -/
def pointAt (k : SaeKind) (cs : List Node) (subpoint : Option Ident) : Res (List Node) :=
  match k with
  | .numericPoint | .alphabeticPoint =>
    match subpoint with
    | none => .error .assertionError
    | some (.range a b) => if cs.isEmpty then .error .keyError else cutChildren cs a b
    | some (.one i) => do
      let c ← childAt cs (some i)
      if k.allowedChildren.contains c.type then .ok [c] else .error .assertionError
  | _ => .error .valueError

/-- `Paragraph.at_reference` with `point` (structure.py:512-516, 543-552). -/
def paragraphAt (cs : List Node) (r : Reference) : Res (List Node) :=
  match r.point with
  | none => .error .assertionError
  | some (.range a b) => if cs.isEmpty then .error .keyError else cutChildren cs a b
  | some (.one i) => do
    let c ← childAt cs (some i)
    match c with
    | .sae .alphabeticPoint _ ds => if r.subpoint.isNone then .ok [c] else pointAt .alphabeticPoint ds r.subpoint
    | .sae .numericPoint _ ds => if r.subpoint.isNone then .ok [c] else pointAt .numericPoint ds r.subpoint
    | _ => .error .keyError

/-- `Article.at_reference` (structure.py:625-631). -/
def articleAt (cs : List Node) (r : Reference) : Res (List Node) :=
  match r.paragraph with
  | some (.range a b) => cutChildren cs a b
  | some (.one i) => do
    let p ← childAt cs (some i)
    if r.point.isNone then .ok [p] else paragraphAt p.children r
  | none => do
    let p ← childAt cs none
    if r.point.isNone then .ok [p] else paragraphAt p.children r

/-- `Act` (structure.py:673-680). -/
structure Act where
  identifier : Str
  publicationDate : Date
  subject : Str
  preamble : Str
  children : List Node
  deriving DecidableEq, Repr

/-- `_articles_default` (structure.py:686-688). -/
def Act.articles (a : Act) : List Node := a.children.filter Node.isArticle

/-- `_is_semantic_parsed_default` (structure.py:694-696). -/
def Act.isSemanticParsed (a : Act) : Bool := semanticAll a.articles

/-- `Act.at_reference` with `article` (structure.py:698-711). -/
def Act.at (a : Act) (r : Reference) : Res (List Node) :=
  if r.act.isSome && r.act != some a.identifier then .error .assertionError
  else match r.article with
    | none => .error .assertionError
    | some i =>
      if r.paragraph.isNone && r.point.isNone && r.subpoint.isNone then
        match i with
        | .one x => do
          let c ← childAt a.articles (some x)
          .ok [c]
        | .range x y => cutChildren a.articles x y
      else match i with
        | .range _ _ => .error .assertionError
        | .one x => do
          let c ← childAt a.articles (some x)
          articleAt c.children r

/-! ## Mapping -/

/-- A modifier: it may keep state and may raise. -/
abbrev Modifier (σ : Type) := Reference → Node → σ → Res (Node × σ)

/-- A loop over children that collects the results (structure.py:356-362, 650-657). -/
def mapLoop {σ : Type} (f : Node → σ → Res (Node × σ)) : List Node → σ → Res (List Node × σ)
  | [], s => .ok ([], s)
  | c :: cs, s => do
    let (c', s) ← f c s
    let (cs', s) ← mapLoop f cs s
    .ok (c' :: cs', s)

/-- `filter_for_reference is not None and not reference.contains(filter_for_reference) and not
filter_for_reference.contains(reference)` (structure.py:343-345, 641-643). -/
def outsideFilter (filter : Option Reference) (reference : Reference) : Res Bool :=
  match filter with
  | none => .ok false
  | some f => do
    if ← reference.contains f then .ok false
    else if ← f.contains reference then .ok false
    else .ok true

/-- The call of the modifier under its condition (structure.py:351-354, 368-371). -/
def callInFilter {σ : Type} (m : Modifier σ) (filter : Option Reference) (reference : Reference) (n : Node) (s : σ) :
    Res (Node × σ) :=
  match filter with
  | none => m reference n s
  | some f => do
    if ← f.contains reference then m reference n s else .ok (n, s)

/-- `if new_child is not child` (structure.py:359-364): objects are values here, so evolving is skipped if nothing
changed. -/
def evolveIfChanged (n : Node) (cs : List Node) : Res Node :=
  if cs = n.children then .ok n else n.withChildren cs

/-- `SubArticleElement.map_recursive` (structure.py:330-374). The first argument bounds the depth of the recursion:
beyond it Python raises RecursionError. -/
def mapSae {σ : Type} (m : Modifier σ) (filter : Option Reference) (childrenFirst : Bool) :
    Nat → Reference → Node → σ → Res (Node × σ)
  | 0, _, _, _ => .error .runtimeError
  | depth + 1, parent, n, s =>
    match n.relativeReference with
    | none => .ok (n, s)
    | some rel => do
      let reference := rel.relativeTo parent
      if ← outsideFilter filter reference then .ok (n, s)
      else do
        let (result, s) ← if childrenFirst then .ok (n, s) else callInFilter m filter reference n s
        let (cs, s) ← mapLoop
          (fun c s => if c.isSae then mapSae m filter childrenFirst depth reference c s else .ok (c, s))
          result.children s
        let result ← evolveIfChanged result cs
        if childrenFirst then callInFilter m filter reference result s else .ok (result, s)

/-- `assert isinstance(new_child, Paragraph)` after the call (structure.py:651-652). -/
def assertParagraph {σ : Type} (r : Node × σ) : Res (Node × σ) :=
  if r.1.type = .sae .paragraph then .ok r else .error .assertionError

/-- `Article.map_recursive` (structure.py:633-657). -/
def mapArticle {σ : Type} (m : Modifier σ) (filter : Option Reference) (childrenFirst : Bool) (depth : Nat)
    (parent : Reference) (n : Node) (s : σ) : Res (Node × σ) :=
  match n with
  | .article i t cs => do
    let reference := Reference.relativeTo { article := some (.one i) } parent
    if ← outsideFilter filter reference then .ok (n, s)
    else do
      let (cs', s) ← mapLoop
        (fun c s => do assertParagraph (← mapSae m filter childrenFirst depth reference c s)) cs s
      let n' ← evolveIfChanged (.article i t cs) cs'
      .ok (n', s)
  | n => .ok (n, s)

/-- `Act.map_articles` (structure.py:713-731); evolving an act cannot fail. -/
def Act.mapArticles {σ : Type} (a : Act) (m : Modifier σ) (filter : Option Reference) (s : σ) : Res (Act × σ) := do
  let (cs, s) ← mapLoop
    (fun c s => match c with
      | .article i _ _ => callInFilter m filter { act := some a.identifier, article := some (.one i) } c s
      | c => .ok (c, s))
    a.children s
  .ok ({ a with children := cs }, s)

/-- `Act.map_saes` (structure.py:733-740). -/
def Act.mapSaes {σ : Type} (a : Act) (m : Modifier σ) (filter : Option Reference) (childrenFirst : Bool) (depth : Nat)
    (s : σ) : Res (Act × σ) :=
  a.mapArticles (fun _ n s => mapArticle m filter childrenFirst depth { act := some a.identifier } n s) none s

end Verif
