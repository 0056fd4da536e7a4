import Verif.Model.Classes
import Verif.Model.Structure
import Verif.Model.Gazette

/-! # The objects that acts, raw texts and the lines of a PDF are, as `dict2object` sees them

The classes in /repo/hun_law/structure.py, /repo/hun_law/utils.py, /repo/hun_law/extractors/magyar_kozlony.py and
/repo/hun_law/extractors/pdf.py with the values of their attributes, in the order of `attr.fields`. -/

namespace Verif

/-- What the constructor of a class adds to the given attributes: those with `attr.ib(init=False)`. -/
abbrev Extra := ClassId → List (Str × Val) → List (Str × Val)

/-- The `__init__` methods, without the validators: an object that exists has passed them. -/
def Extra.finish (x : Extra) (c : ClassId) (vs : List (Str × Val)) : Res (List (Str × Val)) := .ok (vs ++ x c vs)

/-- An object of a class made from its attributes. -/
def Extra.make (x : Extra) (c : ClassId) (vs : List (Str × Val)) : Val := .obj c (vs ++ x c vs)

/-- A value or None. -/
def Val.orNone : Option Val → Val
  | some v => v
  | Option.none => .none

/-- A `str` or None. -/
def Val.optStr (s : Option Str) : Val := .orNone (s.map .str)

variable (x : Extra)

/-- `IndentedLinePart` (utils.py:28-32). -/
def Part.object (p : Part) : Val := x.make (py"IndentedLinePart") [(py"dx", .float p.dx), (py"content", .str p.content), (py"bold", .bool p.bold)]

/-- `IndentedLine` (utils.py:35-41). -/
def Line.object (l : Line) : Val :=
  x.make (py"IndentedLine") [(py"_parts", .tuple (l.parts.map (Part.object x))), (py"margin_right", .float l.marginRight)]

/-- `Date` (utils.py:147-151). -/
def Date.object (d : Date) : Val := x.make (py"Date") [(py"year", .int d.year), (py"month", .int d.month), (py"day", .int d.day)]

/-- The names of the classes of structural elements (structure.py:103-210). -/
def StructKind.pyClass : StructKind → ClassId
  | .book => py"Book"
  | .part => py"Part"
  | .title => py"Title"
  | .chapter => py"Chapter"
  | .subtitle => py"Subtitle"

/-- `StructuralElement` (structure.py:86-90) and its subclasses; only `Part` has another attribute (structure.py:130). -/
def StructuralElement.object (e : StructuralElement) : Val :=
  x.make e.kind.pyClass ([(py"identifier", .str e.identifier), (py"title", .str e.title)] ++
    if e.kind = .part then [(py"special", .bool e.special)] else [])

/-- A component of a reference (`ReferencePartType`, structure.py:743). -/
def Ident.value : Ident → Val
  | .one s => .str s
  | .range a b => .tuple [.str a, .str b]

/-- `Reference` (structure.py:746-756). -/
def Reference.object (r : Reference) : Val :=
  x.make (py"Reference")
    [(py"act", .optStr r.act), (py"article", .orNone (r.article.map Ident.value)), (py"paragraph", .orNone (r.paragraph.map Ident.value)),
     (py"point", .orNone (r.point.map Ident.value)), (py"subpoint", .orNone (r.subpoint.map Ident.value))]

/-- `SubtitleArticleComboType` (structure.py:957-960). -/
def ComboType.value : ComboType → Val
  | .beforeWithArticle => .enum (py"SubtitleArticleComboType") (py"BEFORE_WITH_ARTICLE")
  | .beforeWithoutArticle => .enum (py"SubtitleArticleComboType") (py"BEFORE_WITHOUT_ARTICLE")
  | .after => .enum (py"SubtitleArticleComboType") (py"AFTER")

/-- `SubtitleArticleCombo` (structure.py:963-966). -/
def SubtitleArticleCombo.object (s : SubtitleArticleCombo) : Val :=
  x.make (py"SubtitleArticleCombo") [(py"position", s.position.value), (py"article_id", .str s.articleId)]

/-- `StructuralReference` (structure.py:969-977). -/
def StructuralReference.object (r : StructuralReference) : Val :=
  x.make (py"StructuralReference")
    [(py"act", .optStr r.act), (py"book", .optStr r.book), (py"part", .optStr r.part), (py"title", .optStr r.title),
     (py"chapter", .optStr r.chapter), (py"subtitle", .optStr r.subtitle), (py"special", .orNone (r.special.map (SubtitleArticleCombo.object x)))]

/-- `Union[Reference, StructuralReference]`. -/
def Position.object : Position → Val
  | .ref r => r.object x
  | .struct r => r.object x

/-- `ActIdAbbreviation` (structure.py:1008-1011). -/
def ActIdAbbreviation.object (a : ActIdAbbreviation) : Val :=
  x.make (py"ActIdAbbreviation") [(py"abbreviation", .str a.abbreviation), (py"act", .str a.act)]

/-- `OutgoingReference` (structure.py:219-224). -/
def OutgoingReference.object (r : OutgoingReference) : Val :=
  x.make (py"OutgoingReference") [(py"start_pos", .int r.startPos), (py"end_pos", .int r.endPos), (py"reference", r.reference.object x)]

/-- `EnforcementDateTypes` (structure.py:1024-1043). -/
def EnforcementTime.object : EnforcementTime → Val
  | .date d => d.object x
  | .days n => x.make (py"DaysAfterPublication") [(py"days", .int n)]
  | .dayInMonth d m => x.make (py"DayInMonthAfterPublication") [(py"day", .int d), (py"months", .int m)]
  | .special s => x.make (py"SpecialEnforcementDate") [(py"description", .str s)]

/-- The subclasses of `SemanticData` (structure.py:1014-1080). -/
def SemanticData.object : SemanticData → Val
  | .blockAmendment p i => x.make (py"BlockAmendment") [(py"position", p.object x), (py"pure_insertion", .bool i)]
  | .enforcementDate p d r => x.make (py"EnforcementDate")
    [(py"position", .orNone (p.map (Reference.object x))), (py"date", d.object x), (py"repeal_date", .orNone (r.map (Date.object x)))]
  | .textAmendment p o r => x.make (py"TextAmendment") [(py"position", p.object x), (py"original_text", .str o), (py"replacement_text", .str r)]
  | .articleTitleAmendment p o r =>
    x.make (py"ArticleTitleAmendment") [(py"position", p.object x), (py"original_text", .str o), (py"replacement_text", .str r)]
  | .repeal p t => x.make (py"Repeal") [(py"position", p.object x), (py"text", .optStr t)]

/-- The names of the classes of the parts of articles (structure.py:377-552). -/
def SaeKind.pyClass : SaeKind → ClassId
  | .alphabeticSubpoint => py"AlphabeticSubpoint"
  | .numericSubpoint => py"NumericSubpoint"
  | .numericPoint => py"NumericPoint"
  | .alphabeticPoint => py"AlphabeticPoint"
  | .blockAmendmentContainer => py"BlockAmendmentContainer"
  | .paragraph => py"Paragraph"

mutual
/-- `SubArticleElement` (structure.py:236-255), `Article` (structure.py:555-562), `QuotedBlock` (structure.py:227-230) and structural
elements. No children are None, see `Node`. -/
def Node.object : Node → Val
  | .sae k d cs => x.make k.pyClass
    [(py"identifier", .optStr d.identifier), (py"text", .optStr d.text), (py"intro", .optStr d.intro),
     (py"children", if cs.isEmpty then .none else .tuple (objects cs)), (py"wrap_up", .optStr d.wrapUp),
     (py"act_id_abbreviations", .orNone (d.abbreviations.map fun as => .tuple (as.map (ActIdAbbreviation.object x)))),
     (py"outgoing_references", .orNone (d.references.map fun rs => .tuple (rs.map (OutgoingReference.object x)))),
     (py"semantic_data", .orNone (d.semantic.map fun ss => .tuple (ss.map (SemanticData.object x))))]
  | .article i t cs => x.make (py"Article") [(py"identifier", .str i), (py"children", .tuple (objects cs)), (py"title", .optStr t)]
  | .quoted ls => x.make (py"QuotedBlock") [(py"lines", .tuple (ls.map (Line.object x)))]
  | .structural e => e.object x

/-- The same for tuples of objects. -/
def objects : List Node → List Val
  | [] => []
  | c :: cs => Node.object c :: objects cs
end

/-- `Act` (structure.py:672-684). -/
def Act.object (a : Act) : Val :=
  x.make (py"Act")
    [(py"identifier", .str a.identifier), (py"publication_date", a.publicationDate.object x), (py"subject", .str a.subject),
     (py"preamble", .str a.preamble), (py"children", .tuple (objects x a.children))]

/-- `MagyarKozlonyLawRawText` (magyar_kozlony.py:129-134). -/
def LawRawText.object (r : LawRawText) : Val :=
  x.make (py"MagyarKozlonyLawRawText")
    [(py"identifier", .str r.identifier), (py"publication_date", r.publicationDate.object x), (py"subject", .str r.subject),
     (py"body", .tuple (r.body.map (Line.object x)))]

/-- `PdfOfLines` with its `PageOfLines` (pdf.py:144-158). -/
def PdfOfLines.object (p : PdfOfLines) : Val :=
  x.make (py"PdfOfLines") [(py"pages", .list (p.map fun page => x.make (py"PageOfLines") [(py"lines", .list (page.map (Line.object x)))]))]

end Verif
