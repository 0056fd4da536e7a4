import Verif.Model.Objects
import Verif.Spec.Structure

/-! # The data of acts

What the JSON file of an act says: dictionaries with the names and values of what there is, in the order of the attributes. What an
element does not have is left out, and so are `false`, no right margin, one month and one day. Where elements of different classes can
stand, the name of the class is given last. -/

namespace Verif.Spec

/-- The entries of a dictionary. -/
abbrev Items := List (Str × Val)

/-- The entry of something that there may be. -/
def entry (key : Str) : Option Val → Items
  | some v => [(key, v)]
  | none => []

/-- The entry of a sign that is given only if it holds. -/
def sign (key : Str) (holds : Bool) : Items := if holds then [(key, .bool true)] else []

/-- The name of the class. -/
def named (name : Str) : Items := [(py"__type__", .str name)]

/-- A part of a line. -/
def partData (p : Part) : Val := .dict ([(py"dx", .float p.dx), (py"content", .str p.content)] ++ sign (py"bold") p.bold)

/-- A line. -/
def lineData (l : Line) : Val :=
  .dict ([(py"_parts", .list (l.parts.map partData))] ++ if l.marginRight = 0 then [] else [(py"margin_right", .float l.marginRight)])

/-- A date. -/
def dateItems (d : Date) : Items := [(py"year", .int d.year), (py"month", .int d.month), (py"day", .int d.day)]

/-- One identifier or the two ends of a range. -/
def identData : Ident → Val
  | .one s => .str s
  | .range a b => .list [.str a, .str b]

/-- A reference. -/
def referenceItems (r : Reference) : Items :=
  entry (py"act") (r.act.map .str) ++ entry (py"article") (r.article.map identData) ++ entry (py"paragraph") (r.paragraph.map identData) ++
  entry (py"point") (r.point.map identData) ++ entry (py"subpoint") (r.subpoint.map identData)

/-- Where a subtitle is relative to an article. -/
def comboName : ComboType → Str
  | .beforeWithArticle => py"BEFORE_WITH_ARTICLE"
  | .beforeWithoutArticle => py"BEFORE_WITHOUT_ARTICLE"
  | .after => py"AFTER"

/-- A reference to a structural element. -/
def structuralItems (r : StructuralReference) : Items :=
  entry (py"act") (r.act.map .str) ++ entry (py"book") (r.book.map .str) ++ entry (py"part") (r.part.map .str) ++
  entry (py"title") (r.title.map .str) ++ entry (py"chapter") (r.chapter.map .str) ++ entry (py"subtitle") (r.subtitle.map .str) ++
  entry (py"special") (r.special.map fun s => .dict [(py"position", .str (comboName s.position)), (py"article_id", .str s.articleId)])

/-- What is amended or repealed. -/
def positionData : Position → Val
  | .ref r => .dict (referenceItems r ++ named (py"Reference"))
  | .struct r => .dict (structuralItems r ++ named (py"StructuralReference"))

/-- When something comes into force. -/
def timeData : EnforcementTime → Val
  | .date d => .dict (dateItems d ++ named (py"Date"))
  | .days n => .dict ((if n = 1 then [] else [(py"days", .int n)]) ++ named (py"DaysAfterPublication"))
  | .dayInMonth d m => .dict ([(py"day", .int d)] ++ (if m = 1 then [] else [(py"months", .int m)]) ++ named (py"DayInMonthAfterPublication"))
  | .special s => .dict ([(py"description", .str s)] ++ named (py"SpecialEnforcementDate"))

/-- What a sentence does. Everything comes into force where there is no position, which is written as `null`. -/
def semanticData : SemanticData → Val
  | .blockAmendment p i => .dict ([(py"position", positionData p)] ++ sign (py"pure_insertion") i ++ named (py"BlockAmendment"))
  | .enforcementDate p d r => .dict
    ([(py"position", match p with | some r => .dict (referenceItems r) | none => .none), (py"date", timeData d)] ++
      entry (py"repeal_date") (r.map fun d => .dict (dateItems d)) ++ named (py"EnforcementDate"))
  | .textAmendment p o r => .dict
    ([(py"position", .dict (referenceItems p)), (py"original_text", .str o), (py"replacement_text", .str r)] ++ named (py"TextAmendment"))
  | .articleTitleAmendment p o r => .dict
    ([(py"position", .dict (referenceItems p)), (py"original_text", .str o), (py"replacement_text", .str r)] ++ named (py"ArticleTitleAmendment"))
  | .repeal p t => .dict ([(py"position", positionData p)] ++ entry (py"text") (t.map .str) ++ named (py"Repeal"))

/-- An abbreviation. -/
def abbreviationData (a : ActIdAbbreviation) : Val := .dict [(py"abbreviation", .str a.abbreviation), (py"act", .str a.act)]

/-- A reference in a text. -/
def outgoingData (r : OutgoingReference) : Val :=
  .dict [(py"start_pos", .int r.startPos), (py"end_pos", .int r.endPos), (py"reference", .dict (referenceItems r.reference))]

/-- The name of the class of an element. -/
def elementName : Node → Str
  | .sae .alphabeticSubpoint _ _ => py"AlphabeticSubpoint"
  | .sae .numericSubpoint _ _ => py"NumericSubpoint"
  | .sae .numericPoint _ _ => py"NumericPoint"
  | .sae .alphabeticPoint _ _ => py"AlphabeticPoint"
  | .sae .blockAmendmentContainer _ _ => py"BlockAmendmentContainer"
  | .sae .paragraph _ _ => py"Paragraph"
  | .article .. => py"Article"
  | .quoted _ => py"QuotedBlock"
  | .structural e => match e.kind with
    | .book => py"Book"
    | .part => py"Part"
    | .title => py"Title"
    | .chapter => py"Chapter"
    | .subtitle => py"Subtitle"

mutual
/-- An element without the name of its class. -/
def elementItems : Node → Items
  | .sae _ d cs =>
    entry (py"identifier") (d.identifier.map .str) ++ entry (py"text") (d.text.map .str) ++ entry (py"intro") (d.intro.map .str) ++
    entry (py"children") (if cs.isEmpty then none else some (.list (elementsData cs))) ++ entry (py"wrap_up") (d.wrapUp.map .str) ++
    entry (py"act_id_abbreviations") (d.abbreviations.map fun as => .list (as.map abbreviationData)) ++
    entry (py"outgoing_references") (d.references.map fun rs => .list (rs.map outgoingData)) ++
    entry (py"semantic_data") (d.semantic.map fun ss => .list (ss.map semanticData))
  | .article i t cs => [(py"identifier", .str i), (py"children", .list (paragraphsData cs))] ++ entry (py"title") (t.map .str)
  | .quoted ls => [(py"lines", .list (ls.map lineData))]
  | .structural e => [(py"identifier", .str e.identifier), (py"title", .str e.title)] ++ sign (py"special") (e.kind = .part && e.special)

/-- Elements of different classes. -/
def elementsData : List Node → List Val
  | [] => []
  | c :: cs => .dict (elementItems c ++ named (elementName c)) :: elementsData cs

/-- The paragraphs of an article. -/
def paragraphsData : List Node → List Val
  | [] => []
  | c :: cs => .dict (elementItems c) :: paragraphsData cs
end

/-- An act. -/
def actData (a : Act) : Val :=
  .dict [(py"identifier", .str a.identifier), (py"publication_date", .dict (dateItems a.publicationDate)), (py"subject", .str a.subject),
    (py"preamble", .str a.preamble), (py"children", .list (elementsData a.children))]

/-- The text of an act as it was extracted. -/
def rawTextData (r : LawRawText) : Val :=
  .dict [(py"identifier", .str r.identifier), (py"publication_date", .dict (dateItems r.publicationDate)), (py"subject", .str r.subject),
    (py"body", .list (r.body.map lineData))]

/-- The lines of a PDF. -/
def pdfData (p : PdfOfLines) : Val := .dict [(py"pages", .list (p.map fun page => .dict [(py"lines", .list (page.map lineData))]))]

/-- The constructors add the attributes that are not given to them, and only those. -/
def Adds (x : Extra) : Prop :=
  ∀ c fs vs, ((hunLawEnv x.finish).info c).kind = .attrs fs → (x c vs).map (·.1) = (fs.filter (fun f => !f.init)).map (·.name)

/-- Only parts are special: the other classes do not have the attribute that the model has for all structural elements. -/
def OnlyParts (n : Node) : Prop := ∀ e, Inside (.structural e) n → e.special = true → e.kind = .part

end Verif.Spec
