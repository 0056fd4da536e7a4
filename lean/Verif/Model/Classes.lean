import Verif.Model.Dict2Object

/-! # The classes of the project as `dict2object` sees them

The classes that an `Act`, a `MagyarKozlonyLawRawText` or a `PdfOfLines` can contain: /repo/hun_law/structure.py,
/repo/hun_law/utils.py, /repo/hun_law/extractors/magyar_kozlony.py, /repo/hun_law/extractors/pdf.py. Class variables are not attributes. The types of attributes with `init=False` are not used
by the converters and are left out. -/

namespace Verif

/-- `Optional[t]`. -/
def Ty.optional (t : Ty) : Ty := .union [t, .prim .none]

/-- An attribute without default. -/
def Field.required (name : Str) (type : Ty) : Field := { name, type }

/-- An attribute with a default. -/
def Field.withDefault (name : Str) (type : Ty) (default : Val) : Field := { name, type, default := some default }

/-- `name: Optional[t] = None`. -/
def Field.orNone (name : Str) (type : Ty) : Field := { name, type := type.optional, default := some .none }

/-- An attribute with `attr.ib(init=False)`. -/
def Field.computed (name : Str) : Field := { name, type := .prim .none, init := false }

/-- `SubArticleChildType` (structure.py:233). -/
def subArticleChildType : Ty := .union [.cls (py"Article"), .cls (py"SubArticleElement"), .cls (py"QuotedBlock"), .cls (py"StructuralElement")]

/-- `ReferencePartType` (structure.py:743). -/
def referencePartType : Ty := .union [.prim .none, .prim .str, .tuple [.prim .str, .prim .str]]

/-- The attributes of `StructuralElement` (structure.py:86-90). -/
def structuralFields : List Field := [.required (py"identifier") (.prim .str), .required (py"title") (.prim .str)]

/-- The attributes of `SubArticleElement` (structure.py:236-255). -/
def saeFields : List Field :=
  [.orNone (py"identifier") (.prim .str), .orNone (py"text") (.prim .str), .orNone (py"intro") (.prim .str),
   .orNone (py"children") (.tupleVar subArticleChildType), .orNone (py"wrap_up") (.prim .str),
   .orNone (py"act_id_abbreviations") (.tupleVar (.cls (py"ActIdAbbreviation"))),
   .orNone (py"outgoing_references") (.tupleVar (.cls (py"OutgoingReference"))),
   .orNone (py"semantic_data") (.tupleVar (.cls (py"SemanticData"))),
   .computed (py"children_type"), .computed (py"children_map"), .computed (py"is_semantic_parsed")]

/-- A class made by `attr.s`. The names of all classes are different; they are used as the ids too. -/
def attrsClass (name : Str) (fields : List Field) (subclasses : List ClassId := []) : ClassId × ClassInfo :=
  (name, { name, kind := .attrs fields, subclasses })

/-- The classes. -/
def hunLawTable : List (ClassId × ClassInfo) :=
  [-- utils.py:28-41
   attrsClass (py"IndentedLinePart")
    [.required (py"dx") (.prim .float), .required (py"content") (.prim .str), .withDefault (py"bold") (.prim .bool) (.bool false)],
   attrsClass (py"IndentedLine")
    [.required (py"_parts") (.tupleVar (.cls (py"IndentedLinePart"))), .withDefault (py"margin_right") (.prim .float) (.int 0),
     .computed (py"content"), .computed (py"indent"), .computed (py"bold")],
   -- utils.py:147-151
   attrsClass (py"Date") [.required (py"year") (.prim .int), .required (py"month") (.prim .int), .required (py"day") (.prim .int)],
   -- structure.py:86-197
   attrsClass (py"StructuralElement") structuralFields [py"Book", py"Part", py"Title", py"Chapter", py"Subtitle"],
   attrsClass (py"Book") structuralFields,
   attrsClass (py"Part") (structuralFields ++ [.withDefault (py"special") (.prim .bool) (.bool false)]),
   attrsClass (py"Title") structuralFields,
   attrsClass (py"Chapter") structuralFields,
   attrsClass (py"Subtitle") structuralFields,
   -- structure.py:213-230
   attrsClass (py"SemanticData") [] [py"BlockAmendment", py"EnforcementDate", py"TextAmendment", py"ArticleTitleAmendment", py"Repeal"],
   attrsClass (py"OutgoingReference")
    [.required (py"start_pos") (.prim .int), .required (py"end_pos") (.prim .int), .required (py"reference") (.cls (py"Reference"))],
   attrsClass (py"QuotedBlock") [.required (py"lines") (.tupleVar (.cls (py"IndentedLine")))],
   -- structure.py:236-500
   attrsClass (py"SubArticleElement") saeFields
    [py"AlphabeticSubpoint", py"NumericSubpoint", py"NumericPoint", py"AlphabeticPoint", py"BlockAmendmentContainer", py"Paragraph"],
   attrsClass (py"AlphabeticSubpoint") saeFields,
   attrsClass (py"NumericSubpoint") saeFields,
   attrsClass (py"NumericPoint") saeFields,
   attrsClass (py"AlphabeticPoint") saeFields,
   attrsClass (py"BlockAmendmentContainer") saeFields,
   attrsClass (py"Paragraph") saeFields,
   -- structure.py:555-562, 673-684
   attrsClass (py"Article")
    [.required (py"identifier") (.prim .str), .required (py"children") (.tupleVar (.cls (py"Paragraph"))), .orNone (py"title") (.prim .str),
     .computed (py"paragraph_map"), .computed (py"is_semantic_parsed")],
   attrsClass (py"Act")
    [.required (py"identifier") (.prim .str), .required (py"publication_date") (.cls (py"Date")), .required (py"subject") (.prim .str),
     .required (py"preamble") (.prim .str), .required (py"children") (.tupleVar (.union [.cls (py"StructuralElement"), .cls (py"Article")])),
     .computed (py"articles"), .computed (py"articles_map"), .computed (py"is_semantic_parsed")],
   -- structure.py:746-756
   attrsClass (py"Reference")
    [.orNone (py"act") (.prim .str), .withDefault (py"article") referencePartType .none, .withDefault (py"paragraph") referencePartType .none,
     .withDefault (py"point") referencePartType .none, .withDefault (py"subpoint") referencePartType .none],
   -- structure.py:957-977
   (py"SubtitleArticleComboType", { name := py"SubtitleArticleComboType", kind := .enum [py"BEFORE_WITH_ARTICLE", py"BEFORE_WITHOUT_ARTICLE", py"AFTER"] }),
   attrsClass (py"SubtitleArticleCombo") [.required (py"position") (.cls (py"SubtitleArticleComboType")), .required (py"article_id") (.prim .str)],
   attrsClass (py"StructuralReference")
    [.orNone (py"act") (.prim .str), .orNone (py"book") (.prim .str), .orNone (py"part") (.prim .str), .orNone (py"title") (.prim .str),
     .orNone (py"chapter") (.prim .str), .orNone (py"subtitle") (.prim .str), .orNone (py"special") (.cls (py"SubtitleArticleCombo"))],
   -- structure.py:1008-1080
   attrsClass (py"ActIdAbbreviation") [.required (py"abbreviation") (.prim .str), .required (py"act") (.prim .str)],
   attrsClass (py"BlockAmendment")
    [.required (py"position") (.union [.cls (py"Reference"), .cls (py"StructuralReference")]),
     .withDefault (py"pure_insertion") (.prim .bool) (.bool false)],
   attrsClass (py"DayInMonthAfterPublication") [.required (py"day") (.prim .int), .withDefault (py"months") (.prim .int) (.int 1)],
   attrsClass (py"DaysAfterPublication") [.withDefault (py"days") (.prim .int) (.int 1)],
   attrsClass (py"SpecialEnforcementDate") [.required (py"description") (.prim .str)],
   attrsClass (py"EnforcementDate")
    [.required (py"position") (.optional (.cls (py"Reference"))),
     .required (py"date") (.union [.cls (py"Date"), .cls (py"DaysAfterPublication"), .cls (py"DayInMonthAfterPublication"), .cls (py"SpecialEnforcementDate")]),
     .orNone (py"repeal_date") (.cls (py"Date"))],
   attrsClass (py"TextAmendment")
    [.required (py"position") (.cls (py"Reference")), .required (py"original_text") (.prim .str), .required (py"replacement_text") (.prim .str)],
   attrsClass (py"ArticleTitleAmendment")
    [.required (py"position") (.cls (py"Reference")), .required (py"original_text") (.prim .str), .required (py"replacement_text") (.prim .str)],
   attrsClass (py"Repeal")
    [.required (py"position") (.union [.cls (py"Reference"), .cls (py"StructuralReference")]), .orNone (py"text") (.prim .str)],
   -- extractors/magyar_kozlony.py:129-134
   attrsClass (py"MagyarKozlonyLawRawText")
    [.required (py"identifier") (.prim .str), .required (py"publication_date") (.cls (py"Date")), .required (py"subject") (.prim .str),
     .required (py"body") (.tupleVar (.cls (py"IndentedLine")))],
   -- extractors/pdf.py:144-154
   attrsClass (py"PageOfLines") [.required (py"lines") (.list (.cls (py"IndentedLine")))],
   attrsClass (py"PdfOfLines") [.required (py"pages") (.list (.cls (py"PageOfLines")))]]

/-- The program, given what the `__init__` methods do. `_parts`, `lines` and `pages` have factories (utils.py:37,
extractors/pdf.py:146, 154). -/
def hunLawEnv (finish : ClassId → List (Str × Val) → Res (List (Str × Val))) : Env where
  info := fun c => (Dict.get? hunLawTable c).getD { name := c, kind := .plain }
  depth := 1
  factory := fun c f =>
    if c = py"IndentedLine" ∧ f = py"_parts" then some (.tuple [])
    else if c = py"PageOfLines" ∧ f = py"lines" ∨ c = py"PdfOfLines" ∧ f = py"pages" then some (.list [])
    else none
  finish

end Verif
