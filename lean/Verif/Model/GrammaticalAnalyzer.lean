import Verif.Model.ReferenceCollector
import Verif.Model.SemanticParser
import Verif.Model.Txt

/-! # From parse trees to references and semantic data: /repo/hun_law/parsers/grammatical_analyzer.py

A parse tree is given by what the converters read of it; of the other nodes only the children matter. Any parser will do here; the one
that TatSu generates from grammar.ebnf is in `Verif.Model.ActGrammar`. -/

namespace Verif

/-- A `model.Reference`: its parts, and its position from `get_subtree_start_and_end_pos` (grammatical_analyzer.py:40-41). -/
abbrev ParsedRef := List ParsedPart × Int × Int

/-- A `model.ActReference` (grammar.ebnf:60): `act_id` as year and number with its position, `abbreviation` as `abbreviation.s` with its
position, and `from_now_on.abbreviation.s`. -/
structure ParsedActRef where
  actId : Option ((Str × Str) × Int × Int) := none
  abbreviation : Option (Str × Int × Int) := none
  fromNowOn : Option Str := none
  deriving DecidableEq, Repr

/-- What the rule `quote` gives (grammar.ebnf:114): texts in nested lists. -/
inductive QuoteTree
  | text (s : Str)
  | list (qs : List QuoteTree)
  deriving Repr

/-- The subclasses of `model.StructuralReference` (grammar.ebnf:120-140, 162-165). An `id` that is joined by the code is given as its pieces. -/
inductive ParsedStructRef
  | subtitleTitle (raw : Option (List Str)) (quoted : Option (List QuoteTree))
  | beforeArticle (id : List Str)
  | afterArticle (id : List Str)
  | subtitleNumber (id : List Str)
  | chapterNumber (id : List Str)
  | titleNumber (book : Option Str) (id : List Str)
  | partNumber (book : Option Str) (id : Str)
  deriving Repr

/-- `model.Date` (grammar.ebnf:333-335). -/
structure ParsedDate where
  year : Str
  month : Str
  day : Str
  deriving DecidableEq, Repr

/-- `model.AfterPublication` (grammar.ebnf:236-241); `as_number` is given by its first piece. -/
structure ParsedAfterPublication where
  asNumber : Option Str := none
  asText : Option Str := none
  deriving DecidableEq, Repr

/-- `model.DayInMonth` (grammar.ebnf:243-250); `day_as_number` is given by its first piece. -/
structure ParsedDayInMonth where
  month : Option Str := none
  dayAsNumber : Option Str := none
  dayAsText : Option Str := none
  deriving DecidableEq, Repr

/-- `model.EnforcementDate` (grammar.ebnf:259-274); `inline_repeal` is given by its date. -/
structure ParsedEnforcementDate where
  references : List ParsedRef := []
  exceptionReferences : List ParsedRef := []
  exactDate : Option ParsedDate := none
  afterPublication : Option ParsedAfterPublication := none
  dayInMonth : Option ParsedDayInMonth := none
  inlineRepeal : Option ParsedDate := none
  deriving DecidableEq, Repr

/-- The nodes that are converted, with the attributes that are read, and the other ones. -/
inductive GrammarNode
  | compoundReference (act : Option ParsedActRef) (references : List ParsedRef)
  | actReference (act : ParsedActRef)
  | blockAmendment (act : ParsedActRef) (amended inserted : Option ParsedRef)
  | blockAmendmentWithSubtitle (act : ParsedActRef) (structural : Option ParsedStructRef) (amended inserted : Option ParsedRef)
  | blockAmendmentStructural (act : ParsedActRef) (amended inserted : Option ParsedStructRef)
  | enforcementDate (d : ParsedEnforcementDate)
  | textAmendment (act : ParsedActRef) (references : List ParsedRef) (parts : List (List QuoteTree × List QuoteTree))
  | articleTitleAmendment (act : ParsedActRef) (article : List Str × Int × Int) (original replacement : List QuoteTree)
  | simpleRepeal (act : ParsedActRef) (references : List ParsedRef) (texts : List (List QuoteTree))
  | structuralRepeal (act : ParsedActRef) (structural : ParsedStructRef)
  | other
  deriving Repr

/-- A parse tree. The children of a node are the values in its `ast`, which may be a dict or a list; dicts and lists without a class are
nodes too here. -/
inductive ParseTree
  | node (n : GrammarNode) (children : List ParseTree)
  deriving Repr

/-! ## Pieces -/

mutual
/-- `flatten` of a list with one element (utils.py:434-441). -/
def QuoteTree.flatten : QuoteTree → List Str
  | .text s => [s]
  | .list qs => flattenQuotes qs

/-- `flatten` (utils.py:434-441). -/
def flattenQuotes : List QuoteTree → List Str
  | [] => []
  | q :: qs => q.flatten ++ flattenQuotes qs
end

/-- `convert_quote_to_string` (grammatical_analyzer.py:44-47). -/
def convertQuote (quote : List QuoteTree) : Res Str :=
  match quote.head?, quote.getLast? with
  | some (.text ['„']), some (.text ['”']) => .ok (pyStrip (flattenQuotes quote.tail.dropLast).flatten)
  | some _, some _ => .error .assertionError
  | _, _ => .error .indexError

/-- `" ".join(…)`. -/
def joinSpaces : List Str → Str
  | [] => []
  | [s] => s
  | s :: ss => s ++ ' ' :: joinSpaces ss

/-- `convert_book_id` (grammatical_analyzer.py:232-236). -/
def convertBookId : Option Str → Res (Option Str)
  | none => .ok none
  | some b => do .ok (some (← StructKind.book.identifierFromString b))

/-- `convert_structural_reference` (grammatical_analyzer.py:238-277). -/
def convertStructural (act : Str) (r : ParsedStructRef) : Res StructuralReference :=
  match r with
  | .subtitleTitle (some raw) _ => .ok { act := some act, subtitle := some (joinSpaces raw) }
  | .subtitleTitle none (some q) => do .ok { act := some act, subtitle := some (← convertQuote q) }
  | .subtitleTitle none none => .error .assertionError
  | .beforeArticle id => .ok { act := some act, special := some ⟨.beforeWithoutArticle, id.flatten⟩ }
  | .afterArticle id => .ok { act := some act, special := some ⟨.after, id.flatten⟩ }
  | .subtitleNumber id => do .ok { act := some act, subtitle := some (← StructKind.subtitle.identifierFromString id.flatten) }
  | .chapterNumber id => do .ok { act := some act, chapter := some (← StructKind.chapter.identifierFromString id.flatten) }
  | .titleNumber b id => do
    let book ← convertBookId b
    .ok { act := some act, book := book, title := some (← StructKind.title.identifierFromString id.flatten) }
  | .partNumber b id => do
    let book ← convertBookId b
    .ok { act := some act, book := book, part := some (← StructKind.part.identifierFromString id) }

/-- `get_act_id_from_parse_result` (grammatical_analyzer.py:284-289). -/
def ParsedActRef.id (a : ParsedActRef) : Res Str :=
  match a.actId, a.abbreviation with
  | some ((year, number), _), _ => .ok (year ++ (py". évi ") ++ number ++ (py". törvény"))
  | none, some (s, _) => .ok s
  | none, none => .error .valueError

/-- `get_act_id_pos_from_parse_result` (grammatical_analyzer.py:292-297). -/
def ParsedActRef.pos (a : ParsedActRef) : Res (Int × Int) :=
  match a.abbreviation, a.actId with
  | some (_, p), _ => .ok p
  | none, some (_, p) => .ok p
  | none, none => .error .valueError

/-- `convert_potential_in_text_reference` (grammatical_analyzer.py:210-223). -/
def convertPotentialInText (act : Str) : Option ParsedRef → Res (Option OutgoingReference)
  | none => .ok none
  | some (parts, start, stop) => convertPotential (some act) parts start stop

/-- `convert_potential_reference` (grammatical_analyzer.py:225-230). -/
def convertPotentialReference (act : Str) (r : Option ParsedRef) : Res (Option Reference) := do
  .ok ((← convertPotentialInText act r).map (·.reference))

/-- `OutgoingReference(start_pos, end_pos, Reference(act=act_id))`, as several converters yield it for an act reference. -/
def ParsedActRef.outgoing (a : ParsedActRef) : Res OutgoingReference := do
  let id ← a.id
  let p ← a.pos
  .ok ⟨p.1, p.2, { act := some id }⟩

/-! ## Converters -/

/-- `ConversionResultType` (grammatical_analyzer.py:145). -/
inductive ConversionResult
  | reference (r : OutgoingReference)
  | abbreviation (a : ActIdAbbreviation)
  | semantic (d : SemanticData)
  deriving DecidableEq, Repr

/-- The loop of `CompoundReferenceToOutgoingReference.convert` (grammatical_analyzer.py:311-314). -/
def convertEach (act : Option Str) : List ParsedRef → Res (List OutgoingReference)
  | [] => .ok []
  | r :: rs => do
    let xs ← convertSingle act r.1 r.2.1 r.2.2
    .ok (xs ++ (← convertEach act rs))

/-- `CompoundReferenceToOutgoingReference` (grammatical_analyzer.py:300-314). -/
def compoundReferences (act : Option ParsedActRef) (references : List ParsedRef) : Res (List OutgoingReference) :=
  match act with
  | none => convertEach none references
  | some a => do
    let id ← a.id
    let first ← a.outgoing
    .ok (first :: (← convertEach (some id) references))

/-- `ActReferenceToActIdAbbreviation` (grammatical_analyzer.py:317-330). -/
def actAbbreviation (a : ParsedActRef) : Res (List ActIdAbbreviation) :=
  match a.fromNowOn with
  | none => .ok []
  | some s => do .ok [⟨s, ← a.id⟩]

/-- The inserted reference completed by the amended one (grammatical_analyzer.py:347-349, 362-363). -/
def completedBy (amended inserted : Reference) : Reference := { inserted with act := none }.relativeTo amended

/-- `BlockAmendmentToOutgoingReference` (grammatical_analyzer.py:333-354). -/
def blockAmendmentReferences (act : ParsedActRef) (amended inserted : Option ParsedRef) : Res (List OutgoingReference) := do
  let id ← act.id
  let first ← act.outgoing
  let am ← convertPotentialInText id amended
  let ins ← convertPotentialInText id inserted
  match am, ins with
  | some a, some i => .ok [first, a, { i with reference := completedBy a.reference i.reference }]
  | some a, none => .ok [first, a]
  | none, some i => .ok [first, i]
  | none, none => .ok [first]

/-- `convert_amendment_and_insertion` (grammatical_analyzer.py:361-374), the position. -/
def amendmentAndInsertion (amended inserted : Reference) : Res Reference := do
  let inserted := completedBy amended inserted
  if ← amended.contains inserted.firstInRange then .ok amended
  else Reference.makeRange amended.firstInRange inserted.lastInRange

/-- `BlockAmendmentToBlockAmendment` (grammatical_analyzer.py:357-395). -/
def blockAmendments (act : ParsedActRef) (amended inserted : Option ParsedRef) : Res (List SemanticData) := do
  let id ← act.id
  let am ← convertPotentialReference id amended
  let ins ← convertPotentialReference id inserted
  match am, ins with
  | some a, some i => do .ok [.blockAmendment (.ref (← amendmentAndInsertion a i)) false]
  | some a, none => .ok [.blockAmendment (.ref a) false]
  | none, some i => .ok [.blockAmendment (.ref i) true]
  | none, none => .ok []

/-- `BlockAmendmentWithSubtitleToBlockAmendment.convert_one` (grammatical_analyzer.py:402-418). `reference` may be None, which has no
`article`. -/
def subtitleAmendment (structural : StructuralReference) (reference : Option Reference) (pureInsertion : Bool) : Res SemanticData :=
  match reference with
  | none => .error .attributeError
  | some r => match r.article with
    | some (.one a) => .ok (.blockAmendment (.struct { act := r.act, special := some ⟨.beforeWithArticle, a⟩ }) pureInsertion)
    | some (.range a _) => .ok (.blockAmendment (.struct { act := r.act, special := some ⟨.beforeWithArticle, a⟩ }) pureInsertion)
    | none => .ok (.blockAmendment (.struct structural) pureInsertion)

/-- `BlockAmendmentWithSubtitleToBlockAmendment.convert` (grammatical_analyzer.py:421-437). -/
def blockAmendmentsWithSubtitle (act : ParsedActRef) (structural : Option ParsedStructRef) (amended inserted : Option ParsedRef) :
    Res (List SemanticData) := do
  let id ← act.id
  let structural ← match structural with
    | some s => convertStructural id s
    | none => .ok { act := some id }
  let am ← convertPotentialReference id amended
  let ins ← convertPotentialReference id inserted
  match am, ins with
  | some _, some _ => .error .valueError
  | some a, none => do .ok [← subtitleAmendment structural (some a) false]
  | none, ins => do .ok [← subtitleAmendment structural ins true]

/-- `BlockAmendmentStructuralToBlockAmendment` (grammatical_analyzer.py:440-463). -/
def blockAmendmentsStructural (act : ParsedActRef) (amended inserted : Option ParsedStructRef) : Res (List SemanticData) := do
  let id ← act.id
  match amended, inserted with
  | some _, some _ => .error .valueError
  | some a, none => do .ok [.blockAmendment (.struct (← convertStructural id a)) false]
  | none, some i => do .ok [.blockAmendment (.struct (← convertStructural id i)) true]
  | none, none => .error .assertionError

/-- `convert_after_publication_date` (grammatical_analyzer.py:470-475). An empty text counts as none; the grammar has no empty ones. -/
def convertAfterPublication (a : ParsedAfterPublication) : Res EnforcementTime :=
  match a.asNumber, a.asText with
  | some n, _ => do .ok (.days (← pyInt n))
  | none, some t => do .ok (.days (← textToIntHun t))
  | none, none => .ok (.days 1)

/-- `convert_exact_date` (grammatical_analyzer.py:478-486). -/
def convertExactDate (d : ParsedDate) : Res Date := do
  let y ← pyInt d.year
  let m ← textToMonthHun d.month
  mkDate y m (← pyInt d.day)

/-- `convert_day_in_month` (grammatical_analyzer.py:489-502). -/
def convertDayInMonth (d : ParsedDayInMonth) : Res EnforcementTime := do
  let months : Int ← match d.month with
    | some m => do .ok (← textToIntHun m)
    | none => .ok 1
  match d.dayAsNumber, d.dayAsText with
  | some n, _ => do .ok (.dayInMonth (← pyInt n) months)
  | none, some t => do .ok (.dayInMonth (← textToIntHun t) months)
  | none, none => .error .valueError

/-- The date in `EnforcementDateToEnforcementDate.convert` (grammatical_analyzer.py:506-513). -/
def enforcementTime (d : ParsedEnforcementDate) : Res EnforcementTime :=
  match d.exactDate, d.afterPublication, d.dayInMonth with
  | some e, _, _ => do .ok (.date (← convertExactDate e))
  | none, some a, _ => convertAfterPublication a
  | none, none, some m => convertDayInMonth m
  | none, none, none => .error .valueError

/-- `EnforcementDateToEnforcementDate.convert` (grammatical_analyzer.py:505-523). -/
def enforcementDates (d : ParsedEnforcementDate) : Res (List SemanticData) := do
  let time ← enforcementTime d
  let repeal ← match d.inlineRepeal with
    | some r => do .ok (some (← convertExactDate r))
    | none => .ok none
  if d.references.isEmpty then .ok [.enforcementDate none time repeal]
  else do
    let rs ← convertMultiple {} d.references
    .ok (rs.map fun r => .enforcementDate (some r.reference) time repeal)

/-- `EnforcementDateToReference` (grammatical_analyzer.py:526-534). -/
def enforcementReferences (d : ParsedEnforcementDate) : Res (List OutgoingReference) := do
  let rs ← convertMultiple {} d.references
  .ok (rs ++ (← convertMultiple {} d.exceptionReferences))

/-- The inner loop of `TextAmendmentToTextAmendment.convert` (grammatical_analyzer.py:541-546, 554-555). -/
def textAmendmentParts (position : Reference) : List (List QuoteTree × List QuoteTree) → Res (List SemanticData)
  | [] => .ok []
  | p :: ps => do
    let original ← convertQuote p.1
    let replacement ← convertQuote p.2
    .ok (.textAmendment position original replacement :: (← textAmendmentParts position ps))

/-- The outer loop of `TextAmendmentToTextAmendment.convert` (grammatical_analyzer.py:553). -/
def textAmendmentLoop (parts : List (List QuoteTree × List QuoteTree)) : List OutgoingReference → Res (List SemanticData)
  | [] => .ok []
  | r :: rs => do
    let xs ← textAmendmentParts r.reference parts
    .ok (xs ++ (← textAmendmentLoop parts rs))

/-- `TextAmendmentToTextAmendment.convert` (grammatical_analyzer.py:549-555). -/
def textAmendments (act : ParsedActRef) (references : List ParsedRef) (parts : List (List QuoteTree × List QuoteTree)) :
    Res (List SemanticData) := do
  let id ← act.id
  textAmendmentLoop parts (← convertMultiple { act := some id } references)

/-- `TextAmendmentToReference` and `SimpleRepealToReference` (grammatical_analyzer.py:558-568, 618-627). -/
def actAndReferences (act : ParsedActRef) (references : List ParsedRef) : Res (List OutgoingReference) := do
  let id ← act.id
  let first ← act.outgoing
  .ok (first :: (← convertMultiple { act := some id } references))

/-- `ArticleTitleAmendmentToArticleTitleAmendment` (grammatical_analyzer.py:571-584). -/
def titleAmendments (act : ParsedActRef) (article : List Str × Int × Int) (original replacement : List QuoteTree) :
    Res (List SemanticData) := do
  let id ← act.id
  let o ← convertQuote original
  let r ← convertQuote replacement
  .ok [.articleTitleAmendment { act := some id, article := some (.one article.1.flatten) } o r]

/-- `ArticleTitleAmendmentToReference` (grammatical_analyzer.py:587-599). -/
def titleAmendmentReferences (act : ParsedActRef) (article : List Str × Int × Int) : Res (List OutgoingReference) := do
  let id ← act.id
  let first ← act.outgoing
  .ok [first, ⟨article.2.1, article.2.2, { act := some id, article := some (.one article.1.flatten) }⟩]

/-- The inner loop of `SimpleRepealToRepeal.convert` (grammatical_analyzer.py:614-615). -/
def repealedTexts (position : Reference) : List (List QuoteTree) → Res (List SemanticData)
  | [] => .ok []
  | t :: ts => do
    let s ← convertQuote t
    .ok (.repeal (.ref position) (some s) :: (← repealedTexts position ts))

/-- The outer loop of `SimpleRepealToRepeal.convert` (grammatical_analyzer.py:610-615). -/
def repealLoop (texts : List (List QuoteTree)) : List OutgoingReference → Res (List SemanticData)
  | [] => .ok []
  | r :: rs => do
    let xs ← if texts.isEmpty then .ok [.repeal (.ref r.reference) none] else repealedTexts r.reference texts
    .ok (xs ++ (← repealLoop texts rs))

/-- `SimpleRepealToRepeal` (grammatical_analyzer.py:602-615). -/
def repeals (act : ParsedActRef) (references : List ParsedRef) (texts : List (List QuoteTree)) : Res (List SemanticData) := do
  let id ← act.id
  repealLoop texts (← convertMultiple { act := some id } references)

/-- `StructuralRepealToRepeal` (grammatical_analyzer.py:630-639). -/
def structuralRepeals (act : ParsedActRef) (structural : ParsedStructRef) : Res (List SemanticData) := do
  let id ← act.id
  .ok [.repeal (.struct (← convertStructural id structural)) none]

/-! ## Whole trees -/

/-- `convert_single_node` (grammatical_analyzer.py:661-664), with the converters in the order of `CONVERTER_CLASSES`
(grammatical_analyzer.py:655). No class of the grammar is below another one that is converted. -/
def convertNode : GrammarNode → Res (List ConversionResult)
  | .compoundReference act references => do .ok ((← compoundReferences act references).map .reference)
  | .actReference act => do .ok ((← actAbbreviation act).map .abbreviation)
  | .blockAmendment act amended inserted => do
    let rs ← blockAmendmentReferences act amended inserted
    .ok (rs.map .reference ++ (← blockAmendments act amended inserted).map .semantic)
  | .blockAmendmentWithSubtitle act structural amended inserted => do
    .ok ((← blockAmendmentsWithSubtitle act structural amended inserted).map .semantic)
  | .blockAmendmentStructural act amended inserted => do .ok ((← blockAmendmentsStructural act amended inserted).map .semantic)
  | .enforcementDate d => do
    let ds ← enforcementDates d
    .ok (ds.map .semantic ++ (← enforcementReferences d).map .reference)
  | .textAmendment act references parts => do
    let ds ← textAmendments act references parts
    .ok (ds.map .semantic ++ (← actAndReferences act references).map .reference)
  | .articleTitleAmendment act article original replacement => do
    let ds ← titleAmendments act article original replacement
    .ok (ds.map .semantic ++ (← titleAmendmentReferences act article).map .reference)
  | .simpleRepeal act references texts => do
    let ds ← repeals act references texts
    .ok (ds.map .semantic ++ (← actAndReferences act references).map .reference)
  | .structuralRepeal act structural => do
    let ds ← structuralRepeals act structural
    .ok (ds.map .semantic ++ [.reference (← act.outgoing)])
  | .other => .ok []

mutual
/-- `convert_depth_first` (grammatical_analyzer.py:667-680). -/
def convertTree : ParseTree → Res (List ConversionResult)
  | .node n cs => do
    let xs ← convertTrees cs
    .ok (xs ++ (← convertNode n))

/-- The loops of `convert_depth_first` (grammatical_analyzer.py:672-679). -/
def convertTrees : List ParseTree → Res (List ConversionResult)
  | [] => .ok []
  | t :: ts => do
    let xs ← convertTree t
    .ok (xs ++ (← convertTrees ts))
end

/-- `all_references`, `semantic_data` and `act_id_abbreviations` (grammatical_analyzer.py:687-704). -/
def analysisOf (results : List ConversionResult) : Analysis where
  references := results.filterMap fun
    | .reference r => some r
    | _ => none
  semantic := results.filterMap fun
    | .semantic d => some d
    | _ => none
  abbreviations := results.filterMap fun
    | .abbreviation a => some a
    | _ => none

/-- `GrammaticalAnalyzer.analyze` (grammatical_analyzer.py:718-729). `parse` is the generated parser, which may fail. Every exception
becomes a `GrammaticalParsingError`. -/
def grammaticalAnalyzer (parse : Str → Option ParseTree) : Analyzer := fun s =>
  match parse s with
  | none => .error .grammaticalParsing
  | some t => match convertTree t with
    | .error _ => .error .grammaticalParsing
    | .ok results => .ok (analysisOf results)

end Verif
