import Verif.Model.StructureParser

/-! # Semantic parsing: /repo/hun_law/parsers/semantic_parser.py -/

namespace Verif

/-- What `GrammaticalAnalyzer.analyze` found, as far as it is used here: `all_references`, `semantic_data` and
`act_id_abbreviations` of `GrammarResultContainer` (grammatical_analyzer.py:687-704). -/
structure Analysis where
  references : List OutgoingReference := []
  semantic : List SemanticData := []
  abbreviations : List ActIdAbbreviation := []
  deriving DecidableEq, Repr

/-- `GrammaticalAnalyzer.analyze` (grammatical_analyzer.py:718-730): any function will do here. The one of the program is in
`Verif.Model.GrammaticalAnalyzer`, with the parser in `Verif.Model.ActGrammar`. -/
abbrev Analyzer := Str → Res Analysis

/-! ## Block amendments -/

/-- The part `(\(.*\)|\[.*\])` of the regular expression in `parse_paragraph` (semantic_parser.py:250), matched against a
whole text, giving it without its first and last character. The dot does not match a line feed. -/
def unbracket : Str → Option Str
  | [] => none
  | o :: body =>
    if (o :: body).contains '\n' then none
    else if (o = '(' ∧ body.getLast? = some ')') ∨ (o = '[' ∧ body.getLast? = some ']') then some body.dropLast
    else none

/-- The dollar of a regular expression also matches before a final line feed. -/
def dropFinalNewline (s : Str) : Str :=
  if s.getLast? = some '\n' then s.dropLast else s

/-- The end of that regular expression, ` ?(\(.*\)|\[.*\])$`. -/
def matchBrackets : Str → Option Str
  | ' ' :: r => unbracket (dropFinalNewline r)
  | s => unbracket (dropFinalNewline s)

/-- The regular expression `^(.*:) ?(\(.*\)|\[.*\])$` of `parse_paragraph` (semantic_parser.py:250): group 1 is as long
as possible. The first argument is what was already passed over. -/
def matchContext : Str → Str → Option (Str × Str)
  | _, [] => none
  | seen, c :: rest =>
    if c = '\n' then none
    else match matchContext (seen ++ [c]) rest with
      | some r => some r
      | none => if c = ':' then (matchBrackets rest).map fun inner => (seen ++ [c], inner) else none

/-- The three texts cut from the intro and the wrap-up (semantic_parser.py:250-259): the actual intro, the intro and
the wrap-up of the amended text. -/
def splitContext (intro : Str) (wrapUp : Option Str) : Str × Option Str × Option Str :=
  match matchContext [] intro with
  | none => (intro, none, none)
  | some (actual, inner) => (actual, some inner, wrapUp.map fun w => pySlice w 1 (-1))

/-- The position of the first `BlockAmendment` (semantic_parser.py:263-268). -/
def firstBlockAmendment : List SemanticData → Option Position
  | [] => none
  | .blockAmendment p _ :: _ => some p
  | _ :: rest => firstBlockAmendment rest

/-- `ActBlockAmendmentParser.parse_paragraph` (semantic_parser.py:233-283). The `except` clause names
`SubArticleParsingError`, which no other class derives from. -/
def blockParagraph (analyze : Analyzer) (n : Node) : Res Node :=
  match n with
  | .sae k d cs =>
    if childrenType k (optChildren cs) ≠ .ok (some .quoted) then .ok n
    else match d.intro with
      | none => .error .assertionError
      | some intro =>
        if intro.length > 10000 then .ok n
        else match analyze (splitContext intro d.wrapUp).1 with
          | .error e => .error e
          | .ok analysis => match firstBlockAmendment analysis.semantic with
            | none => .ok n
            | some position => match cs with
              | [.quoted lines] =>
                match parseBlockAmendment position (splitContext intro d.wrapUp).2.1 (splitContext intro d.wrapUp).2.2 lines with
                | .ok b =>
                  mkSae k { d with intro := some (splitContext intro d.wrapUp).1, wrapUp := some [] } (some [b])
                | .error .saeParsing => .ok n
                | .error e => .error e
              | _ => .error .assertionError
  | n => .ok n

/-- A loop that collects results. -/
def mapRes {α β : Type} (f : α → Res β) : List α → Res (List β)
  | [] => .ok []
  | a :: as => do
    let b ← f a
    let bs ← mapRes f as
    .ok (b :: bs)

/-- `ActBlockAmendmentParser.parse_article` (semantic_parser.py:226-231), for children that are articles. -/
def blockArticle (analyze : Analyzer) (n : Node) : Res Node :=
  match n with
  | .article i t ps => do
    let ps' ← mapRes (blockParagraph analyze) ps
    mkArticle i t ps'
  | n => .ok n

/-- `ActBlockAmendmentParser.parse` (semantic_parser.py:217-224). -/
def parseBlockAmendments (analyze : Analyzer) (a : Act) : Res Act := do
  let cs ← mapRes (blockArticle analyze) a.children
  .ok { a with children := cs }

/-! ## Semantic data -/

/-- `SemanticParseState` without the analyser (semantic_parser.py:32-36). -/
structure SemState where
  abbreviations : List ActIdAbbreviation := []
  changed : Bool := false
  deriving DecidableEq, Repr

/-- `{a.abbreviation: a.act for a in state.act_id_abbreviations}` (semantic_parser.py:176): the last one wins. -/
def abbreviationsMap (l : List ActIdAbbreviation) (s : Str) : Option Str :=
  (l.reverse.find? fun a => a.abbreviation = s).map (·.act)

/-- The `junk_str` of `fix_list_element_end` (semantic_parser.py:151). -/
def junkEnds : List Str := [py" és", py" valamint", py" illetve", py" vagy", py";", py","]

/-- The loop of `fix_list_element_end` (semantic_parser.py:151-153). -/
def stripJunk : List Str → Str → Str
  | [], text => text
  | junk :: rest, text => stripJunk rest (if endsWith text junk then text.take (text.length - junk.length) else text)

/-- `fix_list_element_end` (semantic_parser.py:148-156). -/
def fixListElementEnd (text : Str) (endSentence : Bool) : Res Str :=
  let text := stripJunk junkEnds text
  if endSentence then
    match text.getLast? with
    | none => .error .indexError
    | some c => .ok (if c = '.' ∨ c = ':' ∨ c = '!' ∨ c = '?' then text else text ++ ['.'])
  else .ok text

/-- `INTERESTING_SUBSTRINGS` (semantic_parser.py:40). -/
def interestingSubstrings : List Str := [py")", py"§", py"törvén", py"hely", py"hatály", py"Hatály"]

/-- `a < b` for `OutgoingReference`, generated by attrs: the tuples of the attributes are compared
(structure.py:219-224). -/
def OutgoingReference.lt (a b : OutgoingReference) : Res Bool :=
  if a.startPos ≠ b.startPos then .ok (decide (a.startPos < b.startPos))
  else if a.endPos ≠ b.endPos then .ok (decide (a.endPos < b.endPos))
  else if a.reference ≠ b.reference then a.reference.lt b.reference
  else .ok false

/-- One step of `sortRefs`. -/
def insertRef (x : OutgoingReference) : List OutgoingReference → Res (List OutgoingReference)
  | [] => .ok [x]
  | y :: ys => do
    if ← x.lt y then .ok (x :: y :: ys)
    else do
      let zs ← insertRef x ys
      .ok (y :: zs)

/-- `result.sort()`. Simplified: a stable insertion sort. Python's sort gives the same list, but may compare other pairs;
this can be seen only if comparing two references at the same place raises, and the analyser of the program finds no two that
end at the same place (C87). -/
def sortRefs : List OutgoingReference → List OutgoingReference → Res (List OutgoingReference)
  | sorted, [] => .ok sorted
  | sorted, x :: xs => do
    let s ← insertRef x sorted
    sortRefs s xs

/-- The loop of `convert_parsed_references` (semantic_parser.py:197-211). -/
def cutReferences (prefixLen textLen : Int) (abbreviations : Str → Option Str) :
    List OutgoingReference → List OutgoingReference
  | [] => []
  | r :: rs =>
    if r.endPos ≤ prefixLen ∨ r.endPos > textLen then cutReferences prefixLen textLen abbreviations rs
    else { startPos := max (r.startPos - prefixLen) 0, endPos := r.endPos - prefixLen,
           reference := r.reference.resolveAbbreviations abbreviations } ::
      cutReferences prefixLen textLen abbreviations rs

/-- `convert_parsed_references` (semantic_parser.py:187-213). -/
def convertReferences (references : List OutgoingReference) (prefixLen textLen : Int)
    (abbreviations : Str → Option Str) : Res (List OutgoingReference) :=
  sortRefs [] (cutReferences prefixLen textLen abbreviations references)

/-- `if analysis_result.act_id_abbreviations:` (semantic_parser.py:172-174). -/
def SemState.learn (s : SemState) (new : List ActIdAbbreviation) : SemState :=
  if new.isEmpty then s else { abbreviations := s.abbreviations ++ new, changed := true }

/-- `parse_text` after its early returns (semantic_parser.py:170-185). -/
def useAnalysis (r : Analysis) (prefixLen textLen : Int) (s : SemState) : Res (Analysis × SemState) := do
  let s := s.learn r.abbreviations
  let map := abbreviationsMap s.abbreviations
  let refs ← convertReferences r.references prefixLen textLen map
  .ok ({ references := refs, semantic := r.semantic.map (·.resolveAbbreviations map), abbreviations := r.abbreviations }, s)

/-- `parse_text` (semantic_parser.py:158-185); `post` is `postfix`. -/
def parseText (analyze : Analyzer) (middle pre post : Str) (s : SemState) : Res (Analysis × SemState) := do
  let middle ← fixListElementEnd middle post.isEmpty
  let text := pre ++ middle ++ post
  if text.length > 10000 then .ok ({}, s)
  else if !interestingSubstrings.any (fun x => isInfix x text) then .ok ({}, s)
  else do
    let r ← analyze text
    useAnalysis r pre.length ((text.length : Int) - post.length) s

/-- The attributes set by `attr.evolve` (semantic_parser.py:100-105, 140-146). -/
def SaeData.withSemantics (d : SaeData) (r : Analysis) : SaeData :=
  { d with references := some r.references, semantic := some r.semantic, abbreviations := some r.abbreviations }

mutual
/-- `add_existing_abbreviations_to_state` (semantic_parser.py:60-70) for a `SubArticleElement`; the caller skips other
objects. -/
def existingElement : Node → SemState → Res SemState
  | .sae k d cs, s =>
    if !k.canBeSemanticParsed then .ok s
    else match d.abbreviations with
      | none => .error .assertionError
      | some l => existingElements cs { s with abbreviations := s.abbreviations ++ l }
  | _, s => .ok s

/-- The loop over the children (semantic_parser.py:66-70). -/
def existingElements : List Node → SemState → Res SemState
  | [], s => .ok s
  | c :: cs, s => do
    let s ← existingElement c s
    existingElements cs s
end

/-- `add_existing_abbreviations_to_state` (semantic_parser.py:60-70). -/
def existingAbbreviations (n : Node) (s : SemState) : Res SemState :=
  match n with
  | .article _ _ cs => existingElements cs s
  | n => existingElement n s

/-- Parsing the intro, if there is one (semantic_parser.py:120-123). -/
def parseIntro (analyze : Analyzer) (intro : Option Str) (pre : Str) (s : SemState) : Res (Analysis × SemState) :=
  match intro with
  | some i => parseText analyze i pre [] s
  | none => .ok ({}, s)

/-- `prefix` for the children (semantic_parser.py:127-128). -/
def childPrefix (pre : Str) (intro : Option Str) : Str :=
  match intro with
  | some i => pre ++ i ++ py" "
  | none => pre

/-- `postfix` for the children (semantic_parser.py:130-131). -/
def childPostfix (post : Str) (wrapUp : Option Str) : Str :=
  match wrapUp with
  | some w => py" " ++ w ++ post
  | none => post

mutual
/-- `add_semantics_to_sae` (semantic_parser.py:84-146). Other objects are left alone by the caller. -/
def semanticsSae (analyze : Analyzer) : Node → Str → Str → SemState → Res (Node × SemState)
  | .sae k d cs, pre, post, s =>
    if !s.changed && (Node.sae k d cs).isSemanticParsed then do
      let s ← existingAbbreviations (.sae k d cs) s
      .ok (.sae k d cs, s)
    else if !k.canBeSemanticParsed then .ok (.sae k d cs, s)
    else match d.text with
      | some t => do
        let (r, s) ← parseText analyze t pre post s
        let n ← mkSae k (d.withSemantics r) (optChildren cs)
        .ok (n, s)
      | none => do
        let (r, s) ← parseIntro analyze d.intro pre s
        if cs.isEmpty then .error .assertionError
        else do
          let (cs', s) ← semanticsL analyze cs (childPrefix pre d.intro) (childPostfix post d.wrapUp) s
          let n ← mkSae k (d.withSemantics r) (some cs')
          .ok (n, s)
  | n, _, _, s => .ok (n, s)

/-- The loop over the children (semantic_parser.py:134-139). -/
def semanticsL (analyze : Analyzer) : List Node → Str → Str → SemState → Res (List Node × SemState)
  | [], _, _, s => .ok ([], s)
  | c :: cs, pre, post, s => do
    let (c', s) ← semanticsSae analyze c pre post s
    let (cs', s) ← semanticsL analyze cs pre post s
    .ok (c' :: cs', s)
end

/-- `add_semantics_to_article` (semantic_parser.py:72-82), for children that are articles. -/
def semanticsArticle (analyze : Analyzer) (n : Node) (s : SemState) : Res (Node × SemState) :=
  match n with
  | .article i t ps =>
    if !s.changed && (Node.article i t ps).isSemanticParsed then do
      let s ← existingAbbreviations (.article i t ps) s
      .ok (.article i t ps, s)
    else do
      let (ps', s) ← semanticsL analyze ps [] [] s
      let a ← mkArticle i t ps'
      .ok (a, s)
  | n => .ok (n, s)

/-- The loop of `add_semantics_to_act` (semantic_parser.py:50-54). -/
def semanticsArticles (analyze : Analyzer) : List Node → SemState → Res (List Node × SemState)
  | [], s => .ok ([], s)
  | c :: cs, s => do
    let (c', s) ← semanticsArticle analyze c s
    let (cs', s) ← semanticsArticles analyze cs s
    .ok (c' :: cs', s)

/-- `add_semantics_to_act` (semantic_parser.py:42-58). -/
def addSemantics (analyze : Analyzer) (a : Act) : Res Act :=
  if a.isSemanticParsed then .ok a
  else do
    let (cs, _) ← semanticsArticles analyze a.children {}
    .ok { a with children := cs }

end Verif
