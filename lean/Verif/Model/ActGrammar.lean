import Verif.Model.Peg
import Verif.Model.GrammaticalAnalyzer

/-! # The grammar: /repo/hun_law/grammar/grammar.ebnf

Every rule of the grammar is a definition. Rules with a class give what the converters of grammatical_analyzer.py read of their nodes, the
other ones what is made of them there; what nobody reads is dropped. `>rule` is written as the right hand side of the rule. -/

namespace Verif.ActGrammar

open Peg

/-! ## Simple tokens (grammar.ebnf:322-352) -/

/-- `[a-zéáőúöüóíű]`. -/
def isLowerHun (c : Char) : Bool := isLowerAz c || (py"éáőúöüóíű").contains c

/-- `[A-ZÉÁŐÚÖÜÓÍŰ]`. -/
def isUpperHun (c : Char) : Bool := isUpperAz c || (py"ÉÁŐÚÖÜÓÍŰ").contains c

/-- `word` (grammar.ebnf:330). -/
def word : Peg Str := rule (pattern (.plus fun c => isLowerHun c || isUpperHun c || c == '-'))

/-- `number` (grammar.ebnf:329). -/
def number : Peg Str := rule (pattern (.plus isAsciiDigit))

/-- `roman` (grammar.ebnf:331). -/
def roman : Peg Str := rule (pattern (.plus fun c => (py"IVXLCDM").contains c))

/-- `any_token` (grammar.ebnf:324); a full stop in a pattern is anything but the end of a line. -/
def anyToken : Peg Str := rule (or word (or number (pattern (.set (· != '\n')))))

/-- `az` (grammar.ebnf:326). -/
def az : Peg Str := rule (pattern (.seq (.char 'a') (.seq (.opt (.char 'z')) (.char ' '))))

/-- `number_with_dot` (grammar.ebnf:327), its first piece. -/
def numberWithDot : Peg Str := rule do
  let n ← number
  let _ ← token (py".")
  pure n

/-- `dash` (grammar.ebnf:352). -/
def dash : Peg Str := rule (tokens [py"−", py"–", py"-"])

/-- `month` (grammar.ebnf:337-338). -/
def months : List Str := [py"január", py"február", py"március", py"április", py"május", py"június", py"július", py"augusztus",
  py"szeptember", py"október", py"november", py"december"]

/-- `hungarian_ordinal` (grammar.ebnf:340-345). -/
def ordinalWords : List Str := [py"első", py"második", py"harmadik", py"negyedik", py"ötödik", py"hatodik", py"hetedik",
  py"nyolcadik", py"kilencedik", py"tizedik", py"tizenegyedik", py"tizenkettedik", py"tizenharmadik", py"tizennegyedik",
  py"tizenötödik", py"tizenhatodik", py"tizenhetedik", py"tizennyolcadik", py"tizenkilencedik", py"huszadik", py"harmincadik",
  py"negyvenedik", py"ötvenedik", py"hatvanadik", py"hetvenedik", py"nyolcvanadik", py"kilencvenedik"]

/-- `hungarian_ordinal_capital` (grammar.ebnf:347-350). -/
def capitalOrdinals : List Str := [py"Első", py"Második", py"Harmadik", py"Negyedik", py"Ötödik", py"Hatodik", py"Hetedik",
  py"Nyolcadik", py"Kilencedik", py"Tizedik", py"Tizenegyedik", py"Tizenkettedik", py"Tizenharmadik", py"Tizennegyedik",
  py"Tizenötödik", py"Tizenhatodik", py"Tizenhetedik", py"Tizennyolcadik", py"Tizenkilencedik"]

/-- `month`. -/
def month : Peg Str := rule (tokens months)

/-- `hungarian_ordinal`. -/
def hungarianOrdinal : Peg Str := rule (tokens ordinalWords)

/-- `hungarian_ordinal_capital`. -/
def hungarianOrdinalCapital : Peg Str := rule (tokens capitalOrdinals)

/-- `date` (grammar.ebnf:333-335). -/
def date : Peg ParsedDate := rule do
  let year ← number
  let _ ← token (py".")
  let month ← month
  let day ← number
  let _ ← tokens [py"-án", py"-jén", py"-én", py". napján"]
  pure ⟨year, month, day⟩

/-- `list_separator` (grammar.ebnf:116). -/
def listSeparator : Peg Unit := rule (or (do
    let _ ← opt (tokens [py",", py";"])
    let _ ← tokens [py"és", py"valamint", py"illetve", py"vagy"]
    pure ()) (do
    let _ ← tokens [py",", py";"]
    pure ()))

/-- `[list_separator [az]]`. -/
def separated : Peg Unit := do
  let _ ← opt (do
    let _ ← listSeparator
    opt az)
  pure ()

/-- The items of `{item [list_separator [az]]}`: one with what separates it from the next one. -/
def item {α : Type} (p : Peg α) : Peg α := do
  let a ← p
  separated
  pure a

/-- An ending with letters, or none: `/…[a-zéáőúöüóíű]+/ | "…"`. -/
def suffix (s : Str) : Peg Str := rule (or (pattern (.seq (.str s) (.plus isLowerHun))) (token s))

/-! ## References (grammar.ebnf:44-110) -/

/-- `{(ranges+:… | singles+:…) [list_separator [az]]}+ …_suffix` in the rules with the class `ReferencePart`. -/
def referencePart (kind : PartKind) (range : Peg (Str × Str)) (single : Peg Str) (suffix : Peg Str) : Peg ParsedPart := rule do
  let items ← many1 (item (or (do let x ← located range; pure (Sum.inl x)) (do let x ← located single; pure (Sum.inr x))))
  let _ ← suffix
  pure { kind := kind, singles := items.filterMap Sum.getRight?, ranges := items.filterMap Sum.getLeft? }

/-- `article_suffix` (grammar.ebnf:71). -/
def articleSuffix : Peg Str := rule (or (pattern (.seq (.str (py"§-")) (.plus isLowerHun))) (token (py"§")))

/-- The right hand side of `article_id` (grammar.ebnf:70): the pieces of the identifier. -/
def articleIdPieces : Peg (List Str) := do
  let book ← opt (do
    let n ← number
    let c ← token (py":")
    pure [n, c])
  let n ← number
  let letter ← opt (do
    let s ← token (py"/")
    let l ← pattern (.set isUpperAz)
    pure [s, l])
  pure (book.getD [] ++ [n] ++ letter.getD [])

/-- `article_id`, joined. -/
def articleId : Peg Str := rule do
  let pieces ← articleIdPieces
  pure pieces.flatten

/-- `article_range` (grammar.ebnf:68). -/
def articleRange : Peg (Str × Str) := do
  let start ← articleId
  let _ ← opt (do
    let _ ← token (py".")
    articleSuffix)
  let _ ← dash
  let stop ← articleId
  let _ ← token (py".")
  pure (start, stop)

/-- `article_single` (grammar.ebnf:69). -/
def articleSingle : Peg Str := do
  let id ← articleId
  let _ ← token (py".")
  pure id

/-- `article_reference` (grammar.ebnf:66-67). -/
def articleReference : Peg ParsedPart := referencePart .article articleRange articleSingle articleSuffix

/-- `single_article_reference` (grammar.ebnf:73-75). -/
def singleArticleReference : Peg (List Str × Int × Int) := located do
  let pieces ← articleIdPieces
  let _ ← token (py".")
  let _ ← articleSuffix
  pure pieces

/-- `paragraph_id` (grammar.ebnf:81). -/
def paragraphId : Peg Str := rule do
  let n ← number
  let l ← opt (pattern (.set isLowerAz))
  pure (n ++ l.getD [])

/-- `paragraph_range` (grammar.ebnf:79). -/
def paragraphRange : Peg (Str × Str) := do
  let _ ← token (py"(")
  let start ← paragraphId
  let _ ← token (py")")
  let _ ← dash
  let _ ← token (py"(")
  let stop ← paragraphId
  let _ ← token (py")")
  pure (start, stop)

/-- `paragraph_single` (grammar.ebnf:80). -/
def paragraphSingle : Peg Str := do
  let _ ← token (py"(")
  let id ← paragraphId
  let _ ← token (py")")
  pure id

/-- `paragraph_reference` (grammar.ebnf:77-78, 82). -/
def paragraphReference : Peg ParsedPart := referencePart .paragraph paragraphRange paragraphSingle (suffix (py"bekezdés"))

/-- `alphabetic_point_id` (grammar.ebnf:88). -/
def alphabeticPointId : Peg Str := rule (or (tokens [py"ny", py"sz"]) (pattern (.set isLowerAz)))

/-- `alphabetic_point_range` (grammar.ebnf:86). -/
def alphabeticPointRange : Peg (Str × Str) := do
  let start ← alphabeticPointId
  let _ ← opt (token (py")"))
  let _ ← dash
  let stop ← alphabeticPointId
  let _ ← token (py")")
  pure (start, stop)

/-- `alphabetic_point_single` (grammar.ebnf:87). -/
def alphabeticPointSingle : Peg Str := do
  let id ← alphabeticPointId
  let _ ← token (py")")
  pure id

/-- `alphabetic_point_reference` (grammar.ebnf:84-85, 89). -/
def alphabeticPointReference : Peg ParsedPart :=
  referencePart .alphabeticPoint alphabeticPointRange alphabeticPointSingle (suffix (py"pont"))

/-- `numeric_point_id` (grammar.ebnf:95). -/
def numericPointId : Peg Str := rule do
  let n ← number
  let l ← opt (do
    let s ← opt (token (py"/"))
    let l ← pattern (.set isLowerAz)
    pure (s.getD [] ++ l))
  pure (n ++ l.getD [])

/-- `numeric_point_range` (grammar.ebnf:93). -/
def numericPointRange : Peg (Str × Str) := do
  let start ← numericPointId
  let _ ← dash
  let stop ← numericPointId
  let _ ← token (py".")
  pure (start, stop)

/-- `numeric_point_single` (grammar.ebnf:94). -/
def numericPointSingle : Peg Str := do
  let id ← numericPointId
  let _ ← token (py".")
  pure id

/-- `numeric_point_reference` (grammar.ebnf:91-92, 96). -/
def numericPointReference : Peg ParsedPart :=
  referencePart .numericPoint numericPointRange numericPointSingle (suffix (py"pont"))

/-- `alphabetic_subpoint_id` (grammar.ebnf:102). -/
def alphabeticSubpointId : Peg Str := rule (pattern (.seq (.set isLowerAz) (.opt (.set isLowerAz))))

/-- `alphabetic_subpoint_range` (grammar.ebnf:100). -/
def alphabeticSubpointRange : Peg (Str × Str) := do
  let start ← alphabeticSubpointId
  let _ ← token (py")")
  let _ ← dash
  let stop ← alphabeticSubpointId
  let _ ← token (py")")
  pure (start, stop)

/-- `alphabetic_subpoint_single` (grammar.ebnf:101). -/
def alphabeticSubpointSingle : Peg Str := do
  let id ← alphabeticSubpointId
  let _ ← token (py")")
  pure id

/-- `alphabetic_subpoint_reference` (grammar.ebnf:98-99, 103). -/
def alphabeticSubpointReference : Peg ParsedPart :=
  referencePart .alphabeticSubpoint alphabeticSubpointRange alphabeticSubpointSingle (suffix (py"alpont"))

/-- `numeric_subpoint_id` (grammar.ebnf:109). -/
def numericSubpointId : Peg Str := rule number

/-- `numeric_subpoint_range` (grammar.ebnf:107). -/
def numericSubpointRange : Peg (Str × Str) := do
  let start ← numericSubpointId
  let _ ← dash
  let stop ← numericSubpointId
  let _ ← token (py".")
  pure (start, stop)

/-- `numeric_subpoint_single` (grammar.ebnf:108). -/
def numericSubpointSingle : Peg Str := do
  let id ← numericSubpointId
  let _ ← token (py".")
  pure id

/-- `numeric_subpoint_reference` (grammar.ebnf:105-106, 110). -/
def numericSubpointReference : Peg ParsedPart :=
  referencePart .numericSubpoint numericSubpointRange numericSubpointSingle (suffix (py"alpont"))

/-- `(point:alphabetic_point_reference | point:numeric_point_reference)`. -/
def anyPoint : Peg ParsedPart := or alphabeticPointReference numericPointReference

/-- `(subpoint:alphabetic_subpoint_reference | subpoint:numeric_subpoint_reference)`. -/
def anySubpoint : Peg ParsedPart := or alphabeticSubpointReference numericSubpointReference

/-- `ref_with_subpoint` (grammar.ebnf:44): the parts of the reference in order. -/
def refWithSubpoint : Peg (List ParsedPart) := do
  let s ← anySubpoint
  pure [s]

/-- `ref_with_point` (grammar.ebnf:45). -/
def refWithPoint : Peg (List ParsedPart) := do
  let p ← anyPoint
  let more ← opt refWithSubpoint
  pure (p :: more.getD [])

/-- `ref_with_paragraph` (grammar.ebnf:46). -/
def refWithParagraph : Peg (List ParsedPart) := do
  let p ← paragraphReference
  let more ← opt refWithPoint
  pure (p :: more.getD [])

/-- `ref_with_article_with_paragraph` (grammar.ebnf:48). -/
def refWithArticleWithParagraph : Peg (List ParsedPart) := do
  let a ← articleReference
  let more ← refWithParagraph
  pure (a :: more)

/-- `ref_with_article_no_paragraph` (grammar.ebnf:49). -/
def refWithArticleNoParagraph : Peg (List ParsedPart) := do
  let a ← articleReference
  let more ← opt refWithPoint
  pure (a :: more.getD [])

/-- `reference` (grammar.ebnf:51-57). -/
def reference : Peg ParsedRef :=
  located (or refWithArticleWithParagraph (or refWithArticleNoParagraph (or refWithParagraph (or refWithPoint refWithSubpoint))))

/-- `references+:reference [list_separator [az]]`. -/
def listedReference : Peg ParsedRef := item reference

/-! ## Acts (grammar.ebnf:60-64, 112) -/

/-- `abbreviation` (grammar.ebnf:112): `s` and the position. -/
def abbreviation : Peg (Str × Int × Int) := located (or
  (pattern (.seq (.set isUpperHun) (.seq (.plus isLowerHun) (.seq (.opt (.char '.')) (.seq (.opt (.char ' '))
    (.alt (.str (py"tv.")) (.str (py"vhr.")))))))) (pattern (.seq (.set isUpperHun) (.seq (.plus isLowerHun) (.char '.')))))

/-- `act_suffix` (grammar.ebnf:64). -/
def actSuffix : Peg Str := rule (or (token (py"törvény")) (or (pattern (.seq (.str (py"törvén")) (.plus isLowerHun))) (token (py"tv."))))

/-- `act_id` (grammar.ebnf:63). -/
def actId : Peg ((Str × Str) × Int × Int) := located do
  let year ← number
  let _ ← token (py".")
  let _ ← token (py"évi")
  let number ← roman
  let _ ← token (py".")
  let _ ← actSuffix
  pure (year, number)

/-- `from_now_on` (grammar.ebnf:61): the abbreviation. -/
def fromNowOn : Peg Str := rule do
  let _ ← token (py"(")
  let _ ← token (py"a")
  let _ ← token (py"továbbiakban")
  let _ ← opt (token (py":"))
  let a ← abbreviation
  let _ ← opt (token (py"törvény"))
  let _ ← token (py")")
  pure a.1

/-- `from_now_on_long` (grammar.ebnf:62). -/
def fromNowOnLong : Peg Unit := rule do
  let _ ← token (py"(")
  let _ ← token (py"a")
  let _ ← token (py"továbbiakban")
  let _ ← opt (token (py":"))
  or (do let _ ← actId; pure ()) (do let _ ← many1 word; pure ())
  let _ ← token (py")")
  pure ()

/-- `act_reference` (grammar.ebnf:60). -/
def actReference : Peg ParsedActRef := rule (or
  (do
    let a ← abbreviation
    pure { abbreviation := some a })
  (do
    let a ← actId
    let f ← opt (or (do let s ← fromNowOn; pure (some s)) (do fromNowOnLong; pure none))
    pure { actId := some a, fromNowOn := f.getD none }))

/-! ## Quotes and compound references (grammar.ebnf:42, 114) -/

/-- `[^„”]*`. -/
def unquoted : Peg Str := pattern (.star fun c => c != '„' && c != '”')

/-- `quote` (grammar.ebnf:114) with a bound for how deep quotes may be inside of each other. -/
def quoteIn : Nat → Peg (List QuoteTree)
  | 0 => fun _ => none
  | n + 1 => rule do
    let o ← token (py"„")
    let s ← unquoted
    let inner ← many (do
      let q ← quoteIn n
      let s ← unquoted
      pure (QuoteTree.list [.list q, .text s]))
    let c ← token (py"”")
    pure [.text o, .text s, .list inner, .text c]

/-- `quote`. Every quote inside is shorter, so this bound is never reached. -/
def quote : Peg (List QuoteTree) := fun i => quoteIn (i.rest.length + 1) i

/-- `compound_reference` (grammar.ebnf:42). The node has the one of the act below it. -/
def compoundReference : Peg ParseTree := rule (or
  (do
    let a ← actReference
    let rs ← many listedReference
    pure (.node (.compoundReference (some a) rs) [.node (.actReference a) []]))
  (do
    let r ← reference
    pure (.node (.compoundReference none [r]) [])))

/-- `any_simple_expression` (grammar.ebnf:35-40). -/
def anySimpleExpression : Peg ParseTree := rule (or (do let _ ← quote; pure (.node .other []))
  (or compoundReference (or (do let _ ← abbreviation; pure (.node .other [])) (do let _ ← anyToken; pure (.node .other [])))))

/-! ## Structural references (grammar.ebnf:120-148, 162-165, 193-197) -/

/-- The articles that `after_article` and `before_article` name (grammar.ebnf:120-121): `[az] >article_id "." article_suffix (…)`. -/
def besideArticle (words : List Str) : Peg (List Str) := rule do
  let _ ← opt az
  let pieces ← articleIdPieces
  let _ ← token (py".")
  let _ ← articleSuffix
  let _ ← tokens words
  pure pieces

/-- `after_article` (grammar.ebnf:120). -/
def afterArticle : Peg ParsedStructRef := do
  let pieces ← besideArticle [py"követően", py"követő"]
  pure (.afterArticle pieces)

/-- `before_article` (grammar.ebnf:121). -/
def beforeArticle : Peg ParsedStructRef := do
  let pieces ← besideArticle [py"megelőzően", py"megelőző"]
  pure (.beforeArticle pieces)

/-- `subtitle_title` (grammar.ebnf:122). -/
def subtitleTitle : Peg ParsedStructRef := rule do
  let r ← or (do
      let q ← quote
      pure (ParsedStructRef.subtitleTitle none (some q))) (do
      let words ← many (do
        not (token (py"alcíme"))
        not (token (py"című"))
        anyToken)
      pure (ParsedStructRef.subtitleTitle (some words) none))
  let _ ← opt (token (py"című"))
  let _ ← token (py"alcíme")
  pure r

/-- `id:(… [["/"] /[A-Z]/])`: the pieces. -/
def lettered (p : Peg Str) : Peg (List Str) := do
  let n ← p
  let l ← opt (do
    let s ← opt (token (py"/"))
    let l ← pattern (.set isUpperAz)
    pure (s.toList ++ [l]))
  pure (n :: l.getD [])

/-- `subtitle_number` (grammar.ebnf:124-126). -/
def subtitleNumber : Peg ParsedStructRef := rule do
  let id ← lettered number
  let _ ← token (py".")
  let _ ← suffix (py"alcím")
  pure (.subtitleNumber id)

/-- `chapter_number` (grammar.ebnf:128-130). -/
def chapterNumber : Peg ParsedStructRef := rule do
  let id ← lettered roman
  let _ ← token (py".")
  let _ ← suffix (py"Fejezet")
  pure (.chapterNumber id)

/-- `[book_id:hungarian_ordinal_capital "Könyv"]`. -/
def ofBook : Peg (Option Str) := opt (do
  let b ← hungarianOrdinalCapital
  let _ ← token (py"Könyv")
  pure b)

/-- `part_number` (grammar.ebnf:132-135). -/
def partNumber : Peg ParsedStructRef := rule do
  let b ← ofBook
  let id ← hungarianOrdinalCapital
  let _ ← suffix (py"Rész")
  pure (.partNumber b id)

/-- `title_number` (grammar.ebnf:137-140). -/
def titleNumber : Peg ParsedStructRef := rule do
  let b ← ofBook
  let id ← lettered roman
  let _ ← token (py".")
  let _ ← suffix (py"Cím")
  pure (.titleNumber b id)

/-- The right hand side of `any_structural_reference` (grammar.ebnf:142-148). -/
def structuralAlternatives : Peg ParsedStructRef :=
  or subtitleNumber (or subtitleTitle (or chapterNumber (or partNumber titleNumber)))

/-- `any_structural_reference`. -/
def anyStructuralReference : Peg ParsedStructRef := rule structuralAlternatives

/-- `insertion_token` (grammar.ebnf:153). -/
def insertionToken : Peg Str := rule (token (py"a következő"))

/-- `title_insertion_with_book` (grammar.ebnf:162-165). -/
def titleInsertionWithBook : Peg ParsedStructRef := rule do
  let b ← hungarianOrdinalCapital
  let _ ← token (py"Könyve")
  let _ ← insertionToken
  let id ← lettered roman
  let _ ← token (py".")
  let _ ← suffix (py"Cím")
  pure (.titleNumber (some b) id)

/-- The right hand side of `structural_position_reference` (grammar.ebnf:193-197). -/
def structuralPosition : Peg ParsedStructRef := or
  (do
    let _ ← opt chapterNumber
    afterArticle) (or
  (do
    let _ ← opt chapterNumber
    beforeArticle)
  structuralAlternatives)

/-! ## Block amendments (grammar.ebnf:155-160, 167-191, 202-231) -/

/-- `article:article_reference [paragraph:paragraph_reference]`. -/
def articleAndParagraph : Peg (List ParsedPart) := do
  let a ← articleReference
  let p ← opt paragraphReference
  pure (a :: p.toList)

/-- What may come before `insertion_token` (grammar.ebnf:157-158): `[[az] … | "…" …]`. -/
def insertedInto (p : Peg (List ParsedPart)) (words : List Str) : Peg (List ParsedPart) := do
  let ps ← opt (or (do
      let _ ← opt az
      p) (do
      let _ ← tokens words
      pure []))
  pure (ps.getD [])

/-- `insertion_reference` (grammar.ebnf:155-160). -/
def insertionReference : Peg ParsedRef := located (or
  (do
    let _ ← insertionToken
    articleAndParagraph) (or
  (do
    let ps ← insertedInto (do let a ← articleReference; pure [a]) [py"a §"]
    let _ ← insertionToken
    let p ← paragraphReference
    pure (ps ++ [p])) (or
  (do
    let ps ← insertedInto articleAndParagraph [py"a §", py"a bekezdés"]
    let _ ← insertionToken
    let p ← anyPoint
    pure (ps ++ [p]))
  (do
    let _ ← opt az
    let ps ← articleAndParagraph
    let p ← anyPoint
    let _ ← insertionToken
    let s ← anySubpoint
    pure (ps ++ [p, s])))))

/-- `subtitle_token` (grammar.ebnf:167). -/
def subtitleToken : Peg Unit := rule (or
  (do
    let _ ← tokens [py"alcímmel", py"alcímekkel", py"alcím-megjelölése", py"alcím-megjelölés", py"alcíme"]
    pure ())
  (do
    let _ ← token (py"alcím")
    let _ ← opt (pattern (.seq (.star (· == ' ')) (.seq (.str (py"cím")) (.star isLowerHun))))
    pure ()))

/-- `reference_with_subtitle` (grammar.ebnf:169-173). -/
def referenceWithSubtitle : Peg ParsedRef := located (or
  (do
    subtitleToken
    let _ ← token (py"és")
    let a ← articleReference
    pure [a]) (or
  (do
    let a ← articleReference
    let _ ← token (py"és")
    let _ ← az
    let _ ← opt (tokens [py"azt", py"azokat"])
    let _ ← token (py"megelőző")
    subtitleToken
    pure [a])
  (do
    subtitleToken
    pure [])))

/-- `amendment_suffix` (grammar.ebnf:175-178). -/
def amendmentSuffix : Peg Unit := rule (or
  (do
    let _ ← token (py"helyébe a következő")
    let _ ← tokens [py"rendelkezés lép", py"rendelkezések lépnek"]
    pure ())
  (do
    let _ ← token (py"a következő szöveggel lép hatályba")
    pure ()))

/-- `amendment_suffix_with_subtitle` (grammar.ebnf:180-182). -/
def amendmentSuffixWithSubtitle : Peg Unit := rule do
  let _ ← token (py"helyébe a következő")
  let _ ← opt (token (py"rendelkezés és"))
  let _ ← token (py"alcím")
  let _ ← opt (token (py"és rendelkezés"))
  let _ ← tokens [py"lép", py"lépnek"]
  pure ()

/-- `amendment_suffix_with_structural` (grammar.ebnf:184-186). -/
def amendmentSuffixWithStructural : Peg Unit := rule do
  let _ ← token (py"helyébe a következő")
  let _ ← opt (tokens [py"cím", py"fejezet", py"rész"])
  let _ ← token (py"lép")
  pure ()

/-- `insertion_suffix` (grammar.ebnf:188-191). -/
def insertionSuffix : Peg Str := rule (tokens [py"egészül ki", py"kiegészülve lép hatályba"])

/-- `act_title` (grammar.ebnf:202-204). -/
def actTitle : Peg (List Str) := rule (many (do
  not (do
    let _ ← actReference
    not (token (py"hatálybalépésével összefüggő")))
  anyToken))

/-- `/[Aa]z?/ act_title act_reference:act_reference`, the beginning of several rules. -/
def amendedAct : Peg ParsedActRef := do
  let _ ← pattern (.seq (.set fun c => c == 'A' || c == 'a') (.opt (.char 'z')))
  let _ ← actTitle
  actReference

/-- `… ":"`. -/
def andColon {α : Type} (p : Peg α) : Peg Unit := do
  let _ ← p
  let _ ← token (py":")
  pure ()

/-- A node with an act: the one of the act is below it. -/
def withAct (a : ParsedActRef) (n : GrammarNode) : ParseTree := .node n [.node (.actReference a) []]

/-- `block_amendment` (grammar.ebnf:206-213). -/
def blockAmendment : Peg ParseTree := rule do
  let a ← amendedAct
  let _ ← opt structuralPosition
  or (do
      let r ← reference
      andColon amendmentSuffix
      pure (withAct a (.blockAmendment a (some r) none))) (or
    (do
      let r ← insertionReference
      andColon insertionSuffix
      pure (withAct a (.blockAmendment a none (some r))))
    (do
      let r ← reference
      amendmentSuffix
      let _ ← opt (token (py","))
      let _ ← tokens [py"és", py"valamint", py"egyidejűleg"]
      let i ← insertionReference
      andColon insertionSuffix
      pure (withAct a (.blockAmendment a (some r) (some i)))))

/-- `block_amendment_with_subtitle` (grammar.ebnf:215-221). -/
def blockAmendmentWithSubtitle : Peg ParseTree := rule do
  let a ← amendedAct
  let s ← opt structuralPosition
  or (do
      let r ← referenceWithSubtitle
      andColon amendmentSuffix
      pure (withAct a (.blockAmendmentWithSubtitle a s (some r) none))) (or
    (do
      let r ← referenceWithSubtitle
      andColon amendmentSuffixWithSubtitle
      pure (withAct a (.blockAmendmentWithSubtitle a s (some r) none)))
    (do
      let _ ← insertionToken
      let r ← referenceWithSubtitle
      andColon insertionSuffix
      pure (withAct a (.blockAmendmentWithSubtitle a s none (some r)))))

/-- `block_amendment_structural` (grammar.ebnf:223-231). -/
def blockAmendmentStructural : Peg ParseTree := rule do
  let a ← amendedAct
  or (do
      let r ← anyStructuralReference
      andColon amendmentSuffix
      pure (withAct a (.blockAmendmentStructural a (some r) none))) (or
    (do
      let r ← anyStructuralReference
      andColon amendmentSuffixWithStructural
      pure (withAct a (.blockAmendmentStructural a (some r) none))) (or
    (do
      let _ ← insertionToken
      let r ← anyStructuralReference
      andColon insertionSuffix
      pure (withAct a (.blockAmendmentStructural a none (some r))))
    (do
      let r ← titleInsertionWithBook
      andColon insertionSuffix
      pure (withAct a (.blockAmendmentStructural a none (some r))))))

/-! ## Enforcement dates (grammar.ebnf:236-274) -/

/-- `["a" | "e törvény"] ("kihirdetését"| "kihirdetést") "követő"`. -/
def afterItsPublication : Peg Unit := do
  let _ ← opt (tokens [py"a", py"e törvény"])
  let _ ← tokens [py"kihirdetését", py"kihirdetést"]
  let _ ← token (py"követő")
  pure ()

/-- `after_publication` (grammar.ebnf:236-241). -/
def afterPublication : Peg ParsedAfterPublication := rule do
  afterItsPublication
  let d ← opt (or (do let t ← hungarianOrdinal; pure { asText := some t }) (do let n ← numberWithDot; pure { asNumber := some n }))
  let _ ← token (py"napon")
  pure (d.getD {})

/-- `day_in_month` (grammar.ebnf:243-250). -/
def dayInMonth : Peg ParsedDayInMonth := rule do
  afterItsPublication
  let m ← opt hungarianOrdinal
  let _ ← token (py"hónap")
  let d ← or (do let t ← hungarianOrdinal; pure { month := m, dayAsText := some t })
    (do let n ← numberWithDot; pure { month := m, dayAsNumber := some n })
  let _ ← token (py"napján")
  pure d

/-- `inline_repeal` (grammar.ebnf:252-257): its date. -/
def inlineRepeal : Peg ParsedDate := rule do
  let _ ← token (py", és")
  let _ ← opt (do
    let _ ← tokens [py"e", py"ez a"]
    token (py"törvény"))
  let d ← date
  let _ ← opt (token (py"a"))
  let _ ← token (py"hatályát veszti")
  pure d

/-- The exception (grammar.ebnf:264). -/
def exceptFor : Peg ParsedRef := do
  let _ ← dash
  let _ ← token (py"a")
  let r ← reference
  let _ ← tokens [py"foglalt", py"foglaltak", py"meghatározott"]
  let _ ← tokens [py"kivétellel", py"kivételével", py"kivételekkel"]
  let _ ← dash
  pure r

/-- `enforcement_date` (grammar.ebnf:259-274). -/
def enforcementDate : Peg ParseTree := rule do
  or (do
      let _ ← tokens [py"E", py"Ez a"]
      let _ ← token (py"törvény")
      pure ()) (do
      let _ ← pattern (.seq (.char 'A') (.opt (.char 'z')))
      pure ())
  let x ← opt exceptFor
  let rs ← many listedReference
  let d ← or (do let e ← date; pure { exactDate := some e }) (or (do let p ← afterPublication; pure { afterPublication := some p })
    (do let m ← dayInMonth; pure { dayInMonth := some m }))
  let _ ← token (py"lép hatályba")
  let r ← opt inlineRepeal
  let _ ← token (py".")
  pure (.node (.enforcementDate { (d : ParsedEnforcementDate) with
    references := rs, exceptionReferences := x.toList, inlineRepeal := r }) [])

/-! ## Amendments of texts and titles, repeals (grammar.ebnf:278-319) -/

/-- The part of `text_amendment_part` and `article_title_amendment` from `original_text` to `replacement_text`. -/
def replacement : Peg (List QuoteTree × List QuoteTree) := do
  let _ ← opt az
  let original ← quote
  let _ ← tokens [py"szövegrészek", py"szövegrész"]
  let _ ← tokens [py"helyébe", py"helyett"]
  let _ ← opt az
  let replacement ← quote
  pure (original, replacement)

/-- `text_amendment_part` (grammar.ebnf:285-290). -/
def textAmendmentPart : Peg (List QuoteTree × List QuoteTree) := rule do
  let p ← replacement
  or (ahead listSeparator) (do
    let _ ← tokens [py"szöveggel", py"szöveg", py"szövegrész"]
    pure ())
  pure p

/-- `"lép" ["hatályba"] "."`. -/
def takesEffect : Peg Unit := do
  let _ ← token (py"lép")
  let _ ← opt (token (py"hatályba"))
  let _ ← token (py".")
  pure ()

/-- `text_amendment` (grammar.ebnf:278-283). -/
def textAmendment : Peg ParseTree := rule do
  let a ← amendedAct
  let rs ← many1 listedReference
  let ps ← many1 (item textAmendmentPart)
  takesEffect
  pure (withAct a (.textAmendment a rs ps))

/-- `article_title_amendment` (grammar.ebnf:292-302). -/
def articleTitleAmendment : Peg ParseTree := rule do
  let a ← amendedAct
  let article ← singleArticleReference
  let _ ← rule (pattern (.seq (.str (py"cím")) (.plus isLowerHun)))
  let p ← replacement
  let _ ← tokens [py"szöveggel", py"szöveg", py"szövegrész"]
  takesEffect
  pure (withAct a (.articleTitleAmendment a article p.1 p.2))

/-- `("Nem lép hatályba" | "Hatályát veszti") az act_title act_reference:act_reference`. -/
def repealedAct : Peg ParsedActRef := do
  let _ ← tokens [py"Nem lép hatályba", py"Hatályát veszti"]
  let _ ← az
  let _ ← actTitle
  actReference

/-- `[az] texts+:quote ["szövegrész"]` (grammar.ebnf:310). -/
def repealedText : Peg (List QuoteTree) := do
  let _ ← opt az
  let q ← quote
  let _ ← opt (token (py"szövegrész"))
  pure q

/-- `repeal` (grammar.ebnf:306-312). -/
def repeal : Peg ParseTree := rule do
  let a ← repealedAct
  let rs ← many1 listedReference
  let ts ← many (item repealedText)
  let _ ← token (py".")
  pure (withAct a (.simpleRepeal a rs ts))

/-- `structural_repeal` (grammar.ebnf:314-319). -/
def structuralRepeal : Peg ParseTree := rule do
  let a ← repealedAct
  let s ← structuralPosition
  let _ ← opt subtitleToken
  let _ ← token (py".")
  pure (withAct a (.structuralRepeal a s))

/-! ## Sentences (grammar.ebnf:22-31) -/

/-- `… $`. -/
def whole {α : Type} (p : Peg α) : Peg α := do
  let a ← p
  eof
  pure a

/-- The sentences that have a form of their own (grammar.ebnf:23-30). -/
def specialSentences : List (Peg ParseTree) :=
  [blockAmendment, blockAmendmentWithSubtitle, blockAmendmentStructural, textAmendment, articleTitleAmendment, enforcementDate,
   repeal, structuralRepeal]

/-- The alternatives of `start_default` one after another. -/
def sentence : List (Peg ParseTree) → Peg ParseTree
  | [] => whole (do
    let ts ← many1 anySimpleExpression
    pure (.node .other ts))
  | p :: ps => or (whole p) (sentence ps)

/-- `start_default` (grammar.ebnf:22-31). -/
def startDefault : Peg ParseTree := rule (sentence specialSentences)

/-- `parser.parse(s, rule_name='start_default')` (grammatical_analyzer.py:720-724). -/
def parse (s : Str) : Option ParseTree := (startDefault ⟨0, s⟩).map Prod.fst

end Verif.ActGrammar
