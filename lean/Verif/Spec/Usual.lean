import Verif.Spec.Recognition

/-! # How acts are usually written

Lines and the elements that are written in them, from subpoints up to acts. -/

namespace Verif.Spec

/-! ## Lines -/

/-- Every part of the line has one character, as in all lines made from a PDF. -/
def Fine (l : Line) : Prop := ∀ p ∈ l.parts, p.content.length = 1

/-- What is left of a line if it is cut before the character `a` and before the character `b`: the characters between stand where they
stood, and each character cut off at the end makes the right margin wider by 20. -/
def CutLine (l : Line) (a b : Nat) (l' : Line) : Prop :=
  a < b ∧ b ≤ l.content.length ∧ place 0 l'.parts = ((place 0 l.parts).take b).drop a ∧
    l'.marginRight = l.marginRight + 20 * ((l.content.length - b : Nat) : Rat)

/-- The texts of the lines that are not empty. -/
def lineTexts (ls : List Line) : List Str := (ls.filter fun l => !l.isEmptyLine).map (·.content)

/-- The text of the lines, if there are any. -/
def closingText : List Line → Option Str
  | [] => none
  | l :: ls => some (joined (lineTexts (l :: ls)))

/-- No quotation is closed before it is opened, and all are closed at the end. -/
def QuotesClosed (ls : List Line) : Prop := (∀ before after, ls = before ++ after → 0 ≤ openQuotes before) ∧ openQuotes ls = 0

/-- The line begins with an opening quotation mark. -/
def OpensQuote (l : Line) : Prop := ∃ c rest, (c = '„' ∨ c = '“') ∧ l.content = c :: rest

/-! ## Lists in elements -/

/-- The kinds of lists that can be in an element, and what their numbers begin with. -/
inductive ListIn : SaeKind → Option Str → SaeKind → Str → Prop
  | letters (i) : ListIn .paragraph i .alphabeticPoint []
  | numbers (i) : ListIn .paragraph i .numericPoint []
  | lettersBelowNumber (i) : ListIn .numericPoint i .alphabeticSubpoint []
  | numbersBelowLetter (i) : ListIn .alphabeticPoint i .numericSubpoint []
  | lettersBelowLetter (i) : ListIn .alphabeticPoint (some i) .alphabeticSubpoint i

/-- The number of the first element of a list. -/
def firstNumber (k : SaeKind) (p : Str) : Str :=
  match k with
  | .alphabeticPoint => py"a"
  | .alphabeticSubpoint => p ++ py"a"
  | _ => py"1"

/-- The line looks like the beginning of a list in the element, or of a quotation in a paragraph. -/
def BeginsList (k : SaeKind) (id : Option Str) (l : Line) : Prop :=
  (∃ k' p', ListIn k id k' p' ∧ ElementHeading k' p' l.content (firstNumber k' p')) ∨ (k = .paragraph ∧ OpensQuote l)

/-- No line after the first one looks like that, outside quotations. -/
def NoListAfterFirst (k : SaeKind) (id : Option Str) (ls : List Line) : Prop :=
  ∀ before l after, ls = before ++ l :: after → before ≠ [] → openQuotes before = 0 → ¬ BeginsList k id l

/-- The lines `more` of an element, after the line `line` with its number `i`, could not be taken for the next element of the list: this
would have to be outside quotations, not indented further, and to have the next number; a lettered subpoint would only have to have a
number. -/
def NotTheNext (k : SaeKind) (p i : Str) (line : Line) (more : List Line) : Prop :=
  ∀ before l after, more = before ++ l :: after → openQuotes (line :: before) = 0 → l.indent < line.indent + 1 →
    ∀ j, ElementHeading k p l.content j → k ≠ .alphabeticSubpoint ∧ ¬ ElementAfter k p i j

/-- An element of a list is written: the line `line` with its number `i` and the lines `own` after it. `says` tells what is written after
the number. -/
def EntryWritten (says : SaeKind → Option Str → List Line → Node → Prop) (k : SaeKind) (p i : Str) (line : Line) (own : List Line) (n : Node) :
    Prop :=
  ElementHeading k p line.content i ∧
    ∃ line', CutLine line ((heading k (some i)).length + 1) line.content.length line' ∧ says k (some i) (line' :: own) n

/-- The text after a list can be told from its last element. In an act the other lines of this element are indented further than its number,
and the first line of the text is not. In an amendment the element ends with a line that does not reach the right margin if there is a text
after it, and the text has no such line before its end; if there is no text then the element has no such line before its end. -/
def TextApart (inAct : Bool) (line : Line) (own text : List Line) : Prop :=
  match inAct, text with
  | true, text => (∀ l ∈ own, line.indent + 1 ≤ l.indent) ∧ ∀ l, text.head? = some l → l.indent < line.indent + 1
  | false, [] => ∀ l ∈ (line :: own).dropLast, l.marginRight ≤ 20
  | false, text => (∀ l ∈ text.dropLast, l.marginRight ≤ 20) ∧ ∀ l, (line :: own).getLast? = some l → 20 < l.marginRight

/-- A list is written: its elements and a text after them, which is not a part of its last element. Each element has the number after that
of the one before and is not indented further. Where there may be a text after the last element it can be told from this element, and the
element has no empty lines; empty lines may follow. -/
inductive ListWritten (inAct : Bool) (says : SaeKind → Option Str → List Line → Node → Prop) (k : SaeKind) (p : Str) :
    Option (Str × Rat) → List Line → List Node → Option Str → Prop
  | item {last line own rest i n ns w} (number : NextSibling (firstNumber k p) (ElementAfter k p) last i)
      (indent : ∀ l, last = some l → line.indent < l.2 + 1) (item : EntryWritten says k p i line own n)
      (quotes : QuotesClosed (line :: own)) (next : NotTheNext k p i line own)
      (tail : ListWritten inAct says k p (some (i, line.indent)) rest ns w) :
      ListWritten inAct says k p last (line :: own ++ rest) (n :: ns) w
  | last {last line own i n} (kind : k = .numericSubpoint ∨ k = .paragraph)
      (number : NextSibling (firstNumber k p) (ElementAfter k p) last i)
      (indent : ∀ l, last = some l → line.indent < l.2 + 1) (item : EntryWritten says k p i line own n)
      (quotes : QuotesClosed (line :: own)) (next : NotTheNext k p i line own) :
      ListWritten inAct says k p last (line :: own) [n] none
  | lastAndText {last line own text empty i n} (kind : k ≠ .numericSubpoint ∧ k ≠ .paragraph)
      (number : NextSibling (firstNumber k p) (ElementAfter k p) last i)
      (indent : ∀ l, last = some l → line.indent < l.2 + 1) (item : EntryWritten says k p i line own n)
      (quotes : QuotesClosed (line :: own)) (quotesText : QuotesClosed text)
      (next : NotTheNext k p i line (own ++ text))
      (apart : TextApart inAct line own text) (fullOwn : ∀ l ∈ own, l.isEmptyLine = false)
      (full : ∀ l ∈ text, l.isEmptyLine = false) (isEmpty : ∀ l ∈ empty, l.isEmptyLine = true) :
      ListWritten inAct says k p last (line :: own ++ text ++ empty) [n] (closingText text)

/-! ## Quotations in paragraphs -/

/-- Lines with a quotation, and these without the quotation marks around it: one line that begins and ends with a quotation mark, or
several, of which the first one begins with one and the last one ends with the one that closes it. -/
inductive QuotationWritten : List Line → List Line → Prop
  | one {l l'} (opens : OpensQuote l) (closes : l.content.getLast? = some '”') (quotes : QuotesClosed [l])
      (cut : CutLine l 1 (l.content.length - 1) l') : QuotationWritten [l] [l']
  | several {first middle last first' last'} (opens : OpensQuote first)
      (notYet : first.content.getLast? ≠ some '”') (closes : last.content.getLast? = some '”')
      (quotes : QuotesClosed (first :: middle ++ [last]))
      (inside : ∀ before after, middle = before ++ after → openQuotes (first :: before) ≠ 0)
      (cut : CutLine first 1 first.content.length first') (cutLast : CutLine last 0 (last.content.length - 1) last') :
      QuotationWritten (first :: middle ++ [last]) (first' :: middle ++ [last'])

/-- One or more quotations, with empty lines after each of them. -/
inductive QuotationsWritten : List Line → List Node → Prop
  | last {q q' empty} (quotation : QuotationWritten q q') (isEmpty : ∀ l ∈ empty, l.isEmptyLine = true) :
      QuotationsWritten (q ++ empty) [.quoted q']
  | more {q q' empty rest ns} (quotation : QuotationWritten q q') (isEmpty : ∀ l ∈ empty, l.isEmptyLine = true) (tail : QuotationsWritten rest ns) :
      QuotationsWritten (q ++ empty ++ rest) (.quoted q' :: ns)

/-! ## Elements -/

/-- What is written in an element of the kind `k` with the number `id`, after this number: only a text, or an introduction with a list of two
or more elements after it, or, in a paragraph, an introduction with quotations. `says` tells what is written in the elements of the
list. -/
inductive Says (inAct : Bool) (says : SaeKind → Option Str → List Line → Node → Prop) (k : SaeKind) (id : Option Str) : List Line → Node → Prop
  | text {ls} (quotes : QuotesClosed ls) (begins : ∃ l rest, ls = l :: rest ∧ l.isEmptyLine = false) (plain : NoListAfterFirst k id ls) :
      Says inAct says k id ls (.sae k { identifier := id, text := some (joined (lineTexts ls)) } [])
  | list {intro ls k' p' ns w} (kind : ListIn k id k' p') (short : p'.length ≤ 1) (quotes : QuotesClosed intro)
      (begins : ∃ l rest, intro = l :: rest ∧ l.isEmptyLine = false ∧ ¬ ElementHeading k' p' l.content (firstNumber k' p'))
      (plain : NoListAfterFirst k id intro) (list : ListWritten inAct says k' p' none ls ns w) (several : 2 ≤ ns.length) :
      Says inAct says k id (intro ++ ls) (.sae k { identifier := id, intro := some (joined (lineTexts intro)), wrapUp := w } ns)
  | quotations {intro ls text ns} (kind : k = .paragraph) (quotes : QuotesClosed intro)
      (begins : ∃ l rest, intro = l :: rest ∧ l.isEmptyLine = false ∧ ¬ OpensQuote l) (plain : NoListAfterFirst k id intro) (list : QuotationsWritten ls ns)
      (quotesText : QuotesClosed text) (notMore : ∀ l, text.head? = some l → l.isEmptyLine = false ∧ ¬ OpensQuote l) :
      Says inAct says k id (intro ++ ls ++ text)
        (.sae k { identifier := id, intro := some (joined (lineTexts intro)), wrapUp := closingText text } ns)

/-- What is written in subpoints, points and paragraphs. -/
def SubpointSays (inAct : Bool) : SaeKind → Option Str → List Line → Node → Prop := Says inAct fun _ _ _ _ => False
def PointSays (inAct : Bool) : SaeKind → Option Str → List Line → Node → Prop := Says inAct (SubpointSays inAct)
def ParagraphSays (inAct : Bool) : SaeKind → Option Str → List Line → Node → Prop := Says inAct (PointSays inAct)

/-! ## Articles -/

/-- The title that is written before the paragraphs of an article, and the lines after it: none, or one in square brackets on its own
line or on two lines. -/
inductive TitleWritten : List Line → Option Str → List Line → Prop
  | none {l rest} (begins : ∃ c t, l.content = c :: t ∧ c ≠ '[') : TitleWritten (l :: rest) none (l :: rest)
  | line {l rest t} (title : l.content = '[' :: t ++ [']']) : TitleWritten (l :: rest) (some t) rest
  | lines {l m rest s t} (first : l.content = '[' :: s) (notYet : s.getLast? ≠ some ']') (second : m.content = t ++ [']'])
      (full : s ≠ [] ∧ t ≠ []) :
      TitleWritten (l :: m :: rest) (some (joined [s, t])) rest

/-- The paragraphs of an article: one without a number, or a list of paragraphs. -/
inductive ParagraphsWritten (inAct : Bool) : List Line → List Node → Prop
  | one {l rest n} (unnumbered : ∀ i, ¬ ElementHeading .paragraph [] l.content i) (says : ParagraphSays inAct .paragraph none (l :: rest) n) :
      ParagraphsWritten inAct (l :: rest) [n]
  | list {ls ns} (list : ListWritten inAct (ParagraphSays inAct) .paragraph [] none ls ns none) : ParagraphsWritten inAct ls ns

/-- An article is written: its number, its title, and, maybe after an empty line, its paragraphs. -/
inductive ArticleWritten (inAct : Bool) : List Line → Node → Prop
  | article {first rest first' i gap text title ls paragraphs ns} (number : IsArticleId i) (space : gap = [] ∨ gap = py" ")
      (begins : first.content = i ++ py"." ++ gap ++ py"§ " ++ text) (oneLine : '\n' ∉ text)
      (cut : CutLine first (i ++ py"." ++ gap ++ py"§ ").length first.content.length first')
      (titled : TitleWritten (first' :: rest) title ls) (empty : ls = paragraphs ∨ ∃ e, e.isEmptyLine = true ∧ ls = e :: paragraphs)
      (full : ∀ l, paragraphs.head? = some l → l.isEmptyLine = false) (written : ParagraphsWritten inAct paragraphs ns) :
      ArticleWritten inAct (first :: rest) (.article i title ns)

/-! ## Structural elements -/

/-- A structural element is written: a header with its number and then its title; subtitles have their title after their number, or no
number; the general, special and closing part have no title. -/
inductive StructuralWritten : List Line → Opening → Node → Prop
  | header {k line more i} (kind : k ≠ .subtitle) (number : StructHeading k line.content i) (notNamed : k = .part → line.content ∉ namedParts)
      : StructuralWritten (line :: more) (.structural k (some i)) (.structural ⟨k, i, joined (lineTexts more), false⟩)
  | namedPart {line more n} (name : namedParts[n]? = some line.content) (empty : ∀ l ∈ more, l.isEmptyLine = true) :
      StructuralWritten (line :: more) (.structural .part (some (natStr (n + 1)))) (.structural ⟨.part, natStr (n + 1), [], true⟩)
  | subtitle {line more i text} (number : IsArticleTail i) (header : line.content = i ++ py". " ++ text) :
      StructuralWritten (line :: more) (.structural .subtitle (some i)) (.structural ⟨.subtitle, i, joined (text :: lineTexts more), false⟩)
  | unnumbered {line more} (capital : Capital line.content) :
      StructuralWritten (line :: more) (.structural .subtitle none) (.structural ⟨.subtitle, [], joined (lineTexts (line :: more)), false⟩)

/-! ## Acts -/

/-- The line begins an element of an act, and nothing that would be looked for earlier. -/
def BeginsElement (inAct : Bool) (st : BodyState) (previous line : Line) (o : Opening) : Prop :=
  Opens inAct st previous line o ∧ ∀ k i, o = .structural k i → (∀ j, ¬ Opens inAct st previous line (.article j)) ∧
    ∀ k', (Opening.structural k' none).rank < o.rank → ∀ j, ¬ StructHeading k' line.content j

/-- The line does not look like the beginning of an element of an act. If it is bold and comes after an empty line then it must not begin with
a capital letter; in an amendment this does not depend on the line before. -/
def NoElement (inAct : Bool) (st : BodyState) (previous line : Line) : Prop :=
  (∀ j, ¬ Opens inAct st previous line (.article j)) ∧ (∀ k j, k ≠ .subtitle → ¬ StructHeading k line.content j) ∧
    (line.bold = true → ((inAct = true → previous.isEmptyLine = true) → line.content ≠ [] ∧ ¬ Capital line.content) ∧ ∀ j, ¬ StructHeading .subtitle line.content j)

/-- No line of the lines after `before` looks like that, outside quotations; the last one outside them is `last`, or `previous` if there is
none. -/
inductive NoElements (inAct : Bool) (st : BodyState) : Line → List Line → List Line → Line → Prop
  | done (previous before) : NoElements inAct st previous before [] previous
  | outside {previous before line rest last} (outside : openQuotes before = 0) (plain : NoElement inAct st previous line)
      (tail : NoElements inAct st line (before ++ [line]) rest last) : NoElements inAct st previous before (line :: rest) last
  | inside {previous before line rest last} (inside : openQuotes before ≠ 0) (tail : NoElements inAct st previous (before ++ [line]) rest last) :
      NoElements inAct st previous before (line :: rest) last

/-- The element is written as one that begins in this way. -/
def ElementWritten (inAct : Bool) (ls : List Line) (o : Opening) (n : Node) : Prop :=
  match o with
  | .article _ => ArticleWritten inAct ls n
  | o => StructuralWritten ls o n

/-- The elements of an act are written. -/
inductive ElementsWritten (inAct : Bool) : BodyState → Line → List Line → List Node → Prop
  | done (st previous) : ElementsWritten inAct st previous [] []
  | element {st previous line more o n last rest ns} (begins : BeginsElement inAct st previous line o) (written : ElementWritten inAct (line :: more) o n)
      (quotes : QuotesClosed (line :: more)) (plain : NoElements inAct (remember st line o) line [line] more last)
      (tail : ElementsWritten inAct (remember st line o) last rest ns) : ElementsWritten inAct st previous (line :: more ++ rest) (n :: ns)

/-- The preamble: no line looks like the beginning of an element of an act. -/
inductive PreambleWritten : Line → List Line → Line → Prop
  | done (previous) : PreambleWritten previous [] previous
  | line {previous line rest last} (plain : NoElement true {} previous line) (tail : PreambleWritten line rest last) :
      PreambleWritten previous (line :: rest) last

/-- The body of an act is written: the preamble, and then at least one element. -/
inductive BodyWritten : List Line → Str → List Node → Prop
  | act {pre last line rest o ns} (preamble : PreambleWritten emptyLine pre last) (begins : BeginsElement true {} last line o)
      (elements : ElementsWritten true {} emptyLine (line :: rest) ns) :
      BodyWritten (pre ++ line :: rest) (joined (lineTexts pre)) ns

/-! ## Amendments -/

/-- An amended element with the number `i` is written: the line `line` with its number and the lines `own` after it. -/
def AmendedPart (t : Reference.Level) (p i : Str) (line : Line) (own : List Line) (n : Node) : Prop :=
  match t with
  | .act => False
  | .article => ArticleHeading line.content i ∧ ArticleWritten false (line :: own) n
  | .paragraph => EntryWritten (ParagraphSays false) .paragraph p i line own n
  | .numericPoint => EntryWritten (PointSays false) .numericPoint p i line own n
  | .alphabeticPoint => EntryWritten (PointSays false) .alphabeticPoint p i line own n
  | .numericSubpoint => EntryWritten (SubpointSays false) .numericSubpoint p i line own n
  | .alphabeticSubpoint => EntryWritten (SubpointSays false) .alphabeticSubpoint p i line own n

/-- The other lines of an amended element could not be taken for the next one, wherever they stand. -/
def NotTheNextPart (t : Reference.Level) (p i : Str) (line : Line) (more : List Line) : Prop :=
  ∀ before l after, more = before ++ l :: after → openQuotes (line :: before) = 0 →
    ∀ j, LevelHeading t p l.content j → t ≠ .alphabeticSubpoint ∧ ¬ LevelAfter t p i j

/-- Amended elements of one kind are written, the first one with the number `i` and each with the number after that of the one before. -/
inductive AmendedParts (t : Reference.Level) (p : Str) : Str → List Line → List Node → Prop
  | last {i line own n} (part : AmendedPart t p i line own n) (quotes : QuotesClosed (line :: own)) (next : NotTheNextPart t p i line own) :
      AmendedParts t p i (line :: own) [n]
  | more {i line own n j rest ns} (part : AmendedPart t p i line own n) (quotes : QuotesClosed (line :: own))
      (next : NotTheNextPart t p i line own) (number : LevelAfter t p i j) (tail : AmendedParts t p j rest ns) :
      AmendedParts t p i (line :: own ++ rest) (n :: ns)

/-- What amended lettered subpoints begin with: the number of the first one without its last letter, which is at most a letter of
one character. -/
def BeginLike (t : Reference.Level) (p i : Str) : Prop :=
  if t = .alphabeticSubpoint then p = i.dropLast ∧ (p = [] ∨ ∃ c, isLowerAz c = true ∧ p = [c]) else p = []

/-- The amended text for the position is written. For a position that names a part of an act the elements are of the kind of the
lowest part that it names, beginning with this part; otherwise there may be structural elements and articles. -/
def AmendmentWritten (position : Position) (ls : List Line) (ns : List Node) : Prop :=
  match position with
  | .struct _ => ns ≠ [] ∧ ElementsWritten false {} emptyLine ls ns
  | .ref r => ∃ t id i p, LowestPart r t id ∧ (id = .one i ∨ ∃ b, id = .range i b) ∧ BeginLike t p i ∧ AmendedParts t p i ls ns

end Verif.Spec
