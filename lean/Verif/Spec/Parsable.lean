import Verif.Spec.Usual

/-! # Which texts can be parsed -/

namespace Verif.Spec

/-- The line begins with a letter that is written with two characters, and a parenthesis. -/
def TwoLetters (l : Line) : Prop := ∃ text, l.content = py"ny) " ++ text ∨ l.content = py"sz) " ++ text

/-- The line could begin a list in a paragraph. -/
def ListHeading (l : Line) : Prop := ∃ text, l.content = py"a) " ++ text ∨ l.content = py"1. " ++ text

/-- The lines of a paragraph leave no doubt about its lists: after a line outside quotations that could begin a list there is no quotation
that goes on in a next line, and no line outside quotations begins with `ny)` or `sz)`. What is written in quotations does not matter. -/
structure ClearLists (ls : List Line) : Prop where
  quotations : ∀ x m y l after, ls = x ++ m :: y ++ l :: after → x ≠ [] → openQuotes x = 0 → ListHeading m → openQuotes (x ++ m :: y) = 0
  letters : ∀ x l after, ls = x ++ l :: after → x ≠ [] → openQuotes x = 0 → ¬ TwoLetters l

/-- The lines of a paragraph that raise no doubts: in addition, they are made from single characters, and all quotations are closed. -/
structure Tame (ls : List Line) : Prop where
  fine : ∀ l ∈ ls, Fine l
  closed : QuotesClosed ls
  clear : ClearLists ls

/-- The lines after `before` are divided into `own`, which belongs to what was begun before, and paragraphs. `last` is the number and the
indent of the paragraph before. A paragraph begins on a line that is outside all quotations, is not indented further, and has the first number
or the next one; and it goes on as long as no other one begins. -/
inductive ParagraphDivision : Option (Str × Rat) → List Line → List Line → List Line → List (List Line) → Prop
  | done (last before) : ParagraphDivision last before [] [] []
  | begins {last before line rest i own ps} (outside : openQuotes before = 0) (indent : ∀ l, last = some l → line.indent < l.2 + 1)
      (opens : ElementHeading .paragraph [] line.content i) (next : NextSibling (py"1") (ElementAfter .paragraph []) last i)
      (tail : ParagraphDivision (some (i, line.indent)) (before ++ [line]) rest own ps) : ParagraphDivision last before (line :: rest) [] ((line :: own) :: ps)
  | continues {last before line rest own ps}
      (opens : ¬ (openQuotes before = 0 ∧ (∀ l, last = some l → line.indent < l.2 + 1) ∧
        ∃ i, ElementHeading .paragraph [] line.content i ∧ NextSibling (py"1") (ElementAfter .paragraph []) last i))
      (tail : ParagraphDivision last (before ++ [line]) rest own ps) : ParagraphDivision last before (line :: rest) (line :: own) ps

/-- The lines of an article after its number and title are these paragraphs: a single one if they do not begin with the first number. -/
inductive Paragraphs : List Line → List (List Line) → Prop
  | one {l rest} (unnumbered : ¬ ElementHeading .paragraph [] l.content (py"1")) : Paragraphs (l :: rest) [l :: rest]
  | several {l rest ps} (numbered : ElementHeading .paragraph [] l.content (py"1")) (division : ParagraphDivision none [] (l :: rest) [] ps) :
      Paragraphs (l :: rest) ps

/-- The title in brackets at the beginning of the article ends in the line `n`: no line before it ends with a bracket or is empty. No
quotation is open after it, and there is more than an empty line after it. `text` is what is in the first line after the number. -/
def TitleEnds (text : Str) (first : Line) (rest : List Line) (n : Nat) : Prop :=
  (∀ j, j < n → ∃ t, (text :: rest.map (·.content))[j]? = some t ∧ t ≠ [] ∧ t.getLast? ≠ some ']') ∧
  (∃ t, (text :: rest.map (·.content))[n]? = some t ∧ t.getLast? = some ']') ∧ openQuotes ((first :: rest).take (n + 1)) = 0 ∧
  rest.drop n ≠ [] ∧ ∀ l, rest.drop n = [l] → l.isEmptyLine = false

/-- There is text after the number in the first line of the article. If it begins with a bracket, this is the title, and it has at most
three lines. -/
def ArticleFits (ls : List Line) : Prop :=
  ∃ i gap text first rest, ls = first :: rest ∧ IsArticleId i ∧ (gap = [] ∨ gap = py" ") ∧
    first.content = i ++ py"." ++ gap ++ py"§ " ++ text ∧ text ≠ [] ∧
    (text.head? = some '[' → ∃ n, n ≤ 2 ∧ TitleEnds text first rest n)

/-- The lines of an article after its number and its title, and after an empty line that may follow these. -/
inductive TextOf : List Line → List Line → Prop
  | plain {first rest first' i gap text} (number : IsArticleId i) (space : gap = [] ∨ gap = py" ")
      (begins : first.content = i ++ py"." ++ gap ++ py"§ " ++ text) (noTitle : text.head? ≠ some '[')
      (cut : CutLine first (i ++ py"." ++ gap ++ py"§ ").length first.content.length first') : TextOf (first :: rest) (first' :: rest)
  | titled {first rest i gap text n ls} (number : IsArticleId i) (space : gap = [] ∨ gap = py" ")
      (begins : first.content = i ++ py"." ++ gap ++ py"§ " ++ text) (title : text.head? = some '[') (short : n ≤ 2)
      (ends : TitleEnds text first rest n)
      (empty : (rest.drop n = ls ∧ ∀ l, ls.head? = some l → l.isEmptyLine = false) ∨ ∃ e, e.isEmptyLine = true ∧ rest.drop n = e :: ls) :
      TextOf (first :: rest) ls

/-- The lines of an article leave no doubt about the lists in its paragraphs. -/
def ClearArticle (ls : List Line) : Prop := ∀ text ps, TextOf ls text → Paragraphs text ps → ∀ p ∈ ps, ClearLists p

/-- The lines of an article that raise no doubts: in addition, they are made from single characters, and all quotations are closed. -/
structure TameArticle (ls : List Line) : Prop where
  fine : ∀ l ∈ ls, Fine l
  closed : QuotesClosed ls
  clear : ClearArticle ls

/-! ## Acts -/

/-- All digits in the line are decimal digits. This is not so for raised digits, as in I². -/
def PlainDigits (line : Line) : Prop := ∀ c ∈ line.content, isDigit c = true → (decimalValue c).isSome = true

/-- The lines after `before` are divided into `own`, which belongs to what was begun before, and the given elements with their lines. An
element begins on a line that is outside all quotations and could begin it, and goes on as long as no other element begins. -/
inductive Pieces (strict : Bool) : BodyState → Line → List Line → List Line → List Line → List (Opening × List Line) → Prop
  | done (st previous before) : Pieces strict st previous before [] [] []
  | begins {st previous before line rest o own ps} (outside : openQuotes before = 0) (opens : Opens strict st previous line o)
      (first : ∀ p, Opens strict st previous line p → o.rank ≤ p.rank)
      (tail : Pieces strict (remember st line o) line (before ++ [line]) rest own ps) :
      Pieces strict st previous before (line :: rest) [] ((o, line :: own) :: ps)
  | continues {st previous before line rest own ps} (outside : openQuotes before = 0) (opens : ∀ p, ¬ Opens strict st previous line p)
      (tail : Pieces strict st line (before ++ [line]) rest own ps) : Pieces strict st previous before (line :: rest) (line :: own) ps
  | quoted {st previous before line rest own ps} (inside : openQuotes before ≠ 0)
      (tail : Pieces strict st previous (before ++ [line]) rest own ps) : Pieces strict st previous before (line :: rest) (line :: own) ps

/-- The last line, or an empty line if there is none. -/
def lastLine (ls : List Line) : Line := ls.getLast?.getD emptyLine

/-- The lines of an act are a preamble, in which no line could begin an element, and elements. -/
structure ActDivided (lines preamble body : List Line) (ps : List (Opening × List Line)) : Prop where
  whole : lines = preamble ++ body
  plain : ∀ a l b, preamble = a ++ l :: b → ∀ o, ¬ Opens true {} (lastLine a) l o
  begins : ∀ l rest, body = l :: rest → ∃ o, Opens true {} (lastLine preamble) l o
  pieces : Pieces true {} emptyLine [] body [] ps

end Verif.Spec
