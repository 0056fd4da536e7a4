import Verif.Model.StructureParser
import Verif.Spec.Parser

/-! # Which lines begin an element -/

namespace Verif.Spec

/-! ## What headers look like -/

/-- Nothing, or one newline. -/
def Newline (s : Str) : Prop := s = [] ∨ s = ['\n']

/-- The line begins with the number of an article: `3. § Text`, `3/A. § Text`, `5:3.§ Text`. -/
def ArticleHeading (content i : Str) : Prop :=
  IsArticleId i ∧ ∃ gap text newline, (gap = [] ∨ gap = py" ") ∧ '\n' ∉ text ∧ Newline newline ∧
    content = i ++ py"." ++ gap ++ py"§ " ++ text ++ newline

/-- The line is the header of a structural element with the number `i`. -/
def StructHeading (k : StructKind) (content i : Str) : Prop :=
  match k with
  | .subtitle => IsArticleTail i ∧ ∃ text, content = i ++ py". " ++ text
  | .book => ∃ number newline n, '\n' ∉ number ∧ Newline newline ∧ content = number ++ py" KÖNYV" ++ newline ∧
      OrdinalOf number n ∧ i = natStr n
  | .part => (∃ n, namedParts[n]? = some content ∧ i = natStr (n + 1)) ∨
      (content ∉ namedParts ∧ ∃ number newline n, '\n' ∉ number ∧ Newline newline ∧
        content = number ++ py" RÉSZ" ++ newline ∧ OrdinalOf number n ∧ i = natStr n)
  | .title => ∃ number newline, '\n' ∉ number ∧ Newline newline ∧ content = number ++ py". CÍM" ++ newline ∧
      RomanNumber number i
  | .chapter => ∃ number name newline, '\n' ∉ number ∧ Newline newline ∧ content = number ++ name ++ newline ∧
      Both (fun c d => c = d ∨ c = d.toUpper) name (py". fejezet") ∧ RomanNumber number i

/-- The line begins with the number of a paragraph, point or subpoint; the identifiers of lettered subpoints begin with
`p`. -/
def ElementHeading (k : SaeKind) (p content i : Str) : Prop :=
  match k with
  | .paragraph => IsParagraphId i ∧ ∃ text, content = py"(" ++ i ++ py") " ++ text
  | .numericPoint | .numericSubpoint => IsNumericPointId i ∧ ∃ text, content = i ++ py". " ++ text
  | .alphabeticPoint => ((∃ c, isLowerAz c = true ∧ i = [c]) ∨ i = py"ny" ∨ i = py"sz") ∧
      ∃ text, content = i ++ py") " ++ text
  | .alphabeticSubpoint => ((∃ c, isLowerAz c = true ∧ i = p ++ [c]) ∨ i = py"ny" ∨ i = py"sz") ∧
      ∃ text, content = i ++ py") " ++ text
  | .blockAmendmentContainer => False

/-! ## Articles and structural elements -/

/-- An article or structural element begins; a subtitle may have no number. -/
inductive Opening
  | article (i : Str)
  | structural (k : StructKind) (i : Option Str)

/-- The kinds in the order in which they are looked for. -/
def Opening.rank : Opening → Nat
  | .article _ => 0
  | .structural .book _ => 1
  | .structural .part _ => 2
  | .structural .title _ => 3
  | .structural .chapter _ => 4
  | .structural .subtitle _ => 5

/-- The line begins with a capital letter. -/
def Capital (content : Str) : Prop :=
  ∃ c rest, content = c :: rest ∧ c ∈ py"ABCDEFGHIJKLMNOPQRSTUVWXYZÁÉÍÓÖŐÚÜŰ"

/-- The number is the first one or comes after the last one; this is not asked for in amendments. -/
def NextNumber (strict : Bool) (last i : Str) : Prop :=
  strict = true → i = py"1" ∨ isNextNumericIdentifier last i = .ok true

/-- The line could begin an element. `st` has the indent of the last article and the last number of each kind of
structural element, 0 if there was none. -/
def Opens (strict : Bool) (st : BodyState) (previous line : Line) : Opening → Prop
  | .article i => ArticleHeading line.content i ∧
      ∀ x, st.indent = some x → line.indent < x + 1 ∧ x < line.indent + 1
  | .structural .subtitle none => line.bold = true ∧ Capital line.content ∧
      (strict = true → previous.isEmptyLine = true)
  | .structural .subtitle (some i) => line.bold = true ∧ StructHeading .subtitle line.content i ∧
      NextNumber strict (st.last .subtitle) i
  | .structural _ none => False
  | .structural k (some i) => StructHeading k line.content i ∧ NextNumber strict (st.last k) i

/-- What is remembered after an element has begun. -/
def remember (st : BodyState) (line : Line) : Opening → BodyState
  | .article _ => { st with indent := some line.indent }
  | .structural k i => { st with last := fun j => if j = k then i.getD (py"0") else st.last j }

/-- The element is the one that was begun. -/
def Opening.Names : Opening → Node → Prop
  | .article i, .article j _ _ => i = j
  | .structural k i, .structural e => e.kind = k ∧ e.identifier = i.getD []
  | _, _ => False

/-- The lines after `before` begin exactly the given elements: each begins on a line that is outside all quotes and
could begin it, and no other line outside quotes could begin anything. If it could begin several kinds then the first
one counts. -/
inductive Outline (strict : Bool) : BodyState → Line → List Line → List Line → List Node → Prop
  | done (st previous before) : Outline strict st previous before [] []
  | begins {st previous before line rest o n ns} (outside : openQuotes before = 0)
      (opens : Opens strict st previous line o) (first : ∀ p, Opens strict st previous line p → o.rank ≤ p.rank)
      (names : o.Names n) (tail : Outline strict (remember st line o) line (before ++ [line]) rest ns) :
      Outline strict st previous before (line :: rest) (n :: ns)
  | continues {st previous before line rest ns} (outside : openQuotes before = 0)
      (opens : ∀ p, ¬ Opens strict st previous line p) (tail : Outline strict st line (before ++ [line]) rest ns) :
      Outline strict st previous before (line :: rest) ns
  | quoted {st previous before line rest ns} (inside : openQuotes before ≠ 0)
      (tail : Outline strict st previous (before ++ [line]) rest ns) : Outline strict st previous before (line :: rest) ns

/-! ## Paragraphs, points and subpoints -/

/-- The identifier is the first one or comes after the last one. -/
def NextSibling (first : Str) (after : Str → Str → Prop) (last : Option (Str × Rat)) (i : Str) : Prop :=
  match last with
  | none => i = first
  | some l => after l.1 i

/-- The lines after `before` begin siblings with exactly the given identifiers. `last` is the identifier and the indent of
the sibling before. A line begins one if it is outside all quotes, is not indented further, and has the header of the
first one or of the next one. -/
inductive Siblings (heading : Str → Str → Prop) (first : Str) (after : Str → Str → Prop) :
    Option (Str × Rat) → List Line → List Line → List Str → Prop
  | done (last before) : Siblings heading first after last before [] []
  | begins {last before line rest i ids} (outside : openQuotes before = 0)
      (indent : ∀ l, last = some l → line.indent < l.2 + 1) (opens : heading line.content i)
      (next : NextSibling first after last i)
      (tail : Siblings heading first after (some (i, line.indent)) (before ++ [line]) rest ids) :
      Siblings heading first after last before (line :: rest) (i :: ids)
  | continues {last before line rest ids}
      (opens : ¬ (openQuotes before = 0 ∧ (∀ l, last = some l → line.indent < l.2 + 1) ∧
        ∃ i, heading line.content i ∧ NextSibling first after last i))
      (tail : Siblings heading first after last (before ++ [line]) rest ids) :
      Siblings heading first after last before (line :: rest) ids

/-- The same for the elements of an amendment after the first one: the indent does not matter. -/
inductive Followers (heading : Str → Str → Prop) (after : Str → Str → Prop) :
    Str → List Line → List Line → List Str → Prop
  | done (last before) : Followers heading after last before [] []
  | begins {last before line rest i ids} (outside : openQuotes before = 0) (opens : heading line.content i)
      (next : after last i) (tail : Followers heading after i (before ++ [line]) rest ids) :
      Followers heading after last before (line :: rest) (i :: ids)
  | continues {last before line rest ids}
      (opens : ¬ (openQuotes before = 0 ∧ ∃ i, heading line.content i ∧ after last i))
      (tail : Followers heading after last (before ++ [line]) rest ids) :
      Followers heading after last before (line :: rest) ids

/-- The next identifier of lettered subpoints that begin with `p`: the next letter. A letter of two characters may only
come last. -/
def SubletterAfter (p a b : Str) : Prop :=
  ∃ c y, a = p ++ [c] ∧ b = p ++ y ∧ LetterAfter [c] y ∧ (p ≠ [] → y.length = 1)

/-- The identifier that has to come next, as far as the code goes. -/
def ElementAfter (k : SaeKind) (p a b : Str) : Prop :=
  match k with
  | .alphabeticSubpoint => SubletterAfter p a b
  | k => IdentifierAfter k a b

/-- The line begins an element of the amended kind. -/
def LevelHeading (t : Reference.Level) (p content i : Str) : Prop :=
  match t with
  | .act => False
  | .article => ArticleHeading content i
  | .paragraph => ElementHeading .paragraph p content i
  | .numericPoint => ElementHeading .numericPoint p content i
  | .alphabeticPoint => ElementHeading .alphabeticPoint p content i
  | .numericSubpoint => ElementHeading .numericSubpoint p content i
  | .alphabeticSubpoint => ElementHeading .alphabeticSubpoint p content i

/-- `i` is the lowest part that the reference names, as a part of the given kind. Whether points and subpoints have numbers or letters is
not asked. -/
def LowestPart (r : Reference) (t : Reference.Level) (i : Ident) : Prop :=
  match t with
  | .act => False
  | .article => r.article = some i ∧ r.paragraph = none ∧ r.point = none ∧ r.subpoint = none
  | .paragraph => r.paragraph = some i ∧ r.point = none ∧ r.subpoint = none
  | .numericPoint | .alphabeticPoint => r.point = some i ∧ r.subpoint = none
  | .numericSubpoint | .alphabeticSubpoint => r.subpoint = some i

/-- The identifier that has to come next in an amendment. -/
def LevelAfter (t : Reference.Level) (p a b : Str) : Prop :=
  match t with
  | .act => False
  | .article => ArticleAfter a b
  | .paragraph => ElementAfter .paragraph p a b
  | .numericPoint => ElementAfter .numericPoint p a b
  | .alphabeticPoint => ElementAfter .alphabeticPoint p a b
  | .numericSubpoint => ElementAfter .numericSubpoint p a b
  | .alphabeticSubpoint => ElementAfter .alphabeticSubpoint p a b

end Verif.Spec
