import Verif.Model.Gazette

/-! # What the gazette extractors should do -/

namespace Verif.Spec

/-- The title of an act: `2010. évi CLVIII. törvény`, with anything in place of the full stops and after the title. -/
def ActTitle (s : Str) : Prop :=
  ∃ (a b c d e f : Char) (roman rest : Str), (a = '1' ∨ a = '2') ∧ (b = '0' ∨ b = '9') ∧ isAsciiDigit c = true ∧
    isAsciiDigit d = true ∧ e ≠ '\n' ∧ roman ≠ [] ∧ (∀ x ∈ roman, x ∈ ['I', 'V', 'X', 'L', 'C']) ∧ f ≠ '\n' ∧
    s = a :: b :: c :: d :: e :: (py" évi ") ++ roman ++ f :: (py" törvény") ++ rest

/-- The signature below an act. -/
def Signature (s : Str) : Prop :=
  ∃ al rest, (al = [] ∨ al = py"al") ∧ s = (py"köztársasági elnök az Országgyűlés ") ++ al ++ (py"elnöke") ++ rest

/-- Texts separated by spaces. -/
def spaced : List Str → Str
  | [] => []
  | [s] => s
  | s :: t :: rest => s ++ ' ' :: spaced (t :: rest)

/-- The lines are the others, or become the others if one footnote between blank lines is replaced by a blank line. -/
inductive Footnoted : List Line → List Line → Prop
  | same (lines) : Footnoted lines lines
  | removed {before blank note blank' after} (hb : before ≠ []) (h : blank.parts = []) (hn : note.content.head? = some '*')
      (h' : blank'.parts = []) : Footnoted (before ++ [blank, note, blank'] ++ after) (before ++ [emptyLine] ++ after)

/-- The lines are those of the act: its title, its subject, its body and the signatures. `Body` is how lines make up a body. -/
def ActLines (Body : List Line → List Line → Prop) (date : Date) (act : LawRawText) (lines : List Line) : Prop :=
  ∃ title subject raw blank names signature, lines = title :: subject ++ raw ∧
    ActTitle title.content ∧ act.identifier = title.content ∧ act.publicationDate = date ∧
    subject ≠ [] ∧ spaced (subject.map Line.content) = act.subject ++ ['*'] ∧
    act.body ≠ [] ∧ blank.parts = [] ∧ Signature signature.content ∧ Body raw (act.body ++ [blank, names, signature])

/-- The acts are cut out of the lines, in order and without sharing lines; what is between them belongs to no act. Each one
has the property with the lines it is cut out of. -/
inductive CutOut (P : LawRawText → List Line → Prop) : List Line → List LawRawText → Prop
  | rest (between) : CutOut P between []
  | act {between lines rest act acts} (h : P act lines) (hs : CutOut P rest acts) :
      CutOut P (between ++ lines ++ rest) (act :: acts)

/-- Nothing in the lines looks like a footnote or the signatures: no blank line, except the first line, is followed two lines
later by a blank line or a signature. -/
def Plain (lines : List Line) : Prop :=
  ∀ p x y z q, lines = p ++ x :: y :: z :: q → p ≠ [] → x.parts = [] → z.parts ≠ [] ∧ ¬ Signature z.content

/-- No blank line, except the first line, is followed two lines later by a signature. -/
def Unsigned (lines : List Line) : Prop :=
  ∀ p x y z q, lines = p ++ x :: y :: z :: q → p ≠ [] → x.parts = [] → ¬ Signature z.content

/-- The lines are the subject of an act: only the last one ends with an asterisk, and the first is not without text. -/
def SubjectLines (lines : List Line) (subject : Str) : Prop :=
  ∃ front last, lines = front ++ [last] ∧ (∀ l ∈ lines.head?, l.content ≠ []) ∧
    (∀ l ∈ front, l.content.getLast? ≠ some '*') ∧ last.content.getLast? = some '*' ∧
    spaced (lines.map Line.content) = subject ++ ['*']

/-- The titles of the sections of the gazette that are known: the first after the table of contents and the eighth are not. -/
def sectionTitles : List Str :=
  [py"Tartalomjegyzék", py"II. Törvények", py"III. Kormányrendeletek", py"IV. A Magyar Nemzeti Bank elnökének rendeletei,",
   py"V. A Kormány tagjainak rendeletei", py"VI.Az Alkotmánybíróság határozatai, teljes ülési", py"VII. A Kúria határozatai",
   py"IX. Határozatok Tára"]

/-- The pages form sections: each has a title, which is the first line of its first page, and which its other pages begin with
or begin with no title at all. Sections beside each other have different titles. -/
inductive Sections (Title : Str → Prop) : List (List Line) → List (Str × List (List Line)) → Prop
  | none : Sections Title [] []
  | first {title page pages others rest} (ht : Title title) (hp : page.head?.map Line.content = some title)
      (ho : ∀ p ∈ others, ∃ l, p.head? = some l ∧ (l.content = title ∨ ¬ Title l.content))
      (hs : Sections Title pages rest) (hr : ∀ s ∈ rest.head?, s.1 ≠ title) :
      Sections Title (page :: others ++ pages) ((title, page :: others) :: rest)

/-- The lines of a section: those of its pages without the titles, with a blank line after each page. -/
def sectionLines (title : Str) (pages : List (List Line)) : List Line :=
  pages.flatMap fun page => (if page.head?.map Line.content = some title then page.tail else page) ++ [emptyLine]

/-- The lines that are not empty. -/
def filledLines (ls : List Line) : List Line := ls.filter fun l => l.parts ≠ []

end Verif.Spec
