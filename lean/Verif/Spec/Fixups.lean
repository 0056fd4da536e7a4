import Verif.Model.Fixups

/-! # What fix-ups should do -/

namespace Verif.Spec

/-- The text is that of the line between the two parts of the body, and of no other. -/
def OnlyLine (text : Str) (before : List Line) (l : Line) (after : List Line) : Prop :=
  l.content = text ∧ ∀ x ∈ before ++ after, x.content ≠ text

/-- The texts of the last lines are these. -/
def EndsWithTexts (lines : List Line) (texts : List Str) : Prop := ∃ front, lines.map Line.content = front ++ texts

/-- The line is to be replaced: it has the text, and the lines before it have the given texts, if any are given. -/
def Wanted (text : Str) (prev : Option (List Str)) (before : List Line) (l : Line) : Prop :=
  l.content = text ∧ ∀ texts, prev = some texts → EndsWithTexts before texts

/-- The fix-ups registered for an act in a history of registrations, in order. -/
def registered (history : List (Str × FixupFn)) (lawId : Str) : List FixupFn :=
  (history.filter fun e => e.1 = lawId).map (·.2)

/-- The results of the fix-ups one after the other. -/
inductive Applied : List FixupFn → List Line → List Line → Prop
  | none (body) : Applied [] body body
  | next {fix fixes body body' out} (h : fix body = .ok body') (hs : Applied fixes body' out) : Applied (fix :: fixes) body out

/-- Nothing or a newline. -/
def MaybeNewline (s : Str) : Prop := s = [] ∨ s = ['\n']

/-- A line that has a title in brackets and nothing else. -/
def BracketedTitle (s title : Str) : Prop :=
  ∃ o c nl, s = o :: (title ++ c :: nl) ∧ (o = '[' ∨ o = '(') ∧ (c = ')' ∨ c = ']') ∧ '\n' ∉ title ∧ MaybeNewline nl

/-- A line that begins with the number of an article. -/
def NumberedArticle (s number rest : Str) : Prop :=
  ∃ digits r nl, digits ≠ [] ∧ (∀ c ∈ digits, '0' ≤ c ∧ c ≤ '9') ∧ number = digits ++ (py". § ") ∧ s = number ++ rest ∧
    rest = r ++ nl ∧ '\n' ∉ r ∧ MaybeNewline nl

/-- Titles in brackets above the number of an article are moved behind it, and get square brackets; everything else stays. -/
inductive TitlesMoved : List Line → List Line → Prop
  | nil : TitlesMoved [] []
  | keep {l ls out} (h : ∀ m rest t n r, ls = m :: rest → ¬ (BracketedTitle l.content t ∧ NumberedArticle m.content n r))
      (hs : TitlesMoved ls out) : TitlesMoved (l :: ls) (l :: out)
  | move {p l ls a b out t n r} (ht : BracketedTitle p.content t) (hn : NumberedArticle l.content n r)
      (ha : a.content = n ++ (py"[") ++ t ++ (py"]")) (hb : b.content = r) (hs : TitlesMoved ls out) :
      TitlesMoved (p :: l :: ls) (a :: b :: out)

end Verif.Spec
