import Verif.Spec.Fixups
import Verif.Spec.Parser
import Verif.Model.Editor

/-! # What the editor of fix-ups should do -/

namespace Verif.Spec

/-- The old and the new texts of the lines that were changed, in order. -/
def changes (old new : List Str) : List (Str × Str) := (old.zip new).filter fun p => p.1 ≠ p.2

/-- If the last line was changed, no other line had its text. -/
def LastLineAlone (old new : List Str) : Prop :=
  ∀ p, (old.zip new).getLast? = some p → p.1 ≠ p.2 → old.count p.1 = 1

/-- No line that was changed had the text of the last line, unless no other line had it. -/
def UnlikeLast (old new : List Str) : Prop :=
  ∀ p ∈ changes old new, old.count p.1 = 1 ∨ old.getLast? ≠ some p.1

/-- The new text of a changed line was not that of any line and is not that of another one now. -/
def FreshTexts (old new : List Str) : Prop := ∀ p ∈ changes old new, p.2 ∉ old ∧ new.count p.2 = 1

/-- The line can be cut anywhere: no part of it is longer than a character. -/
def CutAnywhere (l : Line) : Prop := ∀ p ∈ l.parts, p.content.length ≤ 1

/-- Spaces only. -/
def Spaces (s : Str) : Prop := ∀ c ∈ s, isSpace c = true

/-- The text neither begins nor ends with a space. -/
def NoSpaceAround (s : Str) : Prop :=
  (∀ c, s.head? = some c → isSpace c = false) ∧ ∀ c, s.getLast? = some c → isSpace c = false

/-- The text is that of one line of a file. -/
def OnOneLine (s : Str) : Prop := '\n' ∉ s ∧ '\r' ∉ s

/-- The file has a line for each of these texts: first five characters, then spaces, the text, spaces and the end of the line. -/
inductive EditedFile : Str → List Str → Prop
  | nil : EditedFile [] []
  | line {file texts} (first before text after : Str) (h5 : first.length = 5) (hb : Spaces before) (ha : Spaces after)
      (ht : NoSpaceAround text) (hl : OnOneLine (first ++ before ++ text ++ after)) (hs : EditedFile file texts) :
      EditedFile (first ++ before ++ text ++ after ++ '\n' :: file) (text :: texts)

/-- The lines are at this place of the text, and more lines follow them. -/
def FoundAt (text lines : List Str) (place : Nat) : Prop :=
  ∃ before after, text = before ++ lines ++ after ∧ before.length = place ∧ after ≠ []

/-- The lines are at one place of the text, not counting its very end. -/
def FoundOnce (text lines : List Str) : Prop := ∃ place, FoundAt text lines place ∧ ∀ other, FoundAt text lines other → other = place

/-- The `n` lines before a line. If there are fewer, the first of them is counted from the end of the text, as by Python. -/
def linesBefore (text : List Str) (line n : Nat) : List Str :=
  (text.take line).drop (if n ≤ line then line - n else text.length + line - n)

/-- The lines up to the one that is changed, as edited, and the rest as it was. -/
def halfEdited (old new : List Str) (line : Nat) : List Str := new.take line ++ old.drop line

/-- The replacement for a line: without a context if no other line had its text, and otherwise with the shortest one of at most nine
lines that tells it apart. -/
inductive Chosen (old new : List Str) : (Str × Str) × Nat → Replacement → Prop
  | alone {o n line} (one : old.count o = 1) : Chosen old new ((o, n), line) ⟨o, n, none⟩
  | context {o n line b} (several : old.count o ≠ 1) (h1 : 1 ≤ b) (h9 : b ≤ 9)
      (found : FoundOnce (halfEdited old new line) (linesBefore new line b ++ [o]))
      (shortest : ∀ m, 1 ≤ m → m < b → ¬ FoundOnce (halfEdited old new line) (linesBefore new line m ++ [o])) :
      Chosen old new ((o, n), line) ⟨o, n, some (linesBefore new line b)⟩

/-- The old and the new texts of the lines that were changed, and where they are. -/
def placedChanges (old new : List Str) : List ((Str × Str) × Nat) := (old.zip new).zipIdx.filter fun p => p.1.1 ≠ p.1.2

end Verif.Spec
