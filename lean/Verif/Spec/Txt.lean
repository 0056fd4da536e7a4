import Verif.Model.Txt
import Verif.Spec.Html

/-! # What text output shows -/

namespace Verif.Spec

/-- Wrapping a text into lines keeps everything but spaces. -/
def KeepsText (wrap : Str → Int → Res (List Str)) : Prop :=
  ∀ s width lines, wrap s width = .ok lines → noSpaces lines.flatten = noSpaces s

/-- Everything that is printed, without spaces. -/
def printedText (ps : List Printed) : Str := noSpaces (ps.flatMap (·.text))

/-- A text that is there is more than spaces. -/
def NotBlank (s : Option Str) : Prop := ∀ t, s = some t → noSpaces t ≠ []

mutual
/-- No title of an article, text or intro consists of spaces, and articles have paragraphs. -/
def Filled : Node → Prop
  | .sae _ d cs => NotBlank d.text ∧ NotBlank d.intro ∧ FilledAll cs
  | .article _ t cs => NotBlank t ∧ cs ≠ [] ∧ FilledAll cs
  | _ => True

/-- The same for each of some objects. -/
def FilledAll : List Node → Prop
  | [] => True
  | c :: cs => Filled c ∧ FilledAll cs
end

/-- Wrapping a text into lines of a positive width succeeds. -/
def WrapsAll (wrap : Str → Int → Res (List Str)) : Prop := ∀ s width, 0 < width → ∃ lines, wrap s width = .ok lines

mutual
/-- How far the texts of an object are moved to the right at most: 10 columns for an article and 5 for anything in it, or as many as its
number needs. -/
def reach : Node → Nat
  | .article i _ cs => max 10 (i.length + 3) + farthest cs
  | .sae k d cs => (if k = .blockAmendmentContainer then 5 else max 5 ((d.identifier.getD []).length + 3)) + farthest cs
  | _ => 0

/-- The largest of them. -/
def farthest : List Node → Nat
  | [] => 0
  | c :: cs => max (reach c) (farthest cs)
end

end Verif.Spec
