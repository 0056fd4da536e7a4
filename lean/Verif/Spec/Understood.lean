import Verif.Spec.Recorded
import Verif.Spec.Structure

/-! # Which acts get semantic data -/

namespace Verif.Spec

/-- The text of an element, or its introduction if it has no text. -/
def HasOwn (d : SaeData) (t : Str) : Prop := d.text = some t ∨ d.text = none ∧ d.intro = some t

/-- The text of the element ends its sentence. An introduction is read as if it did. -/
def Last (e : Entry) : Prop := e.after = [] ∨ e.data.text = none

/-- Everything has a text or is made of other things. -/
def Whole (n : Node) : Prop := ∀ k d, Inside (.sae k d []) n → d.text ≠ none

/-- No two references end at the same place. -/
def EndApart (r : Analysis) : Prop := r.references.Pairwise fun x y => x.endPos ≠ y.endPos

/-- An element can be read: its text ends as texts in lists do and is more than such an ending, at least if it is the last in its sentence,
and its sentence can be analysed if it is looked at. -/
def Understood (analyze : Analyzer) (e : Entry) : Prop :=
  (∀ t, HasOwn e.data t → (∃ core, ListItem t core) ∧ (Last e → ¬ ListItem t [])) ∧
    ∀ s stop, SentenceOf e s stop → LookedAt s → ∃ r, analyze s = .ok r ∧ EndApart r

end Verif.Spec
