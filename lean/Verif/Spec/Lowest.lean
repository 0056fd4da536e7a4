import Verif.Model.Structure

/-! # The lowest component of a reference (C94)

Independent of `last_component_with_type`. -/

namespace Verif.Spec

/-- The identifier, or the first one of a range. -/
inductive FirstIdent : Ident → Str → Prop
  | one (s) : FirstIdent (.one s) s
  | range (a b) : FirstIdent (.range a b) a

/-- It begins with a digit. -/
def NumberLike (i : Ident) : Prop := ∃ c s, FirstIdent i (c :: s) ∧ isDigit c = true

/-- It begins with something else. -/
def LetterLike (i : Ident) : Prop := ∃ c s, FirstIdent i (c :: s) ∧ isDigit c = false

/-- `i` is the lowest component of the reference, and it is the identifier of an element of kind `t`. -/
def LowestOf (r : Reference) (i : Ident) : Reference.Level → Prop
  | .numericSubpoint => r.subpoint = some i ∧ NumberLike i
  | .alphabeticSubpoint => r.subpoint = some i ∧ LetterLike i
  | .numericPoint => r.subpoint = none ∧ r.point = some i ∧ NumberLike i
  | .alphabeticPoint => r.subpoint = none ∧ r.point = some i ∧ LetterLike i
  | .paragraph => r.subpoint = none ∧ r.point = none ∧ r.paragraph = some i
  | .article => r.subpoint = none ∧ r.point = none ∧ r.paragraph = none ∧ r.article = some i
  | .act => r.subpoint = none ∧ r.point = none ∧ r.paragraph = none ∧ r.article = none ∧ ∃ s, r.act = some s ∧ i = .one s

/-- What a structural reference names at a level. -/
def structComponent (r : StructuralReference) : StructLevel → Option Str
  | .act => r.act
  | .struct .book => r.book
  | .struct .part => r.part
  | .struct .title => r.title
  | .struct .chapter => r.chapter
  | .struct .subtitle => r.subtitle

/-- The second level is below the first one. -/
def Below : StructLevel → StructLevel → Prop
  | .act, .struct _ => True
  | .struct .book, .struct k => k ≠ .book
  | .struct .part, .struct k => k ≠ .book ∧ k ≠ .part
  | .struct .title, .struct k => k = .chapter ∨ k = .subtitle
  | .struct .chapter, .struct k => k = .subtitle
  | _, _ => False

/-- `s` is the lowest component of the reference. -/
def StructLowest (r : StructuralReference) (s : Str) (l : StructLevel) : Prop :=
  structComponent r l = some s ∧ ∀ k, Below l k → structComponent r k = none

/-- The level of a reference that an element is named at. -/
inductive NamedAt : Node → Reference.Level → Prop
  | article (i t cs) : NamedAt (.article i t cs) .article
  | paragraph (d cs) : NamedAt (.sae .paragraph d cs) .paragraph
  | numericPoint (d cs) : NamedAt (.sae .numericPoint d cs) .numericPoint
  | alphabeticPoint (d cs) : NamedAt (.sae .alphabeticPoint d cs) .alphabeticPoint
  | numericSubpoint (d cs) : NamedAt (.sae .numericSubpoint d cs) .numericSubpoint
  | alphabeticSubpoint (d cs) : NamedAt (.sae .alphabeticSubpoint d cs) .alphabeticSubpoint

end Verif.Spec
