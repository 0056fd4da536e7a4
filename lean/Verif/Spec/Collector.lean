import Verif.Model.ReferenceCollector

/-! # What collecting a reference list should mean -/

namespace Verif.Spec

/-- The component of a reference at a level. -/
def component (r : Reference) : RefLevel → Option Ident
  | .articles => r.article
  | .paragraphs => r.paragraph
  | .points => r.point
  | .subpoints => r.subpoint

/-- Articles are above paragraphs, they are above points, and these are above subpoints. -/
def depth : RefLevel → Nat
  | .articles => 0
  | .paragraphs => 1
  | .points => 2
  | .subpoints => 3

/-- One level is above the other. -/
def Above (l m : RefLevel) : Prop := depth l < depth m

/-- The level of the items of a kind. -/
def kindLevel : PartKind → RefLevel
  | .article => .articles
  | .paragraph => .paragraphs
  | .alphabeticPoint => .points
  | .numericPoint => .points
  | .alphabeticSubpoint => .subpoints
  | .numericSubpoint => .subpoints

/-- The level of an item. -/
def itemLevel (x : RefItem) : RefLevel := kindLevel x.kind

/-- The items follow each other in numbering. -/
def Neighbours (x y : RefItem) : Prop :=
  x.kind = y.kind ∧ ∃ a b, x.data = .one a ∧ y.data = .one b ∧ x.kind.isNext a b = .ok true

/-- A part of a reference names an item: it is the same, or the range of two items of the list that follow each other, one of
which is this. -/
def Names (items : List RefItem) (p : Ident) (x : RefItem) : Prop :=
  p = x.data ∨ ∃ y ∈ items, ∃ a b, p = .range a b ∧
    ((Neighbours x y ∧ x.data = .one a ∧ y.data = .one b) ∨ (Neighbours y x ∧ y.data = .one a ∧ x.data = .one b))

/-- The list can be read without ambiguity: the items are intervals between the start and the end of the whole and apart from
each other, higher levels come first, and no item is between two that are added one after the other and are consecutive. -/
structure PlainList (items : List RefItem) (start stop : Int) : Prop where
  inside : ∀ x ∈ items, start ≤ x.startPos ∧ x.startPos < x.endPos ∧ x.endPos ≤ stop
  levels : ∀ x ∈ items, ∀ y ∈ items, Above (itemLevel x) (itemLevel y) → x.endPos ≤ y.startPos
  apart : items.Pairwise fun x y => itemLevel x = itemLevel y → x.endPos ≤ y.startPos ∨ y.endPos ≤ x.startPos
  runs : ∀ p x y q, items = p ++ x :: y :: q → Neighbours x y → x.endPos ≤ y.startPos ∧
    ∀ z ∈ p ++ q, itemLevel z = itemLevel x → z.endPos ≤ x.startPos ∨ y.endPos ≤ z.startPos

/-- No item at its level is after this one. -/
def LastAt (items : List RefItem) (x : RefItem) : Prop :=
  x ∈ items ∧ ∀ y ∈ items, itemLevel y = itemLevel x → y.startPos ≤ x.startPos

/-- Above a level the reference names the last item of each level that is in the list, and nothing at other levels. -/
def UnderLast (items : List RefItem) (r : Reference) (l : RefLevel) : Prop :=
  ∀ m, Above m l → ((∀ x ∈ items, itemLevel x ≠ m) → component r m = none) ∧
    ∀ x, LastAt items x → itemLevel x = m → ∃ p, component r m = some p ∧ Names items p x

/-- The item is at the place of the reference. -/
def Within (x : RefItem) (r : OutgoingReference) : Prop := r.startPos ≤ x.startPos ∧ x.endPos ≤ r.endPos

end Verif.Spec
