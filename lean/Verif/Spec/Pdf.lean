import Verif.Model.Pdf
import Verif.Spec.Lines

/-! # What text boxes mean -/

namespace Verif.Spec

/-- Two boxes are in one line at the same horizontal position, unless they are the same. -/
def NoClash (boxes : List TextBox) : Prop :=
  ∀ a ∈ boxes, ∀ b ∈ boxes, a.x = b.x → a.y - b.y < 1/5 → b.y - a.y < 1/5 → a = b

/-- The boxes form a line with its lowest box at the height: from left to right, none at the same position, all of them less
than 0.2 higher. -/
structure IsRow (base : Rat) (row : List TextBox) : Prop where
  sorted : row.Pairwise (·.x < ·.x)
  band : ∀ b ∈ row, base ≤ b.y ∧ b.y < base + 1/5
  lowest : ∃ b ∈ row, b.y = base

/-- The boxes form these lines, from top to bottom: each box is in one of them, and lines are at least 0.2 apart. -/
structure IsRows (boxes : List TextBox) (rows : List (Rat × List TextBox)) : Prop where
  row : ∀ r ∈ rows, IsRow r.1 r.2
  down : rows.Pairwise fun upper lower => lower.1 + 1/5 ≤ upper.1
  all : ∀ b, b ∈ boxes ↔ ∃ r ∈ rows, b ∈ r.2

/-- Where a space after the box would be. -/
def edge (a : TextBox) : Rat := a.x + a.width + a.widthOfSpace * (1/2)

/-- There is a space between two boxes beside each other. -/
def SpaceBetween (a b : TextBox) : Prop := (edge a < b.x ∨ b.content = ['„']) ∧ a.content.getLast? ≠ some ' '

instance (a b : TextBox) : Decidable (SpaceBetween a b) := by unfold SpaceBetween; infer_instance

/-- The pieces of text of boxes in a line. -/
def typeset : List TextBox → List Placed
  | [] => []
  | [a] => [(a.x, a.content, a.bold)]
  | a :: b :: rest =>
    (a.x, a.content, a.bold) :: (if SpaceBetween a b then [(edge a, [' '], false)] else []) ++ typeset (b :: rest)

/-- Lines at heights from top to bottom, with a blank line where the distance is more than 18 (except below the height 0). -/
def withBlanks : List (Rat × Line) → List Line
  | [] => []
  | [a] => [a.2]
  | a :: b :: rest => a.2 :: (if a.1 ≠ 0 ∧ a.1 - b.1 > 18 then [emptyLine] else []) ++ withBlanks (b :: rest)

end Verif.Spec
