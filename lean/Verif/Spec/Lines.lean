import Verif.Model.Line

/-! # What lines mean, independently of how the code works on them -/

namespace Verif.Spec

/-- A piece of text at an absolute horizontal position, with its weight. -/
abbrev Placed := Rat × Str × Bool

/-- Where the parts stand on the page if the first distance is measured from `x`. -/
def place (x : Rat) : List Part → List Placed
  | [] => []
  | p :: ps => (x + p.dx, p.content, p.bold) :: place (x + p.dx) ps

/-- The text of placed pieces. -/
def placedText (ps : List Placed) : Str := ps.flatMap (·.2.1)

/-- `k` is a border between two parts of the line, or one of its ends. -/
def Border (l : Line) (k : Nat) : Prop :=
  ∃ pre post, l.parts = pre ++ post ∧ (pre.flatMap (·.content)).length = k

/-- The position is inside the last part of the line, not at its ends. -/
def InsideLastPart (l : Line) (k : Nat) : Prop :=
  ∃ pre last, l.parts = pre ++ [last] ∧ (pre.flatMap (·.content)).length < k ∧ k < l.content.length

/-- A quote mark opens or closes a level. -/
def quoteDelta (c : Char) : Int := if c = '„' ∨ c = '“' then 1 else if c = '”' then -1 else 0

/-- Quotes opened and not closed in the text of the lines (negative if more are closed). -/
def openQuotes (lines : List Line) : Int := ((lines.flatMap (·.content)).map quoteDelta).sum

/-- Texts of lines joined by a space, or by nothing after a hyphen. -/
def joined : List Str → Str
  | [] => []
  | [s] => s
  | s :: t :: rest => s ++ (if s.getLast? = some '-' then [] else [' ']) ++ joined (t :: rest)

end Verif.Spec
