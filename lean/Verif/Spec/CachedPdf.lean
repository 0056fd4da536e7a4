import Verif.Model.CachedPdf
import Verif.Spec.Pdf

/-! # What is printed (C96) -/

namespace Verif.Spec

/-- The boxes form a row of one of these pages, from left to right. -/
def RowOf (pages : List (List TextBox)) (row : List TextBox) : Prop :=
  ∃ boxes ∈ pages, ∃ rows, IsRows boxes rows ∧ ∃ base, (base, row) ∈ rows

/-- The line consists of what is printed in one row of one of these pages, and of spaces where there are gaps. -/
def PrintedLine (pages : List (List TextBox)) (l : Line) : Prop := ∃ row, RowOf pages row ∧ place 0 l.parts = typeset row

end Verif.Spec
