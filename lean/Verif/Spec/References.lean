import Verif.Model.Reference

/-! # What references mean, without the code that compares them -/

namespace Verif.Spec

/-- Every identifier in a component. -/
def identsOf : Option Ident → List Str
  | none => []
  | some (.one s) => [s]
  | some (.range x y) => [x, y]

/-- Every identifier in the reference satisfies `P`. -/
def AllIdents (P : Str → Prop) (r : Reference) : Prop := ∀ c ∈ r.components, ∀ s ∈ identsOf c, P s

/-- No component is a range. -/
def Single (r : Reference) : Prop := ∀ c ∈ r.components, ∀ x y, c ≠ some (.range x y)

/-- In every range of the reference the first end is before the last one. -/
def ValidRanges (r : Reference) : Prop := ∀ c ∈ r.components, ∀ x y, c = some (.range x y) → identifierLess x y = .ok true

/-- No component below the act is set below one that is not set. -/
def GapFree (r : Reference) : Prop :=
  (r.article = none → r.paragraph = none) ∧ (r.paragraph = none → r.point = none) ∧
  (r.point = none → r.subpoint = none)

/-- Only the last set component may be a range. -/
def RangeLast (r : Reference) : Prop :=
  ∀ p x y s, r.components = p ++ some (.range x y) :: s → ∀ c ∈ s, c = none

/-- `x` is `y` or before it. -/
def NotAfter (x y : Str) : Prop := x = y ∨ identifierLess x y = .ok true

/-- A component covers another: a single identifier only itself, a range what lies between its ends. -/
def IdentCovers : Ident → Ident → Prop
  | .one x, j => j = .one x
  | .range x y, .one z => NotAfter x z ∧ NotAfter z y
  | .range x y, .range z w => NotAfter x z ∧ NotAfter w y

/-- A component that is not set covers everything. -/
def ComponentCovers (a b : Option Ident) : Prop := ∀ i, a = some i → ∃ j, b = some j ∧ IdentCovers i j

/-- `b` lies below `a`, or below something between the ends of `a`: component by component. -/
def Covers (a b : Reference) : Prop :=
  ComponentCovers (a.act.map .one) (b.act.map .one) ∧ ComponentCovers a.article b.article ∧
  ComponentCovers a.paragraph b.paragraph ∧ ComponentCovers a.point b.point ∧ ComponentCovers a.subpoint b.subpoint

/-- `b` has every component that `a` has. -/
def Extends (a b : Reference) : Prop :=
  (a.act = none ∨ a.act = b.act) ∧ (a.article = none ∨ a.article = b.article) ∧
  (a.paragraph = none ∨ a.paragraph = b.paragraph) ∧ (a.point = none ∨ a.point = b.point) ∧
  (a.subpoint = none ∨ a.subpoint = b.subpoint)

/-- `p` is `r` with components removed from the end, at least one of them set. -/
def IsAncestor (p r : Reference) : Prop :=
  p ≠ r ∧ ∃ k, p.components = r.components.take k ++ List.replicate (5 - k) none

end Verif.Spec
