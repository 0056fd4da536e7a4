import Verif.Model.Style
import Verif.Spec.Page

/-! # What a style sheet says about a page -/

namespace Verif.Spec

/-- There is a rule for the class that sets the property. -/
def Sets (cls property value : Str) : Prop := ∃ rule ∈ styleRules, '.' :: cls ∈ rule.1 ∧ (property, value) ∈ rule.2

/-- Elements of the class are grids of five columns. -/
def IsGrid (cls : Str) : Prop :=
  Sets cls (py"display") (py"inline-grid") ∧ Sets cls (py"grid-template-columns") (py"70px 40px 30px 30px auto [end]")

/-- Elements of the class begin in this column of a grid, by all rules that say where. -/
def BeginsIn (cls : Str) (column : Nat) : Prop :=
  (∃ v, Sets cls (py"grid-column") v) ∧
    ∀ v, Sets cls (py"grid-column") v → v = natStr column ∨ v = natStr column ++ py" / end"

/-- The elements directly in an element. -/
def partsOf : Elem → List Elem
  | .mk _ _ _ es _ => es

/-- `e` is the element or somewhere in it. -/
inductive PartOf (e : Elem) : Elem → Prop
  | self : PartOf e e
  | deeper {d f} (hd : d ∈ partsOf f) (h : PartOf e d) : PartOf e f

/-- The class of an element. -/
def classOf (e : Elem) : Option Str := attrOf (py"class") e

end Verif.Spec
