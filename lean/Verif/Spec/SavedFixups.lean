import Verif.Spec.Fixups
import Verif.Spec.Numerals

/-! # How the acts of fix-ups are named -/

namespace Verif.Spec

/-- The full name of an act by its year and number: `2012. évi C. törvény`. -/
def NumberedAct (s : Str) : Prop :=
  ∃ y1 y2 y3 y4 number, (∀ c ∈ [y1, y2, y3, y4], '0' ≤ c ∧ c ≤ '9') ∧ 0 < number ∧
    s = [y1, y2, y3, y4] ++ (py". évi ") ++ roman number ++ (py". törvény")

end Verif.Spec
