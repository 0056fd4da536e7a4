import Verif.Model.Workers

/-! # Processes that do not disturb each other (C95) -/

namespace Verif.Spec

/-- A process for an issue does not meet another one that reads this issue; or the lines of the issue are in the cache, and no
process is writing files of this issue. -/
def Undisturbed {α : Type} (m : Machine α) (i : Issue) : Prop :=
  (∀ q ∈ m.running, q.1 ≠ i) ∨
    (m.store ((py"MK/") ++ intStr i.1 ++ (py"/") ++ intStr i.2 ++ (py".pdf.parsed_v5.gz")) ≠ none ∧
      ∀ q ∈ m.running, q.1 = i → ¬ q.2.writing)

end Verif.Spec
