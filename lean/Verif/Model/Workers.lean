import Verif.Model.Cache

/-! # Several processes with one cache: /repo/hun_law/extractors/all.py lines 53-56, cli.py lines 82-102

`_do_extraction_multithreaded` gives each issue to one of several processes, which all use the same cache directory; the program
may also be started several times. The steps of a process are those of `Step`. Nothing in the code keeps two processes from
reading the same issue at the same time: the issues named on the command line need not be different.

Simplified: looking whether a file is there and opening it for writing is one step, and so is the reading of a file. -/

namespace Verif

/-- The processes that run, each with its issue, and the files they share. -/
structure Machine (α : Type) where
  running : List (Issue × Phase α)
  store : Store

/-- What can happen, in any order: a process is started, if this is allowed now; one of the processes makes a step; one that is done
gives its result; one is killed, if this is allowed in its phase. The results with their issues, in order. -/
inductive Runs {α : Type} (w : World α) (start : Machine α → Issue → Prop) (kill : Phase α → Prop) :
    Machine α → List (Issue × Res α) → Machine α → Prop
  | refl (x) : Runs w start kill x [] x
  | started {x rs ps s} (h : Runs w start kill x rs ⟨ps, s⟩) (i : Issue) (hi : start ⟨ps, s⟩ i) :
      Runs w start kill x rs ⟨(i, .start) :: ps, s⟩
  | stepped {x rs ps qs i p p' s s'} (h : Runs w start kill x rs ⟨ps ++ (i, p) :: qs, s⟩) (hs : Step w i (p, s) (p', s')) :
      Runs w start kill x rs ⟨ps ++ (i, p') :: qs, s'⟩
  | ended {x rs ps qs i r s} (h : Runs w start kill x rs ⟨ps ++ (i, .done r) :: qs, s⟩) :
      Runs w start kill x (rs ++ [(i, r)]) ⟨ps ++ qs, s⟩
  | killed {x rs ps qs i p s} (h : Runs w start kill x rs ⟨ps ++ (i, p) :: qs, s⟩) (hp : kill p) :
      Runs w start kill x rs ⟨ps ++ qs, s⟩

end Verif
