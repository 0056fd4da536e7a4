import Verif.Py.Basic

/-! # Dictionaries and sorting -/

namespace Verif

/-- A Python `dict` in order of insertion. -/
abbrev Dict (κ α : Type) := List (κ × α)

namespace Dict
variable {κ α : Type} [DecidableEq κ]

/-- `d.get(k)`. -/
def get? (d : Dict κ α) (k : κ) : Option α := (d.find? (fun e => e.1 = k)).map (·.2)

/-- `d[k] = v`: in place if the key is there, otherwise at the end. -/
def set (d : Dict κ α) (k : κ) (v : α) : Dict κ α :=
  match d with
  | [] => [(k, v)]
  | e :: d => if e.1 = k then (k, v) :: d else e :: set d k v

/-- `del d[k]`. -/
def del (d : Dict κ α) (k : κ) : Dict κ α := d.filter (fun e => e.1 ≠ k)

/-- `d.update(e)`. -/
def update (d e : Dict κ α) : Dict κ α := e.foldl (fun d x => d.set x.1 x.2) d

/-- `list(d)`. -/
def keys (d : Dict κ α) : List κ := d.map (·.1)

end Dict

/-- Insertion into a list in order. -/
def insertRat (x : Rat) : List Rat → List Rat
  | [] => [x]
  | y :: ys => if x ≤ y then x :: y :: ys else y :: insertRat x ys

/-- Python `sorted` of numbers. Equal numbers are the same, so that stability does not matter. -/
def sortRat : List Rat → List Rat
  | [] => []
  | x :: xs => insertRat x (sortRat xs)

end Verif
