import Verif.Model.Generated

/-! # When generated files are current -/

namespace Verif.Spec

open Verif.Generated

/-- Every place with the old text has the new one instead, from the left. -/
inductive Replaced (old new : Str) : Str → Str → Prop
  | nil : Replaced old new [] []
  | found {s r} (hs : Replaced old new s r) : Replaced old new (old ++ s) (new ++ r)
  | kept {c s r} (h : ¬ old <+: c :: s) (hs : Replaced old new s r) : Replaced old new (c :: s) (c :: r)

/-- What comes after the first line of `model.py`: what is generated of the grammar, where the types of a function are to be ignored,
which is there. -/
def ModelOf (t : Tools) (x : Input) (text : Str) : Prop :=
  ∃ generated, t.model x = .ok generated ∧ (py"def __init__(self, context=None, types=None):") <:+: generated ∧
    Replaced (py"def __init__(self, context=None, types=None):")
      (py"def __init__(self, context=None, types=None): # type: ignore") generated text

/-- What comes after the first two lines of `parser.py`: what is generated of the grammar without notes that types are to be
ignored. -/
def SourceOf (t : Tools) (x : Input) (text : Str) : Prop :=
  ∃ generated, t.source x = .ok generated ∧ Replaced (py"  # type: ignore") [] generated text

/-- The first line of both files. -/
def firstLine (t : Tools) (x : Input) : Str :=
  (py"# Version of tatsu: ") ++ x.1 ++ (py", SHA256 of grammar file: ") ++ t.sha x.2 ++ (py"\n")

/-- Both files are there and are what is generated of a grammar. -/
def Current (t : Tools) (x : Input) (f : Files) : Prop :=
  ∃ m s, ModelOf t x m ∧ SourceOf t x s ∧ f.model = some (firstLine t x ++ m) ∧
    f.source = some (firstLine t x ++ (py"# type: ignore\n") ++ s)

/-- A process is killed while a file has its first line but not all of its text. -/
def Torn (t : Tools) (x : Input) : Phase → Prop
  | .writeModel n => (firstLine t x).length ≤ n ∧ ∃ m, ModelOf t x m ∧ n < (firstLine t x ++ m).length
  | .writeSource n => (firstLine t x).length ≤ n ∧ (n < (firstLine t x ++ (py"# type: ignore\n")).length ∨
      ∃ s, SourceOf t x s ∧ n < (firstLine t x ++ (py"# type: ignore\n") ++ s).length)
  | _ => False

/-- No two of the hashes are the same, versions have no commas and line ends, and hashes have no line ends. -/
structure Distinct (t : Tools) (allowed : Input → Prop) : Prop where
  hash : ∀ x y, allowed x → allowed y → t.sha x.2 = t.sha y.2 → x.2 = y.2
  comma : ∀ x, allowed x → ',' ∉ x.1
  line : ∀ x, allowed x → '\n' ∉ x.1 ∧ '\n' ∉ t.sha x.2

end Verif.Spec
