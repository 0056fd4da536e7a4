import Verif.Py.Basic

/-! # Extraction: /repo/hun_law/extractors/all.py and /repo/hun_law/extractors/__init__.py -/

namespace Verif

/-- The objects, their classes, `extractors_for_class` (`__init__.py`:21) and `result_classes`. Extractor functions are
generators without side effects: caches and files are left out here (see C47), and so is pickling. -/
structure Extraction (α κ : Type) where
  classOf : α → κ
  extractors : κ → Option (List (α → Gen α))
  resultClasses : List κ

variable {α κ : Type} [DecidableEq κ]

/-- The two inner loops of `do_work` (all.py:48-50): what is appended to the queue. -/
def appendExtracted (data : α) : List (α → Gen α) → List α → Res (List α)
  | [], queue => .ok queue
  | fn :: fns, queue =>
    match (fn data).stop with
    | some e => .error e
    | none => appendExtracted data fns (queue ++ (fn data).yields)

/-- One object that is not a result (all.py:48-50); a class without extractors is a `KeyError`. -/
def Extraction.expand (x : Extraction α κ) (data : α) (queue : List α) : Res (List α) :=
  match x.extractors (x.classOf data) with
  | none => .error .keyError
  | some fns => appendExtracted data fns queue

/-- `do_work` (all.py:39-50): what it yields within this number of turns of the `while` loop, `none` if it needs more.
The end of the queue is the end of the list. -/
def Extraction.doWork (x : Extraction α κ) : Nat → List α → Option (Gen α)
  | n, queue =>
    match queue.getLast?, n with
    | none, _ => some ⟨[], none⟩
    | some _, 0 => none
    | some data, n + 1 =>
      if x.classOf data ∈ x.resultClasses then
        (x.doWork n queue.dropLast).map fun g => ⟨data :: g.yields, g.stop⟩
      else match x.expand data queue.dropLast with
        | .ok queue => x.doWork n queue
        | .error e => some ⟨[], some e⟩

/-- A pool of processes (all.py:53-56): the objects not yet given to a worker, those being worked on, what has been yielded,
and the exception. -/
structure PoolState (α : Type) where
  pending : List α
  running : List α
  out : List α
  failed : Option Err

/-- One step of the pool. Workers take objects in order; they finish in any order, and `imap_unordered` yields the list of
results of a worker when it finishes, or raises its exception. -/
inductive PoolStep (x : Extraction α κ) (workers : Nat) : PoolState α → PoolState α → Prop
  | start {o p r out} (h : r.length < workers) :
      PoolStep x workers ⟨o :: p, r, out, none⟩ ⟨p, r ++ [o], out, none⟩
  | finish {n o p r₁ r₂ out ys} (h : x.doWork n [o] = some ⟨ys, none⟩) :
      PoolStep x workers ⟨p, r₁ ++ o :: r₂, out, none⟩ ⟨p, r₁ ++ r₂, out ++ ys, none⟩
  | fail {n o p r₁ r₂ out ys e} (h : x.doWork n [o] = some ⟨ys, some e⟩) :
      PoolStep x workers ⟨p, r₁ ++ o :: r₂, out, none⟩ ⟨p, r₁ ++ r₂, out, some e⟩

/-- Executions of the pool, with the number of steps. -/
inductive PoolRun (x : Extraction α κ) (workers : Nat) : Nat → PoolState α → PoolState α → Prop
  | refl (s) : PoolRun x workers 0 s s
  | step {n s t u} (h : PoolStep x workers s t) (hs : PoolRun x workers n t u) : PoolRun x workers (n + 1) s u

/-- Nothing is left to do, or an exception has been raised. -/
def PoolState.finished (s : PoolState α) : Prop := s.failed.isSome ∨ (s.pending = [] ∧ s.running = [])

/-- `do_extraction` (all.py:59-64): its possible results. -/
def Extraction.Extracts (x : Extraction α κ) (objects : List α) (workers : Nat) (g : Gen α) : Prop :=
  if workers > 1 ∧ objects.length > 1 then
    ∃ n s, PoolRun x (min workers objects.length) n ⟨objects, [], [], none⟩ s ∧ s.finished ∧ g = ⟨s.out, s.failed⟩
  else ∃ n, x.doWork n objects = some g

end Verif
