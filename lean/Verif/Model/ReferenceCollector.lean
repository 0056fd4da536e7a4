import Verif.Model.Structure

/-! # Collecting reference lists (grammatical_analyzer.py) -/

namespace Verif

/-- The values of `ref_type`: the names of the subclasses of `ReferencePart` in the grammar (grammar.ebnf:66-110) without
their ending, in lower case (grammatical_analyzer.py:171). -/
inductive PartKind
  | article | paragraph | alphabeticPoint | numericPoint | alphabeticSubpoint | numericSubpoint
  deriving DecidableEq, Repr

/-- The four lists of a `ReferenceCollector`; the other attributes are aliases (grammatical_analyzer.py:69-76). -/
inductive RefLevel
  | articles | paragraphs | points | subpoints
  deriving DecidableEq, Repr

/-- `getattr(self, ref_type + 's')`. -/
def PartKind.level : PartKind → RefLevel
  | .article => .articles
  | .paragraph => .paragraphs
  | .alphabeticPoint | .numericPoint => .points
  | .alphabeticSubpoint | .numericSubpoint => .subpoints

/-- An item of a list: `(ref_data, start_pos, end_pos)`. -/
structure LevelValue where
  data : Option Ident
  startPos : Int
  endPos : Int
  deriving DecidableEq, Repr

/-- `ReferenceCollectorDeferredItem` (grammatical_analyzer.py:50-55), and the arguments of `add_item`. -/
structure RefItem where
  kind : PartKind
  data : Ident
  startPos : Int
  endPos : Int
  deriving DecidableEq, Repr

/-- `ReferenceCollector` (grammatical_analyzer.py:58-77). -/
structure Collector where
  act : Option Str := none
  lists : RefLevel → List LevelValue := fun _ => [⟨none, 0, 0⟩]
  deferred : Option RefItem := none

/-- `is_next_identifier` of the class in `NAME_TO_STRUCTURE`, `False` if there is none (grammatical_analyzer.py:59-65,
95-99). -/
def PartKind.isNext (k : PartKind) (a b : Str) : Res Bool :=
  match k with
  | .article => articleIsNext a b
  | .paragraph => SaeKind.isNextIdentifier .paragraph a b
  | .alphabeticPoint => SaeKind.isNextIdentifier .alphabeticPoint a b
  | .numericPoint => SaeKind.isNextIdentifier .numericPoint a b
  | .alphabeticSubpoint => SaeKind.isNextIdentifier .alphabeticSubpoint a b
  | .numericSubpoint => .ok false

/-- `mergeable_into_deferred` and `merge_to_deferred` (grammatical_analyzer.py:88-105): the merged item if there is one. -/
def Collector.merged (c : Collector) (x : RefItem) : Res (Option RefItem) :=
  match c.deferred with
  | none => .ok none
  | some d =>
    if d.kind ≠ x.kind then .ok none
    else match d.data, x.data with
      | .one a, .one b => do
        if ← x.kind.isNext a b then .ok (some { d with data := .range a b, endPos := x.endPos }) else .ok none
      | _, _ => .ok none

/-- The change of a list in `commit_deferred_item` (grammatical_analyzer.py:116-119). -/
def addValue (l : List LevelValue) (v : LevelValue) : Res (List LevelValue) :=
  match l with
  | [] => .error .indexError
  | f :: rest => .ok (if f.data.isNone then v :: rest else l ++ [v])

/-- `commit_deferred_item` (grammatical_analyzer.py:107-120). -/
def Collector.commit (c : Collector) : Res Collector :=
  match c.deferred with
  | none => .ok c
  | some d => do
    let l ← addValue (c.lists d.kind.level) ⟨some d.data, d.startPos, d.endPos⟩
    .ok { c with lists := fun k => if k = d.kind.level then l else c.lists k, deferred := none }

/-- `add_item` (grammatical_analyzer.py:79-86). -/
def Collector.add (c : Collector) (x : RefItem) : Res Collector := do
  match ← c.merged x with
  | some d => ({ c with deferred := some d } : Collector).commit
  | none => do
    let c ← c.commit
    .ok { c with deferred := some x }

/-- All calls of `add_item` in a row. -/
def Collector.addAll (c : Collector) : List RefItem → Res Collector
  | [] => .ok c
  | x :: xs => do
    let c ← c.add x
    c.addAll xs

/-- One step of `sortValues`. -/
def insertValue (v : LevelValue) : List LevelValue → List LevelValue
  | [] => [v]
  | w :: ws => if v.startPos ≤ w.startPos then v :: w :: ws else w :: insertValue v ws

/-- `level_vals.sort(key=lambda x: x[1])`, a stable sort. -/
def sortValues : List LevelValue → List LevelValue
  | [] => []
  | v :: vs => insertValue v (sortValues vs)

/-- `ref_args[arg_pos] = …`. -/
def RefLevel.set (l : RefLevel) (r : Reference) (x : Option Ident) : Reference :=
  match l with
  | .articles => { r with article := x }
  | .paragraphs => { r with paragraph := x }
  | .points => { r with point := x }
  | .subpoints => { r with subpoint := x }

/-- The inner loop of `iter` with what is after it, on a sorted list with at least two items
(grammatical_analyzer.py:132-138). It gives the references, `start_override` and the last item. -/
def iterValues (level : RefLevel) (args : Reference) : Option Int → List LevelValue →
    List OutgoingReference × Option Int × Option LevelValue
  | o, [] => ([], o, none)
  | o, [v] => ([], o, some v)
  | o, v :: w :: vs =>
    let x := iterValues level args none (w :: vs)
    (⟨o.getD v.startPos, v.endPos, level.set args v.data⟩ :: x.1, x.2)

/-- One level of `iter` (grammatical_analyzer.py:127-140). -/
def iterLevel (level : RefLevel) (args : Reference) (o : Option Int) (vals : List LevelValue) :
    List OutgoingReference × Option Int × Option LevelValue :=
  match vals with
  | [v] => ([], o, some v)
  | vals => iterValues level args o (sortValues vals)

/-- The outer loop of `iter` and its end (grammatical_analyzer.py:126-142). The result is the list of what the generator
yields; nothing can be raised after the first reference but the last `assert`, which never fails. -/
def Collector.iterLevels (c : Collector) (endOverride : Int) : List RefLevel → Option Int → Reference →
    Res (List OutgoingReference)
  | [], some o, args => .ok [⟨o, endOverride, args⟩]
  | [], none, _ => .error .assertionError
  | l :: ls, o, args => do
    let x := iterLevel l args o (c.lists l)
    match x.2.2 with
    | none => .error .indexError
    | some last =>
      let o := match x.2.1 with
        | some s => s
        | none => last.startPos
      let rest ← c.iterLevels endOverride ls (some o) (l.set args last.data)
      .ok (x.1 ++ rest)

/-- `iter` (grammatical_analyzer.py:122-142). -/
def Collector.iter (c : Collector) (startOverride : Option Int) (endOverride : Int) : Res (List OutgoingReference) := do
  let c ← c.commit
  c.iterLevels endOverride [.articles, .paragraphs, .points, .subpoints] startOverride { act := c.act }

/-- A `model.ReferencePart`: the items as texts with their positions (grammar.ebnf:66-110). The two lists are separate, as in
the grammar. -/
structure ParsedPart where
  kind : PartKind
  singles : List (Str × Int × Int)
  ranges : List ((Str × Str) × Int × Int)
  deriving DecidableEq, Repr

/-- The items of a part in the order in which they are added (grammatical_analyzer.py:172-180). -/
def ParsedPart.items (p : ParsedPart) : List RefItem :=
  (p.singles.map fun s => ⟨p.kind, .one s.1, s.2.1, s.2.2⟩) ++
    p.ranges.map fun r => ⟨p.kind, .range r.1.1 r.1.2, r.2.1, r.2.2⟩

/-- `convert_single_in_text_reference` (grammatical_analyzer.py:182-190): `parts`, `start` and `stop` are the children and the
position of `parsed_ref`. -/
def convertSingle (act : Option Str) (parts : List ParsedPart) (start stop : Int) : Res (List OutgoingReference) := do
  let c ← ({ act := act } : Collector).addAll (parts.flatMap ParsedPart.items)
  c.iter (some start) stop

/-- The loop of `convert_multiple_in_text_references` over what one reference gives (grammatical_analyzer.py:205-208). -/
def relativize : Reference → List OutgoingReference → List OutgoingReference × Reference
  | last, [] => ([], last)
  | last, x :: xs =>
    let fixed := x.reference.relativeTo last
    let y := relativize fixed xs
    ({ x with reference := fixed } :: y.1, y.2)

/-- `convert_multiple_in_text_references` (grammatical_analyzer.py:192-208). -/
def convertMultiple : Reference → List (List ParsedPart × Int × Int) → Res (List OutgoingReference)
  | _, [] => .ok []
  | last, r :: rs => do
    let xs ← convertSingle none r.1 r.2.1 r.2.2
    let y := relativize last xs
    let rest ← convertMultiple y.2 rs
    .ok (y.1 ++ rest)

/-- `convert_potential_in_text_reference` (grammatical_analyzer.py:210-223) for a reference that is there. -/
def convertPotential (act : Option Str) (parts : List ParsedPart) (start stop : Int) : Res (Option OutgoingReference) := do
  match ← convertSingle act parts start stop with
  | [x] => .ok (some x)
  | _ => .ok none

end Verif
