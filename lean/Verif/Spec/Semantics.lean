import Verif.Model.SemanticParser
import Verif.Spec.Parser

/-! # What adding semantic data should mean -/

namespace Verif.Spec

mutual
/-- An element without semantic data. What is in a block amendment is left alone. -/
def strip : Node → Node
  | .sae k d cs =>
    if k = .blockAmendmentContainer then .sae k d cs
    else .sae k { d with references := none, semantic := none, abbreviations := none } (stripL cs)
  | n => n

/-- The same for siblings. -/
def stripL : List Node → List Node
  | [] => []
  | c :: cs => strip c :: stripL cs
end

/-- An article without semantic data; other children of an act have none. -/
def stripArticle : Node → Node
  | .article i t ps => .article i t (stripL ps)
  | n => n

/-- An act without semantic data. -/
def stripAct (a : Act) : Act := { a with children := a.children.map stripArticle }

/-- An element with the texts that stand before and after it in its sentence. -/
structure Entry where
  before : Str
  data : SaeData
  after : Str

/-- What is before the children: the intro and a space are added. -/
def withIntro (before : Str) : Option Str → Str
  | some i => before ++ i ++ py" "
  | none => before

/-- What is after the children: a space and the wrap-up are added. -/
def withWrapUp (after : Str) : Option Str → Str
  | some w => py" " ++ w ++ after
  | none => after

mutual
/-- The element and what is in it that can have semantic data, in the order of the document: not block amendments and
what is in them. -/
def elements (before after : Str) : Node → List Entry
  | .sae k d cs =>
    if k = .blockAmendmentContainer then []
    else ⟨before, d, after⟩ :: elementsL (withIntro before d.intro) (withWrapUp after d.wrapUp) cs
  | _ => []

/-- The same for siblings. -/
def elementsL (before after : Str) : List Node → List Entry
  | [] => []
  | c :: cs => elements before after c ++ elementsL before after cs
end

/-- The elements of an article; other children of an act have none. -/
def articleElements : Node → List Entry
  | .article _ _ ps => elementsL [] [] ps
  | _ => []

/-- All elements of an act that can have semantic data, in the order of the document. -/
def actElements (a : Act) : List Entry := a.children.flatMap articleElements

/-- The definitions recorded on the elements, in the order of the document. -/
def definitions (es : List Entry) : List ActIdAbbreviation := es.flatMap fun e => e.data.abbreviations.getD []

/-- The text that the references of an element point into. -/
def ownText (d : SaeData) : Str := d.text.getD (d.intro.getD [])

/-! ## Abbreviations -/

/-- The act that an abbreviation was last defined to mean. -/
def Latest (defs : List ActIdAbbreviation) (name act : Str) : Prop :=
  ∃ before d after, defs = before ++ d :: after ∧ d.abbreviation = name ∧ d.act = act ∧
    ∀ e ∈ after, e.abbreviation ≠ name

/-- An abbreviated act name is replaced by what it was last defined to mean, others are left alone. -/
inductive ActResolved (defs : List ActIdAbbreviation) : Option Str → Option Str → Prop
  | relative : ActResolved defs none none
  | defined {name act} (h : Latest defs name act) : ActResolved defs (some name) (some act)
  | other {name} (h : ∀ d ∈ defs, d.abbreviation ≠ name) : ActResolved defs (some name) (some name)

/-- Only the act changes. -/
def RefResolved (defs : List ActIdAbbreviation) (r r' : Reference) : Prop :=
  ActResolved defs r.act r'.act ∧ r' = { r with act := r'.act }

/-- The same for positions. -/
inductive PositionResolved (defs : List ActIdAbbreviation) : Position → Position → Prop
  | ref {r r'} (h : RefResolved defs r r') : PositionResolved defs (.ref r) (.ref r')
  | struct {r r' : StructuralReference} (h : ActResolved defs r.act r'.act) (same : r' = { r with act := r'.act }) :
      PositionResolved defs (.struct r) (.struct r')

/-- The same for semantic data; what comes into force is always a part of the act itself. -/
inductive SemanticResolved (defs : List ActIdAbbreviation) : SemanticData → SemanticData → Prop
  | blockAmendment {p p' i} (h : PositionResolved defs p p') :
      SemanticResolved defs (.blockAmendment p i) (.blockAmendment p' i)
  | enforcementDate (p d r) : SemanticResolved defs (.enforcementDate p d r) (.enforcementDate p d r)
  | textAmendment {p p' o r} (h : RefResolved defs p p') : SemanticResolved defs (.textAmendment p o r) (.textAmendment p' o r)
  | articleTitleAmendment {p p' o r} (h : RefResolved defs p p') :
      SemanticResolved defs (.articleTitleAmendment p o r) (.articleTitleAmendment p' o r)
  | repeal {p p' t} (h : PositionResolved defs p p') : SemanticResolved defs (.repeal p t) (.repeal p' t)

/-! ## Sentences -/

/-- What may end an element of a list. -/
def listEnds : List Str := [py" és", py" valamint", py" illetve", py" vagy", py";", py","]

/-- The text without some endings of list elements. -/
inductive Trimmed : Str → Str → Prop
  | same (s) : Trimmed s s
  | shorter {s t} (junk) (hj : junk ∈ listEnds) (h : Trimmed s (t ++ junk)) : Trimmed s t

/-- An element of a list and what it says: this does not end like an element of a list, and after it there may be a comma
or a semicolon and then a conjunction. -/
def ListItem (own core : Str) : Prop :=
  (∀ j ∈ listEnds, ¬ j <:+ core) ∧
    ∃ mark ∈ [[], py",", py";"], ∃ conjunction ∈ [[], py" és", py" valamint", py" illetve", py" vagy"],
      own = core ++ mark ++ conjunction

/-- How an element is written in its sentence: its list ending is cut off, and it gets a full stop if it should end the
sentence and does not. -/
def Written (own after m : Str) : Prop :=
  ∃ t, Trimmed own t ∧ (∀ core, ListItem own core → t = core) ∧
    ((m = t ∧ (after = [] → ∃ c ∈ py".:!?", t.getLast? = some c)) ∨
      (after = [] ∧ m = t ++ py"." ∧ ∀ c ∈ py".:!?", t.getLast? ≠ some c))

/-- Sentences without these are taken to say nothing. -/
def tellingWords : List Str := [py")", py"§", py"törvén", py"hely", py"hatály", py"Hatály"]

/-- The sentences that are looked at. -/
def LookedAt (s : Str) : Prop := s.length ≤ 10000 ∧ ∃ w ∈ tellingWords, w <:+: s

/-- What is taken to be said in a sentence: what the analyser says, but nothing if it is not looked at. -/
inductive SaidIn (analyze : Analyzer) (s : Str) : Analysis → Prop
  | said {r} (h : LookedAt s) (said : analyze s = .ok r) : SaidIn analyze s r
  | nothing (h : ¬ LookedAt s) : SaidIn analyze s {}

/-- What is said on an element, and where the element ends in its sentence. The text is read with all that is around it,
an intro with what is before it only. Nothing is said on elements without either. -/
inductive Said (analyze : Analyzer) (e : Entry) : Analysis → Nat → Prop
  | text {t m r} (own : e.data.text = some t) (h : Written t e.after m)
      (said : SaidIn analyze (e.before ++ m ++ e.after) r) : Said analyze e r (e.before.length + m.length)
  | intro {i m r} (own : e.data.text = none) (own' : e.data.intro = some i) (h : Written i [] m)
      (said : SaidIn analyze (e.before ++ m) r) : Said analyze e r (e.before.length + m.length)
  | bare (own : e.data.text = none) (own' : e.data.intro = none) : Said analyze e {} e.before.length

/-- A reference of the analysis, as it is recorded. -/
def Recorded (defs : List ActIdAbbreviation) (before : Str) (x x' : OutgoingReference) : Prop :=
  x'.startPos = max (x.startPos - before.length) 0 ∧ x'.endPos = x.endPos - before.length ∧
    RefResolved defs x.reference x'.reference

/-- One reference is not after the other: they are ordered by start, then by end. -/
def InOrder (x y : OutgoingReference) : Prop := x.startPos < y.startPos ∨ (x.startPos = y.startPos ∧ x.endPos ≤ y.endPos)

/-- The element with data from the analysis, resolved by the definitions: all semantic data, and the references that end
in the element, in order. -/
def Annotated (defs : List ActIdAbbreviation) (r : Analysis) (stop : Nat) (e e' : Entry) : Prop :=
  ∃ refs semantic recorded,
    e' = ⟨e.before, { e.data with
      references := some refs, semantic := some semantic, abbreviations := some r.abbreviations }, e.after⟩ ∧
    Both (SemanticResolved defs) r.semantic semantic ∧
    Both (Recorded defs e.before)
      (r.references.filter fun x => (e.before.length : Int) < x.endPos ∧ x.endPos ≤ (stop : Int)) recorded ∧
    refs.Perm recorded ∧ refs.Pairwise InOrder

/-- One after another the elements are annotated with what the analyser says on them. The definitions are those known
before, then those of each element. -/
inductive Read (analyze : Analyzer) : List ActIdAbbreviation → List Entry → List Entry → Prop
  | nil (defs) : Read analyze defs [] []
  | cons {defs e e' es es' r stop} (said : Said analyze e r stop) (h : Annotated (defs ++ r.abbreviations) r stop e e')
      (rest : Read analyze (defs ++ r.abbreviations) es es') : Read analyze defs (e :: es) (e' :: es')

end Verif.Spec
