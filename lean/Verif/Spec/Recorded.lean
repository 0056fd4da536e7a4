import Verif.Spec.Semantics
import Verif.Spec.Changes

/-! # The sentences of elements -/

namespace Verif.Spec

/-- The marks that end sentences. -/
def EndsSentence (s : Str) : Prop := ∃ c ∈ py".:!?", s.getLast? = some c

/-- A text at its place in a sentence: it gets a full stop if nothing is after it and it does not end a sentence. -/
inductive InSentence (core after : Str) : Str → Prop
  | asIs (h : after = [] → EndsSentence core) : InSentence core after core
  | stopped (h : after = []) (hn : ¬ EndsSentence core) : InSentence core after (core ++ py".")

/-- The sentence that an element is in, and where the element ends in it. The text of a point is read between the intros and the wrap-ups
around it, and an intro after the intros before it. -/
inductive SentenceOf (e : Entry) : Str → Nat → Prop
  | text {t core m} (own : e.data.text = some t) (h : ListItem t core) (hm : InSentence core e.after m) :
      SentenceOf e (e.before ++ m ++ e.after) (e.before ++ m).length
  | intro {t core m} (own : e.data.text = none) (own' : e.data.intro = some t) (h : ListItem t core) (hm : InSentence core [] m) :
      SentenceOf e (e.before ++ m) (e.before ++ m).length

/-- The references, the semantic data and the abbreviations of an element are those of the analysis of its sentence that ends there,
with the abbreviations of the act resolved. -/
def Records (defs : List ActIdAbbreviation) (r : Analysis) (stop : Nat) (e : Entry) : Prop :=
  ∃ refs semantic recorded, e.data.references = some refs ∧ e.data.semantic = some semantic ∧
    e.data.abbreviations = some r.abbreviations ∧ Both (SemanticResolved defs) r.semantic semantic ∧
    Both (Recorded defs e.before)
      (r.references.filter fun x => (e.before.length : Int) < x.endPos ∧ x.endPos ≤ (stop : Int)) recorded ∧
    refs.Perm recorded ∧ refs.Pairwise InOrder

/-- A component that is named by a number with a full stop, as in `5. pont`. -/
def Numbered (s : Str) : Ident → Prop
  | .one id => ∃ i j, told s i j = id ++ py"."
  | .range _ y => ∃ i j, told s i j = y ++ py"."

end Verif.Spec
