import Verif.Spec.Understood
import Verif.Spec.Amendments

/-! # What stops the making of an act -/

namespace Verif.Spec

/-- The paragraphs of an article; other children of an act have none. -/
def paragraphsOf : Node → List Node
  | .article _ _ ps => ps
  | _ => []

/-- The paragraphs of an act, in order. -/
def actParagraphs (a : Act) : List Node := a.children.flatMap paragraphsOf

/-- What stops the reading of a quotation in a paragraph, and the exception: it has no introduction; the introduction cannot be analysed; it
announces an amendment, and there are several quotations, or the only one cannot be read as what is announced. -/
inductive AmendmentStopped (analyze : Analyzer) : Node → Err → Prop
  | noIntroduction {k d cs} (some : cs ≠ []) (quoted : ∀ c ∈ cs, c.type = .quoted) (h : d.intro = none) :
      AmendmentStopped analyze (.sae k d cs) .assertionError
  | notAnalysed {k d cs intro actual e} (some : cs ≠ []) (quoted : ∀ c ∈ cs, c.type = .quoted) (h : d.intro = .some intro)
      (short : intro.length ≤ 10000) (ha : Announcement intro actual) (he : analyze actual = .error e) :
      AmendmentStopped analyze (.sae k d cs) e
  | several {n position} (h : Announces analyze n position) (hs : ∀ lines, n.children ≠ [.quoted lines]) :
      AmendmentStopped analyze n .assertionError
  | notRead {n position lines} (h : Announces analyze n position) (hc : n.children = [.quoted lines])
      (hn : ∀ cs, blockChildren position lines ≠ .ok cs) : AmendmentStopped analyze n .blockAmendmentParsing

/-- What stops the reading of an element, and the exception: its text ends its sentence and is only the end of a list, or its sentence is looked
at and cannot be analysed. -/
inductive SentenceStopped (analyze : Analyzer) (e : Entry) : Err → Prop
  | nothing {t} (own : HasOwn e.data t) (last : Last e) (h : ListItem t []) : SentenceStopped analyze e .indexError
  | notAnalysed {s stop x} (more : ∀ t, HasOwn e.data t → Last e → ¬ ListItem t []) (h : SentenceOf e s stop) (looked : LookedAt s)
      (hx : analyze s = .error x) : SentenceStopped analyze e x

/-- The first of these that is stopped is stopped by this exception. -/
def FirstStop {α : Type} (stops : α → Err → Prop) (l : List α) (e : Err) : Prop :=
  ∃ before x after, l = before ++ x :: after ∧ (∀ y ∈ before, ∀ e', ¬ stops y e') ∧ stops x e

end Verif.Spec
