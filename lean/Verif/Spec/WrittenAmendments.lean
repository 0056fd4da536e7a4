import Verif.Spec.Amendments
import Verif.Spec.Structural
import Verif.Spec.Usual

/-! # What acts with amendments are, from what is written -/

namespace Verif.Spec

/-- The introduction of a paragraph with quoted text is divided into what announces the amendment and the introduction of the amended text in
brackets. The wrap-up belongs to the amended text, without the brackets around it. -/
def IntroductionDivided (d : SaeData) (actual : Str) (inner wrapUp : Option Str) : Prop :=
  ∃ intro, d.intro = some intro ∧
    ((∃ i, HasContext intro actual i ∧ inner = some i ∧ wrapUp = d.wrapUp.map fun w => (w.drop 1).dropLast) ∨
      ((∀ a i, ¬ HasContext intro a i) ∧ actual = intro ∧ inner = none ∧ wrapUp = none))

/-- What becomes of a paragraph when the amendments are made. -/
inductive ParagraphAfter (analyze : Analyzer) : Node → Node → Prop
  /-- nothing is quoted, or not only quotations are below the paragraph -/
  | plain {k d cs} (other : cs = [] ∨ ∃ c ∈ cs, c.type ≠ .quoted) : ParagraphAfter analyze (.sae k d cs) (.sae k d cs)
  /-- too long to be looked at -/
  | long {k d cs intro} (introduced : d.intro = some intro) (length : intro.length > 10000) : ParagraphAfter analyze (.sae k d cs) (.sae k d cs)
  /-- no amendment is announced -/
  | silent {k d cs intro actual} {analysis : Analysis} (introduced : d.intro = some intro) (announcement : Announcement intro actual)
      (analysed : analyze actual = .ok analysis) (none : ∀ x ∈ analysis.semantic, ∀ p q, x ≠ .blockAmendment p q) :
      ParagraphAfter analyze (.sae k d cs) (.sae k d cs)
  /-- an amendment is announced, and the quoted lines are what is written at its position -/
  | amended {d lines position actual inner wrapUp cs} (announces : Announces analyze (.sae .paragraph d [.quoted lines]) position)
      (divided : IntroductionDivided d actual inner wrapUp) (fine : ∀ l ∈ lines, Fine l) (written : AmendmentWritten position lines cs) :
      ParagraphAfter analyze (.sae .paragraph d [.quoted lines])
        (.sae .paragraph { d with intro := some actual, wrapUp := some [] } [.sae .blockAmendmentContainer { intro := inner, wrapUp := wrapUp } cs])

/-- What becomes of an article or a structural element when the amendments are made. -/
inductive ElementAfterAmendments (analyze : Analyzer) : Node → Node → Prop
  | article {i t ps ps'} (paragraphs : Both (ParagraphAfter analyze) ps ps') : ElementAfterAmendments analyze (.article i t ps) (.article i t ps')
  | structural (s : StructuralElement) : ElementAfterAmendments analyze (.structural s) (.structural s)

/-! ## Announced in a sentence -/

/-- The kinds of parts that references name and that amendments have. -/
def amendedLevel : PartKind → Reference.Level
  | .article => .article
  | .paragraph => .paragraph
  | .alphabeticPoint => .alphabeticPoint
  | .numericPoint => .numericPoint
  | .alphabeticSubpoint => .alphabeticSubpoint
  | .numericSubpoint => .numericSubpoint

/-- The lowest part that is named is of the given kind, and the first one of its items is `i`. -/
def LowestNamed (ps : List ParsedPart) (t : Reference.Level) (i : Str) : Prop :=
  ∃ q ∈ ps, amendedLevel q.kind = t ∧ (OnlyItem q (.one i) ∨ ∃ b, OnlyItem q (.range i b)) ∧ ∀ q' ∈ ps, ¬ Above (kindLevel q.kind) (kindLevel q'.kind)

/-- A sentence announces an amendment, and the lines are what it announces. -/
inductive WrittenAsAnnounced (s : Str) (ls : List Line) (ns : List Node) : Prop
  /-- a part of an act is replaced or new -/
  | part {c a r t i p} (states : States s c) (change : c = .amend a r ∨ c = .insert a r) (single : ∀ q ∈ r.1, ∃ x, OnlyItem q x)
      (clash : ¬ SubpointClash s) (lowest : LowestNamed r.1 t i) (begin : BeginLike t p i)
      (written : AmendedParts t p i ls ns)
  /-- a part of an act is replaced, and what comes after it is new -/
  | parts {a r n t i p} (states : States s (.amendInsert a r n)) (single : ∀ q ∈ r.1 ++ n.1, ∃ x, OnlyItem q x)
      (clash : ¬ SubpointClash s) (after : ComesAfter r n) (lowest : LowestNamed r.1 t i) (begin : BeginLike t p i)
      (written : AmendedParts t p i ls ns)
  /-- divisions of an act, subtitles or articles with them are replaced or new -/
  | division {c} (states : StatesStructural s c) (change : ∀ a x, c ≠ .repeal a x)
      (articles : ∀ a q, c = .replaceSubtitled a q ∨ c = .addSubtitled a q → ∃ x, FirstArticle q x) (some : ns ≠ [])
      (written : ElementsWritten false {} emptyLine ls ns)

end Verif.Spec
