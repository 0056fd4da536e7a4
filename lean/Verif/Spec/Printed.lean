import Verif.Model.CachedPdf
import Verif.Spec.Pdf
import Verif.Spec.Pipeline
import Verif.Spec.Understood
import Verif.Spec.WrittenAmendments

/-! # Issues that are printed in the usual way (C97) -/

namespace Verif.Spec

/-- In what the file of the issue draws no two boxes of a page are at one place, and every box has one character. -/
def TypedApart (o : Outside) (i : Issue) : Prop :=
  ∀ events pages, o.draw (o.server (i.1 % 100, i.2)) = .ok events → extractTextboxes o.chars events = .ok pages →
    (∀ page ∈ pages, NoClash page) ∧ ∀ page ∈ pages, ∀ b ∈ page, b.content.length = 1

/-- The text of an act is not changed by hand, and it is written in the usual way, with its amendments: it has this preamble and these
elements, and their sentences can be understood. -/
def UsualText (s : Sources) (r : LawRawText) (preamble : Str) (ns : List Node) : Prop :=
  ∃ quoting, doAllFixups s.fixups r.identifier r.body = .ok r.body ∧ BodyWritten r.body preamble quoting ∧
    Both (ElementAfterAmendments s.analyze) quoting ns ∧ ∀ e ∈ ns.flatMap articleElements, Understood s.analyze e

/-- The act is what is written in the text, if this is written in the usual way: it has the preamble and the elements that are written there, and on
each element what its sentence says. -/
def MadeAsWritten (s : Sources) (r : LawRawText) (a : Act) : Prop :=
  ∀ preamble ns, UsualText s r preamble ns → stripAct a = ⟨r.identifier, r.publicationDate, r.subject, preamble, ns⟩ ∧
    ∀ before e after, actElements a = before ++ e :: after → ∀ t stop, SentenceOf e t stop →
      ∃ x, SaidIn s.analyze t x ∧ Records (definitions (before ++ [e])) x stop e

end Verif.Spec
