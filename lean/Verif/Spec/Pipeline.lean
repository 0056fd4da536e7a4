import Verif.Model.Pipeline
import Verif.Spec.Parser

/-! # What extraction should give -/

namespace Verif.Spec

/-- The texts of the acts of a file, in their order: those that the sections of its pages have, and none if it is not a
gazette. -/
inductive IssueLaws (pdf : PdfOfLines) : List LawRawText → Prop
  | other (h : headerExtractor pdf = .ok none) : IssueLaws pdf []
  | gazette {k sections laws} (h : headerExtractor pdf = .ok (some k)) (hs : sectionExtractor k = ⟨sections, none⟩)
      (hl : Both (fun s l => lawExtractor s = ⟨l, none⟩) sections laws) : IssueLaws pdf laws.flatten

/-- What is made of the text of an act, if results are wanted after this step. -/
def Produces (s : Sources) : ExtractedClass → LawRawText → Extracted → Prop
  | .raw, r, o => o = .raw r
  | .structureOnly, r, o => ∃ body a, doAllFixups s.fixups r.identifier r.body = .ok body ∧
      parseAct r.identifier r.publicationDate r.subject body = .ok a ∧ o = .structureOnly a
  | .blockOnly, r, o => ∃ body a b, doAllFixups s.fixups r.identifier r.body = .ok body ∧
      parseAct r.identifier r.publicationDate r.subject body = .ok a ∧ parseBlockAmendments s.analyze a = .ok b ∧
      o = .blockOnly b
  | .act, r, o => ∃ body a b c, doAllFixups s.fixups r.identifier r.body = .ok body ∧
      parseAct r.identifier r.publicationDate r.subject body = .ok a ∧ parseBlockAmendments s.analyze a = .ok b ∧
      addSemantics s.analyze b = .ok c ∧ o = .act c
  | _, _, _ => False

/-- The steps that can be asked for on the command line (cli.py:40-45). -/
def IsStep (c : ExtractedClass) : Prop := c = .raw ∨ c = .structureOnly ∨ c = .blockOnly ∨ c = .act

/-- The files of the issues are read, their acts are these, and this is made of each. -/
def IssuesGive (s : Sources) (c : ExtractedClass) (issues : List Issue) (outs : List Extracted) : Prop :=
  ∃ pdfs laws, Both (fun i p => s.read i = .ok p) issues pdfs ∧ Both IssueLaws pdfs laws ∧
    Both (Produces s c) laws.flatten outs

end Verif.Spec
