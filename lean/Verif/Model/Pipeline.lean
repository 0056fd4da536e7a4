import Verif.Model.Extraction
import Verif.Model.Gazette
import Verif.Model.Cache
import Verif.Model.Fixups
import Verif.Model.SemanticParser

/-! # From issues to acts: /repo/hun_law/extractors/act.py and what the other modules register in `extractors_for_class` -/

namespace Verif

/-- The objects that are given to extractors or made by them: `KozlonyToDownload` (kozlonyok_hu_downloader.py:27-32),
`PDFFileDescriptor` (file.py:19-22; here the issue it was made for, which determines its name), `PdfOfLines`,
`KozlonyPagesWithHeaderAndFooter`, `MagyarKozlonyLawsSection`, `MagyarKozlonyLawRawText`, `StructureOnlyAct`
(act.py:34-36), `BlockAmendmentOnlyAct` (act.py:39-41) and `Act`. -/
inductive Extracted
  | issue (i : Issue)
  | file (i : Issue)
  | pdf (p : PdfOfLines)
  | pages (k : KozlonyPages)
  | laws (s : LawsSection)
  | raw (r : LawRawText)
  | structureOnly (a : Act)
  | blockOnly (a : Act)
  | act (a : Act)

/-- Their classes. -/
inductive ExtractedClass
  | issue | file | pdf | pages | laws | raw | structureOnly | blockOnly | act
  deriving DecidableEq, Repr

/-- `data.__class__`. -/
def Extracted.cls : Extracted → ExtractedClass
  | .issue _ => .issue
  | .file _ => .file
  | .pdf _ => .pdf
  | .pages _ => .pages
  | .laws _ => .laws
  | .raw _ => .raw
  | .structureOnly _ => .structureOnly
  | .blockOnly _ => .blockOnly
  | .act _ => .act

/-- What extraction depends on: what is read for an issue (downloading, the cache and `extract_textboxes` are left out, see
C47 on when this is a function of the issue), the registered fix-ups and the grammatical analyser. -/
structure Sources where
  read : Issue → Res PdfOfLines
  fixups : Fixups
  analyze : Analyzer

/-- A generator that yields what it has computed, or raises. -/
def genOf {α β : Type} (f : β → α) : Res (List β) → Gen α
  | .ok l => ⟨l.map f, none⟩
  | .error e => ⟨[], some e⟩

/-- `MagyarKozlonyToStructureOnlyAct` (act.py:44-49). -/
def structureOnlyAct (s : Sources) (r : LawRawText) : Res Act := do
  let body ← doAllFixups s.fixups r.identifier r.body
  parseAct r.identifier r.publicationDate r.subject body

/-- The extractor registered for the class of the object, there is at most one for each: kozlonyok_hu_downloader.py:38-47,
pdf.py:250-260, magyar_kozlony.py:47-68, 93-126 and 226-232, act.py:44-61. There is none for `Act`. -/
def Sources.extractor (s : Sources) : Extracted → Gen Extracted
  | .issue i => ⟨[.file i], none⟩
  | .file i => genOf .pdf ((s.read i).map fun p => [p])
  | .pdf p => genOf .pages ((headerExtractor p).map Option.toList)
  | .pages k => ⟨(sectionExtractor k).yields.map .laws, (sectionExtractor k).stop⟩
  | .laws l => ⟨(lawExtractor l).yields.map .raw, (lawExtractor l).stop⟩
  | .raw r => genOf .structureOnly ((structureOnlyAct s r).map fun a => [a])
  | .structureOnly a => genOf .blockOnly ((parseBlockAmendments s.analyze a).map fun a => [a])
  | .blockOnly a => genOf .act ((addSemantics s.analyze a).map fun a => [a])
  | .act _ => ⟨[], none⟩

/-- `extractors_for_class` and the class of the results. -/
def Sources.pipeline (s : Sources) (result : ExtractedClass) : Extraction Extracted ExtractedClass where
  classOf := Extracted.cls
  extractors c := if c = .act then none else some [s.extractor]
  resultClasses := [result]

end Verif
