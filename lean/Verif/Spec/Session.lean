import Verif.Model.Session
import Verif.Spec.Pipeline

/-! # What sessions of the fix-up editor are for -/

namespace Verif.Spec

/-- Extraction with the fix-ups as they are saved. -/
def savedSources (read : Issue → Res PdfOfLines) (byHand : List (Str × FixupFn)) (analyze : Analyzer) (saved : Replacements) : Sources :=
  { read := read, fixups := loadFixups byHand saved, analyze := analyze }

/-- The program makes an act of the text with the fix-ups as they are saved. -/
def Extractable (byHand : List (Str × FixupFn)) (analyze : Analyzer) (saved : Replacements) (raw : LawRawText) : Prop :=
  ∃ read a, Produces (savedSources read byHand analyze saved) .act raw (.act a)

/-- The replacements saved for an act. -/
def savedFor (saved : Replacements) (identifier : Str) : List Replacement := (saved.get? identifier).getD []

end Verif.Spec
