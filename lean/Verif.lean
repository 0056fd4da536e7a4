import Verif.Py.Basic
import Verif.Model.Numerals
import Verif.Model.Identifiers
import Verif.Model.Line
import Verif.Model.Date
import Verif.Props.Numerals
import Verif.Props.Identifiers
import Verif.Props.Lines
import Verif.Props.Dates
import Verif.Model.Reference
import Verif.Model.Structure
import Verif.Props.References
import Verif.Props.Structure
import Verif.Model.StructureParser
import Verif.Props.Parser
import Verif.Model.SemanticParser
import Verif.Props.Amendments
import Verif.Props.Recognition
import Verif.Props.Shown
import Verif.Props.Semantics
import Verif.Model.ReferenceCollector
import Verif.Props.Collector
import Verif.Model.GrammaticalAnalyzer
import Verif.Props.Grammar
import Verif.Model.Fixups
import Verif.Props.Fixups
import Verif.Model.Editor
import Verif.Model.SavedFixups
import Verif.Spec.Editor
import Verif.Spec.SavedFixups
import Verif.Proofs.Editor
import Verif.Proofs.SavedFixups
import Verif.Props.Editor
import Verif.Props.SavedFixups
import Verif.Model.Extraction
import Verif.Props.Extraction
import Verif.Model.Gazette
import Verif.Props.Gazette
import Verif.Py.Dict
import Verif.Model.Pdf
import Verif.Props.Pdf
import Verif.Model.Cache
import Verif.Props.Cache
import Verif.Model.Workers
import Verif.Spec.Workers
import Verif.Props.Workers
import Verif.Model.CachedPdf
import Verif.Spec.CachedPdf
import Verif.Proofs.CachedPdf
import Verif.Props.CachedPdf
import Verif.Model.Html
import Verif.Props.Html
import Verif.Model.Txt
import Verif.Props.Txt
import Verif.Model.Dict2Object
import Verif.Model.Classes
import Verif.Props.Dict2Object
import Verif.Spec.FromData
import Verif.Proofs.FromData
import Verif.Props.FromData
import Verif.Model.Pipeline
import Verif.Props.Pipeline
import Verif.Model.Cli
import Verif.Spec.Cli
import Verif.Proofs.Cli
import Verif.Props.Cli
import Verif.Spec.Printout
import Verif.Proofs.Printout
import Verif.Props.Printout
import Verif.Model.Peg
import Verif.Model.ActGrammar
import Verif.Spec.Wording
import Verif.Proofs.Peg
import Verif.Proofs.ActGrammar
import Verif.Proofs.NextInList
import Verif.Proofs.Wording
import Verif.Proofs.Sentences
import Verif.Props.Wording
import Verif.Props.Sentences
import Verif.Spec.Ordinary
import Verif.Proofs.Forward
import Verif.Proofs.Readings
import Verif.Proofs.Reading
import Verif.Proofs.Plain
import Verif.Proofs.Expressions
import Verif.Proofs.ActTexts
import Verif.Proofs.Passing
import Verif.Proofs.Ordinary
import Verif.Proofs.Mentions
import Verif.Props.Ordinary
import Verif.Spec.Changes
import Verif.Proofs.Phrases
import Verif.Proofs.Changes
import Verif.Proofs.InForce
import Verif.Proofs.Blocks
import Verif.Proofs.Stated
import Verif.Props.Changes
import Verif.Model.Generated
import Verif.Spec.Generated
import Verif.Proofs.Generated
import Verif.Props.Generated
import Verif.Model.ActList
import Verif.Spec.ActList
import Verif.Proofs.ActList
import Verif.Props.ActList
import Verif.Spec.Recorded
import Verif.Proofs.Recorded
import Verif.Props.Recorded
import Verif.Spec.Structural
import Verif.Proofs.Divisions
import Verif.Proofs.Restructured
import Verif.Proofs.Reorganised
import Verif.Proofs.Divided
import Verif.Props.Divisions
import Verif.Proofs.Referable
import Verif.Props.Referable
import Verif.Proofs.Headed
import Verif.Proofs.Showable
import Verif.Props.Showable
import Verif.Spec.Usual
import Verif.Proofs.Usual
import Verif.Props.Usual
import Verif.Spec.WrittenAmendments
import Verif.Proofs.WrittenAmendments
import Verif.Props.WrittenAmendments
import Verif.Spec.Layout
import Verif.Proofs.Layout
import Verif.Props.Layout
import Verif.Spec.Page
import Verif.Proofs.Page
import Verif.Model.Style
import Verif.Spec.Style
import Verif.Proofs.Style
import Verif.Props.Page
import Verif.Spec.Understood
import Verif.Proofs.EndApart
import Verif.Proofs.Understood
import Verif.Props.Understood
import Verif.Spec.Stopped
import Verif.Proofs.Stopped
import Verif.Props.Stopped
import Verif.Spec.Parsable
import Verif.Proofs.Parsable
import Verif.Props.Parsable
import Verif.Model.Objects
import Verif.Spec.Data
import Verif.Proofs.Data
import Verif.Proofs.DataTells
import Verif.Proofs.OnlyParts
import Verif.Props.Data
import Verif.Model.Device
import Verif.Spec.Device
import Verif.Proofs.Device
import Verif.Props.Device
import Verif.Model.Session
import Verif.Spec.Session
import Verif.Props.Session
import Verif.Spec.Lowest
import Verif.Props.Lowest
import Verif.Spec.Printed
import Verif.Props.Printed
