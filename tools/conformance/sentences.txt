def S (s : Str) : String := String.ofList s
def oS (s : Option Str) : String := (s.map S).getD "-"
def iS : Option Ident → String
  | none => "-"
  | some (.one s) => S s
  | some (.range a b) => S a ++ ".." ++ S b
def rS (r : Reference) : String := "R(" ++ "|".intercalate [oS r.act, iS r.article, iS r.paragraph, iS r.point, iS r.subpoint] ++ ")"
def cS : SubtitleArticleCombo → String := fun c => (match c.position with | .after => "AFTER:" | .beforeWithArticle => "BEFORE_WITH_ARTICLE:" | .beforeWithoutArticle => "BEFORE_WITHOUT_ARTICLE:") ++ S c.articleId
def sS (r : StructuralReference) : String := "S(" ++ "|".intercalate [oS r.act, oS r.book, oS r.part, oS r.title, oS r.chapter, oS r.subtitle, (r.special.map cS).getD "-"] ++ ")"
def pS : Position → String | .ref r => rS r | .struct s => sS s
def dS (d : Date) : String := s!"D{d.year}-{d.month}-{d.day}"
def tS : EnforcementTime → String
  | .date d => dS d
  | .days n => s!"AP{n}"
  | .dayInMonth d m => s!"DIM {d} {m}"
  | .special s => S s
def semS : SemanticData → String
  | .blockAmendment p b => s!"BA {pS p} {b}"
  | .enforcementDate p t r => s!"ED {(p.map rS).getD "-"} {tS t} {(r.map dS).getD "-"}"
  | .textAmendment p a b => s!"TA {rS p} {S a} => {S b}"
  | .articleTitleAmendment p a b => s!"ATA {rS p} {S a} => {S b}"
  | .repeal p t => s!"RP {pS p} {oS t}"
def isActRef (r : Reference) : Bool := r.article.isNone && r.paragraph.isNone && r.point.isNone && r.subpoint.isNone
def run (c : Nat × String × String × String) : IO Bool := do
  let s := c.2.1.toList
  match grammaticalAnalyzer ActGrammar.parse s with
  | .error _ => IO.println s!"FAIL {c.2.1}"; return false
  | .ok a =>
    if c.1 = 0 then return true
    let els := a.references.filter fun r => !isActRef r.reference
    let acts := a.references.filter fun r => isActRef r.reference
    let mut got := ""
    if c.1 = 1 then
      got := ";".intercalate (els.map fun r => rS r.reference) ++ "#" ++ ";".intercalate (acts.map fun r => oS r.reference.act)
      let mut arr := (s.map fun _ => ' ').toArray
      for r in els do
        arr := arr.set! r.startPos.toNat '<'
        arr := arr.set! (r.endPos.toNat - 1) '>'
      for r in acts do
        arr := arr.set! r.startPos.toNat '['
        arr := arr.set! (r.endPos.toNat - 1) ']'
      let pos := String.ofList arr.toList
      if c.2.2.1 != "" && pos != c.2.2.1 then
        IO.println s!"POS {c.2.1}\n exp {c.2.2.1}\n got {pos}"; return false
    if c.1 = 2 then got := ";".intercalate (a.semantic.map semS)
    if c.1 = 3 then got := ";".intercalate (a.abbreviations.map fun x => s!"AB {S x.abbreviation} = {S x.act}")
    if got != c.2.2.2 then
      IO.println s!"DIFF {c.2.1}\n exp {c.2.2.2}\n got {got}"; return false
    return true
def main : IO Unit := do
  let mut ok := 0
  for c in cases do
    if ← run c then ok := ok + 1
  IO.println s!"{ok} of {cases.length}"
#eval main
