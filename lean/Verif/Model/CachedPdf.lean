import Verif.Model.Cache
import Verif.Model.Device
import Verif.Model.Objects

/-! # The lines of an issue with the cache: /repo/hun_law/extractors/pdf.py lines 247-260

The world of Model/Cache.lean with what the program does in it: the device that collects text, and `dict2object`. -/

namespace Verif

/-- What is still not controlled: the server, what pdfminer draws of a file (an exception of it is taken to come before anything
is drawn), the data about characters, what constructors add, and the writing (gzip.py and json.py, with the time) and reading of
plain data. -/
structure Outside where
  server : Int × Int → Bytes
  draw : Bytes → Res (List DrawEvent)
  chars : CharData
  extra : Extra
  write : Nat → Val → Bytes
  read : Bytes → Res Val

/-- `extract_lines(extract_textboxes(f))` (pdf.py:257-258). -/
def Outside.linesOf (o : Outside) (data : Bytes) : Res PdfOfLines := do
  let events ← o.draw data
  drawnLines o.chars events

/-- `PDF_OF_LINES_CONVERTER.to_dict` (pdf.py:247, 259). -/
def Outside.toData (o : Outside) (v : Val) : Res Val := (hunLawEnv o.extra.finish).toDict (.cls (py"PdfOfLines")) v

/-- An attribute of an object. -/
def Val.attribute (name : Str) : Val → Res Val
  | .obj _ vs => match Dict.get? vs name with
    | some v => .ok v
    | Option.none => .error .attributeError
  | _ => .error .attributeError

/-- What `for … in` goes over. -/
def Val.members : Val → Res (List Val)
  | .list vs => .ok vs
  | .tuple vs => .ok vs
  | _ => .error .typeError

/-- The lines that an object stands for. A margin that is not in the data is the int 0 and not the float 0.0 (utils.py:41), which
makes no difference in arithmetic and comparisons. -/
def partOf (v : Val) : Res Part := do
  let dx ← match ← v.attribute (py"dx") with
    | .float q => .ok q
    | .int n => .ok (n : Rat)
    | _ => .error .typeError
  let content ← match ← v.attribute (py"content") with
    | .str s => .ok s
    | _ => .error .typeError
  let bold ← match ← v.attribute (py"bold") with
    | .bool b => .ok b
    | _ => .error .typeError
  .ok ⟨dx, content, bold⟩

/-- See `partOf`. -/
def lineOf (v : Val) : Res Line := do
  let parts ← (← (← v.attribute (py"_parts")).members).mapM partOf
  let margin ← match ← v.attribute (py"margin_right") with
    | .float q => .ok q
    | .int n => .ok (n : Rat)
    | _ => .error .typeError
  .ok ⟨parts, margin⟩

/-- See `partOf`. -/
def pageOf (v : Val) : Res (List Line) := do (← (← v.attribute (py"lines")).members).mapM lineOf

/-- See `partOf`. -/
def pdfOf (v : Val) : Res PdfOfLines := do (← (← v.attribute (py"pages")).members).mapM pageOf

/-- What `CachedPdfParser` (pdf.py:250-260) does with the contents of files. `to_dict` is called before the file is created, so that
its exceptions are among those of `parse`, and what is written of an object without data does not matter. -/
def Outside.world (o : Outside) : World PdfOfLines where
  server := o.server
  parse data := do
    let p ← o.linesOf data
    let _ ← o.toData (PdfOfLines.object o.extra p)
    .ok p
  encode t p := match o.toData (PdfOfLines.object o.extra p) with
    | .ok d => o.write t d
    | .error _ => []
  decode data := do
    let d ← o.read data
    let v ← (hunLawEnv o.extra.finish).toObject (.cls (py"PdfOfLines")) d
    pdfOf v

end Verif
