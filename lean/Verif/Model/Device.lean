import Verif.Model.Pdf

/-! # Drawn characters to text boxes: /repo/hun_law/extractors/pdf.py lines 47-139 and 160-166, /repo/hun_law/utils.py lines 362-365

pdfminer is a parameter: it calls the methods of the device for some sequence of events with some fonts. Its other drawing
operations (images, paths) are not overridden and do nothing. -/

namespace Verif

/-- The character data of Python: `str.upper` and `unicodedata.category`, taken as parameters. -/
structure CharData where
  upper : Str → Str
  category : Char → Str

/-- What the device uses of a `PDFFont`: `to_unichr` (`none` stands for `PDFUnicodeNotDefined`), `char_width` and `fontname`. -/
structure Font where
  toUnichr : Int → Option Str
  charWidth : Int → Rat
  name : Str

/-- The transformation given to `render_char`. -/
structure Matrix where
  a : Rat
  b : Rat
  c : Rat
  d : Rat
  e : Rat
  f : Rat

/-- The characters of ISO 8859-2 from 0xA0 to 0xFF. -/
def latin2Upper : Str :=
  py"\u00a0Ą˘Ł¤ĽŚ§¨ŠŞŤŹ\u00adŽŻ°ą˛ł´ľśˇ¸šşťź˝žżŔÁÂĂÄĹĆÇČÉĘËĚÍÎĎĐŃŇÓÔŐÖ×ŘŮÚŰÜÝŢßŕáâăäĺćçčéęëěíîďđńňóôőö÷řůúűüýţ˙"

/-- `chr_latin2` (utils.py:362-365). -/
def chrLatin2 (num : Int) : Res Char :=
  if num > 255 ∨ num < 0 then .error .valueError
  else if num < 160 then .ok (Char.ofNat num.toNat)
  else .ok (latin2Upper.getD (num.toNat - 160) ' ')

/-- The text after the workaround for wrong cases (pdf.py:88-93). Python evaluates `chr_latin2` only if `cid < 256`. -/
def fixCase (u : CharData) (cid : Int) (text : Str) : Res Str :=
  if cid < 256 then do
    let c ← chrLatin2 cid
    if [c] ≠ text ∧ u.upper [c] = u.upper text then .ok [c] else .ok text
  else .ok text

/-- `PDFMinerAdapter.cid_to_string` (pdf.py:74-103). -/
def cidToString (u : CharData) (font : Font) (cid : Int) : Res Str := do
  let text := (font.toUnichr cid).getD (py"[X]")
  let text ← fixCase u cid text
  let text := replaceAll (py"Õ") (py"Ő") text
  let text := replaceAll (py"õ") (py"ő") text
  let text := replaceAll (py"Û") (py"Ű") text
  .ok (replaceAll (py"û") (py"ű") text)

/-- `PDFMinerAdapter.is_font_bold` (pdf.py:68-71). The attribute it sets on the font only saves the answer. -/
def isFontBold (font : Font) : Bool := isInfix (py"bold") font.name || isInfix (py"Bold") font.name

/-- `round(q)` of Python: the nearest integer, the even one of two. -/
def roundEven (q : Rat) : Int :=
  let n := q.floor
  if q - n < 1/2 then n else if q - n > 1/2 then n + 1 else if n % 2 = 0 then n else n + 1

/-- `round(q, 3)`. -/
def round3 (q : Rat) : Rat := (roundEven (q * 1000) : Rat) / 1000

/-- The width of a space in the font (pdf.py:121-125). -/
def spaceWidth (font : Font) : Rat := if font.charWidth 32 = 1 ∨ font.charWidth 32 = 0 then 1/4 else font.charWidth 32

/-- The state of the device: the page that is open and the pages before it. `current_page` is the last page of the list
`pages`, except before the first `begin_page` (pdf.py:57-64). -/
structure Device where
  closed : List (List TextBox) := []
  current : List TextBox := []
  started : Bool := false

/-- `device.pages`. -/
def Device.pages (d : Device) : List (List TextBox) := if d.started then d.closed ++ [d.current] else []

/-- `PDFMinerAdapter.begin_page` (pdf.py:61-63). -/
def Device.beginPage (d : Device) : Device := { closed := d.pages, current := [], started := true }

/-- `PDFMinerAdapter.render_char` (pdf.py:105-139): the new state and the width of the text. `text[0]` fails for an empty text. -/
def Device.renderChar (u : CharData) (d : Device) (matrix : Matrix) (font : Font) (fontsize scaling _rise : Rat) (cid : Int) :
    Res (Device × Rat) := do
  let text ← cidToString u font cid
  let textwidth := font.charWidth cid * fontsize * scaling
  match text with
  | [] => .error .indexError
  | c :: _ =>
    if u.category c = (py"Co") ∨ u.category c = (py"Cf") then .ok (d, textwidth)
    else if text.all isSpace then .ok (d, textwidth)
    else
      let box : TextBox :=
        { x := matrix.e, y := round3 matrix.f, width := textwidth * matrix.a,
          widthOfSpace := spaceWidth font * fontsize * scaling * matrix.a, content := text, bold := isFontBold font }
      .ok ({ d with current := d.current ++ [box] }, textwidth)

/-- What pdfminer calls on the device while it draws a file. -/
inductive DrawEvent
  | beginPage
  | endPage
  | char (matrix : Matrix) (font : Font) (fontsize scaling rise : Rat) (cid : Int)

/-- One event. `end_page` does nothing (pdf.py:65-66). -/
def Device.event (u : CharData) (d : Device) : DrawEvent → Res Device
  | .beginPage => .ok d.beginPage
  | .endPage => .ok d
  | .char matrix font fontsize scaling rise cid => do
    let r ← d.renderChar u matrix font fontsize scaling rise cid
    .ok r.1

/-- All events in order. -/
def Device.run (u : CharData) : Device → List DrawEvent → Res Device
  | d, [] => .ok d
  | d, e :: es => do
    let d ← d.event u e
    Device.run u d es

/-- `extract_textboxes` (pdf.py:160-166) for a file that is drawn by these events. -/
def extractTextboxes (u : CharData) (events : List DrawEvent) : Res (List (List TextBox)) := do
  let d ← Device.run u {} events
  .ok d.pages

/-- The lines of a file: `extract_textboxes` and `extract_lines` as in `CachedPdfParser` (pdf.py:257-258). -/
def drawnLines (u : CharData) (events : List DrawEvent) : Res (List (List Line)) := do
  let pages ← extractTextboxes u events
  extractLines pages

end Verif
