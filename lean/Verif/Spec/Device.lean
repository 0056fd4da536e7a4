import Verif.Model.Device
import Verif.Spec.Pdf
import Verif.Spec.Parser

/-! # What drawn characters mean -/

namespace Verif.Spec

/-- The letter that is meant: Hungarian has double acute accents, not tildes or circumflexes. -/
def hungarianLetter (c : Char) : Char :=
  if c = 'Õ' then 'Ő' else if c = 'õ' then 'ő' else if c = 'Û' then 'Ű' else if c = 'û' then 'ű' else c

/-- What the font says the character is; `[X]` if it does not say. -/
def NamedBy (font : Font) (cid : Int) (raw : Str) : Prop :=
  font.toUnichr cid = some raw ∨ (font.toUnichr cid = none ∧ raw = py"[X]")

/-- The character of the code in ISO 8859-2 is what the font says except for the case. -/
def CaseOf (u : CharData) (cid : Int) (raw : Str) (c : Char) : Prop := chrLatin2 cid = .ok c ∧ u.upper [c] = u.upper raw

/-- The text of a drawn character: what the font says, with the case of the code, and with Hungarian letters. -/
def Glyph (u : CharData) (font : Font) (cid : Int) (text : Str) : Prop :=
  ∃ raw, NamedBy font cid raw ∧
    ((∃ c, CaseOf u cid raw c ∧ text = [hungarianLetter c]) ∨ ((∀ c, ¬ CaseOf u cid raw c) ∧ text = raw.map hungarianLetter))

/-- The text can be seen: it does not begin with a private or formatting character, and is not white space. -/
def Visible (u : CharData) (text : Str) : Prop :=
  (∀ c, text.head? = some c → u.category c ≠ (py"Co") ∧ u.category c ≠ (py"Cf")) ∧ ∃ c ∈ text, isSpace c = false

/-- The number of thousandths nearest to `q`, the even one of two. -/
def Thousandths (q y : Rat) : Prop :=
  ∃ n : Int, y = (n : Rat) / 1000 ∧ q - y ≤ 1/2000 ∧ y - q ≤ 1/2000 ∧ (q - y = 1/2000 ∨ y - q = 1/2000 → n % 2 = 0)

/-- How wide a space of the font is, in units of the font size: a quarter if the font does not say it. -/
def SpaceOf (font : Font) (w : Rat) : Prop :=
  (w = font.charWidth 32 ∧ w ≠ 0 ∧ w ≠ 1) ∨ (w = 1/4 ∧ (font.charWidth 32 = 0 ∨ font.charWidth 32 = 1))

/-- The font has the word in its name. -/
def BoldFont (font : Font) : Prop := (py"bold") <:+: font.name ∨ (py"Bold") <:+: font.name

/-- What is drawn by an event inside a page: a visible character is one box. -/
def Draws (u : CharData) : DrawEvent → List TextBox → Prop
  | .beginPage, _ => False
  | .endPage, boxes => boxes = []
  | .char matrix font fontsize scaling _ cid, boxes =>
    0 ≤ cid ∧ ∃ text, Glyph u font cid text ∧ text ≠ [] ∧
      ((¬ Visible u text ∧ boxes = []) ∨
        (Visible u text ∧ ∃ box, boxes = [box] ∧ box.content = text ∧ box.x = matrix.e ∧ Thousandths matrix.f box.y ∧
          box.width = font.charWidth cid * fontsize * scaling * matrix.a ∧
          (∃ w, SpaceOf font w ∧ box.widthOfSpace = w * fontsize * scaling * matrix.a) ∧ (box.bold = true ↔ BoldFont font)))

/-- The page consists of what is drawn by the events, in order. -/
def DrawsPage (u : CharData) (events : List DrawEvent) (boxes : List TextBox) : Prop :=
  ∃ parts, Both (Draws u) events parts ∧ boxes = parts.flatten

/-- The character stops the drawing: its code is negative, or it is the empty text. -/
def StopsWith (u : CharData) (e : DrawEvent) (err : Err) : Prop :=
  ∃ matrix font fontsize scaling rise cid, e = .char matrix font fontsize scaling rise cid ∧
    ((cid < 0 ∧ err = .valueError) ∨ (0 ≤ cid ∧ Glyph u font cid [] ∧ err = .indexError))

/-- The right end of the text on a page. -/
def RightEnd (boxes : List TextBox) (r : Rat) : Prop := (∃ b ∈ boxes, r = b.x + b.width) ∧ ∀ b ∈ boxes, b.x + b.width ≤ r

end Verif.Spec
