import Verif.Spec.Wording

/-! # Ordinary sentences: plain text with references in it -/

namespace Verif.Spec

/-! ## References as they are usually written -/

/-- Two ends of a range with a dash between them. -/
def RangeText (k : PartKind) (x y w : Str) : Prop :=
  Identifies k x ∧ Identifies k y ∧ ∃ d, Dash d ∧ match k with
    | .article | .numericPoint | .numericSubpoint => w = x ++ d ++ y ++ py"."
    | .paragraph => w = (py"(") ++ x ++ (py")") ++ d ++ (py"(") ++ y ++ py")"
    | .alphabeticPoint => ∃ m, (m = [] ∨ m = py")") ∧ w = x ++ m ++ d ++ y ++ py")"
    | .alphabeticSubpoint => w = x ++ (py")") ++ d ++ y ++ py")"

/-- An item of a list that begins at a place. -/
def ItemText (k : PartKind) (n : Nat) (x : Item) (w : Str) : Prop :=
  x.place = (↑n, ↑(n + w.length)) ∧ match x with
    | .inl r => RangeText k r.1.1 r.1.2 w
    | .inr r => SingleWritten k r.1 w

/-- What is between the items of a list: a comma or a word or both, perhaps with an article. -/
def SeparatorText (w : Str) : Prop :=
  ∃ c o a, w = c ++ o ++ a ++ py" " ∧ c ∈ [py"", py",", py";"] ∧ o ∈ [py"", py" és", py" valamint", py" illetve", py" vagy"] ∧
    a ∈ [py"", py" a", py" az"] ∧ (c = [] → o ≠ [])

/-- The items of a list one after the other, the first one at a place. -/
inductive ItemsText (k : PartKind) : Nat → List Item → Str → Prop
  | one {n x w} (h : ItemText k n x w) : ItemsText k n [x] w
  | cons {n x w g xs v} (h : ItemText k n x w) (hg : SeparatorText g) (hs : ItemsText k (n + w.length + g.length) xs v) :
      ItemsText k n (x :: xs) (w ++ g ++ v)

/-- The word at the end of a list, with any ending. -/
def EndText : PartKind → Str → Prop
  | .article, w => w = py"§" ∨ ∃ e, w = (py"§-") ++ e ∧ e ≠ [] ∧ ∀ c ∈ e, hunLower c
  | .paragraph, w => Inflected (py"bekezdés") w
  | .alphabeticPoint, w | .numericPoint, w => Inflected (py"pont") w
  | .alphabeticSubpoint, w | .numericSubpoint, w => Inflected (py"alpont") w

/-- A list. -/
def PartText (n : Nat) (p : ParsedPart) (w : Str) : Prop :=
  ∃ items u e, ItemsText p.kind n items u ∧ EndText p.kind e ∧ w = u ++ ' ' :: e ∧
    p.singles = items.filterMap Sum.getRight? ∧ p.ranges = items.filterMap Sum.getLeft?

/-- What may come after what in a reference. -/
def Under : PartKind → PartKind → Prop
  | .article, k => k = .paragraph ∨ k = .alphabeticPoint ∨ k = .numericPoint
  | .paragraph, k => k = .alphabeticPoint ∨ k = .numericPoint
  | .alphabeticPoint, k | .numericPoint, k => k = .alphabeticSubpoint ∨ k = .numericSubpoint
  | .alphabeticSubpoint, _ | .numericSubpoint, _ => False

/-- A reference: lists from higher levels to lower ones. -/
inductive ReferenceText : Nat → List ParsedPart → Str → Prop
  | one {n p w} (h : PartText n p w) : ReferenceText n [p] w
  | cons {n p w q ps v} (h : PartText n p w) (hu : Under p.kind q.kind) (hs : ReferenceText (n + w.length + 1) (q :: ps) v) :
      ReferenceText n (p :: q :: ps) (w ++ ' ' :: v)

/-! ## Plain text -/

/-- The Hungarian letters. -/
def hunLetter (c : Char) : Prop := hunLower c ∨ isUpperAz c = true ∨ c ∈ py"ÉÁŐÚÖÜÓÍŰ"

/-- The first thing in a text, spaces aside. -/
def first (s : Str) : Option Char := (s.dropWhile isSpace).head?

/-- The text does not go on with one of these characters, spaces aside. -/
def NotFirst (cs : Str) (s : Str) : Prop := ∀ c ∈ first s, c ∉ cs

/-- A text in which every quotation mark has its pair: there may be quotations in it, and others in them. -/
inductive Balanced : Str → Prop
  | plain {w} (h : ∀ c ∈ w, c ∉ py"„”") : Balanced w
  | quote {w u v} (h : ∀ c ∈ w, c ∉ py"„”") (hu : Balanced u) (hv : Balanced v) : Balanced (w ++ '„' :: u ++ '”' :: v)

/-- A piece of a text, together with what comes after it, that cannot be taken for a reference. -/
inductive PlainText : Str → Str → Prop
  /-- A sign. -/
  | mark {c rest} (hc : ¬ hunLetter c) (hd : isAsciiDigit c = false) (hs : isSpace c = false) (hn : c ∉ py"-(„") : PlainText [c] rest
  /-- A bracket that is not around a number. -/
  | bracket {rest} (h : ∀ c ∈ first rest, isAsciiDigit c = false) : PlainText (py"(") rest
  /-- A word, perhaps with hyphens. If it is a short one, no bracket or dash is after it, and if it begins with a capital letter, it does not
  look like an abbreviation. -/
  | word {w rest} (hw : w ≠ []) (hl : ∀ c ∈ w, hunLetter c ∨ c = '-') (hf : ∀ c ∈ w.take 3, c ≠ '-')
      (hr : ∀ c ∈ rest.head?, ¬ hunLetter c ∧ c ≠ '-') (hs : w.length ≤ 2 → NotFirst (py")-–−") rest)
      (ha : (∀ c ∈ w.head?, hunLower c) ∨ ∀ e ∈ [py".", py" tv.", py" vhr."], ¬ e <+: rest) : PlainText w rest
  /-- An ending after a hyphen, or only the hyphen. -/
  | ending {w rest} (hl : ∀ c ∈ w, hunLetter c ∨ c = '-') (hr : ∀ c ∈ rest.head?, ¬ hunLetter c ∧ c ≠ '-') : PlainText ('-' :: w) rest
  /-- A number with an ending or with nothing of an identifier after it. -/
  | number {w rest} (hw : Digits w) (hr : ∀ c ∈ rest.head?, isAsciiDigit c = false ∧ ¬ hunLetter c)
      (h : NotFirst (py".:/-–−") rest ∨ ∃ c t, rest = '-' :: c :: t ∧ hunLetter c) : PlainText w rest
  /-- A number with a full stop after which nothing of a list comes, as in a date. -/
  | dotted {w t} (hw : Digits w) (hd : ∀ c ∈ first t, isAsciiDigit c = false) (h : NotFirst (py"§,;évi-–−") t)
      (hp : ∀ u ∈ [py"pont", py"alpont"], ¬ u <+: t.dropWhile isSpace) : PlainText w ('.' :: t)
  /-- A quotation. -/
  | quoted {w rest} (h : Balanced w) : PlainText ('„' :: w ++ py"”") rest

/-- Nothing of a reference comes next. -/
def Pauses (s : Str) : Prop := s.dropWhile isSpace = [] ∨ ∃ w rest, s.dropWhile isSpace = w ++ rest ∧ PlainText w rest

/-- The text does not go on with a dash and a number. -/
def NoRangeNext (s : Str) : Prop := ∀ d t, s.dropWhile isSpace = d :: t → d ∈ py"-–−" → ∀ c ∈ first t, isAsciiDigit c = false

/-! ## Acts -/

/-- An abbreviation of the name of an act that ends with a full stop: `Ptk.`. -/
def ShortName (w : Str) : Prop :=
  ∃ c e, w = c :: e ++ py"." ∧ (isUpperAz c = true ∨ c ∈ py"ÉÁŐÚÖÜÓÍŰ") ∧ e ≠ [] ∧ ∀ x ∈ e, hunLower x

/-- An abbreviation with one of two more words: `Polgári tv.`, `Szabs. tv.`. -/
def LongName (w : Str) : Prop :=
  ∃ c e z, w = c :: e ++ z ∧ (isUpperAz c = true ∨ c ∈ py"ÉÁŐÚÖÜÓÍŰ") ∧ e ≠ [] ∧ (∀ x ∈ e, hunLower x) ∧ 
    z ∈ [py" tv.", py" vhr.", py".tv.", py".vhr.", py". tv.", py". vhr."]

/-- What may be after a word. -/
def WordEnds (s : Str) : Prop := ∀ c ∈ s.head?, c ∈ py" ,.;:)?!”"

/-- The number of an act: `2013. évi V. törvény` with any ending. -/
def ActNumber (year number w : Str) : Prop :=
  ∃ e, Digits year ∧ RomanDigits number ∧ (Inflected (py"törvény") e ∨ e = py"tv.") ∧ w = year ++ (py". évi ") ++ number ++ (py". ") ++ e

/-- Words of small letters with a space between them. -/
inductive SmallWords : Str → Prop
  | one {w} (hn : w ≠ []) (hl : ∀ x ∈ w, hunLower x) : SmallWords w
  | cons {w v} (hn : w ≠ []) (hl : ∀ x ∈ w, hunLower x) (hv : SmallWords v) : SmallWords (w ++ ' ' :: v)

/-- An act at a place, with what comes after it. -/
inductive ActText : Nat → ParsedActRef → Str → Str → Prop
  | short {n w rest} (h : ShortName w) (hr : ∀ e ∈ [py"tv.", py"vhr.", py" tv.", py" vhr."], ¬ e <+: rest) :
      ActText n { abbreviation := some (w, ↑n, ↑(n + w.length)) } w rest
  | long {n w rest} (h : LongName w) : ActText n { abbreviation := some (w, ↑n, ↑(n + w.length)) } w rest
  | number {n year number w rest} (h : ActNumber year number w) (he : WordEnds rest) (hr : NotFirst (py"(") rest) :
      ActText n { actId := some ((year, number), ↑n, ↑(n + w.length)) } w rest
  | defined {n year number w o t c rest} (h : ActNumber year number w) (ho : o ∈ [py" (a továbbiakban: ", py" (a továbbiakban "])
      (ht : ShortName t ∨ LongName t) (hc : c ∈ [py")", py" törvény)"]) :
      ActText n { actId := some ((year, number), ↑n, ↑(n + w.length)), fromNowOn := some t } (w ++ o ++ t ++ c) rest
  | described {n year number w o t rest} (h : ActNumber year number w) (ho : o ∈ [py" (a továbbiakban: ", py" (a továbbiakban "])
      (ht : SmallWords t) : ActText n { actId := some ((year, number), ↑n, ↑(n + w.length)) } (w ++ o ++ t ++ py")") rest

/-- References one after the other, the first one at a place. -/
inductive ReferencesText : Nat → List ParsedRef → Str → Prop
  | one {n ps w} (h : ReferenceText n ps w) : ReferencesText n [(ps, ↑n, ↑(n + w.length))] w
  | cons {n ps w g rs v} (h : ReferenceText n ps w) (hg : SeparatorText g) (hs : ReferencesText (n + w.length + g.length) rs v) :
      ReferencesText n ((ps, ↑n, ↑(n + w.length)) :: rs) (w ++ g ++ v)

/-- What may separate two references, without its spaces. -/
def Separates (w : Str) : Prop :=
  ∃ c o a, w = c ++ o ++ a ∧ c ∈ [py"", py",", py";"] ∧ o ∈ [py"", py"és", py"valamint", py"illetve", py"vagy"] ∧
    a ∈ [py"", py"a", py"az"] ∧ (c = [] → o ≠ [])

/-- Nothing of a reference comes next, not even after something that may separate two of them. -/
def Closes (s : Str) : Prop := Pauses s ∧ ∀ g u, s = g ++ u → Separates (squeeze g) → Pauses u

/-! ## Sentences -/

/-- What is mentioned at a place: an act or none, and what of it. -/
abbrev Mention := Option ParsedActRef × List ParsedRef

/-- A text is plain but for these mentions, which are at their places in it. -/
inductive Ordinary : Nat → Str → List Mention → Prop
  | done {n} : Ordinary n [] []
  | space {n c s ms} (hc : isSpace c = true) (h : Ordinary (n + 1) s ms) : Ordinary n (c :: s) ms
  | plain {n w s ms} (hw : PlainText w s) (h : Ordinary (n + w.length) s ms) : Ordinary n (w ++ s) ms
  | reference {n ps w s ms} (hw : ReferenceText n ps w) (he : WordEnds s) (hp : Pauses s) (hd : NoRangeNext s)
      (h : Ordinary (n + w.length) s ms) : Ordinary n (w ++ s) ((none, [(ps, ↑n, ↑(n + w.length))]) :: ms)
  | act {n a w s ms} (hw : ActText n a w s) (hp : Pauses s) (h : Ordinary (n + w.length) s ms) : Ordinary n (w ++ s) ((some a, []) :: ms)
  | actWith {n a w rs v s ms} (hw : ActText n a w (' ' :: v ++ s)) (hv : ReferencesText (n + w.length + 1) rs v) (he : WordEnds s)
      (hp : Closes s) (hd : NoRangeNext s) (h : Ordinary (n + w.length + 1 + v.length) s ms) :
      Ordinary n (w ++ ' ' :: v ++ s) ((some a, rs) :: ms)

/-- A sentence that is not made to amend, insert, repeal or bring into force anything: it does not begin or end like those that are. -/
def MakesNoChange (s : Str) : Prop :=
  ¬ EndsIn s (amendmentEnds ++ subtitleEnds ++ structureEnds ++ insertionEnds ++ [py"lép.", py"léphatályba.", py"hatályátveszti."]) ∧
    ¬ BeginsWith s [py"Nemléphatályba", py"Hatályátveszti"]

/-! ## What is said of mentions -/

/-- What is reported for a mention: the act if there is one, then what the references to it name; C37 says what these are. -/
inductive Mentioned : Mention → List OutgoingReference → Prop
  | here {rs xss} (h : Both (Listed none) rs xss) : Mentioned (none, rs) xss.flatten
  | ofAct {a x id rs xss} (ha : ActMention a x) (hi : ActName a id) (h : Both (Listed (some id)) rs xss) :
      Mentioned (some a, rs) (x :: xss.flatten)

/-- The abbreviation that is defined with a mention, if there is one. -/
inductive Defined : Mention → List ActIdAbbreviation → Prop
  | nothing {m} (h : ∀ a, m.1 = some a → a.fromNowOn = none) : Defined m []
  | abbreviation {a t id rs} (h : a.fromNowOn = some t) (hi : ActName a id) : Defined (some a, rs) [⟨t, id⟩]

/-- The only item of a list. -/
def OnlyItem (p : ParsedPart) (x : Ident) : Prop :=
  (∃ id place, p.singles = [(id, place)] ∧ p.ranges = [] ∧ x = .one id) ∨
    ∃ a b place, p.singles = [] ∧ p.ranges = [((a, b), place)] ∧ x = .range a b

/-- The reference names the only item of each list at its level, and nothing else. -/
def Points (act : Option Str) (ps : List ParsedPart) (r : Reference) : Prop :=
  r.act = act ∧ (∀ p ∈ ps, ∃ x, OnlyItem p x ∧ component r (kindLevel p.kind) = some x) ∧
    ∀ l, (∀ p ∈ ps, kindLevel p.kind ≠ l) → component r l = none

/-- One reference is reported, at the place of the whole, and it names the only item of each list. -/
def Pointed (act : Option Str) (p : ParsedRef) (x : OutgoingReference) : Prop :=
  x.startPos = p.2.1 ∧ x.endPos = p.2.2 ∧ Points act p.1 x.reference

/-- What is reported for a mention of single things. -/
inductive MentionedOnce : Mention → List OutgoingReference → Prop
  | here {rs xs} (h : Both (Pointed none) rs xs) : MentionedOnce (none, rs) xs
  | ofAct {a x id rs xs} (ha : ActMention a x) (hi : ActName a id) (h : Both (Pointed (some id)) rs xs) :
      MentionedOnce (some a, rs) (x :: xs)

/-- The ranges of a list are after its other items. -/
def RangesLast (p : ParsedPart) : Prop := ∀ x ∈ p.singles, ∀ y ∈ p.ranges, x.2.2 ≤ y.2.1

end Verif.Spec
