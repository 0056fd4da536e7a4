import Verif.Spec.Grammar

/-! # How references are written -/

namespace Verif.Spec

/-- A piece of a text. -/
def slice (s : Str) (a b : Nat) : Str := (s.drop a).take (b - a)

/-- A text without its spaces. -/
def squeeze (s : Str) : Str := s.filter fun c => !isSpace c

/-- What is written between two places, without the spaces. -/
def told (s : Str) (a b : Nat) : Str := squeeze (slice s a b)

/-- The Hungarian letters of the lower case. -/
def hunLower (c : Char) : Prop := isLowerAz c = true ∨ c ∈ py"éáőúöüóíű"

/-- A word with any ending. -/
def Inflected (word w : Str) : Prop := ∃ e, w = word ++ e ∧ ∀ c ∈ e, hunLower c

/-- A number in digits. -/
def Digits (s : Str) : Prop := s ≠ [] ∧ ∀ c ∈ s, isAsciiDigit c = true

/-- A Roman number, well formed or not. -/
def RomanDigits (s : Str) : Prop := s ≠ [] ∧ ∀ c ∈ s, c ∈ py"IVXLCDM"

/-- The numbers of articles: `5`, `5/A`, `6:5`. -/
def ArticleNumber (s : Str) : Prop :=
  ∃ b n l, s = b ++ n ++ l ∧ (b = [] ∨ ∃ d, Digits d ∧ b = d ++ py":") ∧ Digits n ∧ (l = [] ∨ ∃ c, isUpperAz c = true ∧ l = ['/', c])

/-- What may stand as an identifier. -/
def Identifies : PartKind → Str → Prop
  | .article, s => ArticleNumber s
  | .paragraph, s => ∃ n l, s = n ++ l ∧ Digits n ∧ (l = [] ∨ ∃ c, isLowerAz c = true ∧ l = [c])
  | .alphabeticPoint, s => s = py"ny" ∨ s = py"sz" ∨ ∃ c, isLowerAz c = true ∧ s = [c]
  | .numericPoint, s => ∃ n l, s = n ++ l ∧ Digits n ∧ (l = [] ∨ ∃ c, isLowerAz c = true ∧ (l = [c] ∨ l = ['/', c]))
  | .alphabeticSubpoint, s => (∃ c, isLowerAz c = true ∧ s = [c]) ∨ ∃ c d, isLowerAz c = true ∧ isLowerAz d = true ∧ s = [c, d]
  | .numericSubpoint, s => Digits s

/-- How one is written. -/
def SingleWritten (k : PartKind) (id w : Str) : Prop :=
  Identifies k id ∧ match k with
    | .article | .numericPoint | .numericSubpoint => w = id ++ py"."
    | .paragraph => w = (py"(") ++ id ++ py")"
    | .alphabeticPoint | .alphabeticSubpoint => w = id ++ py")"

/-- The sign of an article with any ending. -/
def ArticleSign (w : Str) : Prop := w = py"§" ∨ ∃ e, w = (py"§-") ++ e ∧ ∀ c ∈ e, hunLower c

/-- The dashes. -/
def Dash (w : Str) : Prop := w ∈ [py"−", py"–", py"-"]

/-- How a range is written. -/
def RangeWritten (k : PartKind) (x y w : Str) : Prop :=
  Identifies k x ∧ Identifies k y ∧ ∃ d, Dash d ∧ match k with
    | .article => ∃ m, (m = [] ∨ ∃ e, m = (py".") ++ e ∧ ArticleSign e) ∧ w = x ++ m ++ d ++ y ++ py"."
    | .paragraph => w = (py"(") ++ x ++ (py")") ++ d ++ (py"(") ++ y ++ py")"
    | .alphabeticPoint => ∃ m, (m = [] ∨ m = py")") ∧ w = x ++ m ++ d ++ y ++ py")"
    | .numericPoint | .numericSubpoint => w = x ++ d ++ y ++ py"."
    | .alphabeticSubpoint => w = x ++ (py")") ++ d ++ y ++ py")"

/-- What may be between items of a list. -/
def Separator (w : Str) : Prop :=
  ∃ c o a, w = c ++ o ++ a ∧ c ∈ [py"", py",", py";"] ∧ o ∈ [py"", py"és", py"valamint", py"illetve", py"vagy"] ∧
    a ∈ [py"", py"a", py"az"] ∧ (c = [] → o = [] → a = [])

/-- What is at the end of a list. -/
def ListEnd : PartKind → Str → Prop
  | .article, w => ArticleSign w
  | .paragraph, w => Inflected (py"bekezdés") w
  | .alphabeticPoint, w | .numericPoint, w => Inflected (py"pont") w
  | .alphabeticSubpoint, w | .numericSubpoint, w => Inflected (py"alpont") w

/-- An item of a list with its place. -/
abbrev Item := ((Str × Str) × Int × Int) ⊕ (Str × Int × Int)

/-- The place of an item. -/
def Item.place : Item → Int × Int
  | .inl x => x.2
  | .inr x => x.2

/-- What is written at the place of an item is this item. -/
def ItemWritten (s : Str) (k : PartKind) (x : Item) : Prop :=
  ∃ a b : Nat, x.place = (↑a, ↑b) ∧ a < b ∧ b ≤ s.length ∧ match x with
    | .inl r => RangeWritten k r.1.1 r.1.2 (told s a b)
    | .inr r => SingleWritten k r.1 (told s a b)

/-- Items one after the other from one place to another, with separators after them. -/
inductive ItemsWritten (s : Str) (k : PartKind) : List Item → Nat → Nat → Prop
  | nil (a) : ItemsWritten s k [] a a
  | cons {x xs} {a b c d e : Nat} (hx : ItemWritten s k x) (hp : x.place = (↑b, ↑c)) (ha : a ≤ b) (hs : told s a b = [])
      (hd : c ≤ d) (ht : Separator (told s c d)) (h : ItemsWritten s k xs d e) : ItemsWritten s k (x :: xs) a e

/-- A list is written from one place to another: its items in order and the word at its end. -/
def PartWritten (s : Str) (p : ParsedPart) (a c : Nat) : Prop :=
  ∃ (items : List Item) (b : Nat), items ≠ [] ∧ p.singles = items.filterMap Sum.getRight? ∧ p.ranges = items.filterMap Sum.getLeft? ∧
    ItemsWritten s p.kind items a b ∧ b < c ∧ c ≤ s.length ∧ ListEnd p.kind (told s b c)

/-- Lists one after the other, with something before each of them. -/
inductive PartsWritten (s : Str) (gap : Str → Prop) : List ParsedPart → Nat → Nat → Prop
  | nil (a) : PartsWritten s gap [] a a
  | cons {p ps a b c d} (ha : a ≤ b) (hg : gap (told s a b)) (hp : PartWritten s p b c) (h : PartsWritten s gap ps c d) :
      PartsWritten s gap (p :: ps) a d

/-- The levels go down. -/
def PartKind.depth : PartKind → Nat
  | .article => 0
  | .paragraph => 1
  | .alphabeticPoint | .numericPoint => 2
  | .alphabeticSubpoint | .numericSubpoint => 3

/-- The lists of a reference, each on a lower level than the one before, are written at its place, with nothing else than these gaps between
them. -/
def RefWritten (s : Str) (gap : Str → Prop) (r : ParsedRef) : Prop :=
  ∃ a b c : Nat, r.2 = (↑a, ↑c) ∧ a < c ∧ b ≤ c ∧ c ≤ s.length ∧ PartsWritten s gap r.1 a b ∧ gap (told s b c) ∧
    (r.1.map fun p => PartKind.depth p.kind).Pairwise (· < ·)

/-- Nothing but spaces. -/
def NoGap (w : Str) : Prop := w = []

/-- What may come before something new. -/
def InsertionGap (w : Str) : Prop :=
  ∃ x t, w = x ++ t ∧ x ∈ [py"", py"a", py"az", py"a§", py"abekezdés"] ∧ t ∈ [py"", py"akövetkező"]

/-! ## Acts -/

/-- An abbreviation of the name of an act: a capital letter, small ones, and `.`, `tv.` or `vhr.` at the end. -/
def Abbreviated (t : Str) : Prop :=
  ∃ c e r, t = c :: e ++ r ∧ (isUpperAz c = true ∨ c ∈ py"ÉÁŐÚÖÜÓÍŰ") ∧ e ≠ [] ∧ (∀ x ∈ e, hunLower x) ∧
    (r = py"." ∨ ∃ x y z, r = x ++ y ++ z ∧ x ∈ [py"", py"."] ∧ y ∈ [py"", py" "] ∧ z ∈ [py"tv.", py"vhr."])

/-- The word for an act with any ending. -/
def ActWord (w : Str) : Prop := w = py"tv." ∨ Inflected (py"törvén") w

/-- An act is written by its number, perhaps with an abbreviation after it that is defined there, or by an abbreviation. -/
def ActWritten (s : Str) (a : ParsedActRef) : Prop :=
  (∃ (year number e : Str) (x y : Nat), a.actId = some ((year, number), ↑x, ↑y) ∧ a.abbreviation = none ∧ x < y ∧ y ≤ s.length ∧
      Digits year ∧ RomanDigits number ∧ ActWord e ∧ told s x y = year ++ (py".évi") ++ number ++ (py".") ++ e ∧
      ∀ t, a.fromNowOn = some t → Abbreviated t ∧ ∃ z l w, y ≤ z ∧ z + t.length ≤ l ∧ l ≤ s.length ∧ slice s z (z + t.length) = t ∧
        told s y z ∈ [py"(atovábbiakban", py"(atovábbiakban:"] ∧ w ∈ [py")", py"törvény)"] ∧ told s (z + t.length) l = w) ∨
    ∃ (t : Str) (x y : Nat), a.actId = none ∧ a.fromNowOn = none ∧ a.abbreviation = some (t, ↑x, ↑y) ∧ x < y ∧ y ≤ s.length ∧
      Abbreviated t ∧ slice s x y = t

/-- A quotation is written. -/
def QuoteWritten (s : Str) (q : List QuoteTree) (a b : Nat) : Prop :=
  a < b ∧ b ≤ s.length ∧ slice s a b = quotesText q ∧ ∃ inner, q = .text (py"„") :: inner ++ [.text (py"”")]

/-! ## Structure -/

/-- A number, perhaps with a letter. -/
def Lettered (number : Str → Prop) (s : Str) : Prop :=
  ∃ n l, s = n ++ l ∧ number n ∧ (l = [] ∨ ∃ c, isUpperAz c = true ∧ (l = [c] ∨ l = ['/', c]))

/-- `a` or `az`, or nothing. -/
def articles : List Str := [py"", py"a", py"az"]

/-- Numbers as words at the beginning of a name. -/
def CapitalOrdinal (b : Str) : Prop :=
  b ∈ [py"Első", py"Második", py"Harmadik", py"Negyedik", py"Ötödik", py"Hatodik", py"Hetedik", py"Nyolcadik", py"Kilencedik", py"Tizedik",
    py"Tizenegyedik", py"Tizenkettedik", py"Tizenharmadik", py"Tizennegyedik", py"Tizenötödik", py"Tizenhatodik", py"Tizenhetedik",
    py"Tizennyolcadik", py"Tizenkilencedik"]

/-- A book that something is in. -/
def BookWritten (b : Option Str) (w : Str) : Prop := (b = none ∧ w = []) ∨ ∃ o, b = some o ∧ CapitalOrdinal o ∧ w = o ++ py"Könyv"

/-- How structural references are written, without the spaces. -/
inductive StructWritten : ParsedStructRef → Str → Prop
  | words {raw c} (hc : c ∈ [py"", py"című"]) :
      StructWritten (.subtitleTitle (some raw) none) (squeeze raw.flatten ++ c ++ py"alcíme")
  | quoted {inner q c} (hq : q = .text (py"„") :: inner ++ [.text (py"”")]) (hc : c ∈ [py"", py"című"]) :
      StructWritten (.subtitleTitle none (some q)) (squeeze (quotesText q) ++ c ++ py"alcíme")
  | before {id a g e} (hi : ArticleNumber id.flatten) (ha : a ∈ articles) (hg : ArticleSign g) (he : e ∈ [py"megelőzően", py"megelőző"]) :
      StructWritten (.beforeArticle id) (a ++ id.flatten ++ (py".") ++ g ++ e)
  | after {id a g e} (hi : ArticleNumber id.flatten) (ha : a ∈ articles) (hg : ArticleSign g) (he : e ∈ [py"követően", py"követő"]) :
      StructWritten (.afterArticle id) (a ++ id.flatten ++ (py".") ++ g ++ e)
  | subtitle {id e} (hi : Lettered Digits id.flatten) (he : Inflected (py"alcím") e) :
      StructWritten (.subtitleNumber id) (id.flatten ++ (py".") ++ e)
  | chapter {id e} (hi : Lettered RomanDigits id.flatten) (he : Inflected (py"Fejezet") e) :
      StructWritten (.chapterNumber id) (id.flatten ++ (py".") ++ e)
  | part {b u id e} (hb : BookWritten b u) (hi : CapitalOrdinal id) (he : Inflected (py"Rész") e) :
      StructWritten (.partNumber b id) (u ++ id ++ e)
  | title {b u id e} (hb : BookWritten b u) (hi : Lettered RomanDigits id.flatten) (he : Inflected (py"Cím") e) :
      StructWritten (.titleNumber b id) (u ++ id.flatten ++ (py".") ++ e)
  | newTitle {b id e} (hb : CapitalOrdinal b) (hi : Lettered RomanDigits id.flatten) (he : Inflected (py"Cím") e) :
      StructWritten (.titleNumber (some b) id) (b ++ (py"Könyveakövetkező") ++ id.flatten ++ (py".") ++ e)

/-! ## Dates -/

/-- A month. -/
def Month (m : Str) : Prop :=
  m ∈ [py"január", py"február", py"március", py"április", py"május", py"június", py"július", py"augusztus", py"szeptember", py"október",
    py"november", py"december"]

/-- Numbers of days and months as words. -/
def Ordinal (t : Str) : Prop :=
  t ∈ [py"első", py"második", py"harmadik", py"negyedik", py"ötödik", py"hatodik", py"hetedik", py"nyolcadik", py"kilencedik", py"tizedik",
    py"tizenegyedik", py"tizenkettedik", py"tizenharmadik", py"tizennegyedik", py"tizenötödik", py"tizenhatodik", py"tizenhetedik",
    py"tizennyolcadik", py"tizenkilencedik", py"huszadik", py"harmincadik", py"negyvenedik", py"ötvenedik", py"hatvanadik", py"hetvenedik",
    py"nyolcvanadik", py"kilencvenedik"]

/-- How dates are written. -/
def DateWritten (d : ParsedDate) (w : Str) : Prop :=
  Digits d.year ∧ Month d.month ∧ Digits d.day ∧ ∃ e ∈ [py"-án", py"-jén", py"-én", py".napján"],
    w = d.year ++ (py".") ++ d.month ++ d.day ++ e

/-- `a kihirdetését követő`. -/
def AfterPublicationWritten (w : Str) : Prop :=
  ∃ a k, w = a ++ k ++ (py"követő") ∧ a ∈ [py"", py"a", py"etörvény"] ∧ k ∈ [py"kihirdetését", py"kihirdetést"]

/-- A number in digits with a full stop, or in words. -/
def CountWritten (digits words : Option Str) (w : Str) : Prop :=
  (digits = none ∧ ∃ t, words = some t ∧ Ordinal t ∧ w = t) ∨ words = none ∧ ∃ n, digits = some n ∧ Digits n ∧ w = n ++ py"."

/-- How the time of coming into force is written. -/
inductive TimeWritten : ParsedEnforcementDate → Str → Prop
  | date {d e w} (h : d.exactDate = some e) (ha : d.afterPublication = none) (hm : d.dayInMonth = none) (he : DateWritten e w) :
      TimeWritten d w
  | nextDay {d u} (h : d.exactDate = none) (ha : d.afterPublication = some {}) (hm : d.dayInMonth = none)
      (hu : AfterPublicationWritten u) : TimeWritten d (u ++ py"napon")
  | days {d a u v} (h : d.exactDate = none) (ha : d.afterPublication = some a) (hm : d.dayInMonth = none)
      (hu : AfterPublicationWritten u) (hn : CountWritten a.asNumber a.asText v) : TimeWritten d (u ++ v ++ py"napon")
  | dayInMonth {d m u v x} (h : d.exactDate = none) (ha : d.afterPublication = none) (hm : d.dayInMonth = some m)
      (hu : AfterPublicationWritten u) (hv : (m.month = none ∧ v = []) ∨ ∃ t, m.month = some t ∧ Ordinal t ∧ v = t)
      (hx : CountWritten m.dayAsNumber m.dayAsText x) : TimeWritten d (u ++ v ++ (py"hónap") ++ x ++ py"napján")

/-! ## Sentences -/

/-- The ends of amending sentences. -/
def amendmentEnds : List Str :=
  [py"helyébeakövetkezőrendelkezéslép:", py"helyébeakövetkezőrendelkezéseklépnek:", py"akövetkezőszöveggelléphatályba:"]

/-- The ends of inserting sentences. -/
def insertionEnds : List Str := [py"egészülki:", py"kiegészülveléphatályba:"]

/-- The ends of sentences that amend with a subtitle. -/
def subtitleEnds : List Str :=
  [py"helyébeakövetkezőrendelkezésésalcím", py"helyébeakövetkezőalcím"].flatMap fun x =>
    [py"ésrendelkezés", py""].flatMap fun y => [x ++ y ++ py"lép:", x ++ y ++ py"lépnek:"]

/-- The ends of sentences that amend a part of the structure. -/
def structureEnds : List Str :=
  [py"helyébeakövetkezőcímlép:", py"helyébeakövetkezőfejezetlép:", py"helyébeakövetkezőrészlép:", py"helyébeakövetkezőlép:"]

/-- The sentence ends with one of these, spaces aside. -/
def EndsIn (s : Str) (ends : List Str) : Prop := ∃ e ∈ ends, e <:+ squeeze s

/-- The sentence begins with one of these, spaces aside. -/
def BeginsWith (s : Str) (beginnings : List Str) : Prop := ∃ b ∈ beginnings, b <+: squeeze s

/-- One text is written after the other one that it replaces, with the right words between them. -/
def ReplacementWritten (s : Str) (p : List QuoteTree × List QuoteTree) : Prop :=
  ∃ a b c d, QuoteWritten s p.1 a b ∧ QuoteWritten s p.2 c d ∧ b ≤ c ∧ ∃ x ∈ [py"szövegrészek", py"szövegrész"],
    ∃ y ∈ [py"helyébe", py"helyett"], ∃ z ∈ articles, told s b c = x ++ y ++ z

/-- What a node says is written in the sentence, and the sentence is one that says such things. -/
def NodeWritten (s : Str) : GrammarNode → Prop
  | .compoundReference act references => (∀ a ∈ act, ActWritten s a) ∧ ∀ r ∈ references, RefWritten s NoGap r
  | .actReference act => ActWritten s act
  | .blockAmendment act amended inserted => ActWritten s act ∧ (∀ r ∈ amended, RefWritten s NoGap r) ∧
      (∀ r ∈ inserted, RefWritten s InsertionGap r) ∧ ((amended ≠ none ∧ inserted = none ∧ EndsIn s amendmentEnds) ∨
        inserted ≠ none ∧ EndsIn s insertionEnds)
  | .blockAmendmentWithSubtitle act structural amended inserted => ActWritten s act ∧
      (∀ x ∈ structural, ∃ i j, StructWritten x (told s i j)) ∧ (∀ r ∈ amended, RefWritten s (fun _ => True) r) ∧
      (∀ r ∈ inserted, RefWritten s (fun _ => True) r) ∧
      ((amended ≠ none ∧ inserted = none ∧ EndsIn s (amendmentEnds ++ subtitleEnds)) ∨
        amended = none ∧ inserted ≠ none ∧ EndsIn s insertionEnds)
  | .blockAmendmentStructural act amended inserted => ActWritten s act ∧
      (∀ x ∈ amended, ∃ i j, StructWritten x (told s i j)) ∧ (∀ x ∈ inserted, ∃ i j, StructWritten x (told s i j)) ∧
      ((amended ≠ none ∧ inserted = none ∧ EndsIn s (amendmentEnds ++ structureEnds)) ∨
        amended = none ∧ inserted ≠ none ∧ EndsIn s insertionEnds)
  | .enforcementDate d => (∀ r ∈ d.references, RefWritten s NoGap r) ∧ (∀ r ∈ d.exceptionReferences, RefWritten s NoGap r) ∧
      BeginsWith s [py"Etörvény", py"Ezatörvény", py"A"] ∧ ∃ w, TimeWritten d w ∧
        ((d.inlineRepeal = none ∧ EndsIn s [w ++ py"léphatályba."]) ∨ ∃ r e t v, d.inlineRepeal = some r ∧ DateWritten r v ∧
          e ∈ [py"", py"etörvény", py"ezatörvény"] ∧ t ∈ [py"", py"a"] ∧
          EndsIn s [w ++ (py"léphatályba,és") ++ e ++ v ++ t ++ py"hatályátveszti."])
  | .textAmendment act references parts => ActWritten s act ∧ references ≠ [] ∧ (∀ r ∈ references, RefWritten s NoGap r) ∧
      parts ≠ [] ∧ (∀ p ∈ parts, ReplacementWritten s p) ∧ EndsIn s [py"lép.", py"léphatályba."]
  | .articleTitleAmendment act article original replacement => ActWritten s act ∧
      (∃ a b g, article.2 = (Int.ofNat a, Int.ofNat b) ∧ a < b ∧ b ≤ s.length ∧ ArticleNumber article.1.flatten ∧ ArticleSign g ∧
        told s a b = article.1.flatten ++ (py".") ++ g) ∧ ReplacementWritten s (original, replacement) ∧
      EndsIn s [py"lép.", py"léphatályba."]
  | .simpleRepeal act references texts => ActWritten s act ∧ references ≠ [] ∧ (∀ r ∈ references, RefWritten s NoGap r) ∧
      (∀ q ∈ texts, ∃ a b, QuoteWritten s q a b) ∧ BeginsWith s [py"Nemléphatályba", py"Hatályátveszti"] ∧ EndsIn s [py"."]
  | .structuralRepeal act structural => ActWritten s act ∧ (∃ i j, StructWritten structural (told s i j)) ∧
      BeginsWith s [py"Nemléphatályba", py"Hatályátveszti"] ∧ EndsIn s [py"."]
  | .other => True

/-! ## What an analysis says -/

/-- In a list of items of this kind `y` comes right after `x`. The code does not know how numbered subpoints follow each other. -/
def NextInList (k : PartKind) (x y : Str) : Prop :=
  match k with
  | .article => ArticleAfter x y
  | .paragraph | .numericPoint => NumberAfter x y
  | .alphabeticPoint => LetterAfter x y
  | .alphabeticSubpoint => ∃ p c z, x = p ++ [c] ∧ y = p ++ z ∧ LetterAfter [c] z
  | .numericSubpoint => False

/-- A component of a reference is written in the sentence: as it is, or as two items of a list that are numbered one after the other.
The words that end such lists follow it. -/
def ComponentWritten (s : Str) (l : RefLevel) : Ident → Prop
  | .one id => ∃ k i j m n, kindLevel k = l ∧ SingleWritten k id (told s i j) ∧ j ≤ m ∧ ListEnd k (told s m n)
  | .range x y => ∃ k m n, kindLevel k = l ∧ ListEnd k (told s m n) ∧ ((∃ i j, j ≤ m ∧ RangeWritten k x y (told s i j)) ∨
      NextInList k x y ∧ ∃ a b c d, d ≤ m ∧ SingleWritten k x (told s a b) ∧ SingleWritten k y (told s c d))

/-- The name of an act is written in the sentence: by its number, whatever the ending is, or by an abbreviation. -/
def ActNameWritten (s : Str) (id : Str) : Prop :=
  (∃ year number e i j, id = year ++ (py". évi ") ++ number ++ (py". törvény") ∧ Digits year ∧ RomanDigits number ∧ ActWord e ∧
      told s i j = year ++ (py".évi") ++ number ++ (py".") ++ e) ∨
    Abbreviated id ∧ ∃ i j, slice s i j = id

/-- All that a reference names is written in the sentence. -/
structure ReferenceWritten (s : Str) (r : Reference) : Prop where
  act : ∀ a, r.act = some a → ActNameWritten s a
  components : ∀ l p, component r l = some p → ComponentWritten s l p

/-- A text is quoted at a place. -/
def QuotedAt (s t : Str) (a b : Nat) : Prop := a < b ∧ b ≤ s.length ∧ ∃ u, slice s a b = (py"„") ++ u ++ (py"”") ∧ Stripped u t

/-- A text is quoted after another one that it replaces. -/
def Replaces (s original replacement : Str) : Prop :=
  ∃ a b c d, QuotedAt s original a b ∧ QuotedAt s replacement c d ∧ b ≤ c ∧ ∃ x ∈ [py"szövegrészek", py"szövegrész"],
    ∃ y ∈ [py"helyébe", py"helyett"], ∃ z ∈ articles, told s b c = x ++ y ++ z

/-- The sentence ends with when something comes into force, and perhaps with when it is repealed. -/
def EndsWithTime (s : Str) (time : EnforcementTime) (repeal : Option Date) : Prop :=
  ∃ d w, TimeNamed d time ∧ TimeWritten d w ∧
    ((repeal = none ∧ EndsIn s [w ++ py"léphatályba."]) ∨ ∃ x p e t v, repeal = some x ∧ DateNamed p x ∧ DateWritten p v ∧
      e ∈ [py"", py"etörvény", py"ezatörvény"] ∧ t ∈ [py"", py"a"] ∧
      EndsIn s [w ++ (py"léphatályba,és") ++ e ++ v ++ t ++ py"hatályátveszti."])

/-- The sentence is one that says this. -/
def DataWritten (s : Str) : SemanticData → Prop
  | .blockAmendment _ false => EndsIn s (amendmentEnds ++ subtitleEnds ++ structureEnds ++ insertionEnds)
  | .blockAmendment _ true => EndsIn s insertionEnds
  | .enforcementDate _ time repeal => BeginsWith s [py"Etörvény", py"Ezatörvény", py"A"] ∧ EndsWithTime s time repeal
  | .textAmendment _ o r | .articleTitleAmendment _ o r => Replaces s o r ∧ EndsIn s [py"lép.", py"léphatályba."]
  | .repeal _ t => BeginsWith s [py"Nemléphatályba", py"Hatályátveszti"] ∧ EndsIn s [py"."] ∧ ∀ x, t = some x → ∃ a b, QuotedAt s x a b

/-- An abbreviation is defined in the sentence, after the number of the act. -/
def AbbreviationWritten (s : Str) (a : ActIdAbbreviation) : Prop :=
  Abbreviated a.abbreviation ∧ ∃ year number e o c, ∃ i j z l : Nat, a.act = year ++ (py". évi ") ++ number ++ (py". törvény") ∧
    Digits year ∧ RomanDigits number ∧ ActWord e ∧ i < j ∧ j ≤ z ∧ told s i j = year ++ (py".évi") ++ number ++ (py".") ++ e ∧
    o ∈ [py"(atovábbiakban", py"(atovábbiakban:"] ∧ told s j z = o ∧ slice s z (z + a.abbreviation.length) = a.abbreviation ∧
    z + a.abbreviation.length ≤ l ∧ l ≤ s.length ∧ c ∈ [py")", py"törvény)"] ∧ told s (z + a.abbreviation.length) l = c

/-! ## Sentences that cannot be analysed -/

/-- Nothing but spaces. -/
def Blank (s : Str) : Prop := ∀ c ∈ s, isSpace c = true

/-- A subpoint with two letters is named, and after it a subpoint with the first of them alone, as in `aa) és a)`. -/
def SubpointClash (s : Str) : Prop :=
  ∃ c d i j k l, isLowerAz c = true ∧ isLowerAz d = true ∧ j ≤ k ∧ told s i j = [c, d, ')'] ∧ told s k l = [c, ')']

/-- A day is named that is not in the calendar. -/
def NoSuchDate (s : Str) : Prop := ∃ d w, DateWritten d w ∧ w <:+: squeeze s ∧ ∀ x, ¬ DateNamed d x

end Verif.Spec
