import Verif.Spec.Ordinary

/-! # Sentences that change the law, as they are usually written -/

namespace Verif.Spec

/-! ## The pieces of such sentences -/

/-- The words of a title before an act, with what comes after them: nothing in them can be taken for an act. -/
inductive TitleText : Str → Str → Prop
  | done {rest} : TitleText [] rest
  | space {c t rest} (hc : isSpace c = true) (h : TitleText t rest) : TitleText (c :: t) rest
  | plain {w t rest} (hw : PlainText w (t ++ rest)) (hq : '„' ∉ w) (h : TitleText t rest) : TitleText (w ++ t) rest

/-- An act with its title before it, beginning at a place, with what comes after it. -/
def ActPhrase (n : Nat) (a : ParsedActRef) (w rest : Str) : Prop :=
  ∃ t v, w = t ++ v ∧ TitleText t (v ++ rest) ∧ ActText (n + t.length) a v rest

/-- A quotation of a text; spaces at its ends do not count. -/
def QuoteText (x w : Str) : Prop := ∃ u, w = '„' :: u ++ py"”" ∧ Balanced u ∧ Stripped u x

/-- `„x” szövegrész helyébe a „y”`. -/
def ReplacedText (x y w : Str) : Prop :=
  ∃ u p h a v, w = u ++ ' ' :: p ++ ' ' :: h ++ ' ' :: a ++ v ∧ QuoteText x u ∧ p ∈ [py"szövegrész", py"szövegrészek"] ∧
    h ∈ [py"helyébe", py"helyett"] ∧ a ∈ [py"", py"a ", py"az "] ∧ QuoteText y v

/-- The word after a text that replaces another one. -/
def ReplacingWord (w : Str) : Prop := w ∈ [py" szöveg", py" szöveggel", py" szövegrész"]

/-- Replaced texts one after the other. -/
inductive ReplacedTexts : List (Str × Str) → Str → Prop
  | one {x y w e} (h : ReplacedText x y w) (he : ReplacingWord e) : ReplacedTexts [(x, y)] (w ++ e)
  | cons {x y w e g l v} (h : ReplacedText x y w) (he : e = [] ∨ ReplacingWord e) (hg : SeparatorText g) (hs : ReplacedTexts l v) :
      ReplacedTexts ((x, y) :: l) (w ++ e ++ g ++ v)

/-- Repealed texts one after the other. -/
inductive RepealedTexts : List Str → Str → Prop
  | one {x w e} (h : QuoteText x w) (he : e ∈ [py"", py" szövegrész"]) : RepealedTexts [x] (w ++ e)
  | cons {x w e g l v} (h : QuoteText x w) (he : e ∈ [py"", py" szövegrész"]) (hg : SeparatorText g) (hs : RepealedTexts l v) :
      RepealedTexts (x :: l) (w ++ e ++ g ++ v)

/-- `2020. január 1-jén`. -/
def DateText (d : ParsedDate) (w : Str) : Prop :=
  Digits d.year ∧ Month d.month ∧ Digits d.day ∧ ∃ e ∈ [py"-án", py"-jén", py"-én", py". napján"],
    w = d.year ++ (py". ") ++ d.month ++ ' ' :: d.day ++ e

/-- `a kihirdetését követő`. -/
def AfterText (w : Str) : Prop :=
  ∃ a k, w = a ++ k ++ py" követő" ∧ a ∈ [py"", py"a ", py"e törvény "] ∧ k ∈ [py"kihirdetését", py"kihirdetést"]

/-- When something comes into force. -/
inductive TimeText : ParsedEnforcementDate → Str → Prop
  | date {d e w} (h : d.exactDate = some e) (ha : d.afterPublication = none) (hm : d.dayInMonth = none) (he : DateText e w) : TimeText d w
  | nextDay {d u} (h : d.exactDate = none) (ha : d.afterPublication = some {}) (hm : d.dayInMonth = none) (hu : AfterText u) :
      TimeText d (u ++ py" napon")
  | days {d a u v} (h : d.exactDate = none) (ha : d.afterPublication = some a) (hm : d.dayInMonth = none) (hu : AfterText u)
      (hn : CountWritten a.asNumber a.asText v) : TimeText d (u ++ ' ' :: v ++ py" napon")
  | dayInMonth {d m u v x} (h : d.exactDate = none) (ha : d.afterPublication = none) (hm : d.dayInMonth = some m) (hu : AfterText u)
      (hv : (m.month = none ∧ v = []) ∨ ∃ t, m.month = some t ∧ Ordinal t ∧ v = ' ' :: t) (hx : CountWritten m.dayAsNumber m.dayAsText x) :
      TimeText d (u ++ v ++ (py" hónap ") ++ x ++ py" napján")

/-- What does not come into force then: ` – a (2) bekezdésben foglalt kivétellel –`. -/
def ExceptionText (n : Nat) (rs : List ParsedRef) (w : Str) : Prop :=
  (rs = [] ∧ w = []) ∨ ∃ d e ps u f k, rs = [(ps, ↑(n + 5), ↑(n + 5 + u.length))] ∧ Dash d ∧ Dash e ∧ ReferenceText (n + 5) ps u ∧
    f ∈ [py"foglalt", py"foglaltak", py"meghatározott"] ∧ k ∈ [py"kivétellel", py"kivételével", py"kivételekkel"] ∧
    w = ' ' :: d ++ (py" a ") ++ u ++ ' ' :: f ++ ' ' :: k ++ ' ' :: e

/-- What comes into force: references or none. -/
def InForceText (n : Nat) (rs : List ParsedRef) (w : Str) : Prop :=
  (rs = [] ∧ w = []) ∨ ∃ v, w = ' ' :: v ∧ ReferencesText (n + 1) rs v

/-- When it is repealed: `, és 2021. január 1-jén hatályát veszti`, or nothing. -/
def RepealText (d : Option ParsedDate) (w : Str) : Prop :=
  (d = none ∧ w = []) ∨ ∃ x e v a, d = some x ∧ w = (py", és ") ++ e ++ v ++ a ++ (py" hatályát veszti") ∧
    e ∈ [py"", py"e törvény ", py"ez a törvény "] ∧ DateText x v ∧ a ∈ [py"", py" a"]

/-- Something new: `a következő 5/A. §-sal`, or under something that is there: `5. §-a a következő (3) bekezdéssel`. -/
inductive InsertionText : Nat → List ParsedPart → Str → Prop
  | article {n p v} (hp : p.kind = .article) (h : ReferenceText (n + 12) [p] v) : InsertionText n [p] ((py"a következő ") ++ v)
  | paragraph {n p q v} (hp : p.kind = .article) (hq : q.kind = .paragraph) (h : ReferenceText (n + 12) [p, q] v) :
      InsertionText n [p, q] ((py"a következő ") ++ v)
  | under {n p ps q u v} (hp : p.kind = .article) (h : ReferenceText n (p :: ps) u) (hl : ∀ l, (p :: ps).getLast? = some l → Under l.kind q.kind)
      (hq : PartText (n + u.length + 13) q v) : InsertionText n (p :: ps ++ [q]) (u ++ (py" a következő ") ++ v)

/-- Something new beside what is replaced. What is not said of its place is the same as of that. -/
inductive AdditionText : Nat → List ParsedPart → Str → Prop
  /-- `az 5. § a következő (3) bekezdéssel`, perhaps without `az`. -/
  | insertion {n ps v} (h : InsertionText n ps v) : AdditionText n ps v
  | under {n b p ps q u v} (hb : b ∈ [py"a ", py"az "]) (hp : p.kind = .article) (h : ReferenceText (n + b.length) (p :: ps) u)
      (hl : ∀ l, (p :: ps).getLast? = some l → Under l.kind q.kind) (hq : PartText (n + b.length + u.length + 13) q v) :
      AdditionText n (p :: ps ++ [q]) (b ++ (u ++ (py" a következő ") ++ v))
  /-- `a § a következő (3) bekezdéssel`. -/
  | paragraph {n x q v} (hx : x ∈ [py"", py"a § "]) (hk : q.kind = .paragraph) (hq : PartText (n + x.length + 12) q v) :
      AdditionText n [q] (x ++ (py"a következő ") ++ v)
  /-- `a bekezdés a következő c) ponttal`. -/
  | point {n x q v} (hx : x ∈ [py"", py"a § ", py"a bekezdés "]) (hk : q.kind = .alphabeticPoint ∨ q.kind = .numericPoint)
      (hq : PartText (n + x.length + 12) q v) : AdditionText n [q] (x ++ (py"a következő ") ++ v)

/-! ## The sentences -/

/-- What a sentence changes. -/
inductive Change
  /-- In these places of an act, texts are replaced by other ones. -/
  | texts (act : ParsedActRef) (places : List ParsedRef) (replaced : List (Str × Str))
  /-- In the title of an article, a text is replaced by another one. -/
  | title (act : ParsedActRef) (article : Str) (place : Int × Int) (old new : Str)
  /-- These parts of an act, or these texts in them, are repealed. -/
  | repeal (act : ParsedActRef) (parts : List ParsedRef) (texts : List Str)
  /-- Parts of this act or all of it come into force. -/
  | inForce (d : ParsedEnforcementDate)
  /-- Something new comes instead of this part of an act. -/
  | amend (act : ParsedActRef) (part : ParsedRef)
  /-- This part is new in an act. -/
  | insert (act : ParsedActRef) (part : ParsedRef)
  /-- Something new comes instead of this part and after it. -/
  | amendInsert (act : ParsedActRef) (part new : ParsedRef)

/-- The word before the noun, with a space. -/
def Noun (w : Str) : Prop := w ∈ [py"", py"a ", py"az "]

/-- What comes after the name of what is replaced. -/
def Replacing (w : Str) : Prop :=
  w ∈ [py" helyébe a következő rendelkezés lép", py" helyébe a következő rendelkezések lépnek", py" a következő szöveggel lép hatályba"]

/-- What comes after the name of what is new. -/
def Adding (w : Str) : Prop := w ∈ [py" egészül ki", py" kiegészülve lép hatályba"]

/-- The word `alcíme` is not there: nothing is said to be the title of a subtitle. -/
def NoTitle (s : Str) : Prop := ∀ u t, s = u ++ (py"alcíme") ++ t → ∃ c, t.head? = some c ∧ hunLetter c

/-- A sentence states a change. -/
inductive States : Str → Change → Prop
  /-- `A Ptk. 5. § (1) bekezdésében az „x” szövegrész helyébe az „y” szöveg lép.` -/
  | texts {o a p rs v b l q e} (ho : o ∈ [py"A ", py"Az "]) (ha : ActPhrase o.length a p (' ' :: v ++ ' ' :: b ++ q ++ e))
      (hr : ReferencesText (o.length + p.length + 1) rs v) (hb : Noun b) (hl : ReplacedTexts l q) (he : e ∈ [py" lép.", py" lép hatályba."]) :
      States (o ++ p ++ ' ' :: v ++ ' ' :: b ++ q ++ e) (.texts a rs l)
  /-- `A Ptk. 5. §-ának címében az „x” szövegrész helyébe az „y” szöveg lép.` -/
  | title {o a p x g c b old new q z e} (ho : o ∈ [py"A ", py"Az "])
      (ha : ActPhrase o.length a p (' ' :: x ++ (py". ") ++ g ++ ' ' :: c ++ ' ' :: b ++ q ++ z ++ e)) (hx : ArticleNumber x)
      (hg : EndText .article g) (hc : Inflected (py"cím") c) (hn : c ≠ py"cím") (hb : Noun b) (hq : ReplacedText old new q)
      (hz : ReplacingWord z) (he : e ∈ [py" lép.", py" lép hatályba."]) :
      States (o ++ p ++ ' ' :: x ++ (py". ") ++ g ++ ' ' :: c ++ ' ' :: b ++ q ++ z ++ e)
        (.title a x (↑(o.length + p.length + 1), ↑(o.length + p.length + 1 + (x ++ (py". ") ++ g).length)) old new)
  /-- `Hatályát veszti a Ptk. 5. §-a.` -/
  | repeal {o b a p rs v t l} (ho : o ∈ [py"Nem lép hatályba ", py"Hatályát veszti "]) (hb : b ∈ [py"a ", py"az "])
      (ha : ActPhrase (o.length + b.length) a p (' ' :: v ++ t ++ py".")) (hr : ReferencesText (o.length + b.length + p.length + 1) rs v)
      (ht : (l = [] ∧ t = []) ∨ ∃ b q, t = ' ' :: b ++ q ∧ Noun b ∧ RepealedTexts l q) :
      States (o ++ b ++ p ++ ' ' :: v ++ t ++ py".") (.repeal a rs l)
  /-- `Ez a törvény – a (2) bekezdésben foglalt kivétellel – 2020. január 1-jén lép hatályba.` -/
  | inForce {o x r t i d} (ho : o ∈ [py"E törvény", py"Ez a törvény", py"A", py"Az"]) (hx : ExceptionText o.length d.exceptionReferences x)
      (hr : InForceText (o.length + x.length) d.references r) (ht : TimeText d t) (hi : RepealText d.inlineRepeal i) :
      States (o ++ x ++ r ++ ' ' :: t ++ (py" lép hatályba") ++ i ++ py".") (.inForce d)
  /-- `A Ptk. 5. § (1) bekezdése helyébe a következő rendelkezés lép:` -/
  | amend {o a p ps v e} (ho : o ∈ [py"A ", py"Az "]) (ha : ActPhrase o.length a p (' ' :: v ++ e ++ py":"))
      (hr : ReferenceText (o.length + p.length + 1) ps v) (he : Replacing e) (hs : NoTitle (o ++ p ++ ' ' :: v ++ e ++ py":")) :
      States (o ++ p ++ ' ' :: v ++ e ++ py":")
        (.amend a (ps, ↑(o.length + p.length + 1), ↑(o.length + p.length + 1 + v.length)))
  /-- `A Ptk. 5. §-a a következő (3) bekezdéssel egészül ki:` -/
  | insert {o a p ps v e} (ho : o ∈ [py"A ", py"Az "]) (ha : ActPhrase o.length a p (' ' :: v ++ e ++ py":"))
      (hr : InsertionText (o.length + p.length + 1) ps v) (he : Adding e) (hs : NoTitle (o ++ p ++ ' ' :: v ++ e ++ py":")) :
      States (o ++ p ++ ' ' :: v ++ e ++ py":")
        (.insert a (ps, ↑(o.length + p.length + 1), ↑(o.length + p.length + 1 + v.length)))
  /-- `A Ptk. 5. § (1) bekezdése helyébe a következő rendelkezés lép, és a § a következő (3) bekezdéssel egészül ki:` -/
  | amendInsert {o a p ps v e c w qs u f} (ho : o ∈ [py"A ", py"Az "])
      (ha : ActPhrase o.length a p (' ' :: v ++ e ++ c ++ w ++ ' ' :: u ++ f ++ py":")) (hr : ReferenceText (o.length + p.length + 1) ps v)
      (he : Replacing e) (hc : c ∈ [py"", py","]) (hw : w ∈ [py" és", py" valamint", py" egyidejűleg"])
      (hi : AdditionText (o.length + p.length + 1 + v.length + e.length + c.length + w.length + 1) qs u) (hf : Adding f)
      (hs : NoTitle (o ++ p ++ ' ' :: v ++ e ++ c ++ w ++ ' ' :: u ++ f ++ py":")) :
      States (o ++ p ++ ' ' :: v ++ e ++ c ++ w ++ ' ' :: u ++ f ++ py":")
        (.amendInsert a (ps, ↑(o.length + p.length + 1), ↑(o.length + p.length + 1 + v.length))
          (qs, ↑(o.length + p.length + 1 + v.length + e.length + c.length + w.length + 1),
            ↑(o.length + p.length + 1 + v.length + e.length + c.length + w.length + 1 + u.length)))

/-! ## What should be reported -/

/-- The references to the parts of acts. -/
def changeRefs : Change → List ParsedRef
  | .texts _ rs _ | .repeal _ rs _ => rs
  | .title .. => []
  | .inForce d => d.references ++ d.exceptionReferences
  | .amend _ r | .insert _ r => [r]
  | .amendInsert _ r s => [r, s]

/-- How a list of parts is told: `Listed`, of which C37 says more, or `PointedOnce`. -/
abbrev Naming := Option Str → ParsedRef → List OutgoingReference → Prop

/-- A list with one item of each level is told by one reference that names these items. -/
def PointedOnce : Naming := fun act r xs => ∃ x, xs = [x] ∧ Pointed act r x

/-- If one reference names each of two parts, the second part comes directly under the same part as the first one and after it. -/
def ComesAfter (r s : ParsedRef) : Prop :=
  ∀ act y z c, Listed (some act) r [y] → Listed (some act) s [z] → Completes y.reference { z.reference with act := none } c →
    ValidRanges y.reference ∧ ValidRanges c ∧ Follows y.reference c

/-- What several lists name that continue each other, in a context. -/
def NamedInContext (N : Naming) (context : Reference) (rs : List ParsedRef) (ys : List OutgoingReference) : Prop :=
  ∃ xss, Both (N none) rs xss ∧ Continued context xss.flatten ys

/-- What is reported of a change. -/
inductive Reports (N : Naming) : Change → Analysis → Prop
  | texts {a x id ab rs xs l} (ha : ActMention a x) (hi : ActName a id) (hd : Defined (some a, []) ab)
      (h : NamedInContext N { act := some id } rs xs) :
      Reports N (.texts a rs l) ⟨x :: xs, xs.flatMap fun y => l.map fun p => .textAmendment y.reference p.1 p.2, ab⟩
  | title {a x id ab article place old new} (ha : ActMention a x) (hi : ActName a id) (hd : Defined (some a, []) ab) :
      Reports N (.title a article place old new) ⟨[x, ⟨place.1, place.2, { act := some id, article := some (.one article) }⟩],
        [.articleTitleAmendment { act := some id, article := some (.one article) } old new], ab⟩
  | repeal {a x id ab rs xs} (ha : ActMention a x) (hi : ActName a id) (hd : Defined (some a, []) ab)
      (h : NamedInContext N { act := some id } rs xs) :
      Reports N (.repeal a rs []) ⟨x :: xs, xs.map fun y => .repeal (.ref y.reference) none, ab⟩
  | repealTexts {a x id ab rs xs l} (ha : ActMention a x) (hi : ActName a id) (hd : Defined (some a, []) ab)
      (h : NamedInContext N { act := some id } rs xs) (hl : l ≠ []) :
      Reports N (.repeal a rs l) ⟨x :: xs, xs.flatMap fun y => l.map fun t => .repeal (.ref y.reference) (some t), ab⟩
  | allInForce {d time repeal es} (he : d.references = []) (ht : TimeNamed d time) (hr : Both DateNamed d.inlineRepeal.toList repeal.toList)
      (hx : NamedInContext N {} d.exceptionReferences es) : Reports N (.inForce d) ⟨es, [.enforcementDate none time repeal], []⟩
  | inForce {d time repeal xs es} (he : d.references ≠ []) (ht : TimeNamed d time)
      (hr : Both DateNamed d.inlineRepeal.toList repeal.toList) (h : NamedInContext N {} d.references xs)
      (hx : NamedInContext N {} d.exceptionReferences es) :
      Reports N (.inForce d) ⟨xs ++ es, xs.map fun x => .enforcementDate (some x.reference) time repeal, []⟩
  | amend {a x id ab r y} (ha : ActMention a x) (hi : ActName a id) (hd : Defined (some a, []) ab) (h : N (some id) r [y]) :
      Reports N (.amend a r) ⟨[x, y], [.blockAmendment (.ref y.reference) false], ab⟩
  | insert {a x id ab r y} (ha : ActMention a x) (hi : ActName a id) (hd : Defined (some a, []) ab) (h : N (some id) r [y]) :
      Reports N (.insert a r) ⟨[x, y], [.blockAmendment (.ref y.reference) true], ab⟩
  /-- What is new is named from the part that is replaced, and one reference covers both. -/
  | amendInsert {a x id ab r s y z c p} (ha : ActMention a x) (hi : ActName a id) (hd : Defined (some a, []) ab) (h : N (some id) r [y])
      (hs : N (some id) s [z]) (hc : Completes y.reference { z.reference with act := none } c)
      (hp : ValidRanges y.reference → ValidRanges c → Follows y.reference c → SmallestCover p y.reference c) :
      Reports N (.amendInsert a r s) ⟨[x, y, ⟨z.startPos, z.endPos, c⟩], [.blockAmendment (.ref p) false], ab⟩
  /-- The program says nothing of the change if the part is not one of those that it can name by one reference. -/
  | amendSeveral {a x id ab r xs} (ha : ActMention a x) (hi : ActName a id) (hd : Defined (some a, []) ab) (h : N (some id) r xs)
      (hn : xs.length ≠ 1) : Reports N (.amend a r) ⟨[x], [], ab⟩
  | insertSeveral {a x id ab r xs} (ha : ActMention a x) (hi : ActName a id) (hd : Defined (some a, []) ab) (h : N (some id) r xs)
      (hn : xs.length ≠ 1) : Reports N (.insert a r) ⟨[x], [], ab⟩
  /-- The same if there are two parts. -/
  | insertOnly {a x id ab r s xs z} (ha : ActMention a x) (hi : ActName a id) (hd : Defined (some a, []) ab) (h : N (some id) r xs)
      (hn : xs.length ≠ 1) (hs : N (some id) s [z]) : Reports N (.amendInsert a r s) ⟨[x, z], [.blockAmendment (.ref z.reference) true], ab⟩
  | amendOnly {a x id ab r s y zs} (ha : ActMention a x) (hi : ActName a id) (hd : Defined (some a, []) ab) (h : N (some id) r [y])
      (hs : N (some id) s zs) (hn : zs.length ≠ 1) : Reports N (.amendInsert a r s) ⟨[x, y], [.blockAmendment (.ref y.reference) false], ab⟩
  | bothSeveral {a x id ab r s xs zs} (ha : ActMention a x) (hi : ActName a id) (hd : Defined (some a, []) ab) (h : N (some id) r xs)
      (hn : xs.length ≠ 1) (hs : N (some id) s zs) (hm : zs.length ≠ 1) : Reports N (.amendInsert a r s) ⟨[x], [], ab⟩

end Verif.Spec
