import Verif.Spec.Numerals
import Verif.Spec.Changes

/-! # Sentences that change the divisions of acts, as they are usually written -/

namespace Verif.Spec

/-! ## The names of divisions -/

/-- A division of an act, as it is named. -/
inductive Division
  | subtitle (number : Str)
  | titled (title : Str)
  | chapter (number : Str)
  | part (book : Option Str) (number : Str)
  | title (book : Option Str) (number : Str)

/-- A division of an act, or the place before or after an article. -/
inductive Spot
  | division (d : Division)
  | before (article : Str)
  | after (article : Str)

/-- The book that a division is in, if it is named. -/
def BookText : Option Str → Str → Prop
  | none, w => w = []
  | some b, w => CapitalOrdinal b ∧ w = b ++ py" Könyv "

/-- How a division is named: `5. alcíme`, `„x” című alcíme`, `II. Fejezete`, `Második Könyv Első Része`, `Második Könyv II. Címe`. -/
inductive DivisionText : Division → Str → Prop
  | subtitle {x e} (hx : Lettered Digits x) (he : Inflected (py"alcím") e) : DivisionText (.subtitle x) (x ++ (py". ") ++ e)
  | titled {x q c} (hq : QuoteText x q) (hc : c ∈ [py"", py" című"]) : DivisionText (.titled x) (q ++ c ++ py" alcíme")
  | chapter {x e} (hx : Lettered RomanDigits x) (he : Inflected (py"Fejezet") e) : DivisionText (.chapter x) (x ++ (py". ") ++ e)
  | part {b u x e} (hb : BookText b u) (hx : CapitalOrdinal x) (he : Inflected (py"Rész") e) :
      DivisionText (.part b x) (u ++ x ++ ' ' :: e)
  | title {b u x e} (hb : BookText b u) (hx : Lettered RomanDigits x) (he : Inflected (py"Cím") e) :
      DivisionText (.title b x) (u ++ x ++ (py". ") ++ e)

/-- The article that something is before or after, `5. §-át`; the chapter may be named: `II. Fejezet az 5. §-át`. -/
def BesideText (x w : Str) : Prop :=
  ∃ c b g, w = c ++ b ++ x ++ (py". ") ++ g ∧ Noun b ∧ ArticleNumber x ∧ EndText .article g ∧
    (c = [] ∨ ∃ y e, Lettered RomanDigits y ∧ Inflected (py"Fejezet") e ∧ c = y ++ (py". ") ++ e ++ py" ")

/-- How such a place is named: a division, `5. §-t megelőző`, `5. §-t követő`. -/
inductive SpotText : Spot → Str → Prop
  | division {d w} (h : DivisionText d w) : SpotText (.division d) w
  | before {x u e} (h : BesideText x u) (he : e ∈ [py" megelőzően", py" megelőző"]) : SpotText (.before x) (u ++ e)
  | after {x u e} (h : BesideText x u) (he : e ∈ [py" követően", py" követő"]) : SpotText (.after x) (u ++ e)

/-- Which division it is. Chapters and titles have Roman numbers, with a letter perhaps; parts and books have numbers in words. -/
inductive Divides (act : Str) : Division → StructuralReference → Prop
  | subtitle {x} : Divides act (.subtitle x) { act := some act, subtitle := some x }
  | titled {x} : Divides act (.titled x) { act := some act, subtitle := some x }
  | chapter {x i} (h : RomanNumber x i) : Divides act (.chapter x) { act := some act, chapter := some i }
  | part {x i} (h : OrdinalOf x i) : Divides act (.part none x) { act := some act, part := some (natStr i) }
  | partOfBook {b j x i} (hb : OrdinalOf b j) (h : OrdinalOf x i) :
      Divides act (.part (some b) x) { act := some act, book := some (natStr j), part := some (natStr i) }
  | title {x i} (h : RomanNumber x i) : Divides act (.title none x) { act := some act, title := some i }
  | titleOfBook {b j x i} (hb : OrdinalOf b j) (h : RomanNumber x i) :
      Divides act (.title (some b) x) { act := some act, book := some (natStr j), title := some i }

/-- Which place it is. -/
inductive Spots (act : Str) : Spot → StructuralReference → Prop
  | division {d p} (h : Divides act d p) : Spots act (.division d) p
  | before {x} : Spots act (.before x) { act := some act, special := some ⟨.beforeWithoutArticle, x⟩ }
  | after {x} : Spots act (.after x) { act := some act, special := some ⟨.after, x⟩ }

/-! ## The sentences -/

/-- How a subtitle is called. -/
def SubtitleWord (w : Str) : Prop :=
  w ∈ [py"alcím", py"alcímmel", py"alcímekkel", py"alcím-megjelölés", py"alcím-megjelölése", py"alcíme"] ∨
    ∃ e, Inflected (py"cím") e ∧ w = (py"alcím ") ++ e

/-- Articles with the subtitle before them: `alcím és 5. §`, `5. §-a és az azt megelőző alcím`. -/
inductive SubtitledText : Nat → ParsedPart → Str → Prop
  | first {n p z v} (hz : SubtitleWord z) (hk : p.kind = .article) (hp : PartText (n + z.length + 4) p v) :
      SubtitledText n p (z ++ (py" és ") ++ v)
  | last {n p v b a z} (hk : p.kind = .article) (hp : PartText n p v) (hb : b ∈ [py"a ", py"az "]) (ha : a ∈ [py"", py"azt ", py"azokat "])
      (hz : SubtitleWord z) : SubtitledText n p (v ++ (py" és ") ++ b ++ a ++ (py"megelőző ") ++ z)

/-- What comes after the name of a division that is replaced. -/
def ReplacingDivision (w : Str) : Prop :=
  Replacing w ∨ w ∈ [py" helyébe a következő lép", py" helyébe a következő cím lép", py" helyébe a következő fejezet lép",
    py" helyébe a következő rész lép"]

/-- What comes after the name of a subtitle that is replaced. -/
def ReplacingSubtitle (w : Str) : Prop :=
  Replacing w ∨ ∃ a b l, w = (py" helyébe a következő") ++ a ++ (py" alcím") ++ b ++ l ∧ a ∈ [py"", py" rendelkezés és"] ∧
    b ∈ [py"", py" és rendelkezés"] ∧ l ∈ [py" lép", py" lépnek"]

/-- The division is named in a way that is recognised before titles of subtitles are looked for. -/
def Known : Spot → Prop
  | .division (.subtitle _) | .division (.titled _) | .before _ | .after _ => True
  | _ => False

/-- What a sentence changes. -/
inductive StructuralChange
  /-- Something new comes instead of a division of an act. -/
  | replace (act : ParsedActRef) (d : Division)
  /-- This division is new in an act. -/
  | add (act : ParsedActRef) (d : Division)
  /-- A division of an act, or the subtitle at a place, is repealed. -/
  | repeal (act : ParsedActRef) (s : Spot)
  /-- Something new comes instead of articles and the subtitle before them. -/
  | replaceSubtitled (act : ParsedActRef) (articles : ParsedPart)
  /-- These articles and the subtitle before them are new. -/
  | addSubtitled (act : ParsedActRef) (articles : ParsedPart)
  /-- Something new comes instead of the subtitle at a place. -/
  | replaceSubtitle (act : ParsedActRef) (s : Spot)
  /-- A subtitle is new, perhaps at a place. -/
  | addSubtitle (act : ParsedActRef) (s : Option Spot)

/-- A sentence states a change of the divisions of an act. -/
inductive StatesStructural : Str → StructuralChange → Prop
  /-- `A Ptk. II. Fejezete helyébe a következő rendelkezés lép:` -/
  | replace {o a p d v e} (ho : o ∈ [py"A ", py"Az "]) (ha : ActPhrase o.length a p (' ' :: v ++ e ++ py":")) (hd : DivisionText d v)
      (he : ReplacingDivision e) (hs : Known (.division d) ∨ NoTitle (o ++ p ++ ' ' :: v ++ e ++ py":")) :
      StatesStructural (o ++ p ++ ' ' :: v ++ e ++ py":") (.replace a d)
  /-- `A Ptk. a következő II/A. Fejezettel egészül ki:` -/
  | add {o a p d v e} (ho : o ∈ [py"A ", py"Az "]) (ha : ActPhrase o.length a p ((py" a következő ") ++ v ++ e ++ py":"))
      (hd : DivisionText d v) (he : Adding e) (hs : NoTitle (o ++ p ++ (py" a következő ") ++ v ++ e ++ py":")) :
      StatesStructural (o ++ p ++ (py" a következő ") ++ v ++ e ++ py":") (.add a d)
  /-- `A Ptk. Második Könyve a következő II/A. Címmel egészül ki:` -/
  | addToBook {o a p b x c e} (ho : o ∈ [py"A ", py"Az "])
      (ha : ActPhrase o.length a p (' ' :: b ++ (py" Könyve a következő ") ++ x ++ (py". ") ++ c ++ e ++ py":")) (hb : CapitalOrdinal b)
      (hx : Lettered RomanDigits x) (hc : Inflected (py"Cím") c) (he : Adding e)
      (hs : NoTitle (o ++ p ++ ' ' :: b ++ (py" Könyve a következő ") ++ x ++ (py". ") ++ c ++ e ++ py":")) :
      StatesStructural (o ++ p ++ ' ' :: b ++ (py" Könyve a következő ") ++ x ++ (py". ") ++ c ++ e ++ py":") (.add a (.title (some b) x))
  /-- `Hatályát veszti a Ptk. II. Fejezete.`, `Hatályát veszti a Ptk. 5. §-át megelőző alcím.` -/
  | repeal {o b a p s v t} (ho : o ∈ [py"Nem lép hatályba ", py"Hatályát veszti "]) (hb : b ∈ [py"a ", py"az "])
      (ha : ActPhrase (o.length + b.length) a p (' ' :: v ++ t ++ py".")) (hp : SpotText s v) (ht : t = [] ∨ ∃ z, SubtitleWord z ∧ t = ' ' :: z)
      (hs : Known s ∨ NoTitle (o ++ b ++ p ++ ' ' :: v ++ t ++ py".")) :
      StatesStructural (o ++ b ++ p ++ ' ' :: v ++ t ++ py".") (.repeal a s)
  /-- `A Ptk. 5. §-a és az azt megelőző alcím helyébe a következő rendelkezés lép:` -/
  | replaceSubtitled {o a p q v e} (ho : o ∈ [py"A ", py"Az "]) (ha : ActPhrase o.length a p (' ' :: v ++ e ++ py":"))
      (hq : SubtitledText (o.length + p.length + 1) q v) (he : ReplacingSubtitle e) (hs : NoTitle (o ++ p ++ ' ' :: v ++ e ++ py":")) :
      StatesStructural (o ++ p ++ ' ' :: v ++ e ++ py":") (.replaceSubtitled a q)
  /-- `A Ptk. a következő alcímmel és 5/A. §-sal egészül ki:` -/
  | addSubtitled {o a p q v e} (ho : o ∈ [py"A ", py"Az "]) (ha : ActPhrase o.length a p ((py" a következő ") ++ v ++ e ++ py":"))
      (hq : SubtitledText (o.length + p.length + 13) q v) (he : Adding e)
      (hs : NoTitle (o ++ p ++ (py" a következő ") ++ v ++ e ++ py":")) :
      StatesStructural (o ++ p ++ (py" a következő ") ++ v ++ e ++ py":") (.addSubtitled a q)
  /-- `A Ptk. 5. §-át megelőző alcím helyébe a következő alcím lép:` -/
  | replaceSubtitle {o a p s v z e} (ho : o ∈ [py"A ", py"Az "]) (ha : ActPhrase o.length a p (' ' :: v ++ ' ' :: z ++ e ++ py":"))
      (hp : SpotText s v) (hz : SubtitleWord z) (he : ReplacingSubtitle e)
      (hs : Known s ∨ NoTitle (o ++ p ++ ' ' :: v ++ ' ' :: z ++ e ++ py":")) :
      StatesStructural (o ++ p ++ ' ' :: v ++ ' ' :: z ++ e ++ py":") (.replaceSubtitle a s)
  /-- `A Ptk. II. Fejezete a következő alcímmel egészül ki:` -/
  | addSubtitleAt {o a p s v z e} (ho : o ∈ [py"A ", py"Az "]) (ha : ActPhrase o.length a p (' ' :: v ++ (py" a következő ") ++ z ++ e ++ py":"))
      (hp : SpotText s v) (hz : SubtitleWord z) (he : Adding e)
      (hs : Known s ∨ NoTitle (o ++ p ++ ' ' :: v ++ (py" a következő ") ++ z ++ e ++ py":")) :
      StatesStructural (o ++ p ++ ' ' :: v ++ (py" a következő ") ++ z ++ e ++ py":") (.addSubtitle a (some s))
  /-- `A Ptk. a következő alcímmel egészül ki:` -/
  | addSubtitle {o a p z e} (ho : o ∈ [py"A ", py"Az "]) (ha : ActPhrase o.length a p ((py" a következő ") ++ z ++ e ++ py":"))
      (hz : SubtitleWord z) (he : Adding e) (hs : NoTitle (o ++ p ++ (py" a következő ") ++ z ++ e ++ py":")) :
      StatesStructural (o ++ p ++ (py" a következő ") ++ z ++ e ++ py":") (.addSubtitle a none)

/-! ## What should be reported -/

/-- The first one of the articles, if they are one article, one range or two articles with consecutive numbers. -/
def FirstArticle (p : ParsedPart) (x : Str) : Prop :=
  OnlyItem p (.one x) ∨ (∃ last, OnlyItem p (.range x last)) ∨
    ∃ y i j, p.singles = [(x, i), (y, j)] ∧ p.ranges = [] ∧ ArticleAfter x y

/-- What is reported of a change. The act is not among the references, except in repeals. -/
inductive ReportsStructural : StructuralChange → Analysis → Prop
  | replace {a id ab d p} (hi : ActName a id) (hd : Defined (some a, []) ab) (h : Divides id d p) :
      ReportsStructural (.replace a d) ⟨[], [.blockAmendment (.struct p) false], ab⟩
  | add {a id ab d p} (hi : ActName a id) (hd : Defined (some a, []) ab) (h : Divides id d p) :
      ReportsStructural (.add a d) ⟨[], [.blockAmendment (.struct p) true], ab⟩
  | repeal {a x id ab s p} (ha : ActMention a x) (hi : ActName a id) (hd : Defined (some a, []) ab) (h : Spots id s p) :
      ReportsStructural (.repeal a s) ⟨[x], [.repeal (.struct p) none], ab⟩
  | replaceSubtitled {a id ab q x} (hi : ActName a id) (hd : Defined (some a, []) ab) (hx : FirstArticle q x) :
      ReportsStructural (.replaceSubtitled a q)
        ⟨[], [.blockAmendment (.struct { act := some id, special := some ⟨.beforeWithArticle, x⟩ }) false], ab⟩
  | addSubtitled {a id ab q x} (hi : ActName a id) (hd : Defined (some a, []) ab) (hx : FirstArticle q x) :
      ReportsStructural (.addSubtitled a q)
        ⟨[], [.blockAmendment (.struct { act := some id, special := some ⟨.beforeWithArticle, x⟩ }) true], ab⟩
  | replaceSubtitle {a id ab s p} (hi : ActName a id) (hd : Defined (some a, []) ab) (h : Spots id s p) :
      ReportsStructural (.replaceSubtitle a s) ⟨[], [.blockAmendment (.struct p) false], ab⟩
  | addSubtitleAt {a id ab s p} (hi : ActName a id) (hd : Defined (some a, []) ab) (h : Spots id s p) :
      ReportsStructural (.addSubtitle a (some s)) ⟨[], [.blockAmendment (.struct p) true], ab⟩
  | addSubtitle {a id ab} (hi : ActName a id) (hd : Defined (some a, []) ab) :
      ReportsStructural (.addSubtitle a none) ⟨[], [.blockAmendment (.struct { act := some id }) true], ab⟩

end Verif.Spec
