import Verif.Spec.Numerals
import Verif.Spec.Calendar
import Verif.Model.GrammaticalAnalyzer
import Verif.Spec.Collector
import Verif.Spec.Parser
import Verif.Spec.References

/-! # What the analysis of a sentence should mean -/

namespace Verif.Spec

mutual
/-- The nodes of a parse tree: first those below a node, then the node itself. -/
def treeNodes : ParseTree → List GrammarNode
  | .node n cs => treesNodes cs ++ [n]

/-- The same for siblings. -/
def treesNodes : List ParseTree → List GrammarNode
  | [] => []
  | t :: ts => treeNodes t ++ treesNodes ts
end

/-! ## Places -/

/-- A non-empty interval of a sentence of this length. -/
def Place (length : Int) (p : Int × Int) : Prop := 0 ≤ p.1 ∧ p.1 < p.2 ∧ p.2 ≤ length

/-- A reference list as the grammar reads it: it and its items are at places of the sentence, the items are inside, higher levels come
first, there is one part of each kind, and the single items of a part are in the order of the text. -/
structure RefPlaced (length : Int) (r : ParsedRef) : Prop where
  whole : Place length r.2
  inside : ∀ x ∈ r.1.flatMap ParsedPart.items, r.2.1 ≤ x.startPos ∧ x.startPos < x.endPos ∧ x.endPos ≤ r.2.2
  levels : ∀ x ∈ r.1.flatMap ParsedPart.items, ∀ y ∈ r.1.flatMap ParsedPart.items, Above (itemLevel x) (itemLevel y) →
    x.endPos ≤ y.startPos
  kinds : r.1.Pairwise fun p q => p.kind ≠ q.kind
  singles : ∀ p ∈ r.1, p.singles.Pairwise fun x y => x.2.2 ≤ y.2.1

/-- The act references of a node. -/
def nodeActs : GrammarNode → List ParsedActRef
  | .compoundReference act _ => act.toList
  | .actReference act => [act]
  | .blockAmendment act _ _ => [act]
  | .blockAmendmentWithSubtitle act _ _ _ => [act]
  | .blockAmendmentStructural act _ _ => [act]
  | .enforcementDate _ => []
  | .textAmendment act _ _ => [act]
  | .articleTitleAmendment act _ _ _ => [act]
  | .simpleRepeal act _ _ => [act]
  | .structuralRepeal act _ => [act]
  | .other => []

/-- The reference lists of a node. -/
def nodeRefs : GrammarNode → List ParsedRef
  | .compoundReference _ references => references
  | .blockAmendment _ amended inserted => amended.toList ++ inserted.toList
  | .blockAmendmentWithSubtitle _ _ amended inserted => amended.toList ++ inserted.toList
  | .enforcementDate d => d.references ++ d.exceptionReferences
  | .textAmendment _ references _ => references
  | .simpleRepeal _ references _ => references
  | _ => []

/-- What the node is made of is at places of the sentence. -/
structure NodePlaced (length : Int) (n : GrammarNode) : Prop where
  acts : ∀ a ∈ nodeActs n, (∀ x p, a.actId = some (x, p) → Place length p) ∧ ∀ x p, a.abbreviation = some (x, p) → Place length p
  refs : ∀ r ∈ nodeRefs n, RefPlaced length r
  article : ∀ a article o r, n = .articleTitleAmendment a article o r → Place length article.2

/-! ## Names and texts -/

/-- How an act is called: by its number if it is there, else by its abbreviation. -/
inductive ActName (a : ParsedActRef) : Str → Prop
  | number {year number place} (h : a.actId = some ((year, number), place)) :
      ActName a (year ++ py". évi " ++ number ++ py". törvény")
  | abbreviation {s place} (h : a.actId = none) (hs : a.abbreviation = some (s, place)) : ActName a s

/-- What is said of the act itself: a reference to it at the place of its abbreviation if there is one, else of its number. -/
def ActMention (a : ParsedActRef) (x : OutgoingReference) : Prop :=
  ∃ id, ActName a id ∧ x.reference = { act := some id } ∧
    ((∃ s, a.abbreviation = some (s, x.startPos, x.endPos)) ∨
      a.abbreviation = none ∧ ∃ n, a.actId = some (n, x.startPos, x.endPos))

mutual
/-- The text of a quotation. -/
def quoteText : QuoteTree → Str
  | .text s => s
  | .list qs => quotesText qs

/-- The text of quotations one after the other. -/
def quotesText : List QuoteTree → Str
  | [] => []
  | q :: qs => quoteText q ++ quotesText qs
end

/-- The text without the spaces at its ends. -/
def Stripped (t s : Str) : Prop :=
  ∃ l r, t = l ++ s ++ r ∧ (∀ c ∈ l, isSpace c = true) ∧ (∀ c ∈ r, isSpace c = true) ∧
    (∀ c, s.head? = some c → isSpace c = false) ∧ ∀ c, s.getLast? = some c → isSpace c = false

/-- What is quoted: everything between the first and the last quotation mark, quotations in it too, without the spaces at the ends. -/
def Quoted (q : List QuoteTree) (s : Str) : Prop :=
  ∃ inner, q = .text (py"„") :: inner ++ [.text (py"”")] ∧ Stripped (quotesText inner) s

/-- A reference is completed by another one: what is above its first component is taken from there. -/
def Completes (context r c : Reference) : Prop :=
  ∃ p s, r.components = p ++ s ∧ (∀ x ∈ p, x = none) ∧ (∀ x, s.head? = some x → x ≠ none) ∧
    c.components = context.components.take p.length ++ s

/-- References one after the other at their places, each completed by the one before. -/
inductive Continued : Reference → List OutgoingReference → List OutgoingReference → Prop
  | nil (context) : Continued context [] []
  | cons {context x c xs ys} (h : Completes context x.reference c) (hs : Continued c xs ys) :
      Continued context (x :: xs) (⟨x.startPos, x.endPos, c⟩ :: ys)

/-- What the list names; C37 says more about it. -/
def Listed (act : Option Str) (r : ParsedRef) (xs : List OutgoingReference) : Prop := convertSingle act r.1 r.2.1 r.2.2 = .ok xs

/-- What several lists name that continue each other, in a context. -/
def ListedInContext (context : Reference) (rs : List ParsedRef) (ys : List OutgoingReference) : Prop :=
  ∃ xss, Both (Listed none) rs xss ∧ Continued context xss.flatten ys

/-- The one reference that is named, if it is one. -/
def OneListed (act : Str) (r : Option ParsedRef) (x : Option OutgoingReference) : Prop :=
  (r = none ∧ x = none) ∨ ∃ p xs, r = some p ∧ Listed (some act) p xs ∧ ((∃ y, xs = [y] ∧ x = some y) ∨ (∀ y, xs ≠ [y]) ∧ x = none)

/-! ## Positions of block amendments -/

/-- The references differ only in their last component, and there what the second one names comes after what the first one names. -/
def Follows (a b : Reference) : Prop :=
  ∃ p x y s u v, a.components = p ++ some x :: s ∧ b.components = p ++ some y :: s ∧ (∀ c ∈ p, ∀ t w, c ≠ some (.range t w)) ∧
    (∀ c ∈ s, c = none) ∧ (x = .one u ∨ ∃ t, x = .range t u) ∧ (y = .one v ∨ ∃ t, y = .range v t) ∧ identifierLess u v = .ok true

/-- The smallest reference that covers both. -/
def SmallestCover (p a b : Reference) : Prop := Covers p a ∧ Covers p b ∧ ∀ q, Covers q a → Covers q b → Covers q p

/-! ## Structure, dates and texts -/

/-- What a structural reference names, each kind at its level. -/
inductive StructNamed (act : Str) : ParsedStructRef → StructuralReference → Prop
  | words {raw q} : StructNamed act (.subtitleTitle (some raw) q) { act := some act, subtitle := some (joinSpaces raw) }
  | quoted {q s} (h : Quoted q s) : StructNamed act (.subtitleTitle none (some q)) { act := some act, subtitle := some s }
  | before {id} : StructNamed act (.beforeArticle id) { act := some act, special := some ⟨.beforeWithoutArticle, id.flatten⟩ }
  | after {id} : StructNamed act (.afterArticle id) { act := some act, special := some ⟨.after, id.flatten⟩ }
  | subtitle {id} : StructNamed act (.subtitleNumber id) { act := some act, subtitle := some id.flatten }
  | chapter {id i} (h : RomanNumber id.flatten i) :
      StructNamed act (.chapterNumber id) { act := some act, chapter := some i }
  | title {id i} (h : RomanNumber id.flatten i) :
      StructNamed act (.titleNumber none id) { act := some act, title := some i }
  | titleOfBook {b j id i} (hb : OrdinalOf b j)
      (h : RomanNumber id.flatten i) :
      StructNamed act (.titleNumber (some b) id) { act := some act, book := some (natStr j), title := some i }
  | part {id i} (h : OrdinalOf id i) :
      StructNamed act (.partNumber none id) { act := some act, part := some (natStr i) }
  | partOfBook {b j id i} (hb : OrdinalOf b j)
      (h : OrdinalOf id i) :
      StructNamed act (.partNumber (some b) id) { act := some act, book := some (natStr j), part := some (natStr i) }

/-- A date in words: it is a real one. -/
def DateNamed (d : ParsedDate) (x : Date) : Prop :=
  pyInt d.year = .ok x.year ∧ MonthNamed d.month x.month ∧ pyInt d.day = .ok x.day ∧ RealDate x

/-- A number in digits if it is there, else in words. -/
inductive NumberNamed : Option Str → Option Str → Int → Prop
  | digits {s t n} (h : pyInt s = .ok n) : NumberNamed (some s) t n
  | words {t n} (h : OrdinalOf t n) : NumberNamed none (some t) n

/-- When something comes into force. -/
inductive TimeNamed (d : ParsedEnforcementDate) : EnforcementTime → Prop
  | date {e x} (h : d.exactDate = some e) (hx : DateNamed e x) : TimeNamed d (.date x)
  | days {a n} (h : d.exactDate = none) (ha : d.afterPublication = some a) (hn : NumberNamed a.asNumber a.asText n) : TimeNamed d (.days n)
  | nextDay (h : d.exactDate = none) (ha : d.afterPublication = some {}) : TimeNamed d (.days 1)
  | dayInMonth {m n months} (h : d.exactDate = none) (ha : d.afterPublication = none) (hm : d.dayInMonth = some m)
      (hn : NumberNamed m.dayAsNumber m.dayAsText n)
      (hs : NumberNamed none m.month months ∨ m.month = none ∧ months = 1) : TimeNamed d (.dayInMonth n months)

/-- What a part of a text amendment says for a reference. -/
def TextReplaced (x : OutgoingReference) (p : List QuoteTree × List QuoteTree) (d : SemanticData) : Prop :=
  ∃ o r, Quoted p.1 o ∧ Quoted p.2 r ∧ d = .textAmendment x.reference o r

/-- What a repealed text says for a reference. -/
def TextRepealed (x : OutgoingReference) (t : List QuoteTree) (d : SemanticData) : Prop :=
  ∃ s, Quoted t s ∧ d = .repeal (.ref x.reference) (some s)

/-- References, abbreviations and semantic data. -/
abbrev Told := List OutgoingReference × List ActIdAbbreviation × List SemanticData

/-- What a node tells. -/
inductive Tells : GrammarNode → Told → Prop
  | compound {rs xss} (h : Both (Listed none) rs xss) : Tells (.compoundReference none rs) (xss.flatten, [], [])
  | compoundOfAct {a x id rs xss} (ha : ActMention a x) (hi : ActName a id) (h : Both (Listed (some id)) rs xss) :
      Tells (.compoundReference (some a) rs) (x :: xss.flatten, [], [])
  | defined {a s id} (h : a.fromNowOn = some s) (hi : ActName a id) : Tells (.actReference a) ([], [⟨s, id⟩], [])
  | act {a} (h : a.fromNowOn = none) : Tells (.actReference a) ([], [], [])
  | amended {a x id am ins y} (ha : ActMention a x) (hi : ActName a id) (hm : OneListed id am (some y)) (hn : OneListed id ins none) :
      Tells (.blockAmendment a am ins) ([x, y], [], [.blockAmendment (.ref y.reference) false])
  | inserted {a x id am ins y} (ha : ActMention a x) (hi : ActName a id) (hm : OneListed id am none) (hn : OneListed id ins (some y)) :
      Tells (.blockAmendment a am ins) ([x, y], [], [.blockAmendment (.ref y.reference) true])
  | both {a x id am ins y z c p} (ha : ActMention a x) (hi : ActName a id) (hm : OneListed id am (some y))
      (hn : OneListed id ins (some z)) (hc : Completes y.reference { z.reference with act := none } c)
      (hp : ValidRanges y.reference → ValidRanges c → Follows y.reference c → SmallestCover p y.reference c) :
      Tells (.blockAmendment a am ins) ([x, y, ⟨z.startPos, z.endPos, c⟩], [], [.blockAmendment (.ref p) false])
  | neither {a x id am ins} (ha : ActMention a x) (hi : ActName a id) (hm : OneListed id am none) (hn : OneListed id ins none) :
      Tells (.blockAmendment a am ins) ([x], [], [])
  | withSubtitle {a id st am ins y article pure} (hi : ActName a id)
      (h : OneListed id am (some y) ∧ OneListed id ins none ∧ pure = false ∨ OneListed id am none ∧ OneListed id ins (some y) ∧ pure = true)
      (hy : y.reference.article = some (.one article) ∨ ∃ last, y.reference.article = some (.range article last)) :
      Tells (.blockAmendmentWithSubtitle a st am ins)
        ([], [], [.blockAmendment (.struct { act := some id, special := some ⟨.beforeWithArticle, article⟩ }) pure])
  | onlySubtitle {a id st am ins y p pure} (hi : ActName a id)
      (h : OneListed id am (some y) ∧ OneListed id ins none ∧ pure = false ∨ OneListed id am none ∧ OneListed id ins (some y) ∧ pure = true)
      (hy : y.reference.article = none) (hs : (∃ s, st = some s ∧ StructNamed id s p) ∨ st = none ∧ p = { act := some id }) :
      Tells (.blockAmendmentWithSubtitle a st am ins) ([], [], [.blockAmendment (.struct p) pure])
  | structuralAmended {a id s p} (hi : ActName a id) (h : StructNamed id s p) :
      Tells (.blockAmendmentStructural a (some s) none) ([], [], [.blockAmendment (.struct p) false])
  | structuralInserted {a id s p} (hi : ActName a id) (h : StructNamed id s p) :
      Tells (.blockAmendmentStructural a none (some s)) ([], [], [.blockAmendment (.struct p) true])
  | allInForce {d time repeal es} (he : d.references = []) (ht : TimeNamed d time)
      (hr : d.inlineRepeal = none ∧ repeal = none ∨ ∃ p x, d.inlineRepeal = some p ∧ DateNamed p x ∧ repeal = some x)
      (hx : ListedInContext {} d.exceptionReferences es) :
      Tells (.enforcementDate d) (es, [], [.enforcementDate none time repeal])
  | inForce {d time repeal xs es} (he : d.references ≠ []) (ht : TimeNamed d time)
      (hr : d.inlineRepeal = none ∧ repeal = none ∨ ∃ p x, d.inlineRepeal = some p ∧ DateNamed p x ∧ repeal = some x)
      (h : ListedInContext {} d.references xs) (hx : ListedInContext {} d.exceptionReferences es) :
      Tells (.enforcementDate d) (xs ++ es, [], xs.map fun x => .enforcementDate (some x.reference) time repeal)
  | replaced {a x id rs xs parts dss} (ha : ActMention a x) (hi : ActName a id) (h : ListedInContext { act := some id } rs xs)
      (hd : Both (fun x ds => Both (TextReplaced x) parts ds) xs dss) :
      Tells (.textAmendment a rs parts) (x :: xs, [], dss.flatten)
  | title {a x id article o r o' r'} (ha : ActMention a x) (hi : ActName a id) (ho : Quoted o o') (hr : Quoted r r') :
      Tells (.articleTitleAmendment a article o r)
        ([x, ⟨article.2.1, article.2.2, { act := some id, article := some (.one article.1.flatten) }⟩], [],
         [.articleTitleAmendment { act := some id, article := some (.one article.1.flatten) } o' r'])
  | repealed {a x id rs xs} (ha : ActMention a x) (hi : ActName a id) (h : ListedInContext { act := some id } rs xs) :
      Tells (.simpleRepeal a rs []) (x :: xs, [], xs.map fun x => .repeal (.ref x.reference) none)
  | textsRepealed {a x id rs xs texts dss} (ha : ActMention a x) (hi : ActName a id) (h : ListedInContext { act := some id } rs xs)
      (he : texts ≠ []) (hd : Both (fun x ds => Both (TextRepealed x) texts ds) xs dss) :
      Tells (.simpleRepeal a rs texts) (x :: xs, [], dss.flatten)
  | structureRepealed {a x id s p} (ha : ActMention a x) (hi : ActName a id) (h : StructNamed id s p) :
      Tells (.structuralRepeal a s) ([x], [], [.repeal (.struct p) none])
  | other : Tells .other ([], [], [])

end Verif.Spec
