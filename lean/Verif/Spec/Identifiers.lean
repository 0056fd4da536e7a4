import Verif.Py.Basic

/-! # Shapes of identifiers, independently of how the code reads them -/

namespace Verif.Spec

/-- Every digit of the text has an integer value; a superscript digit, for example, has none. -/
def Readable (s : Str) : Prop := ∀ c ∈ s, isDigit c = true → (decimalValue c).isSome

/-- Worker of `Canonical`: `prevDigit` says that the character before was a digit. -/
def canonicalFrom : Bool → Str → Bool
  | _, [] => true
  | prevDigit, c :: cs =>
    (!isDigit c || (isAsciiDigit c && (prevDigit || c ≠ '0' || !(cs.head?.any isDigit))))
      && canonicalFrom (isDigit c) cs

/-- Numbers in the identifier are written with the digits 0-9 and without leading zeros. -/
def Canonical (s : Str) : Prop := canonicalFrom false s = true

/-- A number as the header expressions accept it: `[0-9]+`. -/
def IsNumber (s : Str) : Prop := s ≠ [] ∧ ∀ c ∈ s, isAsciiDigit c = true

/-- `[0-9]+(/[A-Z])?`, the article number without the book. -/
def IsArticleTail (s : Str) : Prop :=
  IsNumber s ∨ ∃ n c, IsNumber n ∧ isUpperAz c = true ∧ s = n ++ ['/', c]

/-- `([0-9]+:)?([0-9]+(/[A-Z])?)`, the identifier of an article. -/
def IsArticleId (s : Str) : Prop :=
  IsArticleTail s ∨ ∃ b t, IsNumber b ∧ IsArticleTail t ∧ s = b ++ ':' :: t

/-- `[0-9]+[a-z]?`, the identifier of a paragraph. -/
def IsParagraphId (s : Str) : Prop :=
  IsNumber s ∨ ∃ n c, IsNumber n ∧ isLowerAz c = true ∧ s = n ++ [c]

/-- `[0-9]+(/?[a-z])?`, the identifier of a numeric point or subpoint. -/
def IsNumericPointId (s : Str) : Prop :=
  IsParagraphId s ∨ ∃ n c, IsNumber n ∧ isLowerAz c = true ∧ s = n ++ ['/', c]

/-- A text without digits, as the identifiers of alphabetic points and subpoints. -/
def IsAlphabetic (s : Str) : Prop := ∀ c ∈ s, isDigit c = false

/-- Every member of the list is followed by one that is accepted as its next. -/
def Consecutive {α : Type} (next : α → α → Prop) : List α → Prop
  | [] => True
  | [_] => True
  | a :: b :: rest => next a b ∧ Consecutive next (b :: rest)

/-- The value of a number written with the digits 0-9. -/
def numberValue (s : Str) : Nat := s.foldl (fun n c => n * 10 + (c.toNat - '0'.toNat)) 0

/-- The letters in the order in which they are used as identifiers. -/
def plainAlphabet : List Str := (py"abcdefghijklmnopqrstuvwxyz").map fun c => [c]

/-- The same with the digraphs that are used as identifiers. -/
def hungarianAlphabet : List Str :=
  (py"abcdefg").map (fun c => [c]) ++ [py"gy"] ++ (py"hijklmn").map (fun c => [c]) ++ [py"ny"] ++
    (py"opqrs").map (fun c => [c]) ++ [py"sz", py"t", py"ty"] ++ (py"uvwxyz").map (fun c => [c])

/-- `b` comes right after `a` in the alphabet with or without digraphs. -/
def LetterAfter (a b : Str) : Prop :=
  ∃ i, (plainAlphabet[i]? = some a ∧ plainAlphabet[i + 1]? = some b) ∨
    (hungarianAlphabet[i]? = some a ∧ hungarianAlphabet[i + 1]? = some b)

/-- Numbers with an optional letter, the slash between them being ignored: `b` comes right after `a`. -/
def NumberAfter (a b : Str) : Prop :=
  ∃ m x n y, a.filter (· ≠ '/') = m ++ x ∧ b.filter (· ≠ '/') = n ++ y ∧ IsNumber m ∧ IsNumber n ∧
    (∀ c ∈ x ++ y, isLowerAz c = true) ∧
    ((y = [] ∧ numberValue n = numberValue m + 1) ∨ (m = n ∧ x = [] ∧ y = py"a") ∨
      (m = n ∧ ∃ c d, x = [c] ∧ y = [d] ∧ LetterAfter [c] [d]))

/-- The same with capital letters. -/
def CapitalNumberAfter (a b : Str) : Prop :=
  ∃ m x n y, a.filter (· ≠ '/') = m ++ x ∧ b.filter (· ≠ '/') = n ++ y ∧ IsNumber m ∧ IsNumber n ∧
    (∀ c ∈ x ++ y, isUpperAz c = true) ∧
    ((y = [] ∧ numberValue n = numberValue m + 1) ∨ (m = n ∧ x = [] ∧ y = py"A") ∨
      (m = n ∧ ∃ c d i, x = [c] ∧ y = [d] ∧ (py"ABCDEFGHIJKLMNOPQRSTUVWXYZ")[i]? = some c ∧
        (py"ABCDEFGHIJKLMNOPQRSTUVWXYZ")[i + 1]? = some d))

/-- The number of the next article; after the last article of a book comes the first one of the next book. -/
def ArticleAfter (a b : Str) : Prop :=
  (':' ∉ a ∧ ':' ∉ b ∧ CapitalNumberAfter a b) ∨
    ∃ p x q y, IsNumber p ∧ IsNumber q ∧ a = p ++ ':' :: x ∧ b = q ++ ':' :: y ∧
      ((p = q ∧ CapitalNumberAfter x y) ∨ (numberValue q = numberValue p + 1 ∧ y = py"1"))

end Verif.Spec
