/-!
# The Python notions the model rests on

Nothing here is code of /repo; these are the parts of Python's built-in types that the
modelled functions use. A Python `str` is a list of code points.
-/

namespace Verif

/-- A Python `str`: its code points in order. (Lone surrogates, which Lean's `Char` lacks, are left out.) -/
abbrev Str := List Char

open Lean in
/-- `py"abc"` is the list of characters of the literal, so that it reduces by computation. -/
macro "py" s:str : term => do
  let cs := s.getString.toList
  let lits : Array (TSyntax `term) := (cs.map fun c => (⟨Syntax.mkCharLit c⟩ : TSyntax `term)).toArray
  `(([$lits,*] : List Char))

/-- The exception classes raised or caught by the modelled code. Messages are not modelled. -/
inductive Err
  | valueError | typeError | keyError | indexError | assertionError | attributeError
  | runtimeError | overflowError | eofError | fileNotFound
  /-- `NoSubelementsError` (structure_parser.py:248) -/
  | noSubelements
  /-- `SubArticleElementNotFoundError` (structure_parser.py:244) -/
  | saeNotFound
  /-- `StructureParsingError`, a `ValueError` (structure_parser.py:73) -/
  | structureParsing
  /-- `SubArticleParsingError` (structure_parser.py:252) -/
  | saeParsing
  /-- `ArticleParsingError` (structure_parser.py:592) -/
  | articleParsing
  /-- `ActParsingError` (structure_parser.py:708) -/
  | actParsing
  /-- `BlockAmendmentStructureParsingError` (structure_parser.py:748) -/
  | blockAmendmentParsing
  /-- `GrammaticalParsingError` (grammatical_analyzer.py:707) -/
  | grammaticalParsing
  deriving DecidableEq, Repr

/-- `except ValueError` catches these classes (`StructureParsingError` and its subclasses derive from `ValueError`). -/
def Err.isValueError : Err → Bool
  | .valueError | .structureParsing | .saeParsing | .articleParsing | .actParsing | .blockAmendmentParsing => true
  | _ => false

/-- The result of Python code that may raise. -/
abbrev Res (α : Type) := Except Err α

/-- Results can be compared, which lets concrete runs be checked by computation. -/
instance {ε α : Type} [DecidableEq ε] [DecidableEq α] : DecidableEq (Except ε α)
  | .ok a, .ok b => if h : a = b then isTrue (h ▸ rfl) else isFalse fun e => h (Except.ok.inj e)
  | .error a, .error b => if h : a = b then isTrue (h ▸ rfl) else isFalse fun e => h (Except.error.inj e)
  | .ok _, .error _ => isFalse (by simp)
  | .error _, .ok _ => isFalse (by simp)

/-- Python `xs[i]` for a possibly negative `i`, as an index; `none` means IndexError. -/
def pyIndex (len : Nat) (i : Int) : Option Nat :=
  if 0 ≤ i then (if i.toNat < len then some i.toNat else none)
  else if 0 ≤ i + len then some (i + len).toNat else none

/-- Clamping of a slice bound, as in `PySlice_AdjustIndices` with step 1. -/
def pyBound (len : Nat) (i : Int) : Nat :=
  if i < 0 then (i + len).toNat else min i.toNat len

/-- Python `xs[a:b]`. -/
def pySlice {α : Type} (xs : List α) (a b : Int) : List α :=
  (xs.take (pyBound xs.length b)).drop (pyBound xs.length a)

/-- Python `s.startswith(p)`. -/
def startsWith (s p : Str) : Bool := p.isPrefixOf s

/-- Python `s.endswith(p)`. -/
def endsWith (s p : Str) : Bool := p.isSuffixOf s

/-- Python `needle in s` for texts. -/
def isInfix (needle : Str) : Str → Bool
  | [] => needle.isEmpty
  | c :: cs => needle.isPrefixOf (c :: cs) || isInfix needle cs

/-- Python `s.find(needle)`, where `none` is -1; `s.index` raises ValueError instead. -/
def strFind (needle : Str) : Str → Option Nat
  | [] => if needle.isEmpty then some 0 else none
  | c :: cs => if needle.isPrefixOf (c :: cs) then some 0 else (strFind needle cs).map (· + 1)

/-- Worker of `replaceAll`: `skip` characters of a match just replaced are still to be passed over. -/
def replaceAux (old new : Str) : Nat → Str → Str
  | _, [] => []
  | k + 1, _ :: cs => replaceAux old new k cs
  | 0, c :: cs =>
    if old.isPrefixOf (c :: cs) then new ++ replaceAux old new (old.length - 1) cs
    else c :: replaceAux old new 0 cs

/-- Python `s.replace(old, new)` for a non-empty `old`: leftmost, non-overlapping. -/
def replaceAll (old new s : Str) : Str := replaceAux old new 0 s

/-- Python `s.split(c)` for a one-character separator. -/
def splitOn (c : Char) : Str → List Str
  | [] => [[]]
  | x :: xs =>
    if x = c then [] :: splitOn c xs
    else match splitOn c xs with
      | [] => [[x]]
      | p :: ps => (x :: p) :: ps

/-- Python `c.join(parts)` for a one-character separator. -/
def joinWith (c : Char) : List Str → Str
  | [] => []
  | [p] => p
  | p :: q :: ps => p ++ c :: joinWith c (q :: ps)

/-- First code points of the runs of ten decimal digits (Unicode 14, general category Nd). -/
def decimalZeros : List Nat :=
  [0x30, 0x660, 0x6f0, 0x7c0, 0x966, 0x9e6, 0xa66, 0xae6, 0xb66, 0xbe6, 0xc66, 0xce6, 0xd66, 0xde6,
   0xe50, 0xed0, 0xf20, 0x1040, 0x1090, 0x17e0, 0x1810, 0x1946, 0x19d0, 0x1a80, 0x1a90, 0x1b50,
   0x1bb0, 0x1c40, 0x1c50, 0xa620, 0xa8d0, 0xa900, 0xa9d0, 0xa9f0, 0xaa50, 0xabf0, 0xff10, 0x104a0,
   0x10d30, 0x11066, 0x110f0, 0x11136, 0x111d0, 0x112f0, 0x11450, 0x114d0, 0x11650, 0x116c0,
   0x11730, 0x118e0, 0x11950, 0x11c50, 0x11d50, 0x11da0, 0x16a60, 0x16ac0, 0x16b50, 0x1d7ce,
   0x1d7d8, 0x1d7e2, 0x1d7ec, 0x1d7f6, 0x1e140, 0x1e2f0, 0x1e950, 0x1fbf0]

/-- Code points that are digits for `str.isdigit()` but not decimal digits, such as superscripts. -/
def otherDigitRanges : List (Nat × Nat) :=
  [(0xb2, 0xb3), (0xb9, 0xb9), (0x1369, 0x1371), (0x19da, 0x19da), (0x2070, 0x2070),
   (0x2074, 0x2079), (0x2080, 0x2089), (0x2460, 0x2468), (0x2474, 0x247c), (0x2488, 0x2490),
   (0x24ea, 0x24ea), (0x24f5, 0x24fd), (0x24ff, 0x24ff), (0x2776, 0x277e), (0x2780, 0x2788),
   (0x278a, 0x2792), (0x10a40, 0x10a43), (0x10e60, 0x10e68), (0x11052, 0x1105a), (0x1f100, 0x1f10a)]

/-- The value of a decimal digit, as used by `int()`. -/
def decimalValue (c : Char) : Option Nat :=
  (decimalZeros.find? fun z => z ≤ c.toNat && c.toNat < z + 10).map fun z => c.toNat - z

/-- Python `c.isdigit()` for one character. -/
def isDigit (c : Char) : Bool :=
  (decimalValue c).isSome || otherDigitRanges.any fun r => r.1 ≤ c.toNat && c.toNat ≤ r.2

/-- Python `s.isdigit()`: non-empty and all digits. -/
def isDigitStr (s : Str) : Bool := !s.isEmpty && s.all isDigit

/-- An ASCII digit, the class `[0-9]` of the regular expressions. -/
def isAsciiDigit (c : Char) : Bool := '0' ≤ c && c ≤ '9'

/-- The class `[a-z]`. -/
def isLowerAz (c : Char) : Bool := 'a' ≤ c && c ≤ 'z'

/-- The class `[A-Z]`. -/
def isUpperAz (c : Char) : Bool := 'A' ≤ c && c ≤ 'Z'

/-- Python `c.isspace()`. -/
def isSpace (c : Char) : Bool :=
  [(0x9, 0xd), (0x1c, 0x20), (0x85, 0x85), (0xa0, 0xa0), (0x1680, 0x1680), (0x2000, 0x200a),
   (0x2028, 0x2029), (0x202f, 0x202f), (0x205f, 0x205f), (0x3000, 0x3000)].any
    fun (r : Nat × Nat) => r.1 ≤ c.toNat && c.toNat ≤ r.2

/-- Worker of `pyInt`: decimal digits with single underscores between digits.
`acc` is the value so far, `none` before the first digit; `us` says that an underscore was just read. -/
def pyIntDigits : Option Nat → Bool → Str → Option Nat
  | acc, us, [] => if us then none else acc
  | acc, us, c :: cs =>
    match decimalValue c with
    | some d => pyIntDigits (some ((acc.getD 0) * 10 + d)) false cs
    | none => if c = '_' && acc.isSome && !us then pyIntDigits acc true cs else none

/-- Python `int(s)` for a text: surrounding white space, an optional sign, decimal digits of any script,
single underscores between digits. (The limit of 4300 digits of newer Python versions is not modelled.) -/
def pyInt (s : Str) : Res Int :=
  let s := ((s.dropWhile isSpace).reverse.dropWhile isSpace).reverse
  match s with
  | '-' :: r => match pyIntDigits none false r with
    | some n => .ok (-(n : Int))
    | none => .error .valueError
  | '+' :: r => match pyIntDigits none false r with
    | some n => .ok n
    | none => .error .valueError
  | r => match pyIntDigits none false r with
    | some n => .ok n
    | none => .error .valueError

/-- The ASCII digit of a value below ten. -/
def digitChar (d : Nat) : Char := Char.ofNat (0x30 + d)

/-- Worker of `natStr`, with fuel. -/
def natStrAux : Nat → Nat → Str
  | 0, _ => []
  | f + 1, n => if n < 10 then [digitChar n] else natStrAux f (n / 10) ++ [digitChar (n % 10)]

/-- Python `str(n)` for a natural number. -/
def natStr (n : Nat) : Str := natStrAux (n + 1) n

/-- Python `str(i)`. -/
def intStr (i : Int) : Str := if i < 0 then '-' :: natStr i.natAbs else natStr i.natAbs

/-- One letter of `str.lower()`: ASCII, Latin-1, the Hungarian double acute letters and the Kelvin sign.
Simplified: letters of other scripts are left alone; the code only compares with Hungarian words. -/
def lowerChar (c : Char) : Char :=
  let n := c.toNat
  if (0x41 ≤ n && n ≤ 0x5a) || (0xc0 ≤ n && n ≤ 0xde && n ≠ 0xd7) then Char.ofNat (n + 0x20)
  else if n = 0x150 || n = 0x170 then Char.ofNat (n + 1)
  else if n = 0x212a then 'k'
  else c

/-- Python `s.lower()`, see `lowerChar`. -/
def lower (s : Str) : Str := s.map lowerChar

/-- One letter of `str.upper()`, with the same simplification as `lowerChar` (`ß` is left alone). -/
def upperChar (c : Char) : Char :=
  let n := c.toNat
  if (0x61 ≤ n && n ≤ 0x7a) || (0xe0 ≤ n && n ≤ 0xfe && n ≠ 0xf7) then Char.ofNat (n - 0x20)
  else if n = 0x151 || n = 0x171 then Char.ofNat (n - 1)
  else c

/-- Python `s.upper()`, see `upperChar`. -/
def upper (s : Str) : Str := s.map upperChar

/-- What a generator does: the values it yields in order, and the exception it ends with, if any. -/
structure Gen (α : Type) where
  yields : List α
  stop : Option Err := none
  deriving Repr

/-- Consuming a generator to its end: `list(g)`. -/
def Gen.toList {α : Type} (g : Gen α) : Res (List α) :=
  match g.stop with
  | none => .ok g.yields
  | some e => .error e

/-- `next(g)` where no value yielded means `StopIteration`: returned as `none`. -/
def Gen.next {α : Type} (g : Gen α) : Res (Option α) :=
  match g.yields with
  | a :: _ => .ok (some a)
  | [] => match g.stop with
    | none => .ok none
    | some e => .error e

end Verif
