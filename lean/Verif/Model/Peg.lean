import Verif.Py.Basic

/-! # The runtime of the generated parser

/repo/hun_law/grammar/__init__.py:44-61 has TatSu 4.3.0 (requirements.txt:5) generate a recursive descent parser from grammar.ebnf. TatSu
is not in /repo; what it does with the constructs that are used in the grammar is modelled here from its documentation. Every construct
reads from a place in the text and gives a value and the place after it, or fails. Results that TatSu remembers are the ones it would
compute again, so memoization is left out. -/

namespace Verif

/-- A place in the text: how many characters are before it, and the rest. -/
structure At where
  pos : Nat
  rest : Str
  deriving DecidableEq, Repr

/-- The place after some more characters. -/
def At.move (i : At) (n : Nat) : At := ⟨i.pos + n, i.rest.drop n⟩

/-- Whitespace is passed over: there is no `@@whitespace` in the grammar, so it is `\s+`. -/
def At.skip (i : At) : At := i.move (i.rest.takeWhile isSpace).length

/-- A parsing expression. -/
def Peg (α : Type) := At → Option (α × At)

instance : Monad Peg where
  pure a := fun i => some (a, i)
  bind p f := fun i => match p i with
    | none => none
    | some (a, j) => f a j

/-! ## Regular expressions -/

/-- The regular expressions of the grammar. `star` is only used for sets of characters. -/
inductive Regex
  | set (p : Char → Bool)
  | seq (a b : Regex)
  | alt (a b : Regex)
  | opt (a : Regex)
  | star (p : Char → Bool)

/-- The lengths of the matches at the beginning of a text, in the order in which Python tries them. -/
def Regex.ends : Regex → Str → List Nat
  | .set p, c :: _ => if p c then [1] else []
  | .set _, [] => []
  | .seq a b, s => (a.ends s).flatMap fun n => (b.ends (s.drop n)).map (n + ·)
  | .alt a b, s => a.ends s ++ b.ends s
  | .opt a, s => a.ends s ++ [0]
  | .star p, s => (List.range ((s.takeWhile p).length + 1)).reverse

/-- One character. -/
def Regex.char (c : Char) : Regex := .set (· == c)

/-- A text. -/
def Regex.str : Str → Regex
  | [] => .star fun _ => false
  | [c] => .char c
  | c :: s => .seq (.char c) (.str s)

/-- `[…]+`. -/
def Regex.plus (p : Char → Bool) : Regex := .seq (.set p) (.star p)

/-! ## Parsing expressions -/

namespace Peg

variable {α β : Type}

/-- `/…/`. No whitespace is passed over before it. -/
def pattern (r : Regex) : Peg Str := fun i =>
  match (r.ends i.rest).head? with
  | none => none
  | some n => some (i.rest.take n, i.move n)

/-- `@@namechars` (grammar.ebnf:18). -/
def namechars : Str := py"éáőúöüóíűÉÁŐÚÖÜÓÍŰ"

/-- `str.isalpha` of one character. Simplified: no letters beyond U+024F. -/
def isAlpha (c : Char) : Bool :=
  isLowerAz c || isUpperAz c || c == 'ª' || c == 'µ' || c == 'º' ||
    (decide (0xC0 ≤ c.toNat) && decide (c.toNat ≤ 0x24F) && c != '×' && c != '÷')

/-- `str.isalnum` of one character, simplified in the same way, and being one of `@@namechars`. -/
def isNameChar (c : Char) : Bool := isAlpha c || isDigit c || namechars.contains c

/-- Whether a token must not be followed by a letter or digit: it is a word. -/
def isName (token : Str) : Bool := token.all (fun c => isAlpha c || isDigit c) && token.head?.any isAlpha

/-- `"…"`. A word is not found at the beginning of a longer one. -/
def token (t : Str) : Peg Str := fun i =>
  let j := i.skip
  if t.isPrefixOf j.rest && !(isName t && (j.rest.drop t.length).head?.any isNameChar) then some (t, j.move t.length) else none

/-- A rule is called after whitespace; the names of all rules of the grammar begin with small letters. -/
def rule (p : Peg α) : Peg α := fun i => p i.skip

/-- A rule whose result is asked for its position (`parseinfo`). -/
def located (p : Peg α) : Peg (α × Int × Int) := fun i =>
  match p i.skip with
  | none => none
  | some (a, j) => some ((a, (i.skip.pos : Int), (j.pos : Int)), j)

/-- `p | q`: what comes later is not tried after a success. -/
def or (p q : Peg α) : Peg α := fun i =>
  match p i with
  | some x => some x
  | none => q i

/-- `[p]`. -/
def opt (p : Peg α) : Peg (Option α) := fun i =>
  match p i with
  | some (a, j) => some (some a, j)
  | none => some (none, i)

/-- The loop of `{p}*` with a bound. It ends where nothing is read; no repeated expression of the grammar reads nothing. -/
def manyLoop (p : Peg α) : Nat → At → List α × At
  | 0, i => ([], i)
  | n + 1, i => match p i with
    | none => ([], i)
    | some (a, j) => if j.rest.length < i.rest.length then let x := manyLoop p n j; (a :: x.1, x.2) else ([], i)

/-- `{p}*`. -/
def many (p : Peg α) : Peg (List α) := fun i => some (manyLoop p i.rest.length i)

/-- `{p}+`. -/
def many1 (p : Peg α) : Peg (List α) := do
  let a ← p
  let as ← many p
  pure (a :: as)

/-- `&p`. -/
def ahead (p : Peg α) : Peg Unit := fun i => (p i).map fun _ => ((), i)

/-- `!p`. -/
def not (p : Peg α) : Peg Unit := fun i => if (p i).isSome then none else some ((), i)

/-- `$`. -/
def eof : Peg Unit := fun i => if i.skip.rest.isEmpty then some ((), i.skip) else none

/-- One of several tokens. -/
def tokens : List Str → Peg Str
  | [] => fun _ => none
  | t :: ts => or (token t) (tokens ts)

end Peg
end Verif
