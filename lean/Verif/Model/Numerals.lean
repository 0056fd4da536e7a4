import Verif.Py.Basic

/-! # Numerals: /repo/hun_law/utils.py lines 201-340 -/

namespace Verif

/-- `ROMAN_NUMERALS` (utils.py:283-288). -/
def romanNumerals : List (Str × Nat) :=
  [(py"M", 1000), (py"CM", 900), (py"D", 500), (py"CD", 400),
   (py"C", 100), (py"XC", 90), (py"L", 50), (py"XL", 40),
   (py"X", 10), (py"IX", 9), (py"V", 5), (py"IV", 4),
   (py"I", 1)]

/-- The loop of `int_to_text_roman` (utils.py:293-299). The fuel bounds the number of iterations;
`romanLoop_fuel` shows that the value of the number is always enough. -/
def romanLoop : Nat → Int → Str → Str
  | 0, _, result => result
  | f + 1, i, result =>
    if i > 0 then
      match romanNumerals.find? fun tv => decide ((tv.2 : Int) ≤ i) with
      | some (text, val) => romanLoop f (i - val) (result ++ text)
      | none => romanLoop f i result
    else result

/-- `int_to_text_roman` (utils.py:291-300). -/
def intToTextRoman (i : Int) : Str := romanLoop i.toNat i []

/-- The loop of `text_to_int_roman_with_postfix` (utils.py:304-312), with fuel: every iteration consumes text. -/
def readRomanLoop : Nat → Str → Nat → Nat × Str
  | 0, s, result => (result, s)
  | f + 1, s, result =>
    if s.isEmpty then (result, s) else
      match romanNumerals.find? fun tv => tv.1 == s.take tv.1.length with
      | some (text, val) => readRomanLoop f (s.drop text.length) (result + val)
      | none => (result, s)

/-- `text_to_int_roman_with_postfix` (utils.py:303-315). -/
def textToIntRomanWithPostfix (s : Str) : Res (Nat × Str) :=
  let (result, s) := readRomanLoop s.length s 0
  if result = 0 then .error .valueError else .ok (result, s)

/-- `text_to_int_roman` (utils.py:318-322). -/
def textToIntRoman (s : Str) : Res Nat := do
  let (result, rest) ← textToIntRomanWithPostfix s
  if !rest.isEmpty then .error .valueError else .ok result

/-- `arabic_to_roman_with_postfix` (utils.py:325-332). The expression is `([0-9]+)(.*)`, anchored at the start
by `match`; `.` stops at a line feed, so what follows a line feed is dropped. -/
def arabicToRomanWithPostfix (s : Str) : Res Str :=
  let digits := s.takeWhile isAsciiDigit
  if digits.isEmpty then .error .valueError else do
    let n ← pyInt digits
    .ok (intToTextRoman n ++ (s.dropWhile isAsciiDigit).takeWhile (· ≠ '\n'))

/-- `roman_to_arabic_with_postfix` (utils.py:335-337). -/
def romanToArabicWithPostfix (s : Str) : Res Str := do
  let (result, rest) ← textToIntRomanWithPostfix s
  .ok (natStr result ++ rest)

/-- `SPECIAL_VALUES` (utils.py:212-225). -/
def ordinalSpecials : List (Nat × Str) :=
  [(1, py"első"), (2, py"második"), (10, py"tizedik"), (20, py"huszadik"), (30, py"harmincadik"),
   (40, py"negyvenedik"), (50, py"ötvenedik"), (60, py"hatvanadik"), (70, py"hetvenedik"),
   (80, py"nyolcvanadik"), (90, py"kilencvenedik"), (100, py"századik")]

/-- `ONES_DIGIT` (utils.py:226-236). -/
def ordinalOnes : List (Str × Nat) :=
  [(py"egyedik", 1), (py"kettedik", 2), (py"harmadik", 3), (py"negyedik", 4), (py"ötödik", 5),
   (py"hatodik", 6), (py"hetedik", 7), (py"nyolcadik", 8), (py"kilencedik", 9)]

/-- `TENS_DIGIT` (utils.py:237-248). -/
def ordinalTens : List (Str × Nat) :=
  [(py"", 0), (py"tizen", 10), (py"huszon", 20), (py"harminc", 30), (py"negyven", 40), (py"ötven", 50),
   (py"hatvan", 60), (py"hetven", 70), (py"nyolcvan", 80), (py"kilencven", 90)]

/-- The key/value pairs stored by `init_text_to_int_dict` in order (utils.py:249-260). -/
def ordinalPairs : List (Nat × Str) :=
  (ordinalOnes.flatMap fun o => (ordinalTens.filterMap fun t =>
    if (ordinalSpecials.any fun sp => sp.1 == t.2 + o.2) then none else some (t.2 + o.2, t.1 ++ o.1)))
  ++ ordinalSpecials

/-- Looking up a dictionary filled by a list of stores: the last store wins. -/
def dictGet {α β : Type} [BEq α] (stores : List (α × β)) (k : α) : Option β :=
  (stores.reverse.find? fun kv => kv.1 == k).map (·.2)

/-- `text_to_int_hun` (utils.py:263-270). -/
def textToIntHun (s : Str) : Res Nat :=
  match dictGet (ordinalPairs.map fun p => (p.2, p.1)) (lower s) with
  | some n => .ok n
  | none => .error .valueError

/-- `int_to_text_hun` (utils.py:273-280). -/
def intToTextHun (i : Int) : Res Str :=
  match dictGet (ordinalPairs.map fun p => ((p.1 : Int), p.2)) i with
  | some s => .ok s
  | none => .error .valueError

/-- `is_uppercase_hun` (utils.py:340-347). -/
def isUppercaseHun (s : Str) : Bool :=
  s.all fun c => isUpperAz c || (py"ÉÁŐÚŰÖÜÓÍ").contains c

end Verif
