import Verif.Py.Basic

/-! # What a Roman numeral is, independently of how it is computed -/

namespace Verif.Spec

/-- The Roman numeral of one decimal digit, written with the letters for one, five and ten units. -/
def romanDigit (one five ten : Char) : Nat → Str
  | 1 => [one] | 2 => [one, one] | 3 => [one, one, one] | 4 => [one, five]
  | 5 => [five] | 6 => [five, one] | 7 => [five, one, one] | 8 => [five, one, one, one] | 9 => [one, ten]
  | _ => []

/-- The standard Roman numeral of `n`: as many `M` as there are thousands, then hundreds, tens and units. -/
def roman (n : Nat) : Str :=
  List.replicate (n / 1000) 'M' ++ romanDigit 'C' 'D' 'M' (n / 100 % 10)
    ++ romanDigit 'X' 'L' 'C' (n / 10 % 10) ++ romanDigit 'I' 'V' 'X' (n % 10)

/-- The seven letters of Roman numerals. -/
def romanLetters : Str := ['I', 'V', 'X', 'L', 'C', 'D', 'M']

/-- What each letter of Roman numerals stands for. -/
def romanUnits : List (Char × Nat) := [('I', 1), ('V', 5), ('X', 10), ('L', 50), ('C', 100), ('D', 500), ('M', 1000)]

/-- A letter before a greater one is taken away from it: only I before V and X, X before L and C, C before D and M. -/
def romanPairs : List (Char × Char × Nat) :=
  [('I', 'V', 4), ('I', 'X', 9), ('X', 'L', 40), ('X', 'C', 90), ('C', 'D', 400), ('C', 'M', 900)]

/-- The value of any text of Roman letters, such pairs being taken from the left; numerals need not be standard ones. -/
inductive RomanValue : Str → Nat → Prop
  | nil : RomanValue [] 0
  | pair {a b v s n} (hp : (a, b, v) ∈ romanPairs) (hs : RomanValue s n) : RomanValue (a :: b :: s) (v + n)
  | unit {a v s n} (hu : (a, v) ∈ romanUnits) (hp : ∀ b w, s.head? = some b → (a, b, w) ∉ romanPairs) (hs : RomanValue s n) :
      RomanValue (a :: s) (v + n)

/-- A Roman numeral and what follows it, and the same with the number in decimal digits. -/
def RomanNumber (s i : Str) : Prop :=
  ∃ letters rest n, s = letters ++ rest ∧ letters ≠ [] ∧ (∀ c, rest.head? = some c → c ∉ romanLetters) ∧
    RomanValue letters n ∧ i = natStr n ++ rest

/-- The Hungarian ordinal numbers from first to hundredth, in order. -/
def ordinals : List Str :=
  [py"első", py"második", py"harmadik", py"negyedik", py"ötödik",
   py"hatodik", py"hetedik", py"nyolcadik", py"kilencedik", py"tizedik",
   py"tizenegyedik", py"tizenkettedik", py"tizenharmadik", py"tizennegyedik", py"tizenötödik",
   py"tizenhatodik", py"tizenhetedik", py"tizennyolcadik", py"tizenkilencedik", py"huszadik",
   py"huszonegyedik", py"huszonkettedik", py"huszonharmadik", py"huszonnegyedik", py"huszonötödik",
   py"huszonhatodik", py"huszonhetedik", py"huszonnyolcadik", py"huszonkilencedik", py"harmincadik",
   py"harmincegyedik", py"harminckettedik", py"harmincharmadik", py"harmincnegyedik", py"harmincötödik",
   py"harminchatodik", py"harminchetedik", py"harmincnyolcadik", py"harminckilencedik", py"negyvenedik",
   py"negyvenegyedik", py"negyvenkettedik", py"negyvenharmadik", py"negyvennegyedik", py"negyvenötödik",
   py"negyvenhatodik", py"negyvenhetedik", py"negyvennyolcadik", py"negyvenkilencedik", py"ötvenedik",
   py"ötvenegyedik", py"ötvenkettedik", py"ötvenharmadik", py"ötvennegyedik", py"ötvenötödik",
   py"ötvenhatodik", py"ötvenhetedik", py"ötvennyolcadik", py"ötvenkilencedik", py"hatvanadik",
   py"hatvanegyedik", py"hatvankettedik", py"hatvanharmadik", py"hatvannegyedik", py"hatvanötödik",
   py"hatvanhatodik", py"hatvanhetedik", py"hatvannyolcadik", py"hatvankilencedik", py"hetvenedik",
   py"hetvenegyedik", py"hetvenkettedik", py"hetvenharmadik", py"hetvennegyedik", py"hetvenötödik",
   py"hetvenhatodik", py"hetvenhetedik", py"hetvennyolcadik", py"hetvenkilencedik", py"nyolcvanadik",
   py"nyolcvanegyedik", py"nyolcvankettedik", py"nyolcvanharmadik", py"nyolcvannegyedik", py"nyolcvanötödik",
   py"nyolcvanhatodik", py"nyolcvanhetedik", py"nyolcvannyolcadik", py"nyolcvankilencedik", py"kilencvenedik",
   py"kilencvenegyedik", py"kilencvenkettedik", py"kilencvenharmadik", py"kilencvennegyedik", py"kilencvenötödik",
   py"kilencvenhatodik", py"kilencvenhetedik", py"kilencvennyolcadik", py"kilencvenkilencedik", py"századik"]

/-- The word is the ordinal number of `n`, in small or capital letters. -/
def OrdinalOf (s : Str) (n : Nat) : Prop := 1 ≤ n ∧ ordinals[n - 1]? = some (lower s)

end Verif.Spec
