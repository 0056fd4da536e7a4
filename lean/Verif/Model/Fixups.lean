import Verif.Model.Line

/-! # Fix-ups: /repo/hun_law/fixups/common.py -/

namespace Verif

/-- `FixupFn` (common.py:26). The body is always a list here; the code reads it once, from the start to the end. -/
abbrev FixupFn := List Line → Res (List Line)

/-- `all_fixups` (common.py:27): a dictionary, in order of insertion. -/
abbrev Fixups := List (Str × List FixupFn)

/-- `all_fixups[law_id]` if it is there. -/
def Fixups.find (f : Fixups) (lawId : Str) : Option (List FixupFn) :=
  match f with
  | [] => none
  | e :: es => if e.1 = lawId then some e.2 else Fixups.find es lawId

/-- Changing the entry of a key that is there. -/
def Fixups.append (f : Fixups) (lawId : Str) (cb : FixupFn) : Fixups :=
  f.map fun e => if e.1 = lawId then (e.1, e.2 ++ [cb]) else e

/-- `add_fixup` (common.py:30-35). -/
def addFixup (f : Fixups) (lawId : Str) (cb : FixupFn) : Fixups :=
  if (f.find lawId).isSome then f.append lawId cb else f ++ [(lawId, [cb])]

/-- The loop of `do_all_fixups` (common.py:42-48). -/
def fixupLoop : List FixupFn → List Line → Res (List Line)
  | [], body => .ok body
  | fix :: fixes, body =>
    match fix body with
    | .ok body => fixupLoop fixes body
    | .error _ => .error .valueError

/-- `do_all_fixups` (common.py:38-49). -/
def doAllFixups (f : Fixups) (lawId : Str) (body : List Line) : Res (List Line) :=
  match f.find lawId with
  | none => .ok body
  | some fixes => fixupLoop fixes body

/-- The end of the three functions that look for a line (common.py:61-65, 78-82, 134-138). -/
def checkCount (result : List Line) (count : Nat) : Res (List Line) :=
  if count = 0 then .error .valueError else if count ≠ 1 then .error .valueError else .ok result

/-- The loop of `empty_line_adder` (common.py:54-60). -/
def emptyLineLoop (needle : Str) : List Line → Nat → List Line → List Line × Nat
  | result, count, [] => (result, count)
  | result, count, l :: ls =>
    let result := result ++ [l]
    if l.content = needle then emptyLineLoop needle (result ++ [emptyLine]) (count + 1) ls
    else emptyLineLoop needle result count ls

/-- `add_empty_line_after` (common.py:52-66). -/
def addEmptyLineAfter (needle : Str) : FixupFn := fun body =>
  let r := emptyLineLoop needle [] 0 body
  checkCount r.1 r.2

/-- The loop of `line_deleter` (common.py:71-77). -/
def deleteLoop (needle : Str) : List Line → Nat → List Line → List Line × Nat
  | result, count, [] => (result, count)
  | result, count, l :: ls =>
    if l.content = needle then deleteLoop needle result (count + 1) ls
    else deleteLoop needle (result ++ [l]) count ls

/-- `delete_line` (common.py:69-83). -/
def deleteLine (needle : Str) : FixupFn := fun body =>
  let r := deleteLoop needle [] 0 body
  checkCount r.1 r.2

/-- The first loop of `replace_line_content` (common.py:87-91), a recursion here. -/
def commonPrefixLen : Str → Str → Nat
  | a :: as, b :: bs => if a = b then commonPrefixLen as bs + 1 else 0
  | _, _ => 0

/-- The second loop of `replace_line_content` (common.py:93-98): it compares from the end and stops at the common beginning. -/
def commonPostfixLen (needle replacement : Str) : Nat :=
  let n := commonPrefixLen needle replacement
  commonPrefixLen (needle.drop n).reverse (replacement.drop n).reverse

/-- `needle_prev_lines_are_same` (common.py:104-108). -/
def prevLinesAreSame (prev : Option (List Str)) (result : List Line) : Bool :=
  match prev with
  | none => true
  | some prev => decide (prev.length ≤ result.length) && (List.range prev.length).all fun i =>
      decide ((result.reverse[i]?).map Line.content = prev.reverse[i]?)

/-- `common_postfix` (common.py:115-120). -/
def commonPostfix (l : Line) (m : Nat) : Res Line := if m ≠ 0 then l.slice (-(m : Int)) else .ok ⟨[], l.marginRight⟩

/-- The line that is appended instead of the needle (common.py:111-129). -/
def replacedLine (needle replacement : Str) (l : Line) : Res Line :=
  let n : Nat := commonPrefixLen needle replacement
  let m : Nat := commonPostfixLen needle replacement
  do
    let commonPrefix ← l.slice 0 (some n)
    let rest ← l.slice n
    let part := if m ≠ 0 then pySlice replacement n (-(m : Int)) else pySlice replacement n replacement.length
    let last ← commonPostfix l m
    .ok (Line.fromMultiple [commonPrefix, ⟨[⟨rest.indent, part, false⟩], 0⟩, last])

/-- The loop of `line_content_replacer` (common.py:101-132). -/
def replaceLoop (needle replacement : Str) (prev : Option (List Str)) : List Line → Nat → List Line →
    Res (List Line × Nat)
  | result, count, [] => .ok (result, count)
  | result, count, l :: ls =>
    if l.content ≠ needle ∨ prevLinesAreSame prev result = false then
      replaceLoop needle replacement prev (result ++ [l]) count ls
    else if replacement ≠ [] then do
      let r ← replacedLine needle replacement l
      replaceLoop needle replacement prev (result ++ [r]) (count + 1) ls
    else replaceLoop needle replacement prev result (count + 1) ls

/-- `replace_line_content` (common.py:86-139). -/
def replaceLineContent (needle replacement : Str) (prev : Option (List Str)) : FixupFn := fun body => do
  let r ← replaceLoop needle replacement prev [] 0 body
  checkCount r.1 r.2

/-- `(.*)$` matches: the text has no newline, except for one at its end, which is left out. -/
def upToEnd (s : Str) : Option Str :=
  let t := if s.getLast? = some '\n' then s.dropLast else s
  if '\n' ∈ t then none else some t

/-- `title_re` (common.py:153): `^[\[(](.*)[)\]]$`, the group. -/
def ptkeTitle (s : Str) : Option Str :=
  match upToEnd s with
  | some (o :: t) =>
    match t.getLast? with
    | some c => if (o = '[' ∨ o = '(') ∧ (c = ')' ∨ c = ']') then some t.dropLast else none
    | none => none
  | _ => none

/-- `article_re` (common.py:154): `^([0-9]+\. § )(.*)$`, the end of the first group. -/
def ptkeArticle (s : Str) : Option Nat :=
  let n := (s.takeWhile isAsciiDigit).length
  if n ≠ 0 ∧ (s.drop n).take 4 = (py". § ") ∧ (upToEnd (s.drop (n + 4))).isSome then some (n + 4) else none

/-- The loop of `ptke_article_header_fixer` (common.py:156-189): `result` and `prev_line`. -/
def ptkeLoop : List Line → Option Line → List Line → Res (List Line)
  | result, prev, [] => .ok (result ++ prev.toList)
  | result, none, l :: ls => ptkeLoop result (some l) ls
  | result, some p, l :: ls =>
    match ptkeTitle p.content, ptkeArticle l.content with
    | some t, some n => do
      let header ← l.slice 0 (some n)
      let rest ← l.slice n
      let title : Line := ⟨[⟨p.indent, (py"[") ++ t ++ (py"]"), false⟩], p.marginRight⟩
      ptkeLoop (result ++ [Line.fromMultiple [header, title], Line.fromMultiple [rest]]) none ls
    | _, _ => ptkeLoop (result ++ [p]) (some l) ls

/-- `ptke_article_header_fixer` (common.py:142-189). -/
def ptkeArticleHeaderFixer : FixupFn := ptkeLoop [] none

end Verif
