import Verif.Proofs.Headings
import Verif.Props.Amendments

/-! # Property C56: which lines begin an element -/

namespace Verif.Props

open Verif Spec

/-! ## Headers -/

/-- C56. The header of an article is read exactly from lines of its form. -/
theorem article_header_read (content i : Str) : matchArticle content = some i ↔ ArticleHeading content i := matchArticle_iff

example : ArticleHeading (py"5:3/A. § Szöveg") (py"5:3/A") :=
  ⟨.inr ⟨py"5", py"3/A", ⟨by decide, by decide⟩, .inr ⟨py"3", 'A', ⟨by decide, by decide⟩, by decide, rfl⟩, rfl⟩, py" ",
    py"Szöveg", [], .inr rfl, by decide, .inl rfl, rfl⟩

/-- C56. The header of a structural element is read exactly from lines of its form. -/
theorem struct_header_read (k : StructKind) (line : Line) (i : Str) :
    k.extractIdentifier line = .ok (some i) ↔ StructHeading k line.content i := structHeading_iff

example : StructHeading .chapter (py"XIV/A. Fejezet") (py"14/A") ∧ StructHeading .part (py"KÜLÖNÖS RÉSZ") (py"2") ∧
    StructHeading .book (py"HATODIK KÖNYV") (py"6") :=
  ⟨⟨py"XIV/A", py". Fejezet", [], by decide, .inl rfl, rfl,
      .cons (.inl rfl) (.cons (.inl rfl) (.cons (.inr (by decide)) (.cons (.inl rfl) (.cons (.inl rfl) (.cons (.inl rfl)
        (.cons (.inl rfl) (.cons (.inl rfl) (.cons (.inl rfl) .nil)))))))), romanToArabic_iff.mp (by decide +kernel)⟩,
    .inl ⟨1, rfl, rfl⟩, ⟨py"HATODIK", [], 6, by decide, .inl rfl, rfl, by unfold OrdinalOf; decide +kernel, rfl⟩⟩

/-! ## Identifiers that come next -/

/-- C56. The next paragraph or numbered point. -/
theorem next_number {a b : Str} (ha : IsNumericPointId a) (hb : IsNumericPointId b) :
    isNextNumericIdentifier a b = .ok true ↔ NumberAfter a b := numeric_after_iff ha hb

example : NumberAfter (py"3") (py"3a") ∧ NumberAfter (py"3b") (py"4") ∧ NumberAfter (py"3/c") (py"3/d") := by
  refine ⟨?_, ?_, ?_⟩
  · exact ⟨py"3", [], py"3", py"a", by decide, by decide, ⟨by decide, by decide⟩, ⟨by decide, by decide⟩, by decide,
      .inr (.inl ⟨rfl, rfl, rfl⟩)⟩
  · exact ⟨py"3", py"b", py"4", [], by decide, by decide, ⟨by decide, by decide⟩, ⟨by decide, by decide⟩, by decide,
      .inl ⟨rfl, by decide⟩⟩
  · exact ⟨py"3", py"c", py"3", py"d", by decide, by decide, ⟨by decide, by decide⟩, ⟨by decide, by decide⟩, by decide,
      .inr (.inr ⟨rfl, 'c', 'd', rfl, rfl, 2, .inl ⟨by decide, by decide⟩⟩)⟩

/-- C56. The next structural element. -/
theorem next_struct_number {a b : Str} (ha : IsArticleTail a) (hb : IsArticleTail b) :
    isNextNumericIdentifier a b = .ok true ↔ CapitalNumberAfter a b := capital_after_iff ha hb

example : CapitalNumberAfter (py"3/A") (py"3/B") ∧ CapitalNumberAfter (py"3/A") (py"4") := by
  refine ⟨?_, ?_⟩
  · exact ⟨py"3", py"A", py"3", py"B", by decide, by decide, ⟨by decide, by decide⟩, ⟨by decide, by decide⟩, by decide,
      .inr (.inr ⟨rfl, 'A', 'B', 0, rfl, rfl, by decide, by decide⟩)⟩
  · exact ⟨py"3", py"A", py"4", [], by decide, by decide, ⟨by decide, by decide⟩, ⟨by decide, by decide⟩, by decide,
      .inl ⟨rfl, by decide⟩⟩

/-- C56. The next article of an amendment. -/
theorem next_article {a b : Str} (ha : IsArticleId a) (hb : IsArticleId b) :
    articleIsNext a b = .ok true ↔ ArticleAfter a b := article_after_iff ha hb

example : ArticleAfter (py"2:15/B") (py"3:1") :=
  .inr ⟨py"2", py"15/B", py"3", py"1", ⟨by decide, by decide⟩, ⟨by decide, by decide⟩, rfl, rfl, .inr ⟨by decide, rfl⟩⟩

/-! ## Acts -/

/-- C56. The articles and structural elements of an act begin exactly on the lines after the preamble that are outside
quotes and have the form of the header that may come there; the preamble has no such line. -/
theorem act_headers {identifier subject : Str} {date : Date} {lines : List Line} {act : Act}
    (h : parseAct identifier date subject lines = .ok act) :
    ∃ pre body, lines = pre ++ body ∧ act.preamble = joinLines pre ∧
      (∀ (j : Nat) (l previous : Line), pre[j]? = some l → (emptyLine :: pre)[j]? = some previous →
        ∀ o, ¬ Opens true {} previous l o) ∧
      Outline true {} emptyLine [] body act.children := parseAct_outline h

example : (parseSample sampleLines).toOption.map (fun a => (a.preamble, a.children.map Node.identifier)) =
    some (py"Az Országgyűlés ezt alkotja:", [some (py"1"), some (py"1"), some (py"2")]) := by decide +kernel

/-- C56. The same for amendments of structural elements. -/
theorem amended_struct_headers {s : StructuralReference} {lines : List Line} {cs : List Node}
    (h : blockChildren (.struct s) lines = .ok cs) : Outline false {} emptyLine [] lines cs :=
  parseElements_outline (show parseElements false lines false = .ok cs from h)

example : (blockChildren (.struct {}) [spread 0 (py"5. Alcím") true, spread 0 (py"7. § Szöveg.")]).toOption.map
    (fun cs => cs.map Node.type) = some [.structural .subtitle, .article] := by decide +kernel

/-! ## Paragraphs, points and subpoints -/

/-- The parser of a kind of elements, whose identifiers begin with `p` if they are lettered subpoints. -/
inductive ParserOf : ElementParser → SaeKind → Str → Prop
  | paragraph : ParserOf paragraphParser .paragraph []
  | numericPoint : ParserOf numericPointParser .numericPoint []
  | alphabeticPoint : ParserOf alphabeticPointParser .alphabeticPoint []
  | numericSubpoint : ParserOf numericSubpointParser .numericSubpoint []
  | alphabeticSubpoint {p : Str} (h : p = [] ∨ (∃ c, isLowerAz c = true ∧ p = [c]) ∨ p = py"ny" ∨ p = py"sz") :
      ParserOf (alphabeticSubpointParser p) .alphabeticSubpoint p

/-- C56. Paragraphs, points and subpoints begin exactly on the lines that are outside quotes, are not indented further,
and have the header of the first one or of the one after the last. -/
theorem sibling_headers {P : ElementParser} {k : SaeKind} {p : Str} (hP : ParserOf P k p) {kids : ChildReader}
    {lines : List Line} {pi : Bool} {nodes : List Node} {w : Option Str}
    (h : extractMultiple P kids lines pi = .ok (nodes, w)) :
    ∃ ids, nodes.map Node.identifier = ids.map some ∧
      Siblings (ElementHeading k p) P.first (ElementAfter k p) none [] lines ids := by
  cases hP with
  | paragraph => exact extractMultiple_siblings paragraph_looks paragraph_sound.visible h
  | numericPoint => exact extractMultiple_siblings numericPoint_looks numericPoint_sound.visible h
  | alphabeticPoint => exact extractMultiple_siblings alphabeticPoint_looks alphabeticPoint_sound.visible h
  | numericSubpoint => exact extractMultiple_siblings numericSubpoint_looks numericSubpoint_sound.visible h
  | alphabeticSubpoint hp => exact extractMultiple_siblings (alphabeticSubpoint_looks hp) (alphabeticSubpoint_sound hp).visible h

example : ((extractMultiple alphabeticPointParser alphabeticPointKids
      [spread 10 (py"a) x,"), spread 10 (py"c) „y,"), spread 10 (py"b) z,”"), spread 20 (py"b) ha"), spread 10 (py"b) t.")]
      true).toOption.map fun r => r.1.map Node.identifier) = some [some (py"a"), some (py"b")] := by decide +kernel

/-- C56. The first one and what these parsers look for next, case by case. -/
theorem sibling_first {P : ElementParser} {k : SaeKind} {p : Str} (hP : ParserOf P k p) :
    P.first = match k with
      | .alphabeticPoint => py"a"
      | .alphabeticSubpoint => p ++ py"a"
      | _ => py"1" := by
  cases hP <;> rfl

example : ParserOf (alphabeticSubpointParser (py"c")) .alphabeticSubpoint (py"c") := .alphabeticSubpoint (.inr (.inl ⟨'c', by decide, rfl⟩))

/-! ## Amendments -/

/-- C56. The elements of an amendment: the first one begins on the first line, and the others exactly on the lines that
are outside quotes and have the header that comes next, counted from the announced identifier, which is the lowest part that the reference
names. Lettered subpoints begin like the announced one. -/
theorem amended_headers {r : Reference} {lines : List Line} {cs : List Node} {i : Ident} {t : Reference.Level} {p expected : Str}
    (h : blockChildren (.ref r) lines = .ok cs) (hr : LowestPart r t i)
    (hi : i = .one expected ∨ ∃ b, i = .range expected b) (hs : ∃ s, LevelHeading t p s expected)
    (hp : t = .alphabeticSubpoint → p = expected.dropLast ∧
      (p = [] ∨ (∃ c, isLowerAz c = true ∧ p = [c]) ∨ p = py"ny" ∨ p = py"sz")) :
    ∃ l rest e more ids, lines = l :: rest ∧ cs = e :: more ∧
      (∀ i, LevelHeading t p l.content i → e.identifier = some i) ∧ more.map Node.identifier = ids.map some ∧
      Followers (LevelHeading t p) (LevelAfter t p) expected [l] rest ids := by
  replace hr := lowest_last hr hi hs.choose_spec hp
  obtain ⟨⟨P, e⟩, hP, h⟩ := resBind_ok (show (blockParser r >>= fun x => parseBlocks x.1 x.2 lines) = .ok cs from h)
  unfold blockParser at hP
  rw [hr] at hP
  rcases hi with rfl | ⟨b, rfl⟩ <;> simp only [bind, Except.bind] at hP <;> (
    cases t with
    | act => cases hP
    | article =>
      obtain ⟨rfl, rfl⟩ := Prod.mk.inj (Except.ok.inj hP)
      exact parseBlocks_followers articleBlock_looks hs h
    | paragraph =>
      obtain ⟨rfl, rfl⟩ := Prod.mk.inj (Except.ok.inj hP)
      exact parseBlocks_followers (asBlock_looks paragraph_looks _) hs h
    | numericPoint =>
      obtain ⟨rfl, rfl⟩ := Prod.mk.inj (Except.ok.inj hP)
      exact parseBlocks_followers (asBlock_looks numericPoint_looks _) hs h
    | alphabeticPoint =>
      obtain ⟨rfl, rfl⟩ := Prod.mk.inj (Except.ok.inj hP)
      exact parseBlocks_followers (asBlock_looks alphabeticPoint_looks _) hs h
    | numericSubpoint =>
      obtain ⟨rfl, rfl⟩ := Prod.mk.inj (Except.ok.inj hP)
      exact parseBlocks_followers (asBlock_looks numericSubpoint_looks _) hs h
    | alphabeticSubpoint =>
      obtain ⟨hp, hq⟩ := hp rfl
      have hd : (if expected.length ≠ 1 then expected.dropLast else []) = p := by
        rw [hp]
        by_cases hl : expected.length ≠ 1
        · rw [if_pos hl]
        · rw [if_neg hl]
          match expected, hl with
          | [c], _ => rfl
          | [], hl => exact absurd (by simp) hl
          | _ :: _ :: _, hl => exact absurd (by simp) hl
      rw [hd] at hP
      obtain ⟨rfl, rfl⟩ := Prod.mk.inj (Except.ok.inj hP)
      exact parseBlocks_followers (asBlock_looks (alphabeticSubpoint_looks hq) _) hs h)

example : ((blockChildren (.ref { article := some (.one (py"2")), paragraph := some (.range (py"3") (py"4")) })
      [spread 0 (py"(3) Ha"), spread 9 (py"„(4) idézet”"), spread 9 (py"(4) igen.")]).toOption.map
      fun cs => cs.map Node.identifier) = some [some (py"3"), some (py"4")] ∧
    LowestPart { article := some (.one (py"2")), paragraph := some (.range (py"3") (py"4")) } .paragraph (.range (py"3") (py"4")) ∧
    LevelHeading .paragraph [] (py"(3) Ha") (py"3") :=
  ⟨by decide +kernel, ⟨rfl, rfl, rfl⟩, .inl ⟨by decide, by decide⟩, py"Ha", rfl⟩

/-- C56. The announced identifier itself is not asked for: the first element may have another one. -/
theorem announced_not_checked :
    ((blockChildren (.ref { article := some (.one (py"2")), paragraph := some (.range (py"3") (py"4")) })
      [spread 0 (py"(8) Ha"), spread 9 (py"(9) nem,"), spread 9 (py"(4) igen.")]).toOption.map
      fun cs => cs.map Node.identifier) = some [some (py"8"), some (py"4")] := by decide +kernel

/-! ## Limits -/

/-- C56. Below numbered points a letter of two characters is never followed by another one, unlike among points. -/
theorem digraph_ends_subpoints :
    alphabeticSubpointIsNext (py"ny") (py"o") = .ok false ∧ SaeKind.alphabeticPoint.isNextIdentifier (py"ny") (py"o") = .ok true ∧
      ((extractMultiple (alphabeticSubpointParser []) subpointKids
        ((py"abcdefghijklmn").map (fun c => spread 10 (c :: py") x,")) ++ [spread 10 (py"ny) x,"), spread 10 (py"o) x.")])
        true).toOption.map fun r => (r.1.map Node.identifier).getLast?) = some (some (some (py"ny"))) := by
  refine ⟨?_, ?_, ?_⟩ <;> decide +kernel

end Verif.Props
