import Verif.Proofs.Stated
import Verif.Props.Ordinary

/-! # What sentences change is reported (C73) -/

namespace Verif.Props

open Verif.Spec Verif.ActGrammar

set_option maxRecDepth 100000

/-! ## Examples of such sentences -/

/-- "Ptk." at a place -/
def codeAct (n : Int) : ParsedActRef := { abbreviation := some (py"Ptk.", n, n + 4) }

theorem code_phrase (n : Nat) {rest : Str} (h : ∀ e ∈ [py"tv.", py"vhr.", py" tv.", py" vhr."], ¬ e <+: rest) :
    ActPhrase n (codeAct n) (py"Ptk.") rest :=
  ⟨[], _, rfl, .done, .short ⟨'P', py"tk", rfl, .inl rfl, by simp, by unfold hunLower; decide +kernel⟩ h⟩

theorem one_digit {c : Char} (h : isAsciiDigit c = true) : Digits [c] := ⟨by simp, by simpa using h⟩

theorem code_article (n : Nat) : PartText n ⟨.article, [(py"5", ↑n, ↑n + 2)], []⟩ (py"5. §-a") :=
  ⟨[.inr (py"5", ↑n, ↑n + 2)], py"5.", py"§-a", .one ⟨rfl, ⟨[], py"5", [], rfl, .inl rfl, one_digit rfl, .inl rfl⟩, rfl⟩,
    .inr ⟨py"a", rfl, by simp, by unfold hunLower; decide +kernel⟩, rfl, rfl, rfl⟩

theorem plain_article (n : Nat) : PartText n ⟨.article, [(py"5", ↑n, ↑n + 2)], []⟩ (py"5. §") :=
  ⟨[.inr (py"5", ↑n, ↑n + 2)], py"5.", py"§", .one ⟨rfl, ⟨[], py"5", [], rfl, .inl rfl, one_digit rfl, .inl rfl⟩, rfl⟩, .inl rfl, rfl, rfl, rfl⟩

theorem code_paragraph (n : Nat) {e : Str} (he : e ∈ [py"ében", py"sel"]) :
    PartText n ⟨.paragraph, [(py"3", ↑n, ↑n + 3)], []⟩ ((py"(3) bekezdés") ++ e) := by
  refine ⟨[.inr (py"3", ↑n, ↑n + 3)], py"(3)", (py"bekezdés") ++ e, .one ⟨rfl, ⟨py"3", [], rfl, one_digit rfl, .inl rfl⟩, rfl⟩,
    ⟨e, rfl, ?_⟩, rfl, rfl, rfl⟩
  simp only [List.mem_cons, List.not_mem_nil, or_false] at he
  rcases he with rfl | rfl <;> (unfold hunLower; decide +kernel)

theorem quote_text {c : Char} (hc : c ∉ py"„”") (hs : isSpace c = false) : QuoteText [c] ('„' :: [c] ++ py"”") :=
  ⟨[c], rfl, .plain (by simpa using hc), [], [], by simp, by simp, by simp, by rintro _ ⟨⟩; exact hs, by rintro _ ⟨⟩; exact hs⟩

theorem replaced_text : ReplacedText (py"x") (py"y") (py"„x” szövegrész helyébe az „y”") :=
  ⟨py"„x”", py"szövegrész", py"helyébe", py"az ", py"„y”", rfl, quote_text (by decide) (by decide), by simp, by simp, by simp,
    quote_text (by decide) (by decide)⟩

/-- `A Ptk. 5. § (3) bekezdésében az „x” szövegrész helyébe az „y” szöveg lép.` -/
theorem texts_stated : States (py"A Ptk. 5. § (3) bekezdésében az „x” szövegrész helyébe az „y” szöveg lép.")
    (.texts (codeAct 2) [([⟨.article, [(py"5", 7, 9)], []⟩, ⟨.paragraph, [(py"3", 12, 15)], []⟩], 7, 28)] [(py"x", py"y")]) :=
  .texts (o := py"A ") (p := py"Ptk.") (v := py"5. § (3) bekezdésében") (b := py"az ") (q := py"„x” szövegrész helyébe az „y” szöveg") (e := py" lép.")
    (by simp) (code_phrase 2 (by decide +kernel)) (.one (.cons (plain_article 7) (.inl rfl) (.one (code_paragraph 12 (e := py"ében") (by simp)))))
    (by simp [Noun]) (.one replaced_text (by simp [ReplacingWord])) (by simp)

/-- `A Ptk. 5. §-a címében az „x” szövegrész helyébe az „y” szöveg lép.` -/
theorem title_stated : States (py"A Ptk. 5. §-a címében az „x” szövegrész helyébe az „y” szöveg lép.")
    (.title (codeAct 2) (py"5") (7, 13) (py"x") (py"y")) :=
  .title (o := py"A ") (p := py"Ptk.") (x := py"5") (g := py"§-a") (c := py"címében") (b := py"az ") (q := py"„x” szövegrész helyébe az „y”")
    (z := py" szöveg") (e := py" lép.") (by simp) (code_phrase 2 (by decide +kernel)) ⟨[], py"5", [], rfl, .inl rfl, one_digit rfl, .inl rfl⟩
    (.inr ⟨py"a", rfl, by simp, by unfold hunLower; decide +kernel⟩) ⟨py"ében", rfl, by unfold hunLower; decide +kernel⟩ (by decide)
    (by simp [Noun]) replaced_text (by simp [ReplacingWord]) (by simp)

/-- `Hatályát veszti a Ptk. 5. §-a.` -/
theorem repeal_stated : States (py"Hatályát veszti a Ptk. 5. §-a.")
    (.repeal (codeAct 18) [([⟨.article, [(py"5", 23, 25)], []⟩], 23, 29)] []) :=
  .repeal (o := py"Hatályát veszti ") (b := py"a ") (p := py"Ptk.") (v := py"5. §-a") (t := []) (by simp) (by simp)
    (code_phrase 18 (by decide +kernel)) (.one (.one (code_article 23))) (.inl ⟨rfl, rfl⟩)

/-- `Ez a törvény 2020. január 1-jén lép hatályba.` -/
theorem inForce_stated : States (py"Ez a törvény 2020. január 1-jén lép hatályba.")
    (.inForce { exactDate := some ⟨py"2020", py"január", py"1"⟩ }) :=
  .inForce (o := py"Ez a törvény") (x := []) (r := []) (t := py"2020. január 1-jén") (i := []) (by simp) (.inl ⟨rfl, rfl⟩) (.inl ⟨rfl, rfl⟩)
    (.date rfl rfl rfl ⟨⟨by simp, by decide⟩, by simp [Month], one_digit rfl, py"-jén", by simp, rfl⟩) (.inl ⟨rfl, rfl⟩)

/-- `A Ptk. 5. §-a helyébe a következő rendelkezés lép:` -/
theorem amend_stated : States (py"A Ptk. 5. §-a helyébe a következő rendelkezés lép:")
    (.amend (codeAct 2) ([⟨.article, [(py"5", 7, 9)], []⟩], 7, 13)) :=
  .amend (o := py"A ") (p := py"Ptk.") (v := py"5. §-a") (e := py" helyébe a következő rendelkezés lép") (by simp) (code_phrase 2 (by decide +kernel))
    (.one (code_article 7)) (by simp [Replacing]) (no_title_of (by decide +kernel))

/-- `A Ptk. 5. §-a a következő (3) bekezdéssel egészül ki:` -/
theorem insert_stated : States (py"A Ptk. 5. §-a a következő (3) bekezdéssel egészül ki:")
    (.insert (codeAct 2) ([⟨.article, [(py"5", 7, 9)], []⟩, ⟨.paragraph, [(py"3", 26, 29)], []⟩], 7, 41)) :=
  .insert (o := py"A ") (p := py"Ptk.") (v := py"5. §-a a következő (3) bekezdéssel") (e := py" egészül ki") (by simp) (code_phrase 2 (by decide +kernel))
    (.under (u := py"5. §-a") (v := py"(3) bekezdéssel") rfl (.one (code_article 7)) (by rintro _ ⟨⟩; exact .inl rfl)
      (code_paragraph 26 (e := py"sel") (by simp))) (by simp [Adding]) (no_title_of (by decide +kernel))

/-- `A Ptk. 5. §-a helyébe a következő rendelkezés lép, és a következő 6. §-sal egészül ki:` -/
theorem amendInsert_stated : States (py"A Ptk. 5. §-a helyébe a következő rendelkezés lép, és a következő 6. §-sal egészül ki:")
    (.amendInsert (codeAct 2) ([⟨.article, [(py"5", 7, 9)], []⟩], 7, 13) ([⟨.article, [(py"6", 66, 68)], []⟩], 54, 74)) :=
  .amendInsert (o := py"A ") (p := py"Ptk.") (v := py"5. §-a") (e := py" helyébe a következő rendelkezés lép") (c := py",") (w := py" és")
    (u := py"a következő 6. §-sal") (f := py" egészül ki") (by simp) (code_phrase 2 (by decide +kernel))
    (.one (code_article 7)) (by simp [Replacing]) (by simp) (by simp)
    (.insertion <| .article (v := py"6. §-sal") rfl (.one ⟨[.inr (py"6", 66, 68)], py"6.", py"§-sal", .one ⟨rfl, ⟨[], py"6", [], rfl, .inl rfl, one_digit rfl, .inl rfl⟩, rfl⟩,
      .inr ⟨py"sal", rfl, by simp, by unfold hunLower; decide +kernel⟩, rfl, rfl, rfl⟩))
    (by simp [Adding]) (no_title_of (by decide +kernel))

/-- `A Ptk. 5. § (2) bekezdése helyébe a következő rendelkezés lép, és a § a következő (3) bekezdéssel egészül ki:` -/
theorem addition_stated : States (py"A Ptk. 5. § (2) bekezdése helyébe a következő rendelkezés lép, és a § a következő (3) bekezdéssel egészül ki:")
    (.amendInsert (codeAct 2) ([⟨.article, [(py"5", 7, 9)], []⟩, ⟨.paragraph, [(py"2", 12, 15)], []⟩], 7, 25)
      ([⟨.paragraph, [(py"3", 82, 85)], []⟩], 66, 97)) :=
  .amendInsert (o := py"A ") (p := py"Ptk.") (v := py"5. § (2) bekezdése") (e := py" helyébe a következő rendelkezés lép") (c := py",") (w := py" és")
    (u := py"a § a következő (3) bekezdéssel") (f := py" egészül ki") (by simp) (code_phrase 2 (by decide +kernel))
    (.cons (plain_article 7) (.inl rfl) (.one ⟨[.inr (py"2", 12, 15)], py"(2)", py"bekezdése", .one ⟨rfl, ⟨py"2", [], rfl, one_digit rfl, .inl rfl⟩, rfl⟩,
      ⟨py"e", rfl, by unfold hunLower; decide +kernel⟩, rfl, rfl, rfl⟩)) (by simp [Replacing]) (by simp) (by simp)
    (.paragraph (x := py"a § ") (v := py"(3) bekezdéssel") (by simp) rfl (code_paragraph 82 (e := py"sel") (by simp)))
    (by simp [Adding]) (no_title_of (by decide +kernel))

/-- `A Ptk. 5. §-a az „x „y” z” szövegrész helyébe az „y” szöveg lép.`: there is a quotation in what is quoted. -/
theorem nested_stated : States (py"A Ptk. 5. §-a az „x „y” z” szövegrész helyébe az „y” szöveg lép.")
    (.texts (codeAct 2) [([⟨.article, [(py"5", 7, 9)], []⟩], 7, 13)] [(py"x „y” z", py"y")]) :=
  .texts (o := py"A ") (p := py"Ptk.") (v := py"5. §-a") (b := py"az ") (q := py"„x „y” z” szövegrész helyébe az „y” szöveg") (e := py" lép.")
    (by simp) (code_phrase 2 (by decide +kernel)) (.one (.one (code_article 7))) (by simp [Noun])
    (.one ⟨py"„x „y” z”", py"szövegrész", py"helyébe", py"az ", py"„y”", rfl,
      ⟨py"x „y” z", rfl, .quote (w := py"x ") (u := py"y") (v := py" z") (by decide) (.plain (by decide)) (.plain (by decide)),
        [], [], rfl, by simp, by simp, by rintro _ ⟨⟩; decide, by rintro _ ⟨⟩; decide⟩, by simp, by simp, by simp,
      quote_text (by decide) (by decide)⟩ (by simp [ReplacingWord])) (by simp)

/-! ## The properties -/

/-- C73. If a sentence states a change of the law in one of the usual ways and is analysed, then exactly this change is reported, with the
references to the act and to the parts that are written, and the abbreviation that is defined. -/
theorem change_reported {s : Str} {c : Change} {r : Analysis} (h : States s c) (ha : analyze s = .ok r) : Reports Listed c r := states_reported h ha

theorem analysed_of {s : Str} (h : (analyze s).toOption.isSome = true) : ∃ r, analyze s = .ok r := by
  cases hr : analyze s with
  | error e => rw [hr] at h; cases h
  | ok r => exact ⟨r, rfl⟩

example : ∃ r, States (py"A Ptk. 5. §-a helyébe a következő rendelkezés lép, és a következő 6. §-sal egészül ki:")
    (.amendInsert (codeAct 2) ([⟨.article, [(py"5", 7, 9)], []⟩], 7, 13) ([⟨.article, [(py"6", 66, 68)], []⟩], 54, 74)) ∧
    analyze (py"A Ptk. 5. §-a helyébe a következő rendelkezés lép, és a következő 6. §-sal egészül ki:") = .ok r :=
  (analysed_of (by decide +kernel)).imp fun _ h => ⟨amendInsert_stated, h⟩

example : ∃ r, States (py"A Ptk. 5. § (3) bekezdésében az „x” szövegrész helyébe az „y” szöveg lép.")
    (.texts (codeAct 2) [([⟨.article, [(py"5", 7, 9)], []⟩, ⟨.paragraph, [(py"3", 12, 15)], []⟩], 7, 28)] [(py"x", py"y")]) ∧
    analyze (py"A Ptk. 5. § (3) bekezdésében az „x” szövegrész helyébe az „y” szöveg lép.") = .ok r :=
  (analysed_of (by decide +kernel)).imp fun _ h => ⟨texts_stated, h⟩

example : ∃ r, States (py"A Ptk. 5. § (2) bekezdése helyébe a következő rendelkezés lép, és a § a következő (3) bekezdéssel egészül ki:")
    (.amendInsert (codeAct 2) ([⟨.article, [(py"5", 7, 9)], []⟩, ⟨.paragraph, [(py"2", 12, 15)], []⟩], 7, 25)
      ([⟨.paragraph, [(py"3", 82, 85)], []⟩], 66, 97)) ∧
    analyze (py"A Ptk. 5. § (2) bekezdése helyébe a következő rendelkezés lép, és a § a következő (3) bekezdéssel egészül ki:") = .ok r :=
  (analysed_of (by decide +kernel)).imp fun _ h => ⟨addition_stated, h⟩

example : ∃ r, States (py"A Ptk. 5. §-a az „x „y” z” szövegrész helyébe az „y” szöveg lép.")
    (.texts (codeAct 2) [([⟨.article, [(py"5", 7, 9)], []⟩], 7, 13)] [(py"x „y” z", py"y")]) ∧
    analyze (py"A Ptk. 5. §-a az „x „y” z” szövegrész helyébe az „y” szöveg lép.") = .ok r :=
  (analysed_of (by decide +kernel)).imp fun _ h => ⟨nested_stated, h⟩

/-- C73. If each list in the sentence has one item, each reference names exactly what is written. -/
theorem change_pointed {s : Str} {c : Change} {r : Analysis} (h : States s c) (ho : ∀ x ∈ changeRefs c, ∀ p ∈ x.1, ∃ i, OnlyItem p i)
    (ha : analyze s = .ok r) : Reports PointedOnce c r := states_pointed h ho ha

example : ∃ r, States (py"A Ptk. 5. §-a a következő (3) bekezdéssel egészül ki:")
    (.insert (codeAct 2) ([⟨.article, [(py"5", 7, 9)], []⟩, ⟨.paragraph, [(py"3", 26, 29)], []⟩], 7, 41)) ∧
    (∀ x ∈ changeRefs (.insert (codeAct 2) ([⟨.article, [(py"5", 7, 9)], []⟩, ⟨.paragraph, [(py"3", 26, 29)], []⟩], 7, 41)), ∀ p ∈ x.1,
      ∃ i, OnlyItem p i) ∧ analyze (py"A Ptk. 5. §-a a következő (3) bekezdéssel egészül ki:") = .ok r := by
  refine (analysed_of (by decide +kernel)).imp fun _ h => ⟨insert_stated, ?_, h⟩
  intro x hx p hp
  simp only [changeRefs, List.mem_cons, List.not_mem_nil, or_false] at hx
  subst hx
  simp only [List.mem_cons, List.not_mem_nil, or_false] at hp
  rcases hp with rfl | rfl
  · exact ⟨.one (py"5"), .inl ⟨_, _, rfl, rfl, rfl⟩⟩
  · exact ⟨.one (py"3"), .inl ⟨_, _, rfl, rfl, rfl⟩⟩

/-- C73. Such a sentence is analysed unless it names a subpoint by two letters and after it one by the first of them, or says when something
comes into force and names a day that is not in the calendar, or both amends and inserts, and what is new does not come after what is
replaced. -/
theorem change_analysed {s : Str} {c : Change} (h : States s c) (hc : ¬ SubpointClash s) (hd : ∀ d, c = .inForce d → ¬ NoSuchDate s)
    (hn : ∀ a x y, c = .amendInsert a x y → ComesAfter x y) : ∃ r, analyze s = .ok r := states_total h hc hd hn

/-- A sentence without brackets and months names no subpoints and no days. -/
theorem no_clash_or_date {s : Str} (h : ')' ∉ s) (hm : ∀ m, Month m → ¬ m <:+: squeeze s) : ¬ SubpointClash s ∧ ¬ NoSuchDate s := by
  refine ⟨?_, ?_⟩
  · rintro ⟨c, d, i, j, k, l, -, -, -, e, -⟩
    have h1 : ')' ∈ told s i j := by rw [e]; simp
    exact h (List.mem_of_mem_drop (List.mem_of_mem_take (List.mem_filter.mp h1).1))
  · rintro ⟨d, w, ⟨-, hd, -, e, -, rfl⟩, h, -⟩
    refine hm d.month hd ?_
    obtain ⟨u, v, h⟩ := h
    exact ⟨u ++ d.year ++ (py"."), d.day ++ e ++ v, by rw [← h]; simp [List.append_assoc]⟩

theorem amendInsert_after : ComesAfter ([⟨.article, [(py"5", 7, 9)], []⟩], 7, 13) ([⟨.article, [(py"6", 66, 68)], []⟩], 54, 74) := by
  intro act y z c hy hz hc
  rw [completes_unique hc]
  have e1 : Listed (some act) ([⟨.article, [(py"5", 7, 9)], []⟩], 7, 13) [⟨7, 13, { act := some act, article := some (.one (py"5")) }⟩] := rfl
  have e2 : Listed (some act) ([⟨.article, [(py"6", 66, 68)], []⟩], 54, 74) [⟨54, 74, { act := some act, article := some (.one (py"6")) }⟩] := rfl
  unfold Listed at hy hz e1 e2
  rw [e1] at hy
  rw [e2] at hz
  cases hy
  cases hz
  refine ⟨?_, ?_, [some (.one act)], .one (py"5"), .one (py"6"), _, _, _, rfl, rfl, by simp, by simp, .inl rfl, .inl rfl, by decide⟩
  all_goals
    intro c hc x y h
    subst h
    revert hc
    simp [Reference.components, Reference.relativeTo]

example : States (py"A Ptk. 5. §-a helyébe a következő rendelkezés lép, és a következő 6. §-sal egészül ki:")
      (.amendInsert (codeAct 2) ([⟨.article, [(py"5", 7, 9)], []⟩], 7, 13) ([⟨.article, [(py"6", 66, 68)], []⟩], 54, 74)) ∧
    ¬ SubpointClash (py"A Ptk. 5. §-a helyébe a következő rendelkezés lép, és a következő 6. §-sal egészül ki:") ∧
    ¬ NoSuchDate (py"A Ptk. 5. §-a helyébe a következő rendelkezés lép, és a következő 6. §-sal egészül ki:") ∧
    ComesAfter ([⟨.article, [(py"5", 7, 9)], []⟩], 7, 13) ([⟨.article, [(py"6", 66, 68)], []⟩], 54, 74) := by
  obtain ⟨h1, h2⟩ := no_clash_or_date (s := py"A Ptk. 5. §-a helyébe a következő rendelkezés lép, és a következő 6. §-sal egészül ki:") (by decide)
    (by unfold Month; decide +kernel)
  exact ⟨amendInsert_stated, h1, h2, amendInsert_after⟩

/-- A day that is replaced need not be in the calendar. -/
theorem day_stated : States (py"A Ptk. 5. §-a a „2013. február 30-án” szövegrész helyébe az „y” szöveg lép.")
    (.texts (codeAct 2) [([⟨.article, [(py"5", 7, 9)], []⟩], 7, 13)] [(py"2013. február 30-án", py"y")]) :=
  .texts (o := py"A ") (p := py"Ptk.") (v := py"5. §-a") (b := py"a ") (q := py"„2013. február 30-án” szövegrész helyébe az „y” szöveg") (e := py" lép.")
    (by simp) (code_phrase 2 (by decide +kernel)) (.one (.one (code_article 7))) (by simp [Noun])
    (.one ⟨py"„2013. február 30-án”", py"szövegrész", py"helyébe", py"az ", py"„y”", rfl,
      ⟨py"2013. február 30-án", rfl, .plain (by decide), [], [], rfl, by simp, by simp, by rintro _ ⟨⟩; decide, by rintro _ ⟨⟩; decide⟩, by simp, by simp,
      by simp, quote_text (by decide) (by decide)⟩ (by simp [ReplacingWord])) (by simp)

example : ∃ r, analyze (py"A Ptk. 5. §-a a „2013. február 30-án” szövegrész helyébe az „y” szöveg lép.") = .ok r :=
  change_analysed day_stated (by
    rintro ⟨c, d, i, j, k, l, -, -, -, e, -⟩
    have h1 : ')' ∈ told (py"A Ptk. 5. §-a a „2013. február 30-án” szövegrész helyébe az „y” szöveg lép.") i j := by rw [e]; simp
    have h2 : ')' ∉ (py"A Ptk. 5. §-a a „2013. február 30-án” szövegrész helyébe az „y” szöveg lép.") := by decide
    exact h2 (List.mem_of_mem_drop (List.mem_of_mem_take (List.mem_filter.mp h1).1))) (by simp) (by simp)

end Verif.Props
