import Verif.Proofs.Wording
import Verif.Props.Grammar

/-! # What the grammar recognises (C69, C34) -/

namespace Verif.Props

open Verif.Spec

set_option maxRecDepth 100000

/-- The analyser of the program, with the parser that is made from the grammar. -/
abbrev analyze : Analyzer := grammaticalAnalyzer ActGrammar.parse

/-! ## C69: what is reported is written in the sentence -/

/-- C69. Every reference that is reported has a place in the sentence, and all it names is written in the sentence: the act by its number
or its abbreviation, and every other component as the grammar writes such a thing. A range is written with a dash, or its two ends are
items of a list that are numbered one after the other. -/
theorem references_written {s : Str} {r : Analysis} (h : analyze s = .ok r) : ∀ x ∈ r.references,
    0 ≤ x.startPos ∧ x.startPos < x.endPos ∧ x.endPos ≤ s.length ∧ ReferenceWritten s x.reference := by
  intro x hx
  obtain ⟨h1, h2, h3⟩ := analyzed_in_sentence (fun t ht => parse_placed ht) h x hx
  refine ⟨h1, h2, h3, ?_⟩
  obtain ⟨t, ts, ht, hb, hr, -, -⟩ := analyzer_ok h
  rw [hr] at hx
  obtain ⟨told, htold, hx⟩ := List.mem_flatMap.mp hx
  obtain ⟨n, hn, h⟩ := hb.mem_right htold
  exact told_written (ActGrammar.parse_written ht n hn) h x hx

/-- C69. Whatever a sentence is reported to say, it is a sentence that says such a thing: amendments, insertions and repeals have the words
for that at their beginnings and ends, texts are what is quoted, and the time of coming into force is the one written at the end. -/
theorem semantic_data_written {s : Str} {r : Analysis} (h : analyze s = .ok r) : ∀ d ∈ r.semantic, DataWritten s d := by
  intro d hd
  obtain ⟨t, ts, ht, hb, -, -, hr⟩ := analyzer_ok h
  rw [hr] at hd
  obtain ⟨told, htold, hd⟩ := List.mem_flatMap.mp hd
  obtain ⟨n, hn, h⟩ := hb.mem_right htold
  exact data_written (ActGrammar.parse_written ht n hn) h d hd

/-- C69. Every abbreviation that is reported is defined in the sentence with these letters, right after the number of its act. -/
theorem abbreviations_defined {s : Str} {r : Analysis} (h : analyze s = .ok r) : ∀ a ∈ r.abbreviations, AbbreviationWritten s a := by
  intro a ha
  obtain ⟨t, ts, ht, hb, -, hr, -⟩ := analyzer_ok h
  rw [hr] at ha
  obtain ⟨told, htold, ha⟩ := List.mem_flatMap.mp ha
  obtain ⟨n, hn, h⟩ := hb.mem_right htold
  exact abbreviations_written (ActGrammar.parse_written ht n hn) h a ha

example : (analyze (py"Az építésről szóló 2013. évi V. törvény (a továbbiakban: Ptk.) 5/A. § (2)–(4) bekezdése szerint.")).toOption =
    some ⟨[⟨19, 39, { act := some (py"2013. évi V. törvény") }⟩,
        ⟨63, 87, ⟨some (py"2013. évi V. törvény"), some (.one (py"5/A")), some (.range (py"2") (py"4")), none, none⟩⟩],
      [], [⟨py"Ptk.", py"2013. évi V. törvény"⟩]⟩ := by decide +kernel

example : (analyze (py"Hatályát veszti a Tv. 3. § (1) bekezdésében a „régi” szövegrész.")).toOption =
    some ⟨[⟨18, 21, { act := some (py"Tv.") }⟩, ⟨22, 43, ⟨some (py"Tv."), some (.one (py"3")), some (.one (py"1")), none, none⟩⟩],
      [.repeal (.ref ⟨some (py"Tv."), some (.one (py"3")), some (.one (py"1")), none, none⟩) (some (py"régi"))], []⟩ := by decide +kernel

example : (analyze (py"Ez a törvény a kihirdetését követő hónap ötödik napján lép hatályba.")).toOption =
    some { references := [], semantic := [.enforcementDate none (.dayInMonth 5 1) none], abbreviations := [] } := by decide +kernel

/-- C34. With the parser of the program, every recorded reference is a non-empty interval in the own text or intro of its element, in the
order of position. What is missing: if the element should end its sentence and has no such mark, the reference may be one character
longer. -/
theorem program_references_in_text_partial {a a' : Act} (hb : ∀ c ∈ a.children, Built c)
    (ho : ∀ e ∈ actElements a, e.data.semantic ≠ none → InText e) (h : addSemantics analyze a = .ok a') : ∀ e ∈ actElements a', InText e :=
  analyzed_references_in_text_partial hb (fun _ _ ht => parse_placed ht) ho h

/-! ## Sentences that go wrong -/

/-- C37. The references of a sentence may overlap: in "Az 1., 1/A–1/C. és 2. § szerint." the range from 1 to 2 is reported around that of
1/A to 1/C. -/
theorem sentence_references_overlap : (analyze (py"Az 1., 1/A–1/C. és 2. § szerint.")).toOption =
    some { references := [⟨3, 21, { article := some (.range (py"1") (py"2")) }⟩,
      ⟨7, 23, { article := some (.range (py"1/A") (py"1/C")) }⟩] } := by decide +kernel

/-- C58. There is a sentence for each of the ways a list of amended things goes wrong: two articles that are amended are forgotten, with
their subtitle the sentence is not analysed at all, and neither is one that inserts before what it amends. -/
theorem sentence_amendments_fail :
    ((analyze (py"A Tv. 3. és 5. §-a helyébe a következő rendelkezések lépnek:")).toOption.map fun r => (r.references, r.semantic)) =
      some ([⟨2, 5, { act := some (py"Tv.") }⟩], []) ∧
    analyze (py"A Tv. 3. és 5. §-a és az azt megelőző alcím helyébe a következő rendelkezés és alcím lép:") =
      .error .grammaticalParsing ∧
    analyze (py"A Tv. 3. § (9) bekezdése helyébe a következő rendelkezés lép, és a következő (4) bekezdéssel egészül ki:") =
      .error .grammaticalParsing := by
  have h : ∀ {s : Str}, (analyze s).toOption = none → analyze s = .error .grammaticalParsing := by
    intro s h
    unfold analyze grammaticalAnalyzer at h ⊢
    cases hp : ActGrammar.parse s with
    | none => rfl
    | some t =>
      rw [hp] at h
      cases hc : convertTree t with
      | error e => simp only [hc]
      | ok r =>
        simp only [hc] at h
        cases h
  exact ⟨by decide +kernel, h (by decide +kernel), h (by decide +kernel)⟩

end Verif.Props
