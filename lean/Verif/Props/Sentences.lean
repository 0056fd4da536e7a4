import Verif.Proofs.Sentences
import Verif.Props.Wording

/-! # Which sentences are analysed (C70) -/

namespace Verif.Props

open Verif.Spec

set_option maxRecDepth 100000

theorem failed {s : Str} (h : (analyze s).toOption = none) : analyze s = .error .grammaticalParsing := by
  unfold analyze grammaticalAnalyzer at h ⊢
  cases hp : ActGrammar.parse s with
  | none => rfl
  | some t =>
    rw [hp] at h
    cases hc : convertTree t with
    | error e => simp only [hc]
    | ok r =>
      simp only [hc] at h
      cases h

/-- C70. Every sentence that is not blank is analysed, unless it names a subpoint by two letters and after it one by the first of these
letters alone, or a day that is not in the calendar, or amends or inserts something other than a part of the structure by a block of text. -/
theorem sentences_analysed {s : Str} (hb : ¬ Blank s) (hc : ¬ SubpointClash s) (hd : ¬ NoSuchDate s)
    (he : ¬ EndsIn s (amendmentEnds ++ subtitleEnds ++ insertionEnds)) : ∃ r, analyze s = .ok r := analysis_total hb hc hd he

example : ¬ Blank (py"Az 1., 1/A–1/C. és 2. § szerint.") ∧ ¬ SubpointClash (py"Az 1., 1/A–1/C. és 2. § szerint.") ∧
    ¬ NoSuchDate (py"Az 1., 1/A–1/C. és 2. § szerint.") ∧
    ¬ EndsIn (py"Az 1., 1/A–1/C. és 2. § szerint.") (amendmentEnds ++ subtitleEnds ++ insertionEnds) := by
  refine ⟨?_, ?_, ?_, ?_⟩
  · unfold Blank
    decide
  · rintro ⟨c, d, i, j, k, l, -, -, -, h, -⟩
    have h1 : ')' ∈ told (py"Az 1., 1/A–1/C. és 2. § szerint.") i j := by rw [h]; simp
    have h2 := List.mem_of_mem_drop (List.mem_of_mem_take (List.mem_filter.mp h1).1)
    revert h2
    decide
  · rintro ⟨d, w, ⟨-, hm, -, e, -, rfl⟩, h, -⟩
    have h1 : d.month <:+: squeeze (py"Az 1., 1/A–1/C. és 2. § szerint.") := by
      obtain ⟨u, v, h⟩ := h
      exact ⟨u ++ d.year ++ (py"."), d.day ++ e ++ v, by rw [← h]; simp [List.append_assoc]⟩
    have h2 : ∀ m ∈ [py"január", py"február", py"március", py"április", py"május", py"június", py"július", py"augusztus", py"szeptember",
        py"október", py"november", py"december"], ¬ m <:+: squeeze (py"Az 1., 1/A–1/C. és 2. § szerint.") := by decide +kernel
    exact h2 _ hm h1
  · unfold EndsIn
    decide +kernel

/-- C70. Blank text is not analysed. -/
theorem blank_not_analysed {s : Str} (h : Blank s) : analyze s = .error .grammaticalParsing := by
  unfold analyze grammaticalAnalyzer
  rw [ActGrammar.parse_blank h]

example : Blank (py" \t ") := by unfold Blank; decide

/-- C70. The other sentences that are left out do fail: `a)` after `aa)` raises an exception, and so does a day that is not there. Without
the one or the other the same sentences are analysed. -/
theorem sentences_not_analysed :
    analyze (py"Az a) pont aa) és a) alpontja szerint.") = .error .grammaticalParsing ∧
      SubpointClash (py"Az a) pont aa) és a) alpontja szerint.") ∧
      (analyze (py"Az a) pont a) és aa) alpontja szerint.")).toOption.isSome = true ∧
    analyze (py"Ez a törvény 2013. február 30-án lép hatályba.") = .error .grammaticalParsing ∧
      NoSuchDate (py"Ez a törvény 2013. február 30-án lép hatályba.") ∧
      (analyze (py"Ez a törvény 2013. február 28-án lép hatályba.")).toOption.isSome = true := by
  refine ⟨failed (by decide +kernel), ⟨'a', 'a', 11, 14, 18, 20, by decide, by decide, by decide, by decide, by decide⟩, by decide +kernel,
    failed (by decide +kernel), ⟨⟨py"2013", py"február", py"30"⟩, py"2013.február30-án", ?_, by decide +kernel, ?_⟩, by decide +kernel⟩
  · refine ⟨⟨by decide, by decide⟩, ?_, ⟨by decide, by decide⟩, py"-án", by decide, by decide⟩
    unfold Month
    decide
  · rintro ⟨y, m, d⟩ ⟨h1, h2, h3, h4⟩
    have e1 : (pyInt (py"2013")).toOption = some 2013 := by decide +kernel
    have e2 : (textToMonthHun (py"február")).toOption = some 2 := by decide +kernel
    have e3 : (pyInt (py"30")).toOption = some 30 := by decide +kernel
    simp only at h1 h2 h3 h4
    rw [h1] at e1
    rw [month_named.mpr h2] at e2
    rw [h3] at e3
    simp only [Except.toOption, Option.some.injEq] at e1 e2 e3
    subst e1 e2 e3
    revert h4
    decide +kernel

end Verif.Props
