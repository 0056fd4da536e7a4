import Verif.Proofs.Layout
import Verif.Props.Printout

/-! # How the text of an act is laid out (C83) -/

namespace Verif.Props
open Spec

variable {s : Sources} {c : ExtractedClass}

/-- C83. The text of an act is its title, its preamble, and the boxes of its children with an empty line after each of them. In the box of an
element its number stands in a cell to the left of everything that is in it, and texts are broken into lines of the width that is left.
Wrapping is assumed to keep everything but spaces. -/
theorem text_laid_out {wrap : Wrap} (hw : KeepsText wrap) {a : Act} {width : Int} (h0 : width ≠ 0)
    (hb : ∀ n ∈ a.children, Built n) (hf : FilledAll a.children) (hn : ∀ n ∈ a.children, Named n)
    (hin : ∀ n ∈ a.children, Introduced n) (h : (writeTxt wrap (.act a) [] width).stop = none) :
    ∃ ps bs, wrap a.preamble width = .ok ps ∧ Both (Box wrap width) a.children bs ∧
      (writeTxt wrap (.act a) [] width).yields =
        ((py"==== " ++ a.identifier ++ py" - " ++ a.subject ++ py" =====\n") :: ps ++ bs.flatMap (· ++ [[]])).map fun l => ⟨.file, l⟩ :=
  act_lines hw h0 hb hf hn hin h

/-- C83. So it is for every act that is made, at each step, if texts are more than spaces. -/
theorem produced_laid_out {wrap : Wrap} (hw : KeepsText wrap) {r : LawRawText} {o : Extracted} {a : Act} (h : Produces s c r o)
    (ho : o = .structureOnly a ∨ o = .blockOnly a ∨ o = .act a) {width : Int} (h0 : width ≠ 0)
    (hf : FilledAll a.children) (hs : (writeTxt wrap (.act a) [] width).stop = none) :
    ∃ ps bs, wrap a.preamble width = .ok ps ∧ Both (Box wrap width) a.children bs ∧
      (writeTxt wrap (.act a) [] width).yields =
        ((py"==== " ++ r.identifier ++ py" - " ++ r.subject ++ py" =====\n") :: ps ++ bs.flatMap (· ++ [[]])).map fun l => ⟨.file, l⟩ := by
  obtain ⟨⟨h1, -, h2⟩, h3⟩ := produced_well_made h ho
  rw [← h1, ← h2]
  cases c with
  | raw => obtain rfl := h; simp at ho
  | structureOnly =>
    obtain ⟨body, a', -, hp, rfl⟩ := h
    simp only [Extracted.structureOnly.injEq, reduceCtorEq, or_false] at ho
    subst ho
    exact text_laid_out hw h0 (fun n hn => (h3 n hn).2.1) hf (fun n hn => (parseAct_named hp n hn).1)
      (fun n hn => (parseAct_named hp n hn).2) hs
  | blockOnly =>
    obtain ⟨body, a', b, -, hp, hb, rfl⟩ := h
    simp only [Extracted.blockOnly.injEq, reduceCtorEq, or_false, false_or] at ho
    subst ho
    have := amendments_named hb (parseAct_proper hp)
    exact text_laid_out hw h0 (fun n hn => (h3 n hn).2.1) hf (fun n hn => (this n hn).1) (fun n hn => (this n hn).2) hs
  | act =>
    obtain ⟨body, a', b, c', hx, hp, hb, hc, rfl⟩ := h
    simp only [Extracted.act.injEq, reduceCtorEq, false_or] at ho
    subst ho
    have := amendments_named hb (parseAct_proper hp)
    have h3' := (produced_well_made (s := s) (c := .blockOnly) (r := r) ⟨body, a', b, hx, hp, hb, rfl⟩ (.inr (.inl rfl))).2
    have e := semantics_keep_act hc
    have e1 : c'.identifier = b.identifier ∧ c'.subject = b.subject ∧ c'.preamble = b.preamble ∧ c'.children.map stripArticle = b.children.map stripArticle :=
      by
      injection e with e1 _ e3 e4 e5
      exact ⟨e1, e3, e4, e5⟩
    have e2 : writeTxt wrap (.act c') [] width = writeTxt wrap (.act b) [] width := by
      show writeAct wrap c' [] width = writeAct wrap b [] width
      rw [← writeAct_strip, e, writeAct_strip]
    rw [e2] at hs ⊢
    obtain ⟨ps, bs, g1, g2, g3⟩ := text_laid_out hw h0 (fun n hn => (h3' n hn).2.1) (by rw [← filled_stripAct, ← e, filled_stripAct]; exact hf)
      (fun n hn => (this n hn).1) (fun n hn => (this n hn).2) hs
    rw [e1.1, e1.2.1, e1.2.2.1]
    exact ⟨ps, bs, g1, both_stripArticle.1 (e1.2.2.2 ▸ both_stripArticle.2 g2), g3⟩
  | _ => cases h

/-- C83. No line of a box is longer than its width, quotations aside, if wrapping keeps to it. -/
theorem lines_fit {wrap : Wrap} (hw : KeepsWidth wrap) {n : Node} {width : Int} {ls : List Str} (hf : Filled n) (hq : Unquoted n)
    (h : Box wrap width n ls) : ∀ l ∈ ls, (l.length : Int) ≤ width := (box_fits hw n hf hq h).2

/-! ## A sample -/

/-- Every character on a line of its own. -/
def eachAlone : Wrap := fun s w => if 0 < w then .ok (s.map fun c => [c]) else .error .valueError

theorem eachAlone_keeps : KeepsText eachAlone ∧ KeepsWidth eachAlone := by
  have flat : ∀ s : Str, (s.map fun c => [c]).flatten = s := by
    intro s
    induction s with
    | nil => rfl
    | cons c s ih => simp [ih]
  constructor
  · intro s w ls h
    unfold eachAlone at h
    split at h
    · cases h; rw [flat]
    · cases h
  · intro s w ls h
    unfold eachAlone at h
    split at h
    · cases h
      refine ⟨by assumption, fun l hl => ?_⟩
      obtain ⟨c, -, rfl⟩ := List.mem_map.1 hl
      simp; omega
    · cases h

example : ∃ a, Produces printSources .act printRaw (.act a) ∧ ∃ ps bs, noWrap a.preamble 90 = .ok ps ∧ Both (Box noWrap 90) a.children bs ∧
    (writeTxt noWrap (.act a)).yields = ((py"==== 2020. évi I. törvény - Tárgy =====\n") :: ps ++ bs.flatMap (· ++ [[]])).map fun l => ⟨.file, l⟩ := by
  obtain ⟨b, a, -, -, h, -, -, hf, -, -, hs⟩ := print_produced
  exact ⟨a, h, produced_laid_out noWrap_keeps h (.inr (.inr rfl)) (by decide) hf hs⟩

example : (writeTxt noWrap (.act samplePage) [] 90).yields.map (·.text) =
    [py"==== 2020. évi I. törvény - samples =====\n", py"We say:", py"I. FEJEZET", py"General", [],
     py"1. §      (1)  see (2)", py"          (2)  in", py"               a)   first", py"               b)   second", py"                    ba)  x", [],
     py"1/A. §    (1)  new", py"               „", py"                    1. §           t", py"               ”", []] := by decide +kernel

example : KeepsWidth eachAlone ∧ Filled (.sae .paragraph { identifier := some (py"1"), text := some (py"ab") } []) ∧
    Unquoted (.sae .paragraph { identifier := some (py"1"), text := some (py"ab") } []) ∧
    Box eachAlone 6 (.sae .paragraph { identifier := some (py"1"), text := some (py"ab") } []) [py"(1)  a", py"     b"] := by
  refine ⟨eachAlone_keeps.2, ?_, ?_, .text (ls := [py"a", py"b"]) (by simp) rfl (by simp) rfl⟩
  · simp [Filled, FilledAll, NotBlank]
    decide
  · intro ls h
    cases h with
    | deeper hc => cases hc

/-- C83. Quotations are not broken, so their lines may be longer. -/
theorem quotations_not_broken : Box eachAlone 3 (.quoted [spread 0 (py"hosszú sor")]) [py"„", py"     hosszú sor", py"”"] :=
  .quoted (base := 0) (ls := [py"     hosszú sor"]) (by intro l hl _; cases List.mem_singleton.1 hl; decide +kernel)
    ⟨_, List.mem_singleton.2 rfl, rfl, by decide +kernel⟩ (.cons ⟨0, rfl, fun _ => by decide +kernel, fun _ => rfl⟩ .nil)

end Verif.Props
