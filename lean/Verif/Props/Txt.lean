import Verif.Proofs.Txt
import Verif.Props.Html

/-! # Text output (C50, C54) -/

namespace Verif.Props

/-- C50. Everything goes to the given file, whatever is written, if the width is not 0; the width that is used if none is given is
90. `wrap` is any function in the place of `textwrap.wrap`. -/
theorem txt_to_file_partial (wrap : Wrap) (o : TxtObject) (indent : Str) {width : Int} (hw : width ≠ 0) :
    (∀ p ∈ (writeTxt wrap o indent width).yields, p.dest = .file) ∧ ∀ p ∈ (writeTxt wrap o).yields, p.dest = .file :=
  ⟨toFile_txt wrap o indent hw, toFile_txt wrap o [] (by decide)⟩

/-- C50. The property fails for every act if the width is 0: the preamble goes to the standard output. -/
theorem width_zero_to_stdout (wrap : Wrap) (a : Act) (indent : Str) :
    ⟨.stdout, a.preamble⟩ ∈ (writeTxt wrap (.act a) indent 0).yields := by
  have h : wrappedPrint wrap a.preamble [] 0 (some .file) = printTo .stdout a.preamble := rfl
  simp only [writeTxt, writeAct]
  rw [h]
  generalize writeActChildren wrap 0 indent a.children = g
  simp [printTo, Gen.andThen]

/-- C54. The text of an act shows all its texts in their order, whatever the width, if texts are more than spaces. Wrapping is
assumed to keep everything but spaces. -/
theorem txt_shows_texts {wrap : Wrap} (hw : Spec.KeepsText wrap) {a : Act} {indent : Str} {width : Int}
    (hb : ∀ c ∈ a.children, Spec.Built c) (hf : Spec.FilledAll a.children)
    (h : (writeTxt wrap (.act a) indent width).stop = none) :
    Spec.Shows ((Spec.actTexts a).map Spec.noSpaces) (Spec.printedText (writeTxt wrap (.act a) indent width).yields) :=
  act_shows hw hb hf h

/-- Wrapping that does not wrap. -/
def noWrap : Wrap := fun s _ => .ok (if s.all isSpace then [] else [s])

/-- It is one that keeps the text. -/
theorem noWrap_keeps : Spec.KeepsText noWrap := by
  intro s w ls h
  unfold noWrap at h
  split at h
  · rename_i hs
    cases h
    exact (noSpaces_blank (t := some s) hs).symm
  · cases h
    simp

/-- C54. The condition is needed: the number of an element is lost if its text consists of spaces. -/
theorem blank_text_loses_number : (writeTxt noWrap (.node (.sae .paragraph { identifier := some (py"2"), text := some (py" ") } []))) =
    { yields := [], stop := none } := rfl

/-- C54. The lines of an amendment directly below a number all begin with the number. -/
theorem number_repeated : (writeTxt noWrap (.node (.sae .paragraph { identifier := some (py"2") }
    [.sae .blockAmendmentContainer {} [.article (py"1") none [.sae .paragraph { text := some (py"t") } []]]]))).yields.map (·.text) =
    [py"(2)  „", py"(2)       1. §           t", py"(2)  ”"] := by decide +kernel

example : (∀ c ∈ samplePage.children, Spec.Built c) ∧ Spec.FilledAll samplePage.children ∧
    (writeTxt noWrap (.act samplePage)).stop = none ∧
    (writeTxt noWrap (.act samplePage)).yields.length = 16 := by
  refine ⟨built_of_testL (by decide +kernel), ?_, by decide +kernel, by decide +kernel⟩
  simp [Spec.FilledAll, Spec.Filled, samplePage, samplePoints, Spec.NotBlank]
  decide

end Verif.Props
