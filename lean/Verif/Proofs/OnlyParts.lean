import Verif.Proofs.Showable
import Verif.Proofs.DataTells
import Verif.Spec.Pipeline

/-! # Only parts have special titles -/

namespace Verif

open Spec

theorem onlyParts_of {n : Node} (h : ∀ e, n = .structural e → e.special = true → e.kind = .part)
    (hc : ∀ c ∈ n.children, OnlyParts c) : OnlyParts n := by
  intro e hm
  generalize he : Node.structural e = m at hm
  cases hm with
  | self => exact h e he.symm
  | deeper hd hm => exact hc _ hd e (he ▸ hm)

theorem closed_onlyParts : Closed OnlyParts where
  sae := by
    intro k i t intro w children n h _ hm
    obtain ⟨rfl, -⟩ := mkSae_ok hm
    refine onlyParts_of nofun ?_
    cases children with
    | none => exact nofun
    | some cs => exact h cs rfl
  article := by
    intro i t cs n h _ hm
    obtain rfl := mkArticle_ok hm
    exact onlyParts_of nofun h
  quoted _ := onlyParts_of nofun nofun
  structural _ _ h := onlyParts_of (fun _ e => by cases e; exact h) nofun

theorem blockArticle_onlyParts {analyze : Analyzer} {n m : Node} (hn : OnlyParts n) (h : blockArticle analyze n = .ok m) :
    OnlyParts m := by
  cases n with
  | article i t ps =>
    rw [blockArticle] at h
    obtain ⟨ps', hp, h⟩ := resBind_ok h
    rw [mkArticle_ok h]
    refine onlyParts_of nofun (mapRes_has hp fun p hp p' hp' => ?_)
    have hpn : OnlyParts p := onlyParts_child hn hp
    rcases blockParagraph_cases hp' with rfl | ⟨k, d, lines, b, position, intro, w, intro', rfl, hb, hm⟩
    · exact hpn
    · rw [(mkSae_ok hm).1]
      refine onlyParts_of nofun ?_
      intro c hc
      obtain rfl := List.mem_singleton.1 hc
      exact parseBlockAmendment_has closed_onlyParts hb
  | _ => cases h; exact hn

theorem parseBlockAmendments_onlyParts {analyze : Analyzer} {a b : Act} (h : parseBlockAmendments analyze a = .ok b)
    (hf : ∀ c ∈ a.children, OnlyParts c) : ∀ c ∈ b.children, OnlyParts c := by
  unfold parseBlockAmendments at h
  obtain ⟨cs, hc, h⟩ := resBind_ok h
  cases h
  exact mapRes_has hc fun c hm c' hc' => blockArticle_onlyParts (hf c hm) hc'

theorem addSemantics_onlyParts {analyze : Analyzer} {a a' : Act} (h : addSemantics analyze a = .ok a')
    (hf : ∀ c ∈ a.children, OnlyParts c) : ∀ c ∈ a'.children, OnlyParts c := by
  intro c hc e hm
  obtain ⟨n, hn, hi⟩ := addSemantics_untouched h ⟨rfl, by intros; contradiction⟩ hc hm
  exact hf n hn _ hi

/-- What the program makes has special titles only on parts. -/
theorem produced_onlyParts {s : Sources} {c : ExtractedClass} {r : LawRawText} {o : Extracted} {a : Act} (h : Produces s c r o)
    (ho : o = .structureOnly a ∨ o = .blockOnly a ∨ o = .act a) : ∀ n ∈ a.children, OnlyParts n := by
  cases c with
  | raw => obtain rfl := h; simp at ho
  | structureOnly =>
    obtain ⟨body, a', h1, h2, rfl⟩ := h
    simp only [Extracted.structureOnly.injEq, reduceCtorEq, or_false] at ho
    exact ho ▸ fun n hn => (parseAct_has closed_onlyParts h2 n hn).1
  | blockOnly =>
    obtain ⟨body, a', b, h1, h2, h3, rfl⟩ := h
    simp only [Extracted.blockOnly.injEq, reduceCtorEq, or_false, false_or] at ho
    exact ho ▸ parseBlockAmendments_onlyParts h3 fun n hn => (parseAct_has closed_onlyParts h2 n hn).1
  | act =>
    obtain ⟨body, a', b, c', h1, h2, h3, h4, rfl⟩ := h
    simp only [Extracted.act.injEq, reduceCtorEq, false_or] at ho
    exact ho ▸ addSemantics_onlyParts h4 (parseBlockAmendments_onlyParts h3 fun n hn => (parseAct_has closed_onlyParts h2 n hn).1)
  | _ => cases h

end Verif
