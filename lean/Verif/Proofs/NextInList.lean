import Verif.Proofs.Headings
import Verif.Spec.Wording

/-! # Items of lists that follow each other -/

namespace Verif

open Spec

theorem listedArticle_id {s : Str} (h : ArticleNumber s) : IsArticleId s := by
  obtain ⟨b, n, l, rfl, hb, hn, hl⟩ := h
  have tail : IsArticleTail (n ++ l) := by
    rcases hl with rfl | ⟨c, hc, rfl⟩
    · exact .inl (by rw [List.append_nil]; exact hn)
    · exact .inr ⟨n, c, hn, hc, rfl⟩
  rcases hb with rfl | ⟨d, hd, rfl⟩
  · exact .inl (by simpa using tail)
  · exact .inr ⟨d, n ++ l, hd, tail, by simp⟩

/-- The identifiers that the code merges are those that follow each other. -/
theorem isNext_iff {k : PartKind} {x y : Str} (hx : Identifies k x) (hy : Identifies k y) :
    k.isNext x y = .ok true ↔ NextInList k x y := by
  cases k with
  | article => exact article_after_iff (listedArticle_id hx) (listedArticle_id hy)
  | paragraph =>
    have shape : ∀ {s}, Identifies .paragraph s → IsNumericPointId s := by
      rintro s ⟨n, l, rfl, hn, rfl | ⟨c, hc, rfl⟩⟩
      · exact .inl (.inl (by rw [List.append_nil]; exact hn))
      · exact .inl (.inr ⟨n, c, hn, hc, rfl⟩)
    exact numeric_after_iff (shape hx) (shape hy)
  | numericPoint =>
    have shape : ∀ {s}, Identifies .numericPoint s → IsNumericPointId s := by
      rintro s ⟨n, l, rfl, hn, rfl | ⟨c, hc, rfl | rfl⟩⟩
      · exact .inl (.inl (by rw [List.append_nil]; exact hn))
      · exact .inl (.inr ⟨n, c, hn, hc, rfl⟩)
      · exact .inr ⟨n, c, hn, hc, rfl⟩
    exact numeric_after_iff (shape hx) (shape hy)
  | alphabeticPoint =>
    have shape : ∀ {s}, Identifies .alphabeticPoint s → Letters s := by
      rintro s (rfl | rfl | ⟨c, hc, rfl⟩)
      · unfold Letters; decide
      · unfold Letters; decide
      · exact fun x hx => List.mem_singleton.1 hx ▸ hc
    refine Iff.trans ?_ (letter_after_iff (shape hx) (shape hy))
    simp [PartKind.isNext, SaeKind.isNextIdentifier]
  | numericSubpoint => simp [PartKind.isNext, NextInList]
  | alphabeticSubpoint =>
    have one : ∀ {c : Char}, isLowerAz c = true → Letters [c] := fun hc x hx => List.mem_singleton.1 hx ▸ hc
    have letters : Letters y := by
      rcases hy with ⟨c, hc, rfl⟩ | ⟨c, d, hc, hd, rfl⟩
      · exact one hc
      · intro z hz
        rcases List.mem_cons.1 hz with rfl | hz
        · exact hc
        · exact one hd z hz
    show alphabeticSubpointIsNext x y = .ok true ↔ ∃ p c z, x = p ++ [c] ∧ y = p ++ z ∧ LetterAfter [c] z
    rcases hx with ⟨c, hc, rfl⟩ | ⟨c, d, hc, hd, rfl⟩
    · have : alphabeticSubpointIsNext [c] y = .ok true ↔ isNextLetterHun [c] y = true := by simp [alphabeticSubpointIsNext]
      rw [this, letter_after_iff (one hc) letters]
      constructor
      · exact fun h => ⟨[], c, y, rfl, rfl, h⟩
      · rintro ⟨p, e, z, h1, rfl, h⟩
        cases p with
        | nil => cases h1; exact h
        | cons a p => cases p <;> cases h1
    · constructor
      · intro h
        rcases hy with ⟨e, he, rfl⟩ | ⟨e, f, he, hf, rfl⟩
        · simp only [alphabeticSubpointIsNext] at h
          split at h <;> cases h
        · simp only [alphabeticSubpointIsNext] at h
          by_cases hce : c = e
          · subst hce
            rw [if_pos rfl] at h
            exact ⟨[c], d, [f], rfl, rfl, (letter_after_iff (one hd) (one hf)).1 (by simpa using h)⟩
          · rw [if_neg hce] at h; cases h
      · rintro ⟨p, e, z, h1, h2, h⟩
        obtain ⟨rfl, rfl⟩ : p = [c] ∧ e = d := by
          match p, h1 with
          | [a], h1 => simp at h1; exact ⟨by rw [h1.1], h1.2.symm⟩
          | a :: b :: p, h1 => cases p <;> simp at h1
        subst h2
        rcases hy with ⟨f, hf, h3⟩ | ⟨f, g, hf, hg, h3⟩
        · simp only [List.cons_append, List.nil_append, List.cons.injEq] at h3
          rw [h3.2] at h
          exact absurd (after_letter h) (by simp [isNextLetterHun, specialNextLetterPairs])
        · simp only [List.cons_append, List.nil_append, List.cons.injEq] at h3
          rw [h3.2] at h ⊢
          simp [alphabeticSubpointIsNext, after_letter h]

end Verif
