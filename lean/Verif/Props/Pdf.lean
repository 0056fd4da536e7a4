import Verif.Proofs.Pdf

/-! # Text boxes (C46) -/

namespace Verif.Props
open Spec

/-- Boxes of two lines in the order of some file. -/
def sampleBoxes : List TextBox :=
  [⟨10, 100, 5, 2, py"B", true⟩, ⟨0, 100 + 1/10, 5, 2, py"A", false⟩, ⟨0, 60, 5, 2, py"C", false⟩, ⟨5, 60, 5, 2, py"D", false⟩]

/-- C46. The boxes of a page form lines from top to bottom, each box is in one of them, the text of a line is that of its boxes
from left to right at their positions with spaces at the gaps, and there is a blank line where the distance is great. -/
theorem boxes_kept_partial {boxes : List TextBox} (hn : boxes ≠ []) (hc : NoClash boxes) (ht : ∀ b ∈ boxes, b.content ≠ []) :
    ∃ rows lines, IsRows boxes rows ∧ extractSinglePage boxes = .ok (withBlanks lines) ∧
      lines.map (·.1) = rows.map (·.1) ∧ lines.map (fun l => place 0 l.2.parts) = rows.map (fun r => typeset r.2) := by
  obtain ⟨d, hd, hrows⟩ := sortTextboxes_rows hc
  obtain ⟨r, hr⟩ := rightmost_ok hn
  obtain ⟨lines, h1, h2, h3, -⟩ := rowLines_ok r (dictRows d) fun row hrow b hb => ht b ((hrows.all b).mpr ⟨row, hrow, hb⟩)
  refine ⟨dictRows d, lines, hrows, ?_, h2, h3⟩
  rw [extractSinglePage_eq hd hr, h1]
  rfl

/-- C46. A file is read page by page and in the order of its pages; if a page fails, all of it fails. -/
theorem pages_in_order : ∀ {pages : List (List TextBox)} {lines : List (List Line)}, extractLines pages = .ok lines ↔
    pages.length = lines.length ∧ ∀ x ∈ pages.zip lines, extractSinglePage x.1 = .ok x.2
  | [], lines => by
    rw [extractLines]
    cases lines <;> simp
  | page :: pages, lines => by
    rw [extractLines]
    constructor
    · intro h
      obtain ⟨l, h1, h⟩ := resBind_ok h
      obtain ⟨ls, h2, h⟩ := resBind_ok h
      cases h
      obtain ⟨h3, h4⟩ := pages_in_order.mp h2
      refine ⟨by simp [h3], ?_⟩
      intro x hx
      rw [List.zip_cons_cons, List.mem_cons] at hx
      rcases hx with rfl | hx
      · exact h1
      · exact h4 x hx
    · rintro ⟨hl, h⟩
      cases lines with
      | nil => cases hl
      | cons l ls =>
        have h1 := h (page, l) (by simp)
        have h2 := pages_in_order.mpr ⟨by simpa using hl, fun x hx => h x (by simp [hx])⟩
        simp only at h1
        rw [h1, h2]
        rfl

example : extractLines [sampleBoxes, [⟨0, 60, 5, 2, py"C", false⟩]] ≠ .error .valueError := by decide +kernel

/-- C46. In such lines no box is twice. -/
theorem boxes_in_one_line {boxes : List TextBox} {rows : List (Rat × List TextBox)} (h : IsRows boxes rows) :
    (rows.flatMap (·.2)).Nodup ∧ ∀ b, b ∈ rows.flatMap (·.2) ↔ b ∈ boxes := by
  refine ⟨?_, fun b => by rw [h.all, List.mem_flatMap]⟩
  rw [List.flatMap_def]
  refine List.pairwise_flatten.mpr ⟨?_, ?_⟩
  · intro l hl
    obtain ⟨r, hr, rfl⟩ := List.mem_map.mp hl
    refine List.Pairwise.imp ?_ (h.row r hr).sorted
    rintro a b hab rfl
    grind
  · rw [List.pairwise_map]
    refine List.Pairwise.imp_of_mem ?_ h.down
    intro r s hr hs hrs a ha b hb hab
    have h1 := (h.row r hr).band a ha
    have h2 := (h.row s hs).band b hb
    subst hab
    grind

/-- C46. The lines do not depend on the order of the boxes, nor on how often a box is drawn. -/
theorem boxes_order_partial {boxes boxes' : List TextBox} (hc : NoClash boxes) (h : ∀ b, b ∈ boxes ↔ b ∈ boxes') :
    extractSinglePage boxes = extractSinglePage boxes' := by
  have hc' : NoClash boxes' := fun a ha b hb => hc a ((h a).mpr ha) b ((h b).mpr hb)
  obtain ⟨d, hd, hrows⟩ := sortTextboxes_rows hc
  obtain ⟨d', hd', hrows'⟩ := sortTextboxes_rows hc'
  cases boxes with
  | nil =>
    cases boxes' with
    | nil => rfl
    | cons b _ => exact absurd ((h b).mpr List.mem_cons_self) (by simp)
  | cons b0 bs =>
    have hn' : boxes' ≠ [] := by
      rintro rfl
      exact absurd ((h b0).mp List.mem_cons_self) (by simp)
    obtain ⟨r, hr⟩ := rightmost_ok (boxes := b0 :: bs) (by simp)
    obtain ⟨r', hr'⟩ := rightmost_ok hn'
    obtain ⟨⟨a, ha, hra⟩, h1⟩ := rightmost_spec hr
    obtain ⟨⟨a', ha', hra'⟩, h1'⟩ := rightmost_spec hr'
    have hrr : r = r' := by
      have k1 := h1' a ((h a).mp ha)
      have k2 := h1 a' ((h a').mpr ha')
      grind
    rw [extractSinglePage_eq hd hr, extractSinglePage_eq hd' hr', rows_unique h hrows hrows', hrr]

/-- C46. If every box has one character, every line ends with a part of one character: such lines can be cut anywhere. -/
theorem lines_end_fine {boxes : List TextBox} (hc : NoClash boxes) (ht : ∀ b ∈ boxes, b.content.length = 1) {lines : List Line}
    (h : extractSinglePage boxes = .ok lines) : ∀ l ∈ lines, FineEnd l := by
  obtain ⟨d, hd, hrows⟩ := sortTextboxes_rows hc
  have hn : boxes ≠ [] := by
    rintro rfl
    cases h
  obtain ⟨r, hr⟩ := rightmost_ok hn
  have hmem : ∀ row ∈ dictRows d, ∀ b ∈ row.2, b ∈ boxes := fun row hrow b hb => (hrows.all b).mpr ⟨row, hrow, hb⟩
  obtain ⟨rl, h1, -, -, h4⟩ := rowLines_ok r (dictRows d) fun row hrow b hb he => by
    have := ht b (hmem row hrow b hb)
    rw [he] at this
    cases this
  rw [extractSinglePage_eq hd hr, h1] at h
  injection h with h
  subst h
  have : ∀ (rl : List (Rat × Line)) (l : Line), l ∈ withBlanks rl → l = emptyLine ∨ ∃ a ∈ rl, l = a.2 := by
    intro rl
    induction rl with
    | nil => intro l hl; cases hl
    | cons a rest ih =>
      intro l hl
      cases rest with
      | nil => exact .inr ⟨a, List.mem_cons_self, by simpa [withBlanks] using hl⟩
      | cons b rest =>
        rw [withBlanks, List.cons_append] at hl
        rcases List.mem_cons.mp hl with rfl | hl
        · exact .inr ⟨a, List.mem_cons_self, rfl⟩
        · rcases List.mem_append.mp hl with hl | hl
          · left
            by_cases hg : a.1 ≠ 0 ∧ a.1 - b.1 > 18
            · rw [if_pos hg] at hl
              exact List.mem_singleton.mp hl
            · rw [if_neg hg] at hl
              cases hl
          · rcases ih l hl with h | ⟨x, hx, h⟩
            · exact .inl h
            · exact .inr ⟨x, List.mem_cons_of_mem _ hx, h⟩
  intro l hl p hp
  rcases this rl l hl with rfl | ⟨a, ha, rfl⟩
  · cases hp
  · obtain ⟨row, hrow, b, hb, hpb⟩ := h4 a ha p hp
    rw [hpb]
    exact ht b (hmem row hrow b hb)

/-- C46. Boxes with different texts at exactly the same place make the page fail. -/
theorem same_place_fails {boxes : List TextBox} {a b : TextBox} (ha : a ∈ boxes) (hb : b ∈ boxes) (hx : a.x = b.x) (hy : a.y = b.y)
    (hab : a.content ≠ b.content) : extractSinglePage boxes = .error .valueError := by
  have : insertBoxes [] boxes = .error .valueError := by
    cases h : insertBoxes [] boxes with
    | error e => rw [insertBoxes_error boxes h]
    | ok d =>
      have hi := insertBoxes_inserted boxes inserted_nil h
      obtain ⟨a', h1, h2⟩ := hi.same a ha
      obtain ⟨b', h3, h4⟩ := hi.same b hb
      rw [hx, hy, h3] at h1
      injection h1 with h1
      rw [← h1, h4] at h2
      exact absurd h2.symm hab
  unfold extractSinglePage sortTextboxesIntoDicts
  rw [this]
  rfl

/-- C46. A page without boxes makes the file fail. -/
theorem empty_page_fails : extractSinglePage [] = .error .valueError := by rfl

/-- C46. A box is lost if a box less than 0.2 higher is at the same horizontal position. -/
theorem merged_box_lost : extractSinglePage [⟨0, 100, 5, 2, py"A", false⟩, ⟨0, 100 + 1/10, 5, 2, py"B", false⟩] =
    .ok [⟨[⟨0, py"B", false⟩], 10⟩] := by decide +kernel

/-- C46. Of boxes with the same text at the same place only the first is kept, so the result depends on the order. -/
theorem first_box_kept :
    extractSinglePage [⟨0, 100, 5, 2, py"A", false⟩, ⟨0, 100, 5, 2, py"A", true⟩] = .ok [⟨[⟨0, py"A", false⟩], 10⟩] ∧
    extractSinglePage [⟨0, 100, 5, 2, py"A", true⟩, ⟨0, 100, 5, 2, py"A", false⟩] = .ok [⟨[⟨0, py"A", true⟩], 10⟩] := by
  decide +kernel

example : NoClash sampleBoxes ∧ (∀ b ∈ sampleBoxes, b.content.length = 1) ∧
    extractSinglePage sampleBoxes = .ok [⟨[⟨0, py"A", false⟩, ⟨6, py" ", false⟩, ⟨4, py"B", true⟩], 10⟩, emptyLine,
      ⟨[⟨0, py"C", false⟩, ⟨5, py"D", false⟩], 15⟩] := by
  refine ⟨?_, by decide +kernel, by decide +kernel⟩
  unfold NoClash
  decide +kernel

end Verif.Props
