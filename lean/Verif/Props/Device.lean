import Verif.Proofs.Device
import Verif.Props.Pdf

/-! # Drawn characters (C91) and right margins (C92) -/

namespace Verif.Props
open Spec

/-- C91. A file is read exactly if no character stops it. Then each page consists of the visible characters drawn after its beginning
and before the next page, one box for each and in the order of drawing; what is drawn before the first page is left out. -/
theorem pages_drawn {u : CharData} {events : List DrawEvent} {pages : List (List TextBox)} :
    extractTextboxes u events = .ok pages ↔
      ∃ first boxes drawn, events = first ++ drawn.flatMap (.beginPage :: ·) ∧ DrawsPage u first boxes ∧
        Both (DrawsPage u) drawn pages := by
  have hback : ∀ {first boxes drawn pages}, DrawsPage u first boxes → Both (DrawsPage u) drawn pages →
      extractTextboxes u (first ++ drawn.flatMap (.beginPage :: ·)) = .ok pages := by
    intro first boxes drawn pages hf hp
    unfold extractTextboxes
    rw [run_page hf]
    obtain ⟨d', h1, h2⟩ := run_pages (d := Device.add {} boxes) hp
    rw [h1]
    show Except.ok _ = Except.ok _
    rw [h2]
    simp [Device.add, Device.pages]
  constructor
  · intro h
    have h' := h
    unfold extractTextboxes at h
    obtain ⟨d, h1, -⟩ := resBind_ok h
    obtain ⟨first, boxes, drawn, pages', rfl, hf, hp⟩ := run_ok h1
    have := (hback hf hp).symm.trans h'
    cases this
    exact ⟨first, boxes, drawn, rfl, hf, hp⟩
  · rintro ⟨first, boxes, drawn, rfl, hf, hp⟩
    exact hback hf hp

/-- C91. What an event draws, and so the pages of a file, is determined by it. -/
theorem drawn_once {u : CharData} {e : DrawEvent} {xs ys : List TextBox} (hx : Draws u e xs) (hy : Draws u e ys) : xs = ys :=
  draws_unique hx hy

/-- C91. A file fails exactly at the first character with a negative code or an empty text, with `ValueError` or `IndexError`. -/
theorem drawing_stops {u : CharData} {events : List DrawEvent} {err : Err} :
    extractTextboxes u events = .error err ↔
      ∃ before e after, events = before ++ e :: after ∧ StopsWith u e err ∧ ∀ x ∈ before, ∀ err', ¬ StopsWith u x err' := by
  rw [← run_error (d := {})]
  unfold extractTextboxes
  cases Device.run u {} events with
  | error e => constructor <;> intro h <;> cases h <;> rfl
  | ok d => constructor <;> intro h <;> cases h

/-- C91. pdfminer is told the width of every character, visible or not. -/
theorem width_returned {u : CharData} {d d' : Device} {matrix : Matrix} {font : Font} {fontsize scaling rise w : Rat} {cid : Int}
    (h : d.renderChar u matrix font fontsize scaling rise cid = .ok (d', w)) : w = font.charWidth cid * fontsize * scaling := by
  rcases renderChar_spec u d matrix font fontsize scaling rise cid with ⟨-, hr⟩ | ⟨-, -, hr⟩ | ⟨boxes, -, hr⟩ <;> rw [hr] at h <;>
    cases h
  rfl

theorem draws_visible {u : CharData} {e : DrawEvent} {boxes : List TextBox} (h : Draws u e boxes) :
    ∀ b ∈ boxes, b.content ≠ [] ∧ Visible u b.content ∧ ∃ font cid, Glyph u font cid b.content := by
  cases e with
  | beginPage => exact h.elim
  | endPage =>
    intro b hb
    rw [show boxes = [] from h] at hb
    cases hb
  | char =>
    obtain ⟨_, t, ht, hne, ⟨-, rfl⟩ | ⟨hv, box, rfl, rfl, -⟩⟩ := h
    · simp
    · intro b hb
      obtain rfl := List.mem_singleton.mp hb
      exact ⟨hne, hv, _, _, ht⟩

theorem drawsPage_visible {u : CharData} {es : List DrawEvent} {boxes : List TextBox} (h : DrawsPage u es boxes) :
    ∀ b ∈ boxes, b.content ≠ [] ∧ Visible u b.content ∧ ∃ font cid, Glyph u font cid b.content := by
  obtain ⟨parts, hp, rfl⟩ := h
  induction hp with
  | nil => simp
  | cons h1 _ ih =>
    intro b hb
    rw [List.flatten_cons, List.mem_append] at hb
    rcases hb with hb | hb
    · exact draws_visible h1 b hb
    · exact ih b hb

/-- C91. The text of every box can be seen, and none of the letters that Hungarian does not have is left in it. -/
theorem drawn_texts {u : CharData} {events : List DrawEvent} {pages : List (List TextBox)}
    (h : extractTextboxes u events = .ok pages) : ∀ page ∈ pages, ∀ b ∈ page, b.content ≠ [] ∧ Visible u b.content ∧
      'Õ' ∉ b.content ∧ 'õ' ∉ b.content ∧ 'Û' ∉ b.content ∧ 'û' ∉ b.content := by
  obtain ⟨first, boxes, drawn, -, -, hp⟩ := pages_drawn.mp h
  clear h
  induction hp with
  | nil => simp
  | cons h1 _ ih =>
    intro page hpage b hb
    rcases List.mem_cons.mp hpage with rfl | hpage
    · obtain ⟨h2, h3, font, cid, raw, -, hg⟩ := drawsPage_visible h1 b hb
      have : ∀ c ∈ b.content, c ≠ 'Õ' ∧ c ≠ 'õ' ∧ c ≠ 'Û' ∧ c ≠ 'û' := by
        intro c hc
        rcases hg with ⟨x, -, hx⟩ | ⟨-, hx⟩
        · rw [hx] at hc
          obtain rfl := List.mem_singleton.mp hc
          exact hungarianLetter_ne x
        · rw [hx] at hc
          obtain ⟨x, -, rfl⟩ := List.mem_map.mp hc
          exact hungarianLetter_ne x
      exact ⟨h2, h3, fun hc => (this _ hc).1 rfl, fun hc => (this _ hc).2.1 rfl, fun hc => (this _ hc).2.2.1 rfl,
        fun hc => (this _ hc).2.2.2 rfl⟩
    · exact ih page hpage b hb

/-- A font with a letter that Hungarian does not have, a wrong case, an empty text, and characters it does not name. -/
def sampleFont : Font :=
  { toUnichr := fun cid => if cid = 0xf5 then some (py"õ") else if cid = 32 then some (py" ") else if cid = 97 then some (py"A")
      else if cid = 700 then some [] else none
    charWidth := fun _ => 1/2, name := py"Times-Bold" }

/-- Character data that knows two letters and the private characters. -/
def drawingData : CharData :=
  { upper := fun s => s.map fun c => if c = 'a' then 'A' else c
    category := fun c => if c.toNat = 0xe000 then (py"Co") else (py"Ll") }

/-- A file with two pages; the first is empty. -/
def sampleEvents : List DrawEvent :=
  [.char ⟨1, 0, 0, 1, 0, 0⟩ sampleFont 10 1 0 97, .beginPage, .endPage, .beginPage,
   .char ⟨2, 0, 0, 2, 5, 7 + 1/2000⟩ sampleFont 10 1 0 0xf5, .char ⟨2, 0, 0, 2, 15, 7⟩ sampleFont 10 1 0 32,
   .char ⟨2, 0, 0, 2, 25, 7⟩ sampleFont 10 1 0 97, .char ⟨2, 0, 0, 2, 35, 7⟩ sampleFont 10 1 0 500, .endPage]

example : extractTextboxes drawingData sampleEvents =
    .ok [[], [⟨5, 7, 10, 10, py"ő", true⟩, ⟨25, 7, 10, 10, py"a", true⟩, ⟨35, 7, 10, 10, py"[X]", true⟩]] := by decide +kernel

example : extractTextboxes drawingData (sampleEvents ++ [.char ⟨1, 0, 0, 1, 0, 0⟩ sampleFont 10 1 0 700]) = .error .indexError := by
  decide +kernel

/-- C91. The codes of ISO 8859-2 stand for different characters: letters of ASCII for themselves, and there are no others. -/
theorem latin2_codes : (∀ n m : Int, ∀ c, chrLatin2 n = .ok c → chrLatin2 m = .ok c → n = m) ∧
    (∀ n : Int, 0 ≤ n → n < 128 → chrLatin2 n = .ok (Char.ofNat n.toNat)) ∧
    (∀ n : Int, (∃ c, chrLatin2 n = .ok c) ↔ 0 ≤ n ∧ n < 256) ∧
    [0xc1, 0xc9, 0xcd, 0xd3, 0xd6, 0xd5, 0xda, 0xdc, 0xdb, 0xe1, 0xe9, 0xed, 0xf3, 0xf6, 0xf5, 0xfa, 0xfc, 0xfb].map chrLatin2 =
      (py"ÁÉÍÓÖŐÚÜŰáéíóöőúüű").map .ok := by
  have hok : ∀ n : Int, (∃ c, chrLatin2 n = .ok c) ↔ 0 ≤ n ∧ n < 256 := by
    intro n
    constructor
    · rintro ⟨c, hc⟩
      apply Classical.byContradiction
      intro h
      rw [chrLatin2_error (by omega)] at hc
      cases hc
    · rintro ⟨h0, h1⟩
      exact chrLatin2_ok h0 h1
  refine ⟨?_, ?_, hok, by decide +kernel⟩
  · have table : ∀ n : Fin 256, ∀ m : Fin 256, chrLatin2 (n.val : Int) = chrLatin2 (m.val : Int) → n = m := by
      have key : ((List.range 256).map fun n : Nat => ((chrLatin2 (n : Int)).toOption.map Char.toNat).getD 0).Nodup := by decide +kernel
      intro n m h
      have hn := n.isLt
      have hm := m.isLt
      apply Fin.ext
      have := (List.pairwise_iff_getElem.mp key)
      rcases Nat.lt_trichotomy n.val m.val with hlt | he | hlt
      · exact absurd (by simp [h]) (this n.val m.val (by simpa using hn) (by simpa using hm) hlt)
      · exact he
      · exact absurd (by simp [h]) (this m.val n.val (by simpa using hm) (by simpa using hn) hlt)
    intro n m c hn hm
    obtain ⟨n0, n1⟩ := (hok n).mp ⟨c, hn⟩
    obtain ⟨m0, m1⟩ := (hok m).mp ⟨c, hm⟩
    have := table ⟨n.toNat, by omega⟩ ⟨m.toNat, by omega⟩ (by
      simp only [Int.toNat_of_nonneg n0, Int.toNat_of_nonneg m0]
      rw [hn, hm])
    rw [Fin.mk.injEq] at this
    omega
  · intro n h0 h1
    unfold chrLatin2
    rw [if_neg (by omega), if_pos (by omega)]

/-- C91. If on no page two boxes are at one place and every page has text, the lines of a file are those of its drawn pages,
with all their boxes (as in C46). -/
theorem drawn_lines {u : CharData} {events : List DrawEvent} {pages : List (List TextBox)}
    (h : extractTextboxes u events = .ok pages) (hp : ∀ page ∈ pages, page ≠ [] ∧ NoClash page) :
    ∃ lines, drawnLines u events = .ok lines ∧ Both (fun boxes ls => ∃ rows rl, IsRows boxes rows ∧ ls = withBlanks rl ∧
      rl.map (·.1) = rows.map (·.1) ∧ rl.map (fun l => place 0 l.2.parts) = rows.map (fun r => typeset r.2)) pages lines := by
  have ht := drawn_texts h
  unfold drawnLines
  rw [h]
  show ∃ lines, extractLines pages = .ok lines ∧ _
  clear h
  induction pages with
  | nil => exact ⟨[], rfl, .nil⟩
  | cons page pages ih =>
    obtain ⟨h1, h2⟩ := hp page List.mem_cons_self
    obtain ⟨rows, rl, g1, g2, g3, g4⟩ := boxes_kept_partial h1 h2 fun b hb => (ht page List.mem_cons_self b hb).1
    obtain ⟨lines, k1, k2⟩ := ih (fun x hx => hp x (List.mem_cons_of_mem _ hx)) fun x hx => ht x (List.mem_cons_of_mem _ hx)
    refine ⟨withBlanks rl :: lines, ?_, .cons ⟨rows, rl, g1, rfl, g3, g4⟩ k2⟩
    rw [extractLines, g2, k1]
    rfl

example : (drawnLines drawingData (sampleEvents.drop 3)).toOption.map (·.map (·.map Line.content)) = some [[py"ő a[X]"]] := by
  decide +kernel

/-- C92. The right margin of a line is greater than the distance from the right end of its last box to the right end of the text
on the page, by twice the width of that box: so it is the distance only if the box has no width. -/
theorem right_margin_partial {boxes : List TextBox} (hn : boxes ≠ []) (hc : NoClash boxes) (ht : ∀ b ∈ boxes, b.content ≠ []) :
    ∃ rows lines r, IsRows boxes rows ∧ extractSinglePage boxes = .ok (withBlanks lines) ∧ RightEnd boxes r ∧
      Both (fun row line => ∃ b, row.2.getLast? = some b ∧ line.2.marginRight = (r - (b.x + b.width)) + 2 * b.width) rows lines := by
  obtain ⟨d, hd, hrows⟩ := sortTextboxes_rows hc
  obtain ⟨r, hr⟩ := rightmost_ok hn
  obtain ⟨lines, h1, -⟩ := rowLines_ok r (dictRows d) fun row hrow b hb => ht b ((hrows.all b).mpr ⟨row, hrow, hb⟩)
  refine ⟨dictRows d, lines, r, hrows, ?_, ?_, ?_⟩
  · rw [extractSinglePage_eq hd hr, h1]
    rfl
  · obtain ⟨⟨b, hb, h2⟩, h3⟩ := rightmost_spec hr
    refine ⟨⟨b, hb, by grind⟩, fun b hb => ?_⟩
    have := h3 b hb
    grind
  · have hm := rowLines_margin r h1
    have hne : ∀ row ∈ dictRows d, row.2 ≠ [] := by
      intro row hrow he
      obtain ⟨b, hb, -⟩ := (hrows.row row hrow).lowest
      rw [he] at hb
      cases hb
    generalize dictRows d = rows at hm hne
    clear h1 hrows hd hr
    induction hm with
    | nil => exact .nil
    | cons h2 _ ih =>
      refine .cons ?_ (ih fun x hx => hne x (List.mem_cons_of_mem _ hx))
      rename_i row line _ _ _
      have := hne row List.mem_cons_self
      obtain ⟨b, hb⟩ : ∃ b, row.2.getLast? = some b := ⟨row.2.getLast this, List.getLast?_eq_some_getLast this⟩
      refine ⟨b, hb, ?_⟩
      rw [h2 b hb]
      grind

/-- C92. So even the line that ends at the right end of the text has a right margin, which is twice the width of its last box. -/
theorem right_margin_too_great : extractSinglePage [⟨0, 100, 5, 2, py"A", false⟩] = .ok [⟨[⟨0, py"A", false⟩], 10⟩] ∧
    RightEnd [⟨0, 100, 5, 2, py"A", false⟩] 5 := by
  refine ⟨by decide +kernel, ⟨_, List.mem_singleton.mpr rfl, by decide +kernel⟩, ?_⟩
  intro b hb
  obtain rfl := List.mem_singleton.mp hb
  decide +kernel

end Verif.Props
