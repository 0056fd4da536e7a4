import Verif.Proofs.CachedPdf
import Verif.Spec.CachedPdf
import Verif.Props.Device
import Verif.Props.Workers

/-! # The lines of issues with the whole of reading (C96) -/

namespace Verif.Props
open Spec

variable {o : Outside}

theorem world_parse (hx : Adds o.extra) (b : Bytes) : o.world.parse b = o.linesOf b := by
  show (do
    let p ← o.linesOf b
    let _ ← o.toData (PdfOfLines.object o.extra p)
    .ok p : Res PdfOfLines) = _
  cases o.linesOf b with
  | error e => rfl
  | ok p =>
    show (do
      let _ ← o.toData (PdfOfLines.object o.extra p)
      .ok p : Res PdfOfLines) = _
    rw [Outside.toData, pdf_data hx p]
    rfl

theorem world_encode (hx : Adds o.extra) (t : Nat) (p : PdfOfLines) : o.world.encode t p = o.write t (pdfData p) := by
  show (match o.toData (PdfOfLines.object o.extra p) with
    | .ok d => o.write t d
    | .error _ => []) = _
  rw [Outside.toData, pdf_data hx p]

theorem world_decode {b : Bytes} {p : PdfOfLines} (h : o.read b = .ok (pdfData p)) : o.world.decode b = .ok p := by
  show (do
    let d ← o.read b
    let v ← (hunLawEnv o.extra.finish).toObject (.cls (py"PdfOfLines")) d
    pdfOf v : Res PdfOfLines) = _
  rw [h]
  exact pdfOf_read o.extra p

/-- C96. The object that is read from the stored data of lines stands for these lines, as does the object that was stored. -/
theorem stored_lines (x : Extra) (p : PdfOfLines) :
    (∃ v, (hunLawEnv x.finish).toObject (.cls (py"PdfOfLines")) (pdfData p) = .ok v ∧ pdfOf v = .ok p) ∧
      pdfOf (PdfOfLines.object x p) = .ok p :=
  ⟨resBind_ok (pdfOf_read x p), pdfOf_object x p⟩

/-- C96. If compressed JSON is read as it was written, no two processes read one issue at the same time unless its lines are stored,
and none is killed while it writes a file, then every process gives the lines that are drawn by the file of its issue, or the
exception of drawing it, whether they come from the cache or not. -/
theorem cached_lines (hx : Adds o.extra)
    (hjson : ∀ b p t, o.linesOf b = .ok p → o.read (o.write t (pdfData p)) = .ok (pdfData p))
    {rs : List (Issue × Res PdfOfLines)} {m : Machine PdfOfLines}
    (h : Runs o.world Undisturbed (fun p => ¬ p.writing) emptyMachine rs m) :
    ∀ y ∈ rs, y.2 = o.draw (o.server (y.1.1 % 100, y.1.2)) >>= drawnLines o.chars := by
  intro y hy
  have := workers_transparent_partial (w := o.world) (fun b t r hr => by
    rw [world_parse hx] at hr
    rw [world_encode hx]
    exact world_decode (hjson b r t hr)) h y hy
  rw [world_parse hx] at this
  exact this

/-- C96. If processes may also be killed while they write lines, and compressed JSON that is cut cannot be read, then every process
gives these lines or fails. -/
theorem cached_lines_or_failure (hx : Adds o.extra)
    (hjson : ∀ b p t, o.linesOf b = .ok p → o.read (o.write t (pdfData p)) = .ok (pdfData p))
    (hcut : ∀ b p t data, o.linesOf b = .ok p → data <+: o.write t (pdfData p) → data ≠ o.write t (pdfData p) →
      ∃ e, o.read data = .error e)
    {rs : List (Issue × Res PdfOfLines)} {m : Machine PdfOfLines}
    (h : Runs o.world Undisturbed (fun p => ∀ n, p ≠ .writePdf n) emptyMachine rs m) :
    ∀ y ∈ rs, (y.2 = o.draw (o.server (y.1.1 % 100, y.1.2)) >>= drawnLines o.chars) ∨ ∃ e, y.2 = .error e := by
  intro y hy
  have := workers_never_wrong_partial (w := o.world) (fun b t r hr => by
      rw [world_parse hx] at hr
      rw [world_encode hx]
      exact world_decode (hjson b r t hr))
    (fun b t r data hr h1 h2 => by
      rw [world_parse hx] at hr
      rw [world_encode hx] at h1 h2
      obtain ⟨e, he⟩ := hcut b r t data hr h1 h2
      refine ⟨e, ?_⟩
      show (do
        let d ← o.read data
        let v ← (hunLawEnv o.extra.finish).toObject (.cls (py"PdfOfLines")) d
        pdfOf v : Res PdfOfLines) = _
      rw [he]
      rfl) h y hy
  rw [world_parse hx] at this
  exact this

/-- C96. Then what extraction gives, with any number of workers, is what is to be made of what the files of the issues draw, if the
lines of each issue that is read are those that some process has given for it. -/
theorem cached_results (hx : Adds o.extra)
    (hjson : ∀ b p t, o.linesOf b = .ok p → o.read (o.write t (pdfData p)) = .ok (pdfData p))
    {rs : List (Issue × Res PdfOfLines)} {m : Machine PdfOfLines}
    (h : Runs o.world Undisturbed (fun p => ¬ p.writing) emptyMachine rs m)
    {s : Sources} (hs : ∀ i p, s.read i = .ok p → (i, .ok p) ∈ rs) {c : ExtractedClass} (hc : IsStep c) {issues : List Issue}
    {workers : Nat} {ys : List Extracted} (he : (s.pipeline c).Extracts (issues.map .issue) workers ⟨ys, none⟩) :
    ∃ outs, ys.Perm outs ∧
      IssuesGive { s with read := fun i => o.draw (o.server (i.1 % 100, i.2)) >>= drawnLines o.chars } c issues outs := by
  obtain ⟨outs, ⟨pdfs, laws, h1, h2, h3⟩, hp⟩ := pipeline_results hc he
  refine ⟨outs, hp, pdfs, laws, h1.imp fun i _ p _ hi => ?_, h2, h3.imp fun r _ out _ hr => ?_⟩
  · exact (cached_lines hx hjson h _ (hs i p hi)).symm
  · cases c <;> exact hr

theorem withBlanks_mem {l : Line} : ∀ {rl : List (Rat × Line)}, l ∈ withBlanks rl → l = emptyLine ∨ ∃ y, (y, l) ∈ rl
  | [], h => by simp [withBlanks] at h
  | [a], h => by
    simp only [withBlanks, List.mem_singleton] at h
    exact .inr ⟨a.1, by simp [h]⟩
  | a :: b :: rest, h => by
    simp only [withBlanks, List.cons_append, List.mem_cons, List.mem_append] at h
    rcases h with h | h | h
    · exact .inr ⟨a.1, by simp [h]⟩
    · split at h
      · exact .inl (by simpa using h)
      · simp at h
    · rcases withBlanks_mem h with h | ⟨y, h⟩
      · exact .inl h
      · exact .inr ⟨y, by simp only [List.mem_cons] at h ⊢; exact .inr h⟩

theorem drawn_pages_filled {pages : List (List TextBox)} {p : PdfOfLines} (h : extractLines pages = .ok p)
    (hc : ∀ page ∈ pages, NoClash page) : ∀ page ∈ pages, page ≠ [] ∧ NoClash page := by
  intro page hpage
  refine ⟨?_, hc page hpage⟩
  rintro rfl
  obtain ⟨hlen, hzip⟩ := pages_in_order.mp h
  obtain ⟨n, hn, he⟩ := List.mem_iff_getElem.mp hpage
  have := hzip (pages[n], p[n]'(hlen ▸ hn)) (List.mem_iff_getElem.mpr ⟨n, by simp [List.length_zip, ← hlen, hn], by simp⟩)
  rw [he, empty_page_fails] at this
  cases this

/-- C96. If moreover no two boxes of a page are at one place, then everything in the texts of the acts of an issue that a process
has given is printed in its file: the title and every line of the body that is not empty is one row of a page, with all of its
characters in their order and with nothing else but spaces. -/
theorem texts_printed (hx : Adds o.extra)
    (hjson : ∀ b p t, o.linesOf b = .ok p → o.read (o.write t (pdfData p)) = .ok (pdfData p))
    {rs : List (Issue × Res PdfOfLines)} {m : Machine PdfOfLines}
    (h : Runs o.world Undisturbed (fun p => ¬ p.writing) emptyMachine rs m) {i : Issue} {p : PdfOfLines} (hp : (i, .ok p) ∈ rs) :
    ∃ events pages, o.draw (o.server (i.1 % 100, i.2)) = .ok events ∧ extractTextboxes o.chars events = .ok pages ∧
      ((∀ page ∈ pages, NoClash page) → ∀ laws, IssueLaws p laws → ∀ r ∈ laws,
        (∃ l, PrintedLine pages l ∧ ActTitle l.content ∧ r.identifier = l.content) ∧
        ∀ l ∈ r.body, l = emptyLine ∨ PrintedLine pages l) := by
  have h1 := cached_lines hx hjson h _ hp
  obtain ⟨events, h2, h3⟩ := resBind_ok h1.symm
  have h4 := h3
  unfold drawnLines at h3
  obtain ⟨pages, h5, h6⟩ := resBind_ok h3
  refine ⟨events, pages, h2, h5, fun hc laws hl r hr => ?_⟩
  obtain ⟨lines, h7, h8⟩ := drawn_lines h5 (drawn_pages_filled h6 hc)
  rw [h4] at h7
  cases h7
  have key : ∀ page ∈ p, ∀ l ∈ page, l = emptyLine ∨ PrintedLine pages l := by
    intro page hpage l hl
    obtain ⟨boxes, hb, rows, rl, k1, rfl, -, k3⟩ := h8.mem_right hpage
    rcases withBlanks_mem hl with hl | ⟨y, hl⟩
    · exact .inl hl
    · have : place 0 l.parts ∈ rl.map (fun l => place 0 l.2.parts) := List.mem_map.mpr ⟨_, hl, rfl⟩
      rw [k3] at this
      obtain ⟨row, hrow, he⟩ := List.mem_map.mp this
      exact .inr ⟨row.2, ⟨boxes, hb, rows, k1, row.1, hrow⟩, he.symm⟩
  obtain ⟨⟨page, hpage, l, hl', ht, hid⟩, -, hbody⟩ := texts_of_issue hl r hr
  refine ⟨?_, fun l hl => ?_⟩
  · rcases key page hpage l hl' with rfl | hk
    · obtain ⟨a, b, c, d, e, f, roman, rest, -, -, -, -, -, -, -, -, h1⟩ := ht
      cases h1
    · exact ⟨l, hk, ht, hid⟩
  · rcases hbody l hl with hl | ⟨page, hpage, hl⟩
    · exact .inl hl
    · exact key page hpage l hl

theorem filled_withBlanks : ∀ rl : List (Rat × Line), (filledLines (withBlanks rl)).Sublist (rl.map (·.2))
  | [] => .refl _
  | [_] => List.filter_sublist ..
  | a :: b :: rest => by
    have ih := filled_withBlanks (b :: rest)
    rw [withBlanks, filled_append]
    refine List.Sublist.append (l₂ := [a.2]) ?_ ih
    split
    · rw [show a.2 :: [emptyLine] = [a.2] ++ [emptyLine] from rfl, filled_end]
      exact List.filter_sublist ..
    · exact List.filter_sublist ..

/-- C96. All of this is in the order in which it is printed: the titles and the lines of the bodies that are not empty, one act after the
other, are rows of the file in their order, without repetition; only the rows of the first page may come twice (C44). -/
theorem texts_printed_in_order (hx : Adds o.extra)
    (hjson : ∀ b p t, o.linesOf b = .ok p → o.read (o.write t (pdfData p)) = .ok (pdfData p))
    {rs : List (Issue × Res PdfOfLines)} {m : Machine PdfOfLines}
    (h : Runs o.world Undisturbed (fun p => ¬ p.writing) emptyMachine rs m) {i : Issue} {p : PdfOfLines} (hp : (i, .ok p) ∈ rs) :
    ∃ events pages, o.draw (o.server (i.1 % 100, i.2)) = .ok events ∧ extractTextboxes o.chars events = .ok pages ∧
      ((∀ page ∈ pages, NoClash page) → ∀ laws, IssueLaws p laws → ∃ rowss titles, ∃ printed : List (List TextBox), Both IsRows pages rowss ∧
        Both (fun r t => ActTitle t.content ∧ r.identifier = t.content) laws titles ∧
        (filledLines ((laws.zip titles).flatMap fun q => q.2 :: q.1.body)).map (fun l => place 0 l.parts) = printed.map typeset ∧
        printed.Sublist ((rowss.head?.toList ++ rowss).flatten.map (·.2))) := by
  have h1 := cached_lines hx hjson h _ hp
  obtain ⟨events, h2, h3⟩ := resBind_ok h1.symm
  have h4 := h3
  unfold drawnLines at h3
  obtain ⟨pages, h5, h6⟩ := resBind_ok h3
  refine ⟨events, pages, h2, h5, fun hc laws hl => ?_⟩
  obtain ⟨lines, h7, h8⟩ := drawn_lines h5 (drawn_pages_filled h6 hc)
  rw [h4] at h7
  cases h7
  have hrows : ∃ rowss, Both IsRows pages rowss ∧ Both (fun ls rows => ((filledLines ls).map fun l => place 0 l.parts).Sublist
      (rows.map fun r : Rat × List TextBox => typeset r.2)) p rowss := by
    clear h1 h2 h3 h4 h5 h6 hl hp hc
    induction h8 with
    | nil => exact ⟨[], .nil, .nil⟩
    | cons h _ ih =>
      obtain ⟨rowss, g1, g2⟩ := ih
      obtain ⟨rows, rl, k1, rfl, -, k3⟩ := h
      refine ⟨rows :: rowss, .cons k1 g1, .cons ?_ g2⟩
      rw [← k3]
      have := (filled_withBlanks rl).map fun l => place 0 l.parts
      rwa [List.map_map] at this
  obtain ⟨rowss, g1, g2⟩ := hrows
  have hall : ∀ {ps : PdfOfLines} {rss : List (List (Rat × List TextBox))}, Both (fun ls rows =>
      ((filledLines ls).map fun l => place 0 l.parts).Sublist (rows.map fun r : Rat × List TextBox => typeset r.2)) ps rss →
      ((filledLines ps.flatten).map fun l => place 0 l.parts).Sublist (rss.flatten.map fun r => typeset r.2) := by
    intro ps rss h
    induction h with
    | nil => exact .refl _
    | cons h _ ih =>
      rw [List.flatten_cons, List.flatten_cons, filled_append, List.map_append, List.map_append]
      exact h.append ih
  have htwice : Both (fun ls rows => ((filledLines ls).map fun l => place 0 l.parts).Sublist
      (rows.map fun r : Rat × List TextBox => typeset r.2)) (p.head?.toList ++ p) (rowss.head?.toList ++ rowss) := by
    cases g2 with
    | nil => exact .nil
    | cons h t => exact .cons h (.cons h t)
  obtain ⟨titles, k1, k2⟩ := texts_in_order hl
  have k3 := (k2.map fun l => place 0 l.parts).trans (hall htwice)
  rw [show ((rowss.head?.toList ++ rowss).flatten.map fun r => typeset r.2) =
    ((rowss.head?.toList ++ rowss).flatten.map (·.2)).map typeset by rw [List.map_map]; rfl] at k3
  obtain ⟨printed, k4, k5⟩ := List.sublist_map_iff.mp k3
  exact ⟨rowss, titles, printed, g1, k1, k5, k4⟩

theorem typeset_text (row : List TextBox) : ink (placedText (typeset row)) = ink (row.flatMap (·.content)) := by
  induction row with
  | nil => rfl
  | cons a row ih =>
    cases row with
    | nil => simp [typeset, placedText]
    | cons b row =>
      have hs : ∀ c : Prop, [Decidable c] → ink (placedText (if c then [(edge a, [' '], false)] else [])) = [] := by
        intro c _
        split <;> rfl
      have hsplit : ∀ x y : List Placed, placedText (x ++ y) = placedText x ++ placedText y := fun x y => by simp [placedText]
      rw [typeset, List.cons_append, show ∀ (p : Placed) ps, p :: ps = [p] ++ ps from fun _ _ => rfl, hsplit, hsplit, ink_append,
        ink_append, hs, ih, List.flatMap_cons (x := a), ink_append]
      simp only [placedText, List.flatMap_cons, List.flatMap_nil, List.append_nil, List.nil_append]

theorem place_contents (ps : List Part) : ∀ x, (place x ps).map (·.2.1) = ps.map (·.content) := by
  induction ps with
  | nil => intro x; rfl
  | cons p ps ih => intro x; simp [place, ih]

theorem typeset_last : ∀ (row : List TextBox) {q : Str}, ((typeset row).map (·.2.1)).getLast? = some q →
    ∃ b ∈ row, q = b.content
  | [], _, h => by simp [typeset] at h
  | [a], _, h => ⟨a, by simp, by simpa [typeset] using h.symm⟩
  | a :: b :: row, q, h => by
    have hne : typeset (b :: row) ≠ [] := by cases row <;> simp [typeset]
    have hlast : ∀ {x y : List Str}, y ≠ [] → (x ++ y).getLast? = y.getLast? := by
      intro x y hy
      rw [List.getLast?_append, List.getLast?_eq_some_getLast hy]
      rfl
    rw [typeset, List.map_append, hlast (by simpa using hne)] at h
    obtain ⟨c, hc, he⟩ := typeset_last (b :: row) h
    exact ⟨c, by simp only [List.mem_cons] at hc ⊢; exact .inr hc, he⟩

theorem placed_text (l : Line) : placedText (place 0 l.parts) = l.content := by
  have := congrArg List.flatten (place_contents l.parts 0)
  rw [← List.flatMap_def, ← List.flatMap_def] at this
  exact this

theorem rows_text : ∀ {ls : List Line} {rows : List (List TextBox)}, ls.map (fun l => place 0 l.parts) = rows.map typeset →
    ink (linesText ls) = ink (rows.flatten.flatMap (·.content))
  | [], [], _ => rfl
  | [], _ :: _, h => by cases h
  | _ :: _, [], h => by cases h
  | l :: ls, row :: rows, h => by
    simp only [List.map_cons, List.cons.injEq] at h
    have hsplit : ink (linesText (l :: ls)) = ink l.content ++ ink (linesText ls) := by
      rw [linesText, List.flatMap_cons, ink_append]
      rfl
    rw [hsplit, rows_text h.2, List.flatten_cons, List.flatMap_append, ink_append, ← typeset_text row, ← h.1, placed_text]

theorem filled_text (ls : List Line) : ink (linesText (filledLines ls)) = ink (linesText ls) := by
  induction ls with
  | nil => rfl
  | cons l ls ih =>
    have hsplit : ∀ xs, ink (linesText (l :: xs)) = ink l.content ++ ink (linesText xs) := by
      intro xs
      rw [linesText, List.flatMap_cons, ink_append]
      rfl
    rw [hsplit, ← ih]
    by_cases h : l.parts = []
    · have : filledLines (l :: ls) = filledLines ls := by simp [filledLines, h]
      rw [this, Line.content, h]
      rfl
    · have : filledLines (l :: ls) = l :: filledLines ls := by simp [filledLines, h]
      rw [this, hsplit]

theorem body_in_order {laws : List LawRawText} {titles : List Line} {r : LawRawText} (hr : r ∈ laws) (h : laws.length = titles.length) :
    r.body.Sublist ((laws.zip titles).flatMap fun q => q.2 :: q.1.body) := by
  induction laws generalizing titles with
  | nil => cases hr
  | cons a laws ih =>
    cases titles with
    | nil => cases h
    | cons t titles =>
      rw [List.zip_cons_cons, List.flatMap_cons]
      rcases List.mem_cons.1 hr with rfl | hr
      · exact (List.sublist_cons_self ..).trans (List.sublist_append_left ..)
      · exact (ih hr (by simpa using h)).trans (List.sublist_append_right ..)

/-- C96. If also every box has one character, nothing is fixed by hand and no title of an article ends on a third line, then the lines of
the act that is made are certain rows of the file in their order, and the preamble and each element say what is printed in theirs (C25). -/
theorem elements_printed (hx : Adds o.extra)
    (hjson : ∀ b p t, o.linesOf b = .ok p → o.read (o.write t (pdfData p)) = .ok (pdfData p))
    {rs : List (Issue × Res PdfOfLines)} {m : Machine PdfOfLines}
    (h : Runs o.world Undisturbed (fun p => ¬ p.writing) emptyMachine rs m) {i : Issue} {p : PdfOfLines} (hp : (i, .ok p) ∈ rs) :
    ∃ events pages, o.draw (o.server (i.1 % 100, i.2)) = .ok events ∧ extractTextboxes o.chars events = .ok pages ∧
      ((∀ page ∈ pages, NoClash page) → (∀ page ∈ pages, ∀ b ∈ page, b.content.length = 1) → ∀ laws, IssueLaws p laws → ∀ r ∈ laws,
        ∀ s : Sources, doAllFixups s.fixups r.identifier r.body = .ok r.body → ¬ LongTitle r.body →
        ∀ a, Produces s .structureOnly r (.structureOnly a) → 
        ∃ rowss, ∃ rows : List (List TextBox), ∃ pre blocks, Both IsRows pages rowss ∧
          rows.Sublist ((rowss.head?.toList ++ rowss).flatten.map (·.2)) ∧
          (filledLines (pre ++ blocks.flatten)).map (fun l => place 0 l.parts) = rows.map typeset ∧
          ink (linesText pre) = ink a.preamble ∧ Both Reads blocks a.children) := by
  obtain ⟨events, pages, h1, h2, h3⟩ := texts_printed hx hjson h hp
  refine ⟨events, pages, h1, h2, fun hc hone laws hl r hr s hfix hlong a ha => ?_⟩
  have hbody := (h3 hc laws hl r hr).2
  obtain ⟨events', pages', h1', h2', h4⟩ := texts_printed_in_order hx hjson h hp
  rw [h1] at h1'
  cases h1'
  rw [h2] at h2'
  cases h2'
  obtain ⟨rowss, titles, printed, j1, j2, j3, j4⟩ := h4 hc laws hl
  have hsub := (filled_sublist (body_in_order hr j2.length)).map fun l => place 0 l.parts
  rw [j3] at hsub
  obtain ⟨rows, k1, k3⟩ := List.sublist_map_iff.mp hsub
  obtain ⟨body, a', g1, g2, g3⟩ := ha
  cases g3
  rw [hfix] at g1
  cases g1
  have hfine : ∀ l ∈ r.body, FineEnd l := by
    intro l hl
    rcases hbody l hl with rfl | ⟨row, ⟨boxes, hb, rows, hrows, base, hrow⟩, he⟩
    · intro q hq
      cases hq
    · intro q hq
      obtain ⟨b, hbm, he⟩ := typeset_last row (q := q.content) (by
        rw [← he, place_contents, List.getLast?_map, hq]
        rfl)
      rw [he]
      exact hone boxes hb b ((hrows.all b).mpr ⟨_, hrow, hbm⟩)
  obtain ⟨pre, blocks, q1, q2, q3⟩ := act_keeps_text_partial g2 hfine hlong
  rw [q1] at k3
  exact ⟨rowss, rows, pre, blocks, j1, k1.trans j4, k3, q2, q3⟩

/-- C96. If there are only articles in it, the act says, apart from spaces, what is printed in these rows, all of it and nothing else, in the
order of the rows. -/
theorem act_printed (hx : Adds o.extra)
    (hjson : ∀ b p t, o.linesOf b = .ok p → o.read (o.write t (pdfData p)) = .ok (pdfData p))
    {rs : List (Issue × Res PdfOfLines)} {m : Machine PdfOfLines}
    (h : Runs o.world Undisturbed (fun p => ¬ p.writing) emptyMachine rs m) {i : Issue} {p : PdfOfLines} (hp : (i, .ok p) ∈ rs) :
    ∃ events pages, o.draw (o.server (i.1 % 100, i.2)) = .ok events ∧ extractTextboxes o.chars events = .ok pages ∧
      ((∀ page ∈ pages, NoClash page) → (∀ page ∈ pages, ∀ b ∈ page, b.content.length = 1) → ∀ laws, IssueLaws p laws → ∀ r ∈ laws,
        ∀ s : Sources, doAllFixups s.fixups r.identifier r.body = .ok r.body → ¬ LongTitle r.body →
        ∀ a, Produces s .structureOnly r (.structureOnly a) → (∀ c ∈ a.children, c.type = .article) →
        ∃ rowss, ∃ rows : List (List TextBox), Both IsRows pages rowss ∧
          rows.Sublist ((rowss.head?.toList ++ rowss).flatten.map (·.2)) ∧
          ink (a.preamble ++ printedL a.children) = ink (rows.flatten.flatMap (·.content))) := by
  obtain ⟨events, pages, h1, h2, h3⟩ := elements_printed hx hjson h hp
  refine ⟨events, pages, h1, h2, fun hc hone laws hl r hr s hfix hlong a ha harts => ?_⟩
  obtain ⟨rowss, rows, pre, blocks, j1, j2, j3, j4, j5⟩ := h3 hc hone laws hl r hr s hfix hlong a ha
  have k2 := rows_text j3
  rw [filled_text, linesText_append, ink_append, j4, reads_articles j5 harts, ← ink_append] at k2
  exact ⟨rowss, rows, j1, j2, k2⟩

/-! ## An issue with two acts, from its characters to its acts -/

/-- A font in which all characters have the same width. -/
def typewriter : Font := ⟨fun n => some [Char.ofNat n.toNat], fun _ => 1, py"Courier"⟩

/-- A row of text. -/
def typedRow (x y : Rat) : Str → List DrawEvent
  | [] => []
  | c :: cs => .char ⟨1, 0, 0, 1, x, y⟩ typewriter 6 1 0 c.toNat :: typedRow (x + 6) y cs

/-- Rows of text from top to bottom. -/
def typedRows (y : Rat) : List Str → List DrawEvent
  | [] => []
  | s :: ss => typedRow 50 y s ++ typedRows (y - 12) ss

/-- The issue of C63 written by a typewriter. -/
def typedEvents : List DrawEvent :=
  (sampleGazette.take 1 ++ [lawPage]).flatMap fun page => .beginPage :: typedRows 800 (page.map Line.content) ++ [.endPage]

/-- All characters are small letters. -/
def typedData : CharData := ⟨id, fun _ => py"Ll"⟩

/-- The only issue there is. -/
def typedOutside : Outside where
  server _ := [1]
  draw _ := .ok typedEvents
  chars := typedData
  extra := addsNone
  write _ _ := [2]
  read data := if data = [] then .error .eofError else (drawnLines typedData typedEvents).map pdfData

/-- It is read again as it was written, and not if it is cut. -/
theorem typed_json : (∀ b p t, typedOutside.linesOf b = .ok p → typedOutside.read (typedOutside.write t (pdfData p)) = .ok (pdfData p)) ∧
    ∀ b p t data, typedOutside.linesOf b = .ok p → data <+: typedOutside.write t (pdfData p) →
      data ≠ typedOutside.write t (pdfData p) → ∃ e, typedOutside.read data = .error e := by
  constructor
  · intro b p t h
    simp only [typedOutside, Outside.linesOf, bind, Except.bind] at h
    simp [typedOutside, h, Except.map]
  · intro b p t data _ h1 h2
    obtain ⟨x, hx⟩ := h1
    have hx' : data ++ x = [2] := hx
    have h2' : data ≠ [2] := h2
    obtain rfl : data = [] := by
      cases data with
      | nil => rfl
      | cons c data =>
        simp only [List.cons_append, List.cons.injEq, List.append_eq_nil_iff] at hx'
        exact absurd (by rw [hx'.1, hx'.2.1]) h2'
    exact ⟨_, rfl⟩

/-- What is made of it; nothing is fixed or recognised. -/
def typedSources : Sources where
  read i := if i = (2011, 71) then drawnLines typedData typedEvents else .error .keyError
  fixups := []
  analyze _ := .ok {}

set_option maxRecDepth 100000 in
theorem typed_acts : ∃ a b, (typedSources.pipeline .act).Extracts ([(2011, 71)].map .issue) 1 ⟨[.act a, .act b], none⟩ ∧
    a.identifier = (py"2010. évi CLVIII. törvény") ∧ b.publicationDate = ⟨2011, 6, 28⟩ ∧
    a.children.map (fun c => c.children.length) = [2] := by
  have h : (match (typedSources.pipeline .act).doWork 20 [.issue ⟨2011, 71⟩] with
    | some ⟨[.act a, .act b], none⟩ => decide (a.identifier = (py"2010. évi CLVIII. törvény") ∧
        b.publicationDate = ⟨2011, 6, 28⟩ ∧ a.children.map (fun c => c.children.length) = [2])
    | _ => false) = true := by decide +kernel
  have hg : ∀ g, (typedSources.pipeline .act).doWork 20 [.issue ⟨2011, 71⟩] = some g →
      (typedSources.pipeline .act).Extracts ([(2011, 71)].map .issue) 1 g := fun g hg => by
    unfold Extraction.Extracts
    rw [if_neg (by omega)]
    exact ⟨20, hg⟩
  revert hg
  generalize (typedSources.pipeline .act).doWork 20 [.issue ⟨2011, 71⟩] = g at h
  intro hg
  split at h
  · exact ⟨_, _, hg _ rfl, of_decide_eq_true h⟩
  · cases h

set_option maxRecDepth 100000 in
theorem typed_apart : ∃ pages, extractTextboxes typedData typedEvents = .ok pages ∧ (∀ page ∈ pages, NoClash page) ∧
    ∀ page ∈ pages, ∀ b ∈ page, b.content.length = 1 := by
  have h : (match extractTextboxes typedData typedEvents with
    | .ok pages => decide ((∀ page ∈ pages, ∀ a ∈ page, ∀ b ∈ page, a.x = b.x → a.y - b.y < 1/5 → b.y - a.y < 1/5 → a = b) ∧
        ∀ page ∈ pages, ∀ b ∈ page, b.content.length = 1)
    | .error _ => false) = true := by decide +kernel
  generalize extractTextboxes typedData typedEvents = r at h
  split at h
  · exact ⟨_, rfl, fun page hp => (of_decide_eq_true h).1 page hp, (of_decide_eq_true h).2⟩
  · cases h

/-- A process reads the issue and stores its lines, another one takes them from the cache. -/
theorem typed_run : ∃ p m, drawnLines typedData typedEvents = .ok p ∧
    Runs typedOutside.world Undisturbed (fun p => ¬ p.writing) emptyMachine [((2011, 71), .ok p), ((2011, 71), .ok p)] m := by
  obtain ⟨a, b, h, -⟩ := typed_acts
  obtain ⟨outs, ⟨pdfs, laws, h1, -⟩, -⟩ := pipeline_results (.inr (.inr (.inr rfl))) h
  obtain ⟨p, -, hp⟩ := h1.mem_left (List.mem_singleton.mpr rfl)
  have hd : drawnLines typedData typedEvents = .ok p := by
    dsimp only [typedSources] at hp
    rwa [if_pos rfl] at hp
  obtain ⟨r, s, hs⟩ := run_ends (w := typedOutside.world) (2011, 71) emptyStore
  obtain ⟨r', s', hs'⟩ := run_ends (w := typedOutside.world) (2011, 71) s
  have g0 : Runs typedOutside.world Undisturbed (fun p => ¬ p.writing) emptyMachine [] ⟨[((2011, 71), .start)], emptyStore⟩ :=
    .started (.refl _) (2011, 71) (.inl (by simp))
  have g1 := Runs.ended (ps := []) (qs := []) (runs_steps (ps := []) (qs := []) hs g0)
  have g2 := Runs.ended (ps := []) (qs := []) (runs_steps (ps := []) (qs := []) hs' (.started g1 (2011, 71) (.inl (by simp))))
  have key := cached_lines addsNone_adds typed_json.1 g2
  have hr : ∀ q : Issue × Res PdfOfLines, q.2 = (typedOutside.draw (typedOutside.server (q.1.1 % 100, q.1.2)) >>= drawnLines typedOutside.chars) →
      q.2 = .ok p := by
    intro q hq
    simp only [typedOutside, bind, Except.bind, hd] at hq
    exact hq
  have k1 := hr _ (key ((2011, 71), r) (by simp))
  have k2 := hr _ (key ((2011, 71), r') (by simp))
  dsimp only at k1 k2
  subst k1 k2
  exact ⟨p, _, hd, g2⟩

example : ∃ rs m p a b, Runs typedOutside.world Undisturbed (fun p => ¬ p.writing) emptyMachine rs m ∧ ((2011, 71), .ok p) ∈ rs ∧
    (∀ i p, typedSources.read i = .ok p → (i, .ok p) ∈ rs) ∧
    IssuesGive typedSources .act [(2011, 71)] [.act b, .act a] ∧
    ∃ pages, extractTextboxes typedData typedEvents = .ok pages ∧ (∀ page ∈ pages, NoClash page) ∧
      ∀ page ∈ pages, ∀ b ∈ page, b.content.length = 1 := by
  obtain ⟨p, m, hd, h⟩ := typed_run
  obtain ⟨a, b, hg, -⟩ := typed_acts
  obtain ⟨outs, ho, he⟩ := (pipeline_in_order (.inr (.inr (.inr rfl))) _).1 hg
  refine ⟨_, m, p, a, b, h, by simp, ?_, ?_, typed_apart⟩
  · intro i q hq
    dsimp only [typedSources] at hq
    split at hq
    · rename_i hi
      rw [hd] at hq
      cases hq
      simp [hi]
    · cases hq
  · rw [← List.reverse_reverse outs, ← he] at ho
    exact ho

set_option maxRecDepth 100000 in
/-- The two acts of this issue have articles only, and their titles are short. -/
example : ∃ p laws, drawnLines typedData typedEvents = .ok p ∧ IssueLaws p laws ∧ laws.length = 2 ∧ ∀ r ∈ laws,
    doAllFixups typedSources.fixups r.identifier r.body = .ok r.body ∧ ¬ LongTitle r.body ∧
    ∃ a, Produces typedSources .structureOnly r (.structureOnly a) ∧ ∀ c ∈ a.children, c.type = .article := by
  let fine (r : LawRawText) : Bool := r.body.all (fun l => !isInfix (py"§ [") l.content) &&
    match parseAct r.identifier r.publicationDate r.subject r.body with
    | .ok a => a.children.all fun c => c.type = .article
    | .error _ => false
  have h : (match (typedSources.pipeline .raw).doWork 20 [.issue ⟨2011, 71⟩] with
    | some ⟨[.raw r, .raw r'], none⟩ => fine r && fine r'
    | _ => false) = true := by decide +kernel
  have hg : ∀ ys, (typedSources.pipeline .raw).doWork 20 [.issue ⟨2011, 71⟩] = some ⟨ys, none⟩ →
      ∃ outs, IssuesGive typedSources .raw [(2011, 71)] outs ∧ ys = outs.reverse := fun ys hg =>
    (issues_give (s := typedSources) (c := .raw) (.inl rfl) [(2011, 71)] ys).1 ⟨20, hg⟩
  have hfine : ∀ r, fine r = true → doAllFixups typedSources.fixups r.identifier r.body = .ok r.body ∧ ¬ LongTitle r.body ∧
      ∃ a, Produces typedSources .structureOnly r (.structureOnly a) ∧ ∀ c ∈ a.children, c.type = .article := by
    intro r hr
    obtain ⟨h1, h2⟩ := Bool.and_eq_true_iff.mp hr
    refine ⟨rfl, ?_, ?_⟩
    · rintro ⟨before, a, b, c, after, hb, ha, -⟩
      have := List.all_eq_true.mp h1 a (by rw [hb]; simp)
      rw [ha] at this
      cases this
    · split at h2
      · rename_i a ha
        exact ⟨a, ⟨r.body, a, rfl, ha, rfl⟩, fun c hc => by simpa using List.all_eq_true.mp h2 c hc⟩
      · cases h2
  revert hg
  generalize (typedSources.pipeline .raw).doWork 20 [.issue ⟨2011, 71⟩] = g at h
  intro hg
  split at h
  · rename_i r r'
    obtain ⟨f1, f2⟩ := Bool.and_eq_true_iff.mp h
    obtain ⟨outs, ⟨pdfs, laws, k1, k2, k3⟩, ho⟩ := hg _ rfl
    obtain rfl : outs = [.raw r', .raw r] := by rw [← List.reverse_reverse outs, ← ho]; rfl
    cases k1 with
    | cons hp k1 =>
      cases k1
      cases k2 with
      | @cons _ l _ _ hl k2 =>
        cases k2
        simp only [List.flatten_cons, List.flatten_nil, List.append_nil] at k3
        dsimp only [typedSources] at hp
        rw [if_pos rfl] at hp
        cases k3 with
        | @cons x _ _ _ e1 k3 =>
          cases k3 with
          | @cons y _ _ _ e2 k3 =>
            cases k3
            have e1 : Extracted.raw r' = .raw x := e1
            have e2 : Extracted.raw r = .raw y := e2
            cases e1
            cases e2
            refine ⟨_, _, hp, hl, rfl, ?_⟩
            intro q hq
            simp only [List.mem_cons, List.not_mem_nil, or_false] at hq
            rcases hq with rfl | rfl
            · exact hfine _ f2
            · exact hfine _ f1
  · cases h

end Verif.Props
