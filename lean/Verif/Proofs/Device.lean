import Verif.Spec.Device
import Verif.Proofs.Pdf
import Verif.Proofs.Semantics
import Verif.Proofs.Pipeline

/-! # Proofs about drawn characters (C91, C92) -/

namespace Verif
open Spec

theorem replace_letter (a b : Char) : ∀ s : Str, replaceAll [a] [b] s = s.map fun c => if c = a then b else c
  | [] => rfl
  | c :: s => by
    have ih := replace_letter a b s
    unfold replaceAll at ih ⊢
    rw [replaceAux, List.map_cons]
    by_cases h : c = a
    · subst h
      simp [List.isPrefixOf, ih]
    · have : [a].isPrefixOf (c :: s) = false := by
        simp only [List.isPrefixOf, Bool.and_true, beq_eq_false_iff_ne]
        exact fun e => h e.symm
      rw [this, if_neg (by simp), if_neg h, ih]

theorem letters_replaced (s : Str) :
    replaceAll (py"û") (py"ű") (replaceAll (py"Û") (py"Ű") (replaceAll (py"õ") (py"ő") (replaceAll (py"Õ") (py"Ő") s))) =
      s.map hungarianLetter := by
  rw [replace_letter, replace_letter, replace_letter, replace_letter]
  simp only [List.map_map]
  congr 1
  funext c
  simp only [Function.comp_apply, hungarianLetter]
  by_cases h1 : c = 'Õ'
  · subst h1; decide
  by_cases h2 : c = 'õ'
  · subst h2; decide
  by_cases h3 : c = 'Û'
  · subst h3; decide
  by_cases h4 : c = 'û'
  · subst h4; decide
  simp [h1, h2, h3, h4]

theorem hungarianLetter_ne (c : Char) : hungarianLetter c ≠ 'Õ' ∧ hungarianLetter c ≠ 'õ' ∧ hungarianLetter c ≠ 'Û' ∧ hungarianLetter c ≠ 'û' := by
  unfold hungarianLetter
  by_cases h1 : c = 'Õ'
  · subst h1; decide
  by_cases h2 : c = 'õ'
  · subst h2; decide
  by_cases h3 : c = 'Û'
  · subst h3; decide
  by_cases h4 : c = 'û'
  · subst h4; decide
  simp [h1, h2, h3, h4]

theorem namedBy_iff {font : Font} {cid : Int} {raw : Str} : NamedBy font cid raw ↔ raw = (font.toUnichr cid).getD (py"[X]") := by
  unfold NamedBy
  cases font.toUnichr cid with
  | none => simp
  | some t => simp [eq_comm]

theorem chrLatin2_ok {n : Int} (h0 : 0 ≤ n) (h1 : n < 256) : ∃ c, chrLatin2 n = .ok c := by
  unfold chrLatin2
  rw [if_neg (by omega)]
  by_cases h : n < 160
  · exact ⟨_, if_pos h⟩
  · exact ⟨_, if_neg h⟩

theorem chrLatin2_error {n : Int} (h : n < 0 ∨ 256 ≤ n) : chrLatin2 n = .error .valueError := by
  unfold chrLatin2
  rw [if_pos (by omega)]

theorem fixCase_spec (u : CharData) {cid : Int} (h0 : 0 ≤ cid) (raw : Str) :
    ∃ t, fixCase u cid raw = .ok t ∧ ((∃ c, CaseOf u cid raw c ∧ t = [c]) ∨ ((∀ c, ¬ CaseOf u cid raw c) ∧ t = raw)) := by
  unfold fixCase CaseOf
  by_cases h : cid < 256
  · obtain ⟨c, hc⟩ := chrLatin2_ok h0 h
    rw [if_pos h, hc]
    show ∃ t, (if [c] ≠ raw ∧ u.upper [c] = u.upper raw then Except.ok [c] else Except.ok raw) = Except.ok t ∧ _
    by_cases hu : u.upper [c] = u.upper raw
    · by_cases hr : [c] = raw
      · refine ⟨raw, if_neg (by simp [hr]), .inl ⟨c, ⟨rfl, hu⟩, hr.symm⟩⟩
      · exact ⟨[c], if_pos ⟨hr, hu⟩, .inl ⟨c, ⟨rfl, hu⟩, rfl⟩⟩
    · refine ⟨raw, if_neg (by simp [hu]), .inr ⟨?_, rfl⟩⟩
      rintro d ⟨hd, hud⟩
      cases hd
      exact hu hud
  · rw [if_neg h, chrLatin2_error (by omega)]
    exact ⟨raw, rfl, .inr ⟨fun c hc => (by cases hc.1), rfl⟩⟩

theorem glyph_unique {u : CharData} {font : Font} {cid : Int} {s t : Str} (hs : Glyph u font cid s) (ht : Glyph u font cid t) :
    s = t := by
  obtain ⟨r, hr, hs⟩ := hs
  obtain ⟨r', hr', ht⟩ := ht
  rw [namedBy_iff] at hr hr'
  subst hr
  subst hr'
  rcases hs with ⟨c, hc, rfl⟩ | ⟨hn, rfl⟩ <;> rcases ht with ⟨d, hd, rfl⟩ | ⟨hn', rfl⟩
  · have := hc.1.symm.trans hd.1
    cases this
    rfl
  · exact absurd hc (hn' c)
  · exact absurd hd (hn d)
  · rfl

theorem cidToString_negative {u : CharData} {font : Font} {cid : Int} (h : cid < 0) : cidToString u font cid = .error .valueError := by
  unfold cidToString fixCase
  dsimp only
  rw [if_pos (by omega), chrLatin2_error (.inl h)]
  rfl

theorem cidToString_spec (u : CharData) (font : Font) {cid : Int} (h0 : 0 ≤ cid) :
    ∃ text, cidToString u font cid = .ok text ∧ Glyph u font cid text := by
  obtain ⟨t, h1, h2⟩ := fixCase_spec u h0 ((font.toUnichr cid).getD (py"[X]"))
  refine ⟨t.map hungarianLetter, ?_, _, namedBy_iff.mpr rfl, ?_⟩
  · unfold cidToString
    dsimp only
    rw [h1]
    show Except.ok _ = Except.ok _
    rw [letters_replaced]
  · rcases h2 with ⟨c, hc, rfl⟩ | ⟨hn, rfl⟩
    · exact .inl ⟨c, hc, rfl⟩
    · exact .inr ⟨hn, rfl⟩

theorem roundEven_spec (q : Rat) : q - (roundEven q : Rat) ≤ 1/2 ∧ (roundEven q : Rat) - q ≤ 1/2 ∧
    (q - (roundEven q : Rat) = 1/2 ∨ (roundEven q : Rat) - q = 1/2 → roundEven q % 2 = 0) := by
  have h1 := Rat.floor_le q
  have h2 := Rat.lt_floor_add_one q
  rw [Rat.intCast_add] at h2
  have e1 : ((1 : Int) : Rat) = 1 := rfl
  rw [e1] at h2
  unfold roundEven
  dsimp only
  generalize hn : q.floor = n at *
  by_cases g1 : q - (n : Rat) < 1/2
  · rw [if_pos g1]
    refine ⟨by grind, by grind, fun h => ?_⟩
    exfalso
    clear hn
    generalize (n : Rat) = r at *
    rcases h with h | h <;> have h' := Std.le_of_eq h <;> have h'' := Std.le_of_eq h.symm <;> clear h <;> grind
  · rw [if_neg g1]
    by_cases g2 : q - (n : Rat) > 1/2
    · rw [if_pos g2, Rat.intCast_add, e1]
      refine ⟨by grind, by grind, fun h => ?_⟩
      exfalso
      clear hn
      generalize (n : Rat) = r at *
      rcases h with h | h <;> have h' := Std.le_of_eq h <;> have h'' := Std.le_of_eq h.symm <;> clear h <;> grind
    · rw [if_neg g2]
      by_cases g3 : n % 2 = 0
      · rw [if_pos g3]
        exact ⟨by grind, by grind, fun _ => g3⟩
      · rw [if_neg g3, Rat.intCast_add, e1]
        exact ⟨by grind, by grind, fun _ => by omega⟩

theorem round3_spec (q : Rat) : Thousandths q (round3 q) := by
  obtain ⟨h1, h2, h3⟩ := roundEven_spec (q * 1000)
  refine ⟨roundEven (q * 1000), rfl, ?_, ?_, ?_⟩ <;> unfold round3
  · grind
  · grind
  · intro h
    apply h3
    grind

theorem isFontBold_iff (font : Font) : isFontBold font = true ↔ BoldFont font := by
  unfold isFontBold BoldFont
  rw [Bool.or_eq_true, isInfix_iff, isInfix_iff]

theorem spaceWidth_spec (font : Font) : SpaceOf font (spaceWidth font) := by
  unfold SpaceOf spaceWidth
  by_cases h : font.charWidth 32 = 1 ∨ font.charWidth 32 = 0
  · rw [if_pos h]
    exact .inr ⟨rfl, h.symm⟩
  · rw [if_neg h]
    exact .inl ⟨rfl, fun e => h (.inr e), fun e => h (.inl e)⟩

theorem spaceOf_unique {font : Font} {w w' : Rat} (h : SpaceOf font w) (h' : SpaceOf font w') : w = w' := by
  unfold SpaceOf at h h'
  grind

theorem thousandths_unique {q y y' : Rat} (h : Thousandths q y) (h' : Thousandths q y') : y = y' := by
  obtain ⟨n, rfl, a1, a2, a3⟩ := h
  obtain ⟨m, rfl, b1, b2, b3⟩ := h'
  have e : ((n - m : Int) : Rat) = n - m := Rat.intCast_sub n m
  have k1 : ((n - m : Int) : Rat) ≤ ((1 : Int) : Rat) := by
    rw [e]
    have : ((1 : Int) : Rat) = 1 := rfl
    grind
  have k2 : ((-1 : Int) : Rat) ≤ ((n - m : Int) : Rat) := by
    rw [e]
    have : ((-1 : Int) : Rat) = -1 := rfl
    grind
  rw [Rat.intCast_le_intCast] at k1 k2
  by_cases hnm : n = m
  · rw [hnm]
  · have : n = m + 1 ∨ m = n + 1 := by omega
    have e1 : ((1 : Int) : Rat) = 1 := rfl
    rcases this with rfl | rfl
    · rw [Rat.intCast_add, e1] at a1 a2 a3
      have c1 := a3 (.inr (by grind))
      have c2 := b3 (.inl (by grind))
      omega
    · rw [Rat.intCast_add, e1] at b1 b2 b3
      have c1 := a3 (.inl (by grind))
      have c2 := b3 (.inr (by grind))
      omega

/-- What a box event does to the device. -/
def Device.add (d : Device) (boxes : List TextBox) : Device := { d with current := d.current ++ boxes }

theorem all_space {text : Str} : text.all isSpace = true ↔ ¬ ∃ c ∈ text, isSpace c = false := by
  rw [List.all_eq_true]
  constructor
  · rintro h ⟨c, hc, hs⟩
    rw [h c hc] at hs
    cases hs
  · intro h c hc
    cases hs : isSpace c with
    | true => rfl
    | false => exact absurd ⟨c, hc, hs⟩ h

theorem draws_char_unique {u : CharData} {matrix : Matrix} {font : Font} {fontsize scaling rise : Rat} {cid : Int}
    {xs ys : List TextBox} (hx : Draws u (.char matrix font fontsize scaling rise cid) xs)
    (hy : Draws u (.char matrix font fontsize scaling rise cid) ys) : xs = ys := by
  obtain ⟨_, s, hs, -, hx⟩ := hx
  obtain ⟨_, t, ht, -, hy⟩ := hy
  obtain rfl := glyph_unique hs ht
  rcases hx with ⟨h1, rfl⟩ | ⟨h1, a, rfl, a1, a2, a3, a4, ⟨w, a5, a6⟩, a7⟩ <;>
    rcases hy with ⟨h2, rfl⟩ | ⟨h2, b, rfl, b1, b2, b3, b4, ⟨w', b5, b6⟩, b7⟩
  · rfl
  · exact absurd h2 h1
  · exact absurd h1 h2
  · congr 1
    obtain rfl := spaceOf_unique a5 b5
    have hy := thousandths_unique a3 b3
    have hb : a.bold = b.bold := by
      rw [Bool.eq_iff_iff, a7, b7]
    cases a
    cases b
    simp_all

/-- `render_char` in terms of what is drawn. -/
theorem renderChar_spec (u : CharData) (d : Device) (matrix : Matrix) (font : Font) (fontsize scaling rise : Rat) (cid : Int) :
    (cid < 0 ∧ d.renderChar u matrix font fontsize scaling rise cid = .error .valueError) ∨
    (0 ≤ cid ∧ Glyph u font cid [] ∧ d.renderChar u matrix font fontsize scaling rise cid = .error .indexError) ∨
    ∃ boxes, Draws u (.char matrix font fontsize scaling rise cid) boxes ∧
      d.renderChar u matrix font fontsize scaling rise cid = .ok (d.add boxes, font.charWidth cid * fontsize * scaling) := by
  by_cases h0 : cid < 0
  · left
    refine ⟨h0, ?_⟩
    unfold Device.renderChar
    rw [cidToString_negative h0]
    rfl
  · right
    have h0 : 0 ≤ cid := by omega
    obtain ⟨text, h1, h2⟩ := cidToString_spec u font h0
    unfold Device.renderChar
    rw [h1]
    cases text with
    | nil => exact .inl ⟨h0, h2, rfl⟩
    | cons c rest =>
      right
      dsimp only [bind, Except.bind]
      have hadd : d.add [] = d := by cases d; simp [Device.add]
      by_cases hc : u.category c = (py"Co") ∨ u.category c = (py"Cf")
      · refine ⟨[], ⟨h0, _, h2, by simp, .inl ⟨?_, rfl⟩⟩, ?_⟩
        · rintro ⟨h, -⟩
          have := h c rfl
          grind
        · rw [if_pos hc, hadd]
      · rw [if_neg hc]
        by_cases hs : (c :: rest).all isSpace = true
        · refine ⟨[], ⟨h0, _, h2, by simp, .inl ⟨?_, rfl⟩⟩, ?_⟩
          · rintro ⟨-, h⟩
            exact all_space.mp hs h
          · rw [if_pos hs, hadd]
        · rw [if_neg hs]
          refine ⟨_, ⟨h0, _, h2, by simp, .inr ⟨⟨?_, ?_⟩, _, rfl, rfl, rfl, round3_spec _, rfl, ⟨_, spaceWidth_spec font, rfl⟩, isFontBold_iff font⟩⟩, rfl⟩
          · intro x hx
            cases hx
            grind
          · apply Classical.byContradiction
            intro h
            exact hs (all_space.mpr h)

/-- An event of the device. -/
theorem event_spec (u : CharData) (d : Device) (e : DrawEvent) :
    (e = .beginPage ∧ d.event u e = .ok d.beginPage) ∨ (∃ boxes, Draws u e boxes ∧ d.event u e = .ok (d.add boxes)) ∨
    ∃ matrix font fontsize scaling rise cid, e = .char matrix font fontsize scaling rise cid ∧
      ((cid < 0 ∧ d.event u e = .error .valueError) ∨ (0 ≤ cid ∧ Glyph u font cid [] ∧ d.event u e = .error .indexError)) := by
  cases e with
  | beginPage => exact .inl ⟨rfl, rfl⟩
  | endPage =>
    refine .inr (.inl ⟨[], rfl, ?_⟩)
    cases d
    simp [Device.event, Device.add]
  | char matrix font fontsize scaling rise cid =>
    right
    rw [Device.event]
    rcases renderChar_spec u d matrix font fontsize scaling rise cid with ⟨h, hr⟩ | ⟨h, hg, hr⟩ | ⟨boxes, hb, hr⟩
    · exact .inr ⟨_, _, _, _, _, _, rfl, .inl ⟨h, by rw [hr]; rfl⟩⟩
    · exact .inr ⟨_, _, _, _, _, _, rfl, .inr ⟨h, hg, by rw [hr]; rfl⟩⟩
    · exact .inl ⟨boxes, hb, by rw [hr]; rfl⟩

theorem draws_unique {u : CharData} {e : DrawEvent} {xs ys : List TextBox} (hx : Draws u e xs) (hy : Draws u e ys) : xs = ys := by
  cases e with
  | beginPage => exact hx.elim
  | endPage => exact Eq.trans hx hy.symm
  | char => exact draws_char_unique hx hy

/-- An event that draws something changes the device accordingly. -/
theorem event_draws {u : CharData} {d : Device} {e : DrawEvent} {boxes : List TextBox} (h : Draws u e boxes) :
    d.event u e = .ok (d.add boxes) := by
  rcases event_spec u d e with ⟨rfl, -⟩ | ⟨xs, hx, hr⟩ | ⟨m, f, s, sc, r, cid, rfl, hbad⟩
  · exact h.elim
  · rw [hr, draws_unique hx h]
  · obtain ⟨h0, t, ht, hne, -⟩ := h
    rcases hbad with ⟨hc, -⟩ | ⟨-, hg, -⟩
    · omega
    · exact absurd (glyph_unique ht hg) hne

/-- What a sequence of events without a new page does. -/
theorem run_page {u : CharData} : ∀ {es : List DrawEvent} {boxes : List TextBox} {d : Device} {rest : List DrawEvent},
    DrawsPage u es boxes → Device.run u d (es ++ rest) = Device.run u (d.add boxes) rest
  | [], boxes, d, rest, h => by
    obtain ⟨parts, hb, rfl⟩ := h
    cases hb
    cases d
    simp [Device.add]
  | e :: es, boxes, d, rest, h => by
    obtain ⟨parts, hb, rfl⟩ := h
    cases hb with
    | cons h1 h2 =>
      rename_i b bs
      rw [List.cons_append, Device.run, event_draws h1]
      show Device.run u (d.add b) (es ++ rest) = _
      rw [run_page ⟨bs, h2, rfl⟩]
      congr 1
      cases d
      simp [Device.add]

theorem run_pages {u : CharData} : ∀ {drawn : List (List DrawEvent)} {pages : List (List TextBox)} {d : Device},
    Both (DrawsPage u) drawn pages →
      ∃ d', Device.run u d (drawn.flatMap (.beginPage :: ·)) = .ok d' ∧ d'.pages = d.pages ++ pages
  | [], pages, d, h => by
    cases h
    exact ⟨d, rfl, by simp⟩
  | es :: drawn, pages, d, h => by
    cases h with
    | cons h1 h2 =>
      rename_i b bs
      obtain ⟨d', h3, h4⟩ := run_pages (d := d.beginPage.add b) h2
      refine ⟨d', ?_, ?_⟩
      · rw [List.flatMap_cons, List.cons_append, Device.run]
        show Device.run u d.beginPage (es ++ _) = _
        rw [run_page h1, h3]
      · rw [h4]
        simp [Device.beginPage, Device.add, Device.pages]

/-- Every run that ends is of that form. -/
theorem run_ok {u : CharData} : ∀ {es : List DrawEvent} {d d' : Device}, Device.run u d es = .ok d' →
    ∃ first boxes drawn pages, es = first ++ drawn.flatMap (.beginPage :: ·) ∧ DrawsPage u first boxes ∧
      Both (DrawsPage u) drawn pages
  | [], _, _, _ => ⟨[], [], [], [], rfl, ⟨[], .nil, rfl⟩, .nil⟩
  | e :: es, d, d', h => by
    rw [Device.run] at h
    obtain ⟨d1, h1, h⟩ := resBind_ok h
    obtain ⟨first, boxes, drawn, pages, rfl, hf, hp⟩ := run_ok h
    rcases event_spec u d e with ⟨rfl, -⟩ | ⟨xs, hx, -⟩ | ⟨m, f, s, sc, r, cid, rfl, hbad⟩
    · exact ⟨[], [], first :: drawn, boxes :: pages, by simp, ⟨[], .nil, rfl⟩, .cons hf hp⟩
    · obtain ⟨parts, hb, rfl⟩ := hf
      exact ⟨e :: first, _, drawn, pages, by simp, ⟨xs :: parts, .cons hx hb, rfl⟩, hp⟩
    · rcases hbad with ⟨-, he⟩ | ⟨-, -, he⟩ <;> rw [he] at h1 <;> cases h1

theorem run_error {u : CharData} : ∀ {es : List DrawEvent} {d : Device} {err : Err}, Device.run u d es = .error err ↔
    ∃ before e after, es = before ++ e :: after ∧ StopsWith u e err ∧ ∀ x ∈ before, ∀ err', ¬ StopsWith u x err'
  | [], d, err => by
    rw [Device.run]
    constructor
    · intro h; cases h
    · rintro ⟨before, e, after, h, -⟩
      cases before <;> cases h
  | e :: es, d, err => by
    rw [Device.run]
    have hcase : (∃ d1, d.event u e = .ok d1 ∧ ∀ err', ¬ StopsWith u e err') ∨
        ∃ err', d.event u e = .error err' ∧ StopsWith u e err' ∧ ∀ err'', StopsWith u e err'' → err'' = err' := by
      rcases event_spec u d e with ⟨rfl, he⟩ | ⟨xs, hx, he⟩ | ⟨m, f, s, sc, r, cid, rfl, hbad⟩
      · exact .inl ⟨_, he, by rintro err' ⟨_, _, _, _, _, _, h, -⟩; cases h⟩
      · refine .inl ⟨_, he, ?_⟩
        rintro err' ⟨m, f, s, sc, r, cid, rfl, hbad⟩
        obtain ⟨h0, t, ht, hne, -⟩ := hx
        rcases hbad with ⟨hc, -⟩ | ⟨-, hg, -⟩
        · omega
        · exact hne (glyph_unique ht hg)
      · right
        rcases hbad with ⟨hc, he⟩ | ⟨hc, hg, he⟩
        · refine ⟨_, he, ⟨_, _, _, _, _, _, rfl, .inl ⟨hc, rfl⟩⟩, ?_⟩
          rintro err'' ⟨_, _, _, _, _, _, h, hb⟩
          cases h
          rcases hb with ⟨-, rfl⟩ | ⟨h0, -⟩
          · rfl
          · omega
        · refine ⟨_, he, ⟨_, _, _, _, _, _, rfl, .inr ⟨hc, hg, rfl⟩⟩, ?_⟩
          rintro err'' ⟨_, _, _, _, _, _, h, hb⟩
          cases h
          rcases hb with ⟨h0, -⟩ | ⟨-, -, rfl⟩
          · omega
          · rfl
    rcases hcase with ⟨d1, he, hno⟩ | ⟨err', he, hs, huniq⟩
    · rw [he]
      show Device.run u d1 es = _ ↔ _
      rw [run_error]
      constructor
      · rintro ⟨before, x, after, rfl, h1, h2⟩
        refine ⟨e :: before, x, after, rfl, h1, ?_⟩
        intro y hy
        rcases List.mem_cons.mp hy with rfl | hy
        · exact hno
        · exact h2 y hy
      · rintro ⟨before, x, after, h, h1, h2⟩
        cases before with
        | nil =>
          cases h
          exact absurd h1 (hno _)
        | cons b before =>
          cases h
          exact ⟨before, x, after, rfl, h1, fun y hy => h2 y (List.mem_cons_of_mem _ hy)⟩
    · rw [he]
      constructor
      · intro h
        cases h
        exact ⟨[], e, es, rfl, hs, by simp⟩
      · rintro ⟨before, x, after, h, h1, h2⟩
        cases before with
        | nil =>
          cases h
          rw [huniq _ h1]
          rfl
        | cons b before =>
          cases h
          exact absurd hs (h2 _ List.mem_cons_self _)

/-- The right margin of a line. -/
theorem lineLoop_margin (rightmost : Rat) : ∀ (boxes : List TextBox) (b : TextBox) (s : LineState) (line : Line),
    lineLoop rightmost s (boxes ++ [b]) = .ok line → line.marginRight = rightmost - (b.x - b.width)
  | [], b, s, line, h => by
    rw [List.nil_append, lineLoop] at h
    obtain ⟨s', -, h⟩ := resBind_ok h
    rw [lineLoop] at h
    cases h
    rfl
  | a :: boxes, b, s, line, h => by
    rw [List.cons_append, lineLoop] at h
    obtain ⟨s', -, h⟩ := resBind_ok h
    exact lineLoop_margin rightmost boxes b _ line h

theorem rowLines_margin (rightmost : Rat) : ∀ {rows : List (Rat × List TextBox)} {lines : List (Rat × Line)},
    rowLines rightmost rows = .ok lines → Both (fun r l => ∀ b, r.2.getLast? = some b → l.2.marginRight = rightmost - (b.x - b.width)) rows lines
  | [], lines, h => by
    cases h
    exact .nil
  | r :: rows, lines, h => by
    rw [rowLines] at h
    obtain ⟨line, h1, h⟩ := resBind_ok h
    obtain ⟨lines', h2, h⟩ := resBind_ok h
    cases h
    refine .cons ?_ (rowLines_margin rightmost h2)
    intro b hb
    obtain ⟨front, hf⟩ := List.getLast?_eq_some_iff.mp hb
    rw [hf] at h1
    exact lineLoop_margin rightmost front b {} line h1

end Verif
