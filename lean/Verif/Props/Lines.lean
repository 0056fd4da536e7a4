import Verif.Proofs.Line

/-! # Properties C09, C10, C11, C12, C13, C62: lines -/

namespace Verif.Props

open Verif Verif.Line

/-! ## C09: slicing text -/

theorem pyBound_eq (n : Nat) (k : Int) : pyBound n k = min (if k < 0 then (n : Int) + k else k).toNat n := by
  unfold pyBound
  by_cases h : k < 0
  · rw [if_pos h, if_pos h]; omega
  · rw [if_neg h, if_neg h]

theorem pySlice_empty {α : Type} (xs : List α) (a b : Int)
    (h : (if b < 0 then (xs.length : Int) + b else b) ≤ (if a < 0 then (xs.length : Int) + a else a)) :
    pySlice xs a b = [] := by
  unfold pySlice
  apply List.drop_eq_nil_of_le
  rw [List.length_take, pyBound_eq, pyBound_eq]
  omega

theorem slice_full {α : Type} (xs : List α) (a b : Int)
    (ha : (if a < 0 then (xs.length : Int) + a else a) = 0) (hb : (if b < 0 then (xs.length : Int) + b else b) = xs.length) :
    pySlice xs a b = xs := by
  unfold pySlice
  rw [pyBound_eq, pyBound_eq, ha, hb]
  simp

/-- C09. The text of a slice is the slice of the text, provided the start is not inside the last part.
(`_partial`: if it is, the slice silently comes out empty, see `slice_loses_last_part`.) -/
theorem slice_text_partial (l r : Line) (start : Int) (stop : Option Int) (h : l.slice start stop = .ok r)
    (hin : ¬ Spec.InsideLastPart l (pyBound l.content.length start)) :
    r.content = pySlice l.content start (stop.getD l.content.length) := by
  rw [slice_eq] at h
  generalize hs : stop.getD l.content.length = b at h ⊢
  by_cases h1 : l.adjust start = 0 ∧ l.adjust b = l.content.length
  · rw [if_pos h1] at h
    obtain rfl : l = r := by simpa using h
    exact (slice_full l.content start b h1.1 h1.2).symm
  · rw [if_neg h1] at h
    by_cases h2 : l.adjust b ≤ l.adjust start
    · rw [if_pos h2] at h
      obtain rfl : emptyLine = r := by simpa using h
      rw [pySlice_empty l.content start b h2]
      rfl
    · rw [if_neg h2] at h
      have bound : ∀ k : Int, pyBound l.content.length k = min (l.adjust k).toNat l.content.length := pyBound_eq _
      rcases sliceMain_cases l (l.adjust start) (l.adjust b) (by omega) with
        ⟨pre, p, hp, hlt, he⟩ | ⟨hp, he⟩ | ⟨_, he⟩ | ⟨_, he⟩ | ⟨pre, f, more, left, hp, ha, hb, he⟩
      · rw [he] at h
        obtain rfl : emptyLine = r := by simpa using h
        have hlen : l.content.length ≤ pyBound l.content.length start := by
          by_cases hh : l.content.length ≤ (l.adjust start).toNat
          · rw [bound start]; omega
          · exfalso
            apply hin
            refine ⟨pre, p, hp, ?_, ?_⟩ <;> rw [bound start]
            · have : (pre.flatMap (·.content)).length = (ptext pre).length := rfl
              omega
            · omega
        have : pySlice l.content start b = [] := by
          unfold pySlice
          apply List.drop_eq_nil_of_le
          rw [List.length_take]; omega
        rw [this]; rfl
      · rw [he] at h
        obtain rfl : emptyLine = r := by simpa using h
        have : l.content = [] := by simp [Line.content, hp]
        rw [this]
        simp [pySlice]
        rfl
      · rw [he] at h; cases h
      · rw [he] at h; cases h
      · rw [he] at h
        have hr := (Except.ok.inj h).symm
        have hc : l.content = ptext pre ++ ptext (f :: more) ++ ptext left := by
          unfold Line.content
          rw [hp]
          simp [ptext]
        have hlb : ((ptext pre ++ ptext (f :: more)).length : Int) = l.adjust b := by
          rw [← ptext_append]; exact hb
        have hlc : l.content.length = (ptext pre ++ ptext (f :: more)).length + (ptext left).length := by
          rw [hc, List.length_append]
        have hla : (ptext pre ++ ptext (f :: more)).length = (ptext pre).length + (ptext (f :: more)).length :=
          List.length_append
        have bs : pyBound l.content.length start = (ptext pre).length := by rw [bound start]; omega
        have bb : pyBound l.content.length b = (ptext pre ++ ptext (f :: more)).length := by
          rw [bound b]; omega
        unfold pySlice
        rw [bs, bb, hc, List.take_left, List.drop_left, hr]
        simp [Line.content, ptext]

example : ∃ r, (Line.mk [⟨5, py"a", false⟩, ⟨3, py"bc", false⟩, ⟨3, py"d", true⟩] 0).slice (-3) (some 3) = .ok r ∧
    r.content = py"bc" := ⟨⟨[⟨8, py"bc", false⟩], 20⟩, by decide +kernel, by decide⟩

example : ¬ Spec.InsideLastPart (Line.mk [⟨5, py"a", false⟩, ⟨3, py"bc", false⟩] 0) 1 := by
  rintro ⟨pre, last, h, h1, h2⟩
  match pre, h with
  | [x], h =>
    simp at h
    rw [← h.1] at h1
    simp at h1
  | [], h => simp at h
  | _ :: _ :: _, h => simp at h

/-- C09. The code violates the property: a slice that begins inside the last part is silently empty, and its text
disappears. -/
theorem slice_loses_last_part : ∃ l : Line, ∃ start, l.slice start = .ok emptyLine ∧
    pySlice l.content start l.content.length = py"c" :=
  ⟨⟨[⟨0, py"a", false⟩, ⟨1, py"bc", false⟩], 0⟩, 2, by decide +kernel, by decide⟩

/-- C09. If the start is inside the last part, the result is always the empty line. -/
theorem slice_inside_last_part (l : Line) (start stop : Nat) (h : Spec.InsideLastPart l start) (hs : start < stop)
    : l.slice start (some stop) = .ok emptyLine := by
  obtain ⟨pre, last, hp, h1, h2⟩ := h
  have hn : ∀ k : Nat, l.adjust k = k := fun k => by unfold adjust; split <;> omega
  rw [slice_eq]
  simp only [Option.getD_some, hn]
  rw [if_neg (by omega), if_neg (by omega)]
  obtain ⟨pr, rest, e1, e2, e3, e4⟩ := skipLoop_spec start l.parts 0 0
  have hrest : rest = [] := by
    apply Classical.byContradiction
    intro hne
    have hge := e3 hne
    rcases List.eq_nil_or_concat rest with rfl | ⟨rs, z, rfl⟩
    · exact hne rfl
    · rw [List.concat_eq_append, ← List.append_assoc, hp] at e1
      have := (List.append_inj' e1 rfl).1
      have hl : (ptext pr).length ≤ (ptext pre).length := by
        rw [this, ptext_append, List.length_append]; omega
      change (ptext pre).length < start at h1
      omega
  subst hrest
  unfold sliceMain
  rw [e2]

/-- C09. Within the text, and with the start not inside the last part, a slice succeeds exactly if both bounds are
borders between parts; otherwise it is refused with ValueError. -/
theorem slice_succeeds_iff (l : Line) (a b : Nat) (hab : a < b) (hb : b ≤ l.content.length)
    (hin : ¬ Spec.InsideLastPart l a) :
    (Spec.Border l a ∧ Spec.Border l b → ∃ r, l.slice a (some b) = .ok r) ∧
    (¬ (Spec.Border l a ∧ Spec.Border l b) → l.slice a (some b) = .error .valueError) := by
  have hn : ∀ k : Nat, l.adjust k = k := fun k => by unfold adjust; split <;> omega
  rw [slice_eq]
  simp only [Option.getD_some, hn]
  by_cases h1 : (a : Int) = 0 ∧ (b : Int) = l.content.length
  · rw [if_pos h1]
    refine ⟨fun _ => ⟨l, rfl⟩, fun h => absurd ⟨?_, ?_⟩ h⟩
    · exact ⟨[], l.parts, rfl, by simp; omega⟩
    · exact ⟨l.parts, [], by simp, by have : (l.parts.flatMap (·.content)).length = l.content.length := rfl; omega⟩
  · rw [if_neg h1, if_neg (by omega)]
    rcases sliceMain_cases l a b (by omega) with
      ⟨pre, p, hp, hlt, he⟩ | ⟨hp, he⟩ | ⟨hbad, he⟩ | ⟨hbad, he⟩ | ⟨pre, f, more, left, hp, ha, hb', he⟩
    · exfalso
      apply hin
      refine ⟨pre, p, hp, ?_, by omega⟩
      have : (pre.flatMap (·.content)).length = (ptext pre).length := rfl
      omega
    · have : l.content = [] := by simp [Line.content, hp]
      rw [this] at hb
      simp at hb; omega
    · rw [he]
      exact ⟨fun h => absurd ⟨by omega, by simpa using h.1⟩ hbad, fun _ => rfl⟩
    · rw [he]
      exact ⟨fun h => absurd ⟨by omega, by simpa using h.2⟩ hbad, fun _ => rfl⟩
    · rw [he]
      refine ⟨fun _ => ⟨_, rfl⟩, fun h => absurd ⟨?_, ?_⟩ h⟩
      · exact ⟨pre, (f :: more) ++ left, by rw [hp]; simp, by change (ptext pre).length = a; omega⟩
      · exact ⟨pre ++ (f :: more), left, hp, by change (ptext (pre ++ f :: more)).length = b; omega⟩

example : (Line.mk [⟨5, py"a", false⟩, ⟨3, py"bc", false⟩, ⟨3, py"d", true⟩] 0).slice 2 = .error .valueError := by
  decide +kernel

/-! ## C10: slicing keeps places -/

/-- C10. What remains of a line after slicing stands where it stood, with the same weight: the placed parts of the
slice are consecutive placed parts of the line, those before them hold exactly the text before the start, and the right
margin grows by the parts cut off at the end only. -/
theorem slice_keeps_places (l r : Line) (start : Int) (stop : Option Int) (h : l.slice start stop = .ok r)
    (hr : r ≠ emptyLine) :
    ∃ pre post, Spec.place 0 l.parts = pre ++ Spec.place 0 r.parts ++ post ∧
      (Spec.placedText pre).length = pyBound l.content.length start ∧
      r.marginRight = l.marginRight + 20 * (post.length : Rat) := by
  rw [slice_eq] at h
  generalize hs : stop.getD l.content.length = b at h
  by_cases h1 : l.adjust start = 0 ∧ l.adjust b = l.content.length
  · rw [if_pos h1] at h
    obtain rfl : l = r := by simpa using h
    refine ⟨[], [], by simp, ?_, by simp [Rat.mul_zero, Rat.add_zero]⟩
    have := h1.1
    unfold adjust at this
    rw [pyBound_eq, this]
    simp [Spec.placedText]
  · rw [if_neg h1] at h
    by_cases h2 : l.adjust b ≤ l.adjust start
    · rw [if_pos h2] at h
      exact absurd (by simpa using h.symm) hr
    · rw [if_neg h2] at h
      rcases sliceMain_cases l (l.adjust start) (l.adjust b) (by omega) with
        ⟨pre, p, hp, hlt, he⟩ | ⟨hp, he⟩ | ⟨_, he⟩ | ⟨_, he⟩ | ⟨pre, f, more, left, hp, ha, hb, he⟩
      · rw [he] at h; exact absurd (by simpa using h.symm) hr
      · rw [he] at h; exact absurd (by simpa using h.symm) hr
      · rw [he] at h; cases h
      · rw [he] at h; cases h
      · rw [he] at h
        have hr := (Except.ok.inj h).symm
        have hpl : ∀ x (ps : List Part), (Spec.place x ps).length = ps.length := by
          intro x ps
          induction ps generalizing x with
          | nil => rfl
          | cons p ps ih => simp [Spec.place, ih]
        refine ⟨Spec.place 0 pre, Spec.place (0 + ((pre ++ f :: more).map (·.dx)).sum) left, ?_, ?_, ?_⟩
        · rw [hp, place_append, place_append, hr]
          congr 2
          simp only [Spec.place, Rat.zero_add]
          rw [Rat.add_comm]
        · rw [place_text]
          have hc : l.content.length = (ptext (pre ++ f :: more)).length + (ptext left).length := by
            rw [← List.length_append, ← ptext_append, ← hp]; rfl
          rw [ptext_append, List.length_append] at hc
          unfold adjust at ha
          rw [pyBound_eq, ← ha]
          omega
        · rw [hr, hpl]

example : (Line.mk [⟨5, py"a", false⟩, ⟨3, py"bc", false⟩, ⟨3, py"d", true⟩] 7).slice 1 =
    .ok ⟨[⟨8, py"bc", false⟩, ⟨3, py"d", true⟩], 7⟩ := by decide +kernel

/-! ## C11: joining lines -/

/-- C11. The text of the joined line is the concatenation of the texts. -/
theorem joined_text (ls : List Line) : (fromMultiple ls).content = ls.flatMap (·.content) := by
  have h : (fromMultiple ls).content = Spec.placedText (Spec.place 0 (fromMultiple ls).parts) := (place_text _ 0).symm
  rw [h]
  show Spec.placedText (Spec.place 0 (fromLoop 0 ls)) = _
  rw [fromLoop_place]
  unfold Spec.placedText
  rw [List.flatMap_assoc]
  congr 1
  funext l
  have : ∀ ps : List Spec.Placed, (unboldFirst ps).flatMap (·.2.1) = ps.flatMap (·.2.1) := by
    intro ps; cases ps <;> simp [unboldFirst]
  rw [this]
  exact place_text l.parts 0

/-- C11. Every part of the joined line stands where it stood and keeps its text, up to its weight. -/
theorem joined_places (ls : List Line) :
    (Spec.place 0 (fromMultiple ls).parts).map (fun p => (p.1, p.2.1)) =
      (ls.flatMap fun l => Spec.place 0 l.parts).map fun p => (p.1, p.2.1) := by
  show (Spec.place 0 (fromLoop 0 ls)).map _ = _
  rw [fromLoop_place, List.map_flatMap, List.map_flatMap]
  congr 1
  funext l
  cases Spec.place 0 l.parts <;> simp [unboldFirst]

/-- C11. Weights are kept too, if no line begins with a bold part. (`_partial`: see `joined_loses_weight`.) -/
theorem joined_weight_partial (ls : List Line) (h : ∀ l ∈ ls, ∀ p, l.parts.head? = some p → p.bold = false) :
    Spec.place 0 (fromMultiple ls).parts = ls.flatMap fun l => Spec.place 0 l.parts := by
  show Spec.place 0 (fromLoop 0 ls) = _
  rw [fromLoop_place]
  induction ls with
  | nil => rfl
  | cons l ls ih =>
    simp only [List.flatMap_cons]
    rw [ih (fun x hx => h x (by simp [hx]))]
    congr 1
    cases hl : l.parts with
    | nil => rfl
    | cons p ps =>
      have := h l (by simp) p (by simp [hl])
      simp [Spec.place, unboldFirst, this]

/-- C11. The code violates the property: joining even a single bold line makes it not bold. -/
theorem joined_loses_weight : ∃ l : Line, l.bold = true ∧ (fromMultiple [l]).bold = false :=
  ⟨⟨[⟨0, py"a", true⟩], 0⟩, by decide +kernel, by decide +kernel⟩

/-- C11. The right margin is the one of the last line. -/
theorem joined_margin (ls : List Line) (l : Line) : (fromMultiple (ls ++ [l])).marginRight = l.marginRight := by
  simp [fromMultiple]

example : fromMultiple [⟨[⟨10, py"a", false⟩, ⟨5, py"b", true⟩], 3⟩, ⟨[⟨40, py"c", false⟩], 2⟩] =
    ⟨[⟨10, py"a", false⟩, ⟨5, py"b", true⟩, ⟨25, py"c", false⟩], 2⟩ := by decide +kernel

/-! ## C12: quote levels -/

theorem quoteLevelDiff_eq (s : Str) : quoteLevelDiff s = (s.map Spec.quoteDelta).sum := by
  unfold quoteLevelDiff
  induction s with
  | nil => rfl
  | cons c cs ih =>
    rw [List.map_cons, List.sum_cons, ← ih]
    simp only [List.count_cons, Spec.quoteDelta]
    by_cases h1 : c = '„'
    · subst h1; simp; omega
    · by_cases h2 : c = '“'
      · subst h2; simp; omega
      · by_cases h3 : c = '”'
        · subst h3; simp; omega
        · simp [h1, h2, h3]

theorem openQuotes_cons (l : Line) (ls : List Line) :
    Spec.openQuotes (l :: ls) = quoteLevelDiff l.content + Spec.openQuotes ls := by
  simp [Spec.openQuotes, quoteLevelDiff_eq]

theorem quoteLevelLoop_yields (throw : Bool) (ls : List Line) : ∀ level,
    ∃ n, n ≤ ls.length ∧ ((quoteLevelLoop throw level ls).stop = none → n = ls.length) ∧
      (quoteLevelLoop throw level ls).yields =
        (List.range n).filterMap fun i => ls[i]?.map fun l => (level + Spec.openQuotes (ls.take i), l) := by
  induction ls with
  | nil => intro level; exact ⟨0, by simp, by simp, by simp [quoteLevelLoop]⟩
  | cons l ls ih =>
    intro level
    simp only [quoteLevelLoop]
    by_cases h : (throw && decide (level + quoteLevelDiff l.content < 0)) = true
    · rw [if_pos h]
      exact ⟨1, by simp, by simp, by simp [List.range_succ, Spec.openQuotes]⟩
    · rw [if_neg h]
      obtain ⟨n, h1, h2, h3⟩ := ih (level + quoteLevelDiff l.content)
      refine ⟨n + 1, by simpa using h1, ?_, ?_⟩
      · intro hs; simp [h2 hs]
      · rw [h3, List.range_succ_eq_map, List.filterMap_cons]
        simp only [List.getElem?_cons_zero, Option.map_some, List.take_zero, List.filterMap_map]
        congr 1
        · simp [Spec.openQuotes]
        · congr 1
          funext i
          simp only [Function.comp, List.getElem?_cons_succ, List.take_succ_cons, openQuotes_cons, Int.add_assoc]

/-- C12. Iterating lines yields every line in order, with the number of quotes unclosed before it. -/
theorem quote_levels (ls : List Line) (throw : Bool) (ys : List (Int × Line))
    (h : (iterateWithQuoteLevel ls throw).toList = .ok ys) :
    ys = (List.range ls.length).filterMap fun i => ls[i]?.map fun l => (Spec.openQuotes (ls.take i), l) := by
  unfold iterateWithQuoteLevel Gen.toList at h
  obtain ⟨n, _, h2, h3⟩ := quoteLevelLoop_yields throw ls 0
  cases hs : (quoteLevelLoop throw 0 ls).stop with
  | some e => simp [hs] at h
  | none =>
    simp only [hs] at h
    rw [← Except.ok.inj h, h3, h2 hs]
    simp

/-- C12. Even if it fails, what was yielded before is right: consumers that stop early see correct levels. -/
theorem quote_levels_before_failure (ls : List Line) (throw : Bool) :
    ∃ n, (iterateWithQuoteLevel ls throw).yields =
      (List.range n).filterMap fun i => ls[i]?.map fun l => (Spec.openQuotes (ls.take i), l) := by
  obtain ⟨n, _, _, h3⟩ := quoteLevelLoop_yields throw ls 0
  exact ⟨n, by unfold iterateWithQuoteLevel; rw [h3]; simp⟩

theorem quoteLevelLoop_stop (ls : List Line) : ∀ level, 0 ≤ level →
    ((quoteLevelLoop true level ls).stop = none ↔
      (∀ k, k ≤ ls.length → 0 ≤ level + Spec.openQuotes (ls.take k)) ∧ level + Spec.openQuotes ls = 0) ∧
    ((quoteLevelLoop true level ls).stop = none ∨ (quoteLevelLoop true level ls).stop = some .valueError) := by
  induction ls with
  | nil =>
    intro level hl
    simp [quoteLevelLoop, Spec.openQuotes]
    by_cases h : level = 0 <;> simp [h, hl]
  | cons l ls ih =>
    intro level hl
    simp only [quoteLevelLoop, Bool.true_and, decide_eq_true_eq]
    by_cases h : level + quoteLevelDiff l.content < 0
    · rw [if_pos h]
      refine ⟨⟨by simp, fun hk => ?_⟩, .inr rfl⟩
      have := hk.1 1 (by simp)
      rw [List.take_succ_cons, List.take_zero, openQuotes_cons] at this
      simp [Spec.openQuotes] at this
      omega
    · rw [if_neg h]
      obtain ⟨ih1, ih2⟩ := ih (level + quoteLevelDiff l.content) (by omega)
      refine ⟨?_, ih2⟩
      rw [ih1, openQuotes_cons, ← Int.add_assoc]
      refine and_congr_left fun _ => ⟨fun hk k hkl => ?_, fun hk k hkl => ?_⟩
      · cases k with
        | zero => simp [Spec.openQuotes]; exact hl
        | succ k =>
          rw [List.take_succ_cons, openQuotes_cons, ← Int.add_assoc]
          exact hk k (by simpa using hkl)
      · have := hk (k + 1) (by simpa using hkl)
        rwa [List.take_succ_cons, openQuotes_cons, ← Int.add_assoc] at this

/-- C12. With exceptions on, it fails with ValueError exactly if some prefix of the lines closes more quotes than it
opened, or if quotes stay open at the end. -/
theorem quote_levels_fail_iff (ls : List Line) :
    ((∀ k, k ≤ ls.length → 0 ≤ Spec.openQuotes (ls.take k)) ∧ Spec.openQuotes ls = 0 →
      ∃ ys, (iterateWithQuoteLevel ls true).toList = .ok ys) ∧
    (¬ ((∀ k, k ≤ ls.length → 0 ≤ Spec.openQuotes (ls.take k)) ∧ Spec.openQuotes ls = 0) →
      (iterateWithQuoteLevel ls true).toList = .error .valueError) := by
  obtain ⟨h1, h2⟩ := quoteLevelLoop_stop ls 0 (Int.le_refl 0)
  simp only [Int.zero_add] at h1
  unfold iterateWithQuoteLevel Gen.toList
  constructor
  · intro h
    rw [h1.mpr h]
    exact ⟨_, rfl⟩
  · intro h
    rcases h2 with h2 | h2
    · exact absurd (h1.mp h2) h
    · rw [h2]

/-- C12. With exceptions off, it never fails. -/
theorem quote_levels_without_exceptions (ls : List Line) :
    ∃ ys, (iterateWithQuoteLevel ls false).toList = .ok ys := by
  unfold iterateWithQuoteLevel
  have : ∀ level, (quoteLevelLoop false level ls).stop = none := by
    induction ls with
    | nil => intro level; simp [quoteLevelLoop]
    | cons l ls ih => intro level; simp [quoteLevelLoop, ih]
  exact ⟨_, by unfold Gen.toList; rw [this 0]⟩

example : (iterateWithQuoteLevel [⟨[⟨0, py"a „b", false⟩], 0⟩, ⟨[⟨0, py"c ”d", false⟩], 0⟩] true).toList =
    .ok [(0, ⟨[⟨0, py"a „b", false⟩], 0⟩), (1, ⟨[⟨0, py"c ”d", false⟩], 0⟩)] := by decide +kernel

/-! ## C13: joining texts -/

theorem joinLoop_filter (ss : List Str) : ∀ r,
    (joinLoop r ss).filter (· ≠ ' ') = r.filter (· ≠ ' ') ++ (ss.flatten).filter (· ≠ ' ') := by
  induction ss with
  | nil => intro r; simp [joinLoop]
  | cons s ss ih =>
    intro r
    simp only [joinLoop, ih, List.filter_append, List.flatten_cons]
    split <;> simp

/-- C13. Apart from spaces, the joined text is the concatenation of the texts. -/
theorem join_loses_nothing (ss : List Str) :
    (joinLineStrs ss).filter (· ≠ ' ') = (ss.flatten).filter (· ≠ ' ') := by
  unfold joinLineStrs
  rw [joinLoop_filter]
  rfl

theorem joinLoop_joined (ss : List Str) : ∀ r, r ≠ [] → (∀ s ∈ ss, s ≠ []) → joinLoop r ss =
    r ++ (if ss = [] ∨ r.getLast? = some '-' then [] else [' ']) ++ Spec.joined ss := by
  induction ss with
  | nil => intro r _ _; simp [joinLoop, Spec.joined]
  | cons s ss ih =>
    intro r hr hs
    have hsne := hs s (by simp)
    have hlast : ∀ t : Str, (t ++ s).getLast? = s.getLast? := by
      intro t
      rw [List.getLast?_append]
      cases h : s.getLast? with
      | none => exact absurd (List.getLast?_eq_none_iff.mp h) hsne
      | some c => rfl
    simp only [joinLoop]
    rw [ih _ (by intro h; exact hsne (List.append_eq_nil_iff.mp h).2) (fun x hx => hs x (by simp [hx])), hlast]
    cases ss with
    | nil =>
      by_cases h : r.getLast? = some '-' <;> simp [h, hr, Spec.joined]
    | cons t rest =>
      by_cases h : r.getLast? = some '-' <;> simp [h, hr, Spec.joined]

/-- C13. Lines that are not blank are joined by single spaces, or by nothing after a hyphen. (`_partial`: blank lines
should add nothing, but see `join_blank_line`.) -/
theorem join_single_spaces_partial (ss : List Str) (h : ∀ s ∈ ss, s ≠ []) : joinLineStrs ss = Spec.joined ss := by
  unfold joinLineStrs
  cases ss with
  | nil => rfl
  | cons s ss =>
    have : joinLoop [] (s :: ss) = joinLoop s ss := by simp [joinLoop]
    rw [this, joinLoop_joined ss s (h s (by simp)) (fun x hx => h x (by simp [hx]))]
    cases ss with
    | nil => simp [Spec.joined]
    | cons t rest => by_cases hh : s.getLast? = some '-' <;> simp [hh, Spec.joined]

/-- C13. The code violates the property: a blank line adds one more space. -/
theorem join_blank_line : joinLineStrs [py"a", [], py"b"] = py"a  b" := by decide

example : joinLineStrs [py"ab-", py"cd", py"ef"] = py"ab-cd ef" := by decide

/-! ## C62: bold lines and parts of lists -/

theorem bold_sums (ps : List Part) (a b : Nat) :
    ps.foldl (fun (acc : Nat × Nat) p =>
      (acc.1 + p.content.length, if p.bold then acc.2 + p.content.length else acc.2)) (a, b) =
    (a + (ps.flatMap (·.content)).length, b + ((ps.filter (·.bold)).flatMap (·.content)).length) := by
  induction ps generalizing a b with
  | nil => rfl
  | cons p ps ih =>
    rw [List.foldl_cons, ih]
    cases h : p.bold <;> simp [h, List.filter_cons, Nat.add_assoc]

/-- C62. A line is bold exactly if more than half of its characters are in bold parts. -/
theorem bold_iff (l : Line) :
    l.bold = true ↔ l.content.length < 2 * ((l.parts.filter (·.bold)).flatMap (·.content)).length := by
  unfold Line.bold Line.content
  rw [bold_sums]
  simp only [decide_eq_true_eq]
  omega

example : (Line.mk [⟨0, py"12. §", true⟩, ⟨1, py" (1)", false⟩] 0).bold = true ∧
    (Line.mk [⟨0, py"12.", true⟩, ⟨1, py" § ", false⟩] 0).bold = false := by decide

theorem splitListLoop_spec {α : Type} [DecidableEq α] (needle : α) (es result : List α) :
    (splitListLoop needle result es).flatten = result ++ es ∧ (∀ p ∈ splitListLoop needle result es, p ≠ []) ∧
    (∀ p ∈ (splitListLoop needle result es).tail, p.head? = some needle) ∧
    (needle ∉ result.tail → ∀ p ∈ splitListLoop needle result es, needle ∉ p.tail) := by
  induction es generalizing result with
  | nil =>
    unfold splitListLoop
    by_cases h : result = [] <;> simp [h]
  | cons e es ih =>
    unfold splitListLoop
    by_cases h : e = needle ∧ result ≠ []
    · rw [if_pos h]
      obtain ⟨i1, i2, i3, i4⟩ := ih [e]
      refine ⟨by simp [i1], ?_, ?_, ?_⟩
      · intro p hp
        rcases List.mem_cons.1 hp with rfl | hp
        · exact h.2
        · exact i2 p hp
      · intro p hp
        simp only [List.tail_cons] at hp
        cases hl : splitListLoop needle [e] es with
        | nil => rw [hl] at hp; cases hp
        | cons q qs =>
          rw [hl] at hp i1 i2 i3
          rcases List.mem_cons.1 hp with rfl | hp
          · cases p with
            | nil => exact absurd rfl (i2 [] (by simp))
            | cons c cs =>
              simp only [List.flatten_cons, List.cons_append, List.cons.injEq] at i1
              simp [i1.1, h.1]
          · exact i3 p hp
      · intro hr p hp
        rcases List.mem_cons.1 hp with rfl | hp
        · exact hr
        · exact i4 (by simp) p hp
    · rw [if_neg h]
      obtain ⟨i1, i2, i3, i4⟩ := ih (result ++ [e])
      refine ⟨by simp [i1], i2, i3, fun hr => i4 ?_⟩
      cases result with
      | nil => simp
      | cons c cs =>
        simp only [List.cons_append, List.tail_cons, List.mem_append, List.mem_singleton, not_or] at hr ⊢
        exact ⟨hr, fun he => h ⟨he.symm, by simp⟩⟩

/-- C62. Splitting a list at an element loses nothing: the parts are not empty and follow each other, each one but the
first begins with the element, and it occurs nowhere else in a part. -/
theorem splitList_parts {α : Type} [DecidableEq α] (haystack : List α) (needle : α) :
    (splitList haystack needle).flatten = haystack ∧ (∀ p ∈ splitList haystack needle, p ≠ []) ∧
    (∀ p ∈ (splitList haystack needle).tail, p.head? = some needle) ∧
    ∀ p ∈ splitList haystack needle, needle ∉ p.tail := by
  obtain ⟨a, b, c, d⟩ := splitListLoop_spec needle haystack []
  exact ⟨a, b, c, d (by simp)⟩

example : splitList [1, 2, 0, 0, 3] 0 = [[1, 2], [0], [0, 3]] := by decide

end Verif.Props
