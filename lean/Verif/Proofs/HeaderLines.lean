import Verif.Model.StructureParser
import Verif.Spec.Parser
import Verif.Props.Lines
import Verif.Props.Identifiers

/-! # Lemmas about dividing lines at their headers -/

namespace Verif

open Verif.Spec

theorem resBind_ok {α β : Type} {x : Res α} {f : α → Res β} {b : β} (h : (x >>= f) = .ok b) :
    ∃ a, x = .ok a ∧ f a = .ok b := by
  cases x with
  | error e => cases h
  | ok a => exact ⟨a, rfl, h⟩

theorem Spec.Both.append {α β : Type} {R : α → β → Prop} {as cs : List α} {bs ds : List β} (h : Both R as bs)
    (h' : Both R cs ds) : Both R (as ++ cs) (bs ++ ds) := by
  induction h with
  | nil => exact h'
  | cons hr _ ih => exact .cons hr ih

theorem Spec.Both.imp {α β : Type} {R S : α → β → Prop} {as : List α} {bs : List β} (h : Both R as bs)
    (hs : ∀ a ∈ as, ∀ b ∈ bs, R a b → S a b) : Both S as bs := by
  induction h with
  | nil => exact .nil
  | cons hr _ ih =>
    exact .cons (hs _ (by simp) _ (by simp) hr) (ih fun a ha b hb => hs a (by simp [ha]) b (by simp [hb]))

theorem Spec.Both.length {α β : Type} {R : α → β → Prop} {as : List α} {bs : List β} (h : Both R as bs) :
    as.length = bs.length := by
  induction h with
  | nil => rfl
  | cons _ _ ih => simp [ih]

theorem Spec.Both.mem_right {α β : Type} {R : α → β → Prop} {as : List α} {bs : List β} (h : Both R as bs) {b : β}
    (hb : b ∈ bs) : ∃ a ∈ as, R a b := by
  induction h with
  | nil => cases hb
  | cons hr _ ih =>
    rcases List.mem_cons.mp hb with rfl | hb
    · exact ⟨_, by simp, hr⟩
    · obtain ⟨a, ha, h⟩ := ih hb; exact ⟨a, by simp [ha], h⟩

theorem Spec.Both.mem_left {α β : Type} {R : α → β → Prop} {as : List α} {bs : List β} (h : Both R as bs) {a : α}
    (ha : a ∈ as) : ∃ b ∈ bs, R a b := by
  induction h with
  | nil => cases ha
  | cons hr _ ih =>
    rcases List.mem_cons.mp ha with rfl | ha
    · exact ⟨_, by simp, hr⟩
    · obtain ⟨b, hb, h⟩ := ih ha; exact ⟨b, by simp [hb], h⟩

/-! ## Levels -/

theorem openQuotes_nil : openQuotes [] = 0 := rfl

theorem openQuotes_append (a b : List Line) : openQuotes (a ++ b) = openQuotes a + openQuotes b := by
  simp [openQuotes]

theorem openQuotes_one (l : Line) : openQuotes [l] = quoteLevelDiff l.content := by
  rw [Props.openQuotes_cons, openQuotes_nil]; omega

theorem content_of_empty {l : Line} (h : l.isEmptyLine = true) : l.content = [] := by
  unfold Line.isEmptyLine at h
  unfold Line.content
  rw [List.isEmpty_iff.mp h]; rfl

theorem nonempty_of_content {l : Line} (h : l.content ≠ []) : l.isEmptyLine = false := by
  cases e : l.isEmptyLine with
  | false => rfl
  | true => exact absurd (content_of_empty e) h

theorem linesText_filter (ls : List Line) : linesText (ls.filter fun l => !l.isEmptyLine) = linesText ls := by
  induction ls with
  | nil => rfl
  | cons l ls ih =>
    unfold linesText at ih ⊢
    cases e : l.isEmptyLine with
    | true => simp [e, ih, content_of_empty e]
    | false => simp [e, ih]

theorem linesText_same {a b : List Line} (h : SameLines a b) : linesText a = linesText b := by
  rw [← linesText_filter a, ← linesText_filter b, h]

theorem openQuotes_eq (ls : List Line) : openQuotes ls = ((linesText ls).map quoteDelta).sum := rfl

theorem openQuotes_same {a b : List Line} (h : SameLines a b) : openQuotes a = openQuotes b := by
  rw [openQuotes_eq, openQuotes_eq, linesText_same h]

theorem SameLines.rfl' (a : List Line) : SameLines a a := rfl

theorem SameLines.trans' {a b c : List Line} (h : SameLines a b) (h' : SameLines b c) : SameLines a c := Eq.trans h h'

theorem SameLines.append {a b c d : List Line} (h : SameLines a b) (h' : SameLines c d) : SameLines (a ++ c) (b ++ d) := by
  unfold SameLines at *
  simp only [List.filter_append, h, h']

theorem sameLines_filter (ls : List Line) : SameLines ls (ls.filter fun l => !l.isEmptyLine) := by
  unfold SameLines
  simp [List.filter_filter]

/-! ## Blocks -/

/-- The line numbers at which the blocks begin, if the first one begins at `n`. -/
def offsets : Nat → List (List Line) → List Nat
  | _, [] => []
  | n, b :: bs => n :: offsets (n + b.length) bs

/-- Every block begins with a header outside quotes and the identifiers follow each other; `level` is the level where
the first block begins and `last` the identifier before it. -/
inductive Headed (P : ElementParser) : Int → Option Str → List (List Line) → Prop
  | nil (level last) : Headed P level last []
  | cons {level last l ls bs i} (outside : level = 0) (header : P.header l.content = some i)
      (first : last = none → i = P.first) (next : ∀ j, last = some j → P.kind.isNextIdentifier j i = .ok true)
      (rest : Headed P (level + openQuotes (l :: ls)) (some i) bs) : Headed P level last ((l :: ls) :: bs)

/-- What `find_header_lines` finds when it comes to its end. -/
theorem headerLoop_spec (P : ElementParser) (ls : List Line) : ∀ (level : Int) (last : Option (Str × Rat)) (n : Nat),
    (quoteLevelLoop true level ls).stop = none →
    (headerLoop P last n (quoteLevelLoop true level ls).yields).stop = none →
    level + openQuotes ls = 0 ∧ ∃ pre bs, ls = pre ++ bs.flatten ∧
      (headerLoop P last n (quoteLevelLoop true level ls).yields).yields = offsets (n + pre.length) bs ∧
      Headed P (level + openQuotes pre) (last.map (·.1)) bs := by
  induction ls with
  | nil =>
    intro level last n h1 h2
    refine ⟨?_, [], [], rfl, rfl, .nil _ _⟩
    simp only [quoteLevelLoop, Bool.true_and] at h1
    by_cases h : level = 0
    · simp [h, openQuotes_nil]
    · simp [h] at h1
  | cons l ls ih =>
    intro level last n h1 h2
    simp only [quoteLevelLoop] at h1 h2 ⊢
    by_cases hneg : level + quoteLevelDiff l.content < 0
    · simp [hneg] at h1
    · have hneg' : (true && decide (level + quoteLevelDiff l.content < 0)) = false := by simp [hneg]
      simp only [hneg', Bool.false_eq_true, if_false] at h1 h2 ⊢
      have skip : ∀ last', (headerLoop P last' (n + 1) (quoteLevelLoop true (level + quoteLevelDiff l.content) ls).yields).stop = none →
          level + openQuotes (l :: ls) = 0 ∧ ∃ pre bs, l :: ls = l :: (pre ++ bs.flatten) ∧
          (headerLoop P last' (n + 1) (quoteLevelLoop true (level + quoteLevelDiff l.content) ls).yields).yields =
            offsets (n + 1 + pre.length) bs ∧
          Headed P (level + openQuotes (l :: pre)) (last'.map (·.1)) bs := by
        intro last' h
        obtain ⟨e0, pre, bs, e1, e2, e3⟩ := ih _ last' (n + 1) h1 h
        refine ⟨by rw [Props.openQuotes_cons]; omega, pre, bs, by rw [e1], e2, ?_⟩
        rw [Props.openQuotes_cons, ← Int.add_assoc]
        exact e3
      have pass : (headerLoop P last (n + 1) (quoteLevelLoop true (level + quoteLevelDiff l.content) ls).yields).stop = none →
          level + openQuotes (l :: ls) = 0 ∧ ∃ pre bs, l :: ls = pre ++ bs.flatten ∧
          (headerLoop P last (n + 1) (quoteLevelLoop true (level + quoteLevelDiff l.content) ls).yields).yields =
            offsets (n + pre.length) bs ∧
          Headed P (level + openQuotes pre) (last.map (·.1)) bs := by
        intro h
        obtain ⟨e0, pre, bs, e1, e2, e3⟩ := skip last h
        refine ⟨e0, l :: pre, bs, by rw [e1]; rfl, ?_, e3⟩
        rw [e2]
        congr 1
        simp only [List.length_cons]
        omega
      rw [headerLoop] at h2 ⊢
      by_cases hq : level ≠ 0
      · rw [if_pos hq] at h2 ⊢; exact pass h2
      · rw [if_neg hq] at h2 ⊢
        by_cases hind : (last.any fun l' => !similarIndent l'.2 l.indent && decide (l.indent > l'.2)) = true
        · rw [if_pos hind] at h2 ⊢; exact pass h2
        · rw [if_neg hind] at h2 ⊢
          cases hh : P.header l.content with
          | none => simp only [hh] at h2 ⊢; exact pass h2
          | some i =>
            simp only [hh] at h2 ⊢
            cases hx : P.accepts last i with
            | error e => simp [hx] at h2
            | ok b =>
              cases b with
              | false => simp only [hx] at h2 ⊢; exact pass h2
              | true =>
                simp only [hx] at h2 ⊢
                obtain ⟨e0, pre, bs, e1, e2, e3⟩ := skip (some (i, l.indent)) h2
                refine ⟨e0, [], (l :: pre) :: bs, by rw [e1]; simp, ?_, ?_⟩
                · simp only [offsets, List.length_nil, Nat.add_zero]
                  rw [e2]
                  congr 2
                  simp only [List.length_cons]; omega
                · rw [openQuotes_nil]
                  refine .cons (i := i) (by omega) hh ?_ ?_ ?_
                  · intro hl
                    cases last with
                    | none => simpa [ElementParser.accepts] using hx
                    | some _ => simp at hl
                  · intro j hj
                    cases last with
                    | none => simp at hj
                    | some p =>
                      obtain rfl : p.1 = j := by simpa using hj
                      exact hx
                  · rw [Int.add_zero]; exact e3

theorem findHeaderLines_spec {P : ElementParser} {lines : List Line} {hs : List Nat}
    (h : (findHeaderLines P lines).toList = .ok hs) :
    openQuotes lines = 0 ∧ ∃ pre bs, lines = pre ++ bs.flatten ∧ hs = offsets pre.length bs ∧
      Headed P (openQuotes pre) none bs := by
  unfold findHeaderLines iterateWithQuoteLevel Gen.toList at h
  simp only at h
  cases h1 : (headerLoop P none 0 (quoteLevelLoop true 0 lines).yields).stop with
  | some e => simp [h1] at h
  | none =>
    cases h2 : (quoteLevelLoop true 0 lines).stop with
    | some e => simp [h1, h2] at h
    | none =>
      simp only [h1, h2, Option.or_none] at h
      obtain ⟨e0, pre, bs, e1, e2, e3⟩ := headerLoop_spec P lines 0 none 0 h2 h1
      refine ⟨by omega, pre, bs, e1, ?_, by simpa using e3⟩
      rw [e2] at h
      simpa using h.symm

/-- The first header that `find_header_lines` yields, whatever happens later. -/
theorem headerLoop_first (P : ElementParser) (ls : List Line) : ∀ (level : Int) (n k : Nat) (more : List Nat),
    (headerLoop P none n (quoteLevelLoop true level ls).yields).yields = k :: more →
    ∃ pre l post, ls = pre ++ l :: post ∧ k = n + pre.length ∧ level + openQuotes pre = 0 ∧
      P.header l.content = some P.first := by
  induction ls with
  | nil => intro level n k more h; simp [quoteLevelLoop, headerLoop] at h
  | cons l ls ih =>
    intro level n k more h
    have step : ∀ (ys : List (Int × Line)), (quoteLevelLoop true level (l :: ls)).yields = (level, l) :: ys →
        (ys = [] ∨ ys = (quoteLevelLoop true (level + quoteLevelDiff l.content) ls).yields) →
        ∃ pre l' post, l :: ls = pre ++ l' :: post ∧ k = n + pre.length ∧ level + openQuotes pre = 0 ∧
          P.header l'.content = some P.first := by
      intro ys hy hcase
      rw [hy, headerLoop] at h
      have pass : (headerLoop P none (n + 1) ys).yields = k :: more →
          ∃ pre l' post, l :: ls = pre ++ l' :: post ∧ k = n + pre.length ∧ level + openQuotes pre = 0 ∧
          P.header l'.content = some P.first := by
        intro h
        rcases hcase with rfl | rfl
        · simp [headerLoop] at h
        · obtain ⟨pre, l', post, e1, e2, e3, e4⟩ := ih _ _ _ _ h
          refine ⟨l :: pre, l', post, by rw [e1]; rfl, by simp only [List.length_cons]; omega, ?_, e4⟩
          rw [Props.openQuotes_cons]; omega
      by_cases hq : level ≠ 0
      · rw [if_pos hq] at h; exact pass h
      · rw [if_neg hq, if_neg (by simp)] at h
        cases hh : P.header l.content with
        | none => simp only [hh] at h; exact pass h
        | some i =>
          simp only [hh, ElementParser.accepts] at h
          by_cases hi : (i == P.first) = true
          · rw [hi] at h
            simp only [List.cons.injEq] at h
            refine ⟨[], l, ls, rfl, by simp only [List.length_nil]; omega, by rw [openQuotes_nil]; omega, ?_⟩
            rw [hh]; simpa using hi
          · have hi' : (i == P.first) = false := by simpa using hi
            rw [hi'] at h
            exact pass h
    simp only [quoteLevelLoop] at step
    by_cases hneg : level + quoteLevelDiff l.content < 0
    · simp only [hneg, decide_true, Bool.and_self, if_true] at step
      exact step [] rfl (.inl rfl)
    · simp only [hneg, decide_false, Bool.and_false, Bool.false_eq_true, if_false] at step
      exact step _ rfl (.inr rfl)

theorem findFirstHeader_spec {P : ElementParser} {lines : List Line} {k : Nat}
    (h : findFirstHeader P lines = .ok (some k)) :
    ∃ pre l post, lines = pre ++ l :: post ∧ k = pre.length ∧ openQuotes pre = 0 ∧ P.header l.content = some P.first := by
  unfold findFirstHeader findHeaderLines iterateWithQuoteLevel Gen.next at h
  simp only at h
  cases hy : (headerLoop P none 0 (quoteLevelLoop true 0 lines).yields).yields with
  | nil =>
    rw [hy] at h
    split at h
    · rename_i a b e; cases e
    · split at h <;> cases h
  | cons a more =>
    rw [hy] at h
    obtain rfl : a = k := by simpa using h
    obtain ⟨pre, l, post, e1, e2, e3, e4⟩ := headerLoop_first P lines 0 0 a more hy
    exact ⟨pre, l, post, e1, by omega, by omega, e4⟩

/-! ## Parsing the blocks -/

theorem offsets_nil_iff {n : Nat} {bs : List (List Line)} : offsets n bs = [] ↔ bs = [] := by
  cases bs <;> simp [offsets]

theorem parseBetween_spec (parse : List Line → Res Node) (lines pre : List Line) (bs : List (List Line)) :
    ∀ (b : List Line) (es : List Node) (last : Nat), lines = pre ++ b ++ bs.flatten →
    parseBetween parse lines pre.length (offsets (pre.length + b.length) bs) = .ok (es, last) →
    ∃ init end', b :: bs = init ++ [end'] ∧ Both (fun ls e => parse ls = .ok e) init es ∧ lines.drop last = end' := by
  induction bs generalizing pre with
  | nil =>
    intro b es last hl h
    simp only [offsets, parseBetween, Except.ok.injEq, Prod.mk.injEq] at h
    obtain ⟨rfl, rfl⟩ := h
    exact ⟨[], b, rfl, .nil, by rw [hl]; simp⟩
  | cons c cs ih =>
    intro b es last hl h
    simp only [offsets, parseBetween] at h
    obtain ⟨e, he, h⟩ := resBind_ok h
    obtain ⟨⟨es', last'⟩, hr, h⟩ := resBind_ok h
    simp only [Except.ok.injEq, Prod.mk.injEq] at h
    obtain ⟨rfl, rfl⟩ := h
    have hslice : lineSlice lines pre.length (pre.length + b.length) = b := by
      unfold lineSlice
      rw [hl, List.append_assoc, ← List.append_assoc pre, List.take_append_of_le_length (by simp)]
      rw [List.take_of_length_le (by simp)]
      simp
    rw [hslice] at he
    have hlen : pre.length + b.length = (pre ++ b).length := by simp
    rw [hlen] at hr
    obtain ⟨init, end', e1, e2, e3⟩ := ih (pre ++ b) c es' last' (by rw [hl]; simp) hr
    exact ⟨b :: init, end', by rw [e1]; rfl, .cons he e2, e3⟩

/-- The wrap-up: none, or the text of the lines that were taken from the end. -/
theorem splitWrapUp_spec {P : ElementParser} {lines rem : List Line} {pi : Bool} {w : Option Str}
    (h : splitWrapUp P lines pi = .ok (rem, w)) :
    ∃ wl, SameLines lines (rem ++ wl) ∧ (w = none ∧ wl = [] ∨ w = some (joinLines wl)) ∧
      (P.canHaveWrapUp = false → w = none) ∧
      (∀ l, lines.head? = some l → l.isEmptyLine = false → rem.head? = some l) := by
  unfold splitWrapUp at h
  cases hc : P.canHaveWrapUp with
  | false =>
    simp only [hc, Bool.not_false, if_true, Except.ok.injEq, Prod.mk.injEq] at h
    obtain ⟨rfl, rfl⟩ := h
    exact ⟨[], by simp [SameLines], .inl ⟨rfl, rfl⟩, fun _ => rfl, fun l hl _ => hl⟩
  | true =>
    simp only [hc, Bool.not_true, Bool.false_eq_true, if_false] at h
    obtain ⟨place, hp, h⟩ := resBind_ok h
    have hhead : ∀ l, lines.head? = some l → l.isEmptyLine = false →
        (lines.filter fun l => !l.isEmptyLine).head? = some l := by
      intro l hl he
      cases lines with
      | nil => simp at hl
      | cons a as =>
        obtain rfl : a = l := by simpa using hl
        simp [he]
    cases place with
    | none =>
      simp only [Except.ok.injEq, Prod.mk.injEq] at h
      obtain ⟨rfl, rfl⟩ := h
      refine ⟨[], ?_, .inl ⟨rfl, rfl⟩, by simp, hhead⟩
      rw [List.append_nil]
      exact sameLines_filter _
    | some i =>
      simp only [Except.ok.injEq, Prod.mk.injEq] at h
      obtain ⟨rfl, rfl⟩ := h
      have hpos : 0 < i := by
        cases pi with
        | true =>
          simp only [if_true] at hp
          split at hp
          · cases hp
          · simp only [Except.ok.injEq] at hp
            unfold wrapUpByIndent at hp
            have := List.mem_of_find?_eq_some hp
            simpa using (List.mem_filter.mp this).2
        | false =>
          simp only [Bool.false_eq_true, if_false, Except.ok.injEq] at hp
          unfold wrapUpByMargin at hp
          have := List.mem_of_find?_eq_some hp
          simpa using (List.mem_filter.mp (List.mem_reverse.mp this)).2
      refine ⟨(lines.filter fun l => !l.isEmptyLine).drop i, ?_, .inr ?_, by simp, ?_⟩
      · rw [List.take_append_drop]
        exact sameLines_filter _
      · congr 1
        unfold joinLines
        have : ((lines.filter fun l => !l.isEmptyLine).drop i).filter (fun l => !l.isEmptyLine) =
            (lines.filter fun l => !l.isEmptyLine).drop i :=
          List.filter_eq_self.mpr fun l hl => (List.mem_filter.mp (List.mem_of_mem_drop hl)).2
        rw [this]
      · intro l hl he
        have := hhead l hl he
        cases hf : lines.filter fun l => !l.isEmptyLine with
        | nil => rw [hf] at this; simp at this
        | cons a as =>
          rw [hf] at this
          obtain ⟨j, rfl⟩ : ∃ j, i = j + 1 := ⟨i - 1, by omega⟩
          simpa using this

end Verif
