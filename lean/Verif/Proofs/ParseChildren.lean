import Verif.Proofs.HeaderLines

/-! # Lemmas about finding and parsing the children of an element -/

namespace Verif

open Verif.Spec

/-! ## Ink -/

theorem ink_append (a b : Str) : ink (a ++ b) = ink a ++ ink b := by simp [ink]

theorem ink_nil : ink [] = [] := rfl

theorem ink_of_filter {a b : Str} (h : a.filter (· ≠ ' ') = b.filter (· ≠ ' ')) : ink a = ink b := by
  unfold ink; rw [h]

theorem linesText_append (a b : List Line) : linesText (a ++ b) = linesText a ++ linesText b := by simp [linesText]

theorem linesText_cons (l : Line) (ls : List Line) : linesText (l :: ls) = l.content ++ linesText ls := by
  simp [linesText]

theorem linesText_nil : linesText [] = [] := rfl

theorem ink_joinLines (ls : List Line) : ink (joinLines ls) = ink (linesText ls) := by
  rw [← linesText_filter ls]
  apply ink_of_filter
  unfold joinLines
  rw [Props.join_loses_nothing]
  unfold linesText
  rw [List.flatMap_def]

theorem ink_join (ss : List Str) : ink (joinLineStrs ss) = ink ss.flatten := ink_of_filter (Props.join_loses_nothing ss)

/-- What is said about a wrap-up and the lines it was made from. -/
def WrapUp (w : Option Str) (wl : List Line) : Prop := ink (w.getD []) = ink (linesText wl) ∧ (w = none → wl = [])

/-! ## Levels -/

/-- Every block begins at level 0, if the first one begins at the given level. -/
def Levels : Int → List (List Line) → Prop
  | _, [] => True
  | level, b :: bs => level = 0 ∧ Levels (level + openQuotes b) bs

theorem Headed.levels {P : ElementParser} {level : Int} {last : Option Str} {bs : List (List Line)}
    (h : Headed P level last bs) : Levels level bs := by
  induction h with
  | nil => trivial
  | cons h0 _ _ _ _ ih => exact ⟨h0, ih⟩

theorem Levels.snoc {level : Int} {bs : List (List Line)} {b : List Line} (h : Levels level bs)
    (h0 : level + openQuotes bs.flatten = 0) : Levels level (bs ++ [b]) := by
  induction bs generalizing level with
  | nil => exact ⟨by simpa [openQuotes_nil] using h0, trivial⟩
  | cons c cs ih =>
    refine ⟨h.1, ih h.2 ?_⟩
    rw [List.flatten_cons, openQuotes_append] at h0
    omega

theorem Headed.replace_last {P : ElementParser} {level : Int} {last : Option Str} {init : List (List Line)}
    {a b : List Line} (h : Headed P level last (init ++ [a])) (hb : b.head? = a.head?) :
    Headed P level last (init ++ [b]) := by
  induction init generalizing level last with
  | nil =>
    cases h with
    | cons h0 hh hf hn hr =>
      cases b with
      | nil => simp at hb
      | cons x xs =>
        simp only [List.head?_cons, Option.some.injEq] at hb
        subst hb
        exact .cons h0 hh hf hn (.nil _ _)
  | cons c cs ih =>
    rw [List.cons_append] at h ⊢
    cases h with
    | cons h0 hh hf hn hr => exact .cons h0 hh hf hn (ih hr)

theorem Headed.last_header {P : ElementParser} {level : Int} {last : Option Str} {init : List (List Line)}
    {a : List Line} (h : Headed P level last (init ++ [a])) : ∃ l i, a.head? = some l ∧ P.header l.content = some i := by
  induction init generalizing level last with
  | nil =>
    cases h with
    | cons h0 hh hf hn hr => exact ⟨_, _, rfl, hh⟩
  | cons c cs ih =>
    rw [List.cons_append] at h
    cases h with
    | cons h0 hh hf hn hr => exact ih hr

/-- Headers are not empty. -/
def ElementParser.Visible (P : ElementParser) : Prop := P.header [] = none

theorem extractMultiple_spec {P : ElementParser} {kids : ChildReader} {lines : List Line} {pi : Bool}
    {nodes : List Node} {w : Option Str} (hv : P.Visible) (h : extractMultiple P kids lines pi = .ok (nodes, w)) :
    openQuotes lines = 0 ∧ ∃ blocks wl, SameLines lines (blocks.flatten ++ wl) ∧
      Both (fun ls e => parseElement P kids ls pi = .ok e) blocks nodes ∧ Headed P 0 none blocks ∧
      WrapUp w wl ∧ (P.canHaveWrapUp = false → w = none) ∧ (P.mustHaveMultiple = true → 2 ≤ nodes.length) := by
  unfold extractMultiple at h
  obtain ⟨hs, hf, h⟩ := resBind_ok h
  obtain ⟨h0, pre, bs, e1, rfl, hh⟩ := findHeaderLines_spec hf
  refine ⟨h0, ?_⟩
  cases bs with
  | nil => simp [offsets] at h
  | cons b bs =>
    simp only [offsets] at h
    by_cases hp : pre.length ≠ 0
    · rw [if_pos hp] at h; cases h
    · rw [if_neg hp] at h
      obtain rfl : pre = [] := by
        cases pre with
        | nil => rfl
        | cons => simp at hp
      by_cases h1 : (lines.head?.bind fun l => P.header l.content) ≠ some P.first
      · rw [if_pos h1] at h; cases h
      · rw [if_neg h1] at h
        by_cases h2 : ((offsets (([] : List Line).length + b.length) bs).isEmpty && P.mustHaveMultiple) = true
        · rw [if_pos h2] at h; cases h
        · rw [if_neg h2] at h
          obtain ⟨⟨es, last⟩, hb, h⟩ := resBind_ok h
          obtain ⟨⟨rem, w'⟩, hw, h⟩ := resBind_ok h
          obtain ⟨e, he, h⟩ := resBind_ok h
          simp only [Except.ok.injEq, Prod.mk.injEq] at h
          obtain ⟨rfl, rfl⟩ := h
          obtain ⟨init, end', d1, d2, d3⟩ := parseBetween_spec _ lines [] bs b es last (by rw [e1]; simp) hb
          obtain ⟨wl, w1, w2, w3, w4⟩ := splitWrapUp_spec hw
          rw [d3] at w1 w4
          rw [d1] at e1 hh
          rw [openQuotes_nil] at hh
          obtain ⟨l, i, hl, hi⟩ := hh.last_header
          have hne : l.isEmptyLine = false := by
            apply nonempty_of_content
            intro e
            rw [e, hv] at hi
            cases hi
          have hrem := w4 l hl hne
          refine ⟨init ++ [rem], wl, ?_, d2.append (.cons he .nil), hh.replace_last (by rw [hrem, hl]), ?_, w3, ?_⟩
          · rw [e1]
            simp only [List.nil_append, List.flatten_append, List.flatten_cons, List.flatten_nil, List.append_nil,
              List.append_assoc]
            exact SameLines.append rfl w1
          · rcases w2 with ⟨rfl, rfl⟩ | rfl
            · exact ⟨rfl, fun _ => rfl⟩
            · exact ⟨ink_joinLines wl, by simp⟩
          · intro hm
            rw [List.length_append, List.length_singleton]
            have : init ≠ [] := by
              rintro rfl
              simp only [List.nil_append, List.cons.injEq] at d1
              rw [d1.2, hm] at h2
              simp [offsets] at h2
            have hlen := d2.length
            cases init with
            | nil => exact absurd rfl this
            | cons => simp only [List.length_cons] at hlen; omega

/-! ## Choosing the kind of children -/

theorem firstHeaders_spec {lines : List Line} {ps : List SubParser} {found : List (Nat × SubParser)}
    (h : firstHeaders lines ps = .ok found) :
    ∀ e ∈ found, e.2 ∈ ps ∧ e.2.firstHeader lines = .ok (some e.1) ∧ (e.2.mustHaveIntro = true → 0 < e.1) := by
  induction ps generalizing found with
  | nil =>
    obtain rfl : found = [] := by simpa [firstHeaders] using h.symm
    simp
  | cons p ps ih =>
    simp only [firstHeaders] at h
    obtain ⟨r, hr, h⟩ := resBind_ok h
    cases r with
    | none =>
      intro e he
      obtain ⟨a, b, c⟩ := ih h e he
      exact ⟨by simp [a], b, c⟩
    | some n =>
      change (if (decide (n = 0) && p.mustHaveIntro) = true then firstHeaders lines ps else _) = _ at h
      by_cases hn : (decide (n = 0) && p.mustHaveIntro) = true
      · simp only [if_pos hn] at h
        intro e he
        obtain ⟨a, b, c⟩ := ih h e he
        exact ⟨by simp [a], b, c⟩
      · simp only [if_neg hn] at h
        obtain ⟨r, hr', h⟩ := resBind_ok h
        simp only [Except.ok.injEq] at h
        subst h
        intro e he
        rcases List.mem_cons.mp he with rfl | he
        · refine ⟨by simp, hr, fun hm => ?_⟩
          have hm' : p.mustHaveIntro = true := hm
          rw [hm', Bool.and_true, decide_eq_true_eq] at hn
          exact Nat.pos_of_ne_zero hn
        · obtain ⟨a, b, c⟩ := ih hr' e he
          exact ⟨by simp [a], b, c⟩

theorem insertHeader_spec {e : Nat × SubParser} {es r : List (Nat × SubParser)} (h : insertHeader e es = .ok r) :
    r.Perm (e :: es) ∧ (es.Pairwise (fun a b => a.1 < b.1) → r.Pairwise fun a b => a.1 < b.1) := by
  induction es generalizing r with
  | nil =>
    obtain rfl : r = [e] := by simpa [insertHeader] using h.symm
    simp
  | cons f fs ih =>
    simp only [insertHeader] at h
    by_cases h1 : e.1 < f.1
    · rw [if_pos h1] at h
      obtain rfl : r = e :: f :: fs := by simpa using h.symm
      refine ⟨.refl _, fun hp => ?_⟩
      rw [List.pairwise_cons]
      refine ⟨fun x hx => ?_, hp⟩
      rcases List.mem_cons.mp hx with rfl | hx
      · exact h1
      · exact Nat.lt_trans h1 ((List.pairwise_cons.mp hp).1 x hx)
    · rw [if_neg h1] at h
      by_cases h2 : e.1 = f.1
      · rw [if_pos h2] at h; cases h
      · rw [if_neg h2] at h
        obtain ⟨s, hs, h⟩ := resBind_ok h
        obtain rfl : r = f :: s := by simpa using h.symm
        obtain ⟨p1, p2⟩ := ih hs
        refine ⟨(p1.cons f).trans (.swap _ _ _), fun hp => ?_⟩
        rw [List.pairwise_cons] at hp ⊢
        refine ⟨fun x hx => ?_, p2 hp.2⟩
        rcases List.mem_cons.mp (p1.mem_iff.mp hx) with rfl | hx
        · omega
        · exact hp.1 x hx

theorem sortHeaders_spec {es r : List (Nat × SubParser)} (h : sortHeaders es = .ok r) :
    r.Perm es ∧ r.Pairwise fun a b => a.1 < b.1 := by
  induction es generalizing r with
  | nil =>
    obtain rfl : r = [] := by simpa [sortHeaders] using h.symm
    simp
  | cons e es ih =>
    simp only [sortHeaders] at h
    obtain ⟨s, hs, h⟩ := resBind_ok h
    obtain ⟨p1, p2⟩ := ih hs
    obtain ⟨q1, q2⟩ := insertHeader_spec h
    exact ⟨q1.trans (p1.cons e), q2 p2⟩

theorem tryParsers_spec {lines : List Line} {pi : Bool} {es : List (Nat × SubParser)} {intro w : Option Str}
    {cs : List Node} (h : tryParsers lines pi es = .ok (intro, cs, w)) :
    ∃ e ∈ es, intro = (if e.1 = 0 then none else some (joinLines (lines.take e.1))) ∧
      e.2.extract (lines.drop e.1) pi = .ok (cs, w) := by
  induction es with
  | nil => simp [tryParsers] at h
  | cons e es ih =>
    obtain ⟨n, p⟩ := e
    simp only [tryParsers] at h
    cases hx : p.extract (lines.drop n) pi with
    | ok r =>
      simp only [hx, Except.ok.injEq, Prod.mk.injEq] at h
      obtain ⟨rfl, rfl, rfl⟩ := h
      exact ⟨(n, p), by simp, rfl, hx⟩
    | error e =>
      simp only [hx] at h
      have : tryParsers lines pi es = .ok (intro, cs, w) := by
        cases e <;> first | exact h | cases h
      obtain ⟨e', he, h'⟩ := ih this
      exact ⟨e', by simp [he], h'⟩

theorem childrenBy_spec {ps : List SubParser} {lines : List Line} {pi : Bool} {intro w : Option Str} {cs : List Node}
    (h : childrenBy ps lines pi = .ok (intro, cs, w)) :
    ∃ p ∈ ps, ∃ n, p.firstHeader lines = .ok (some n) ∧ (p.mustHaveIntro = true → 0 < n) ∧
      intro = (if n = 0 then none else some (joinLines (lines.take n))) ∧
      p.extract (lines.drop n) pi = .ok (cs, w) := by
  unfold childrenBy at h
  obtain ⟨found, hf, h⟩ := resBind_ok h
  obtain ⟨sorted, hs, h⟩ := resBind_ok h
  obtain ⟨e, he, h1, h2⟩ := tryParsers_spec h
  obtain ⟨p1, _⟩ := sortHeaders_spec hs
  obtain ⟨a, b, c⟩ := firstHeaders_spec hf e (p1.mem_iff.mp he)
  exact ⟨e.2, a, e.1, b, c, h1, h2⟩

/-! ## Quoted blocks -/

/-- The lines of one quoted block and the block made from them. -/
inductive QuotedRaw : List Line → Node → Prop
  | one {l q} (opens : opensWithQuote l = .ok true) (closes : closesWithQuote l = .ok true)
      (cut : l.slice 1 (some (-1)) = .ok q) : QuotedRaw [l] (.quoted [q])
  | more {l l' mid e e'} (opens : opensWithQuote l = .ok true) (closes : closesWithQuote e = .ok true)
      (cut : l.slice 1 = .ok l') (cut' : e.slice 0 (some (-1)) = .ok e') :
      QuotedRaw (l :: mid ++ [e]) (.quoted (l' :: mid ++ [e']))

/-- What the state says about the lines seen so far. -/
def QuoteInv (seen : List Line) (nodes : List Node) : QuoteState → Prop
  | .start => nodes = [] ∧ SameLines seen []
  | .block q => ∃ bs cur, SameLines seen (bs.flatten ++ cur) ∧ Both QuotedRaw bs nodes ∧ Levels 0 bs ∧
      openQuotes bs.flatten = 0 ∧ ∃ l l' mid, cur = l :: mid ∧ q = l' :: mid ∧ opensWithQuote l = .ok true ∧
      l.slice 1 = .ok l'
  | .maybe => ∃ bs, SameLines seen bs.flatten ∧ Both QuotedRaw bs nodes ∧ Levels 0 bs
  | .wrapUp w => ∃ bs wl, SameLines seen (bs.flatten ++ wl) ∧ Both QuotedRaw bs nodes ∧ Levels 0 bs ∧
      ink w = ink (linesText wl)

theorem sameLines_skip {seen x : List Line} {l : Line} (h : SameLines seen x) (he : l.isEmptyLine = true) :
    SameLines (seen ++ [l]) x := by
  unfold SameLines at *
  rw [List.filter_append, h]
  simp [he]

theorem sameLines_snoc {seen x : List Line} (l : Line) (h : SameLines seen x) : SameLines (seen ++ [l]) (x ++ [l]) :=
  SameLines.append h (SameLines.rfl' _)

theorem openBlock_inv {seen : List Line} {nodes nodes' : List Node} {st' : QuoteState} {l : Line}
    {bs : List (List Line)} (hs : SameLines seen bs.flatten) (hb : Both QuotedRaw bs nodes) (hl : Levels 0 bs)
    (h0 : openQuotes seen = 0) (ho : opensWithQuote l = .ok true) (h : openBlock nodes l = .ok (st', nodes')) :
    QuoteInv (seen ++ [l]) nodes' st' := by
  have hz : openQuotes bs.flatten = 0 := by rw [← openQuotes_same hs]; exact h0
  unfold openBlock at h
  obtain ⟨c, hc, h⟩ := resBind_ok h
  cases c with
  | true =>
    simp only [if_true] at h
    obtain ⟨q, hq, h⟩ := resBind_ok h
    simp only [Except.ok.injEq, Prod.mk.injEq] at h
    obtain ⟨rfl, rfl⟩ := h
    refine ⟨bs ++ [[l]], ?_, hb.append (.cons (.one ho hc hq) .nil), hl.snoc (by omega)⟩
    simpa using sameLines_snoc l hs
  | false =>
    simp only [Bool.false_eq_true, if_false] at h
    obtain ⟨q, hq, h⟩ := resBind_ok h
    simp only [Except.ok.injEq, Prod.mk.injEq] at h
    obtain ⟨rfl, rfl⟩ := h
    exact ⟨bs, [l], sameLines_snoc l hs, hb, hl, hz, l, q, [], rfl, rfl, ho, hq⟩

theorem quotedStep_inv {seen : List Line} {nodes nodes' : List Node} {st st' : QuoteState} {l : Line}
    (hi : QuoteInv seen nodes st) (h : quotedStep st nodes (openQuotes seen) l = .ok (st', nodes')) :
    QuoteInv (seen ++ [l]) nodes' st' := by
  cases st with
  | start =>
    obtain ⟨rfl, hs⟩ := hi
    simp only [quotedStep] at h
    cases he : l.isEmptyLine with
    | true =>
      simp only [he, if_true, Except.ok.injEq, Prod.mk.injEq] at h
      obtain ⟨rfl, rfl⟩ := h
      exact ⟨rfl, sameLines_skip hs he⟩
    | false =>
      simp only [he, Bool.false_eq_true, if_false] at h
      obtain ⟨o, ho, h⟩ := resBind_ok h
      cases o with
      | false => simp at h
      | true =>
        by_cases h0 : (openQuotes seen == 0) = true
        · rw [if_pos (by simp [h0])] at h
          exact openBlock_inv (bs := []) hs .nil trivial (by simpa using h0) ho h
        · rw [if_neg (by simp [h0])] at h; cases h
  | block q =>
    obtain ⟨bs, cur, hs, hb, hl, hz, a, a', mid, rfl, rfl, ho, hc⟩ := hi
    simp only [quotedStep] at h
    cases he : l.isEmptyLine with
    | true =>
      simp only [he, if_true, Except.ok.injEq, Prod.mk.injEq] at h
      obtain ⟨rfl, rfl⟩ := h
      exact ⟨bs, a :: (mid ++ [l]), by simpa using sameLines_snoc l hs, hb, hl, hz, a, a', mid ++ [l], rfl, rfl, ho, hc⟩
    | false =>
      simp only [he, Bool.false_eq_true, if_false] at h
      obtain ⟨c, hcl, h⟩ := resBind_ok h
      by_cases hx : (c && openQuotes seen + quoteLevelDiff l.content == 0) = true
      · rw [if_pos hx] at h
        obtain ⟨q, hq, h⟩ := resBind_ok h
        simp only [Except.ok.injEq, Prod.mk.injEq] at h
        obtain ⟨rfl, rfl⟩ := h
        have hc1 : c = true := by revert hx; cases c <;> simp
        subst hc1
        refine ⟨bs ++ [a :: mid ++ [l]], ?_, hb.append (.cons (.more ho hcl hc hq) .nil), hl.snoc (by omega)⟩
        simpa using sameLines_snoc l hs
      · rw [if_neg hx] at h
        simp only [Except.ok.injEq, Prod.mk.injEq] at h
        obtain ⟨rfl, rfl⟩ := h
        exact ⟨bs, a :: (mid ++ [l]), by simpa using sameLines_snoc l hs, hb, hl, hz, a, a', mid ++ [l], rfl, rfl, ho,
          hc⟩
  | maybe =>
    obtain ⟨bs, hs, hb, hl⟩ := hi
    simp only [quotedStep] at h
    cases he : l.isEmptyLine with
    | true =>
      simp only [he, if_true, Except.ok.injEq, Prod.mk.injEq] at h
      obtain ⟨rfl, rfl⟩ := h
      exact ⟨bs, sameLines_skip hs he, hb, hl⟩
    | false =>
      simp only [he, Bool.false_eq_true, if_false] at h
      obtain ⟨o, ho, h⟩ := resBind_ok h
      by_cases hx : (o && openQuotes seen == 0) = true
      · rw [if_pos hx] at h
        have ho1 : o = true := by revert hx; cases o <;> simp
        subst ho1
        exact openBlock_inv hs hb hl (by simpa using hx) ho h
      · rw [if_neg hx] at h
        simp only [Except.ok.injEq, Prod.mk.injEq] at h
        obtain ⟨rfl, rfl⟩ := h
        exact ⟨bs, [l], sameLines_snoc l hs, hb, hl, by simp [linesText]⟩
  | wrapUp w =>
    obtain ⟨bs, wl, hs, hb, hl, hw⟩ := hi
    simp only [quotedStep] at h
    cases he : l.isEmptyLine with
    | true =>
      simp only [he, if_true, Except.ok.injEq, Prod.mk.injEq] at h
      obtain ⟨rfl, rfl⟩ := h
      exact ⟨bs, wl, sameLines_skip hs he, hb, hl, hw⟩
    | false =>
      simp only [he, Bool.false_eq_true, if_false, Except.ok.injEq, Prod.mk.injEq] at h
      obtain ⟨rfl, rfl⟩ := h
      refine ⟨bs, wl ++ [l], by simpa using sameLines_snoc l hs, hb, hl, ?_⟩
      rw [ink_join]
      simp only [List.flatten_cons, List.flatten_nil, List.append_nil]
      rw [ink_append, hw, linesText_append, ink_append]
      simp [linesText]

theorem quotedLoop_inv (ls : List Line) : ∀ (seen : List Line) (nodes nodes' : List Node) (st st' : QuoteState),
    QuoteInv seen nodes st → (quoteLevelLoop true (openQuotes seen) ls).stop = none →
    quotedLoop st nodes (quoteLevelLoop true (openQuotes seen) ls).yields = .ok (st', nodes') →
    QuoteInv (seen ++ ls) nodes' st' ∧ openQuotes (seen ++ ls) = 0 := by
  induction ls with
  | nil =>
    intro seen nodes nodes' st st' hi h0 h
    simp only [quoteLevelLoop, quotedLoop, Except.ok.injEq, Prod.mk.injEq] at h
    obtain ⟨rfl, rfl⟩ := h
    rw [List.append_nil]
    refine ⟨hi, ?_⟩
    simp only [quoteLevelLoop, Bool.true_and] at h0
    by_cases h : openQuotes seen = 0
    · exact h
    · simp [h] at h0
  | cons l ls ih =>
    intro seen nodes nodes' st st' hi h0 h
    simp only [quoteLevelLoop] at h0 h
    by_cases hneg : openQuotes seen + quoteLevelDiff l.content < 0
    · simp [hneg] at h0
    · simp only [hneg, decide_false, Bool.and_false, Bool.false_eq_true, if_false] at h0 h
      rw [quotedLoop] at h
      obtain ⟨⟨st1, n1⟩, hstep, h⟩ := resBind_ok h
      have hlev : openQuotes seen + quoteLevelDiff l.content = openQuotes (seen ++ [l]) := by
        rw [openQuotes_append, openQuotes_one]
      rw [hlev] at h0 h
      have := ih (seen ++ [l]) n1 nodes' st1 st' (quotedStep_inv hi hstep) h0 h
      simpa using this

theorem quotedExtract_spec {lines : List Line} {nodes : List Node} {w : Option Str}
    (h : quotedExtract lines = .ok (nodes, w)) :
    openQuotes lines = 0 ∧ ∃ blocks wl, SameLines lines (blocks.flatten ++ wl) ∧ Both QuotedRaw blocks nodes ∧
      Levels 0 blocks ∧ WrapUp w wl := by
  unfold quotedExtract iterateWithQuoteLevel at h
  simp only at h
  obtain ⟨⟨st, nodes'⟩, hl, h⟩ := resBind_ok h
  cases hs : (quoteLevelLoop true 0 lines).stop with
  | some e => simp [hs] at h
  | none =>
    simp only [hs] at h
    have hi : QuoteInv [] [] .start := ⟨rfl, rfl⟩
    obtain ⟨hinv, h0⟩ := quotedLoop_inv lines [] [] nodes' .start st hi hs hl
    refine ⟨by simpa using h0, ?_⟩
    rw [List.nil_append] at hinv
    cases st with
    | start => simp at h
    | block => simp at h
    | maybe =>
      simp only [Except.ok.injEq, Prod.mk.injEq] at h
      obtain ⟨rfl, rfl⟩ := h
      obtain ⟨bs, a, b, c⟩ := hinv
      exact ⟨bs, [], by simpa using a, b, c, rfl, fun _ => rfl⟩
    | wrapUp t =>
      simp only [Except.ok.injEq, Prod.mk.injEq] at h
      obtain ⟨rfl, rfl⟩ := h
      obtain ⟨bs, wl, a, b, c, d⟩ := hinv
      exact ⟨bs, wl, a, b, c, d, by simp⟩

theorem quotedFirstLoop_spec (ls : List Line) : ∀ (level : Int) (n k : Nat) (stop : Option Err),
    quotedFirstLoop n (quoteLevelLoop true level ls).yields stop = .ok (some k) →
    ∃ pre l post, ls = pre ++ l :: post ∧ k = n + pre.length ∧ level + openQuotes pre = 0 ∧
      opensWithQuote l = .ok true := by
  induction ls with
  | nil =>
    intro level n k stop h
    simp only [quoteLevelLoop] at h
    cases stop <;> simp [quotedFirstLoop] at h
  | cons l ls ih =>
    intro level n k stop h
    have main : ∀ ys, (ys = [] ∨ ys = (quoteLevelLoop true (level + quoteLevelDiff l.content) ls).yields) →
        quotedFirstLoop n ((level, l) :: ys) stop = .ok (some k) →
        ∃ pre l' post, l :: ls = pre ++ l' :: post ∧ k = n + pre.length ∧ level + openQuotes pre = 0 ∧
          opensWithQuote l' = .ok true := by
      intro ys hy h
      have pass : quotedFirstLoop (n + 1) ys stop = .ok (some k) →
          ∃ pre l' post, l :: ls = pre ++ l' :: post ∧ k = n + pre.length ∧ level + openQuotes pre = 0 ∧
          opensWithQuote l' = .ok true := by
        intro h
        rcases hy with rfl | rfl
        · cases stop <;> simp [quotedFirstLoop] at h
        · obtain ⟨pre, l', post, e1, e2, e3, e4⟩ := ih _ _ _ _ h
          refine ⟨l :: pre, l', post, by rw [e1]; rfl, by simp only [List.length_cons]; omega, ?_, e4⟩
          rw [Props.openQuotes_cons]; omega
      rw [quotedFirstLoop] at h
      by_cases hc : level = 0 ∧ l.isEmptyLine = false
      · rw [if_pos hc] at h
        obtain ⟨o, ho, h⟩ := resBind_ok h
        cases o with
        | true =>
          simp only [if_true, Except.ok.injEq, Option.some.injEq] at h
          exact ⟨[], l, ls, rfl, by simp only [List.length_nil]; omega, by rw [openQuotes_nil]; omega, ho⟩
        | false => exact pass (by simpa using h)
      · rw [if_neg hc] at h
        exact pass h
    simp only [quoteLevelLoop] at h
    by_cases hneg : level + quoteLevelDiff l.content < 0
    · simp only [hneg, decide_true, Bool.and_self, if_true] at h
      exact main [] (.inl rfl) h
    · simp only [hneg, decide_false, Bool.and_false, Bool.false_eq_true, if_false] at h
      exact main _ (.inr rfl) h

end Verif
