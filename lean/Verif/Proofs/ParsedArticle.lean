import Verif.Proofs.Balanced

/-! # Articles and structural elements -/

namespace Verif

open Verif.Spec

/-! ## Article headers -/

/-- The characters of article identifiers. -/
def articleChar (c : Char) : Bool := isAsciiDigit c || isUpperAz c || c == ':' || c == '/'

theorem articleChar_digit {c : Char} (h : isAsciiDigit c = true) : articleChar c = true := by simp [articleChar, h]

theorem matchArticleTail_shape {s : Str} (h : matchArticleTail s = true) :
    ∃ t, s = py". § " ++ t ∨ s = py".§ " ++ t := by
  unfold matchArticleTail at h
  split at h
  · exact ⟨_, .inl rfl⟩
  · exact ⟨_, .inr rfl⟩
  · cases h

theorem takeWhile_digits (s : Str) : ∀ c ∈ s.takeWhile isAsciiDigit, articleChar c = true :=
  fun c hc => articleChar_digit (List.all_eq_true.mp List.all_takeWhile c hc)

theorem matchArticleNumber_shape {s i : Str} (h : matchArticleNumber s = some i) :
    (∃ t, s = i ++ py". § " ++ t ∨ s = i ++ py".§ " ++ t) ∧ ∀ c ∈ i, articleChar c = true := by
  unfold matchArticleNumber at h
  simp only at h
  have hsplit := takeWhile_append_dropWhile' isAsciiDigit s
  split at h
  · cases h
  · split at h
    · rename_i c rest he
      split at h
      · rename_i hc
        simp only [Bool.and_eq_true] at hc
        obtain rfl := Option.some.inj h
        obtain ⟨t, ht⟩ := matchArticleTail_shape hc.2
        refine ⟨⟨t, ?_⟩, ?_⟩
        · rw [he] at hsplit
          rcases ht with rfl | rfl
          · left; exact hsplit.symm.trans (by simp)
          · right; exact hsplit.symm.trans (by simp)
        · intro x hx
          rcases List.mem_append.mp hx with hx | hx
          · exact takeWhile_digits s x hx
          · simp only [List.mem_cons, List.not_mem_nil, or_false] at hx
            rcases hx with rfl | rfl
            · decide
            · simp [articleChar, hc.1]
      · cases h
    · split at h
      · rename_i hc
        obtain rfl := Option.some.inj h
        obtain ⟨t, ht⟩ := matchArticleTail_shape hc
        refine ⟨⟨t, ?_⟩, takeWhile_digits s⟩
        rcases ht with ht | ht
        · left; rw [List.append_assoc, ← ht, hsplit]
        · right; rw [List.append_assoc, ← ht, hsplit]
      · cases h

theorem matchArticle_shape {s i : Str} (h : matchArticle s = some i) :
    (∃ t, s = i ++ py". § " ++ t ∨ s = i ++ py".§ " ++ t) ∧ ∀ c ∈ i, articleChar c = true := by
  unfold matchArticle at h
  simp only at h
  have hsplit := takeWhile_append_dropWhile' isAsciiDigit s
  split at h
  · rename_i rest he
    split at h
    · cases h
    · cases hm : matchArticleNumber rest with
      | none => rw [hm] at h; cases h
      | some n =>
        rw [hm, Option.map_some] at h
        obtain rfl := Option.some.inj h
        obtain ⟨⟨t, ht⟩, hc⟩ := matchArticleNumber_shape hm
        rw [he] at hsplit
        refine ⟨⟨t, ?_⟩, ?_⟩
        · rcases ht with ht | ht
          · left; exact hsplit.symm.trans (by rw [ht]; simp)
          · right; exact hsplit.symm.trans (by rw [ht]; simp)
        · intro x hx
          rcases List.mem_append.mp hx with hx | hx
          · exact takeWhile_digits s x hx
          · rcases List.mem_cons.mp hx with rfl | hx
            · decide
            · exact hc x hx
  · exact matchArticleNumber_shape h

theorem strFind_here (needle s : Str) (h : needle ≠ []) : strFind needle (needle ++ s) = some 0 := by
  cases needle with
  | nil => exact absurd rfl h
  | cons c cs =>
    show strFind (c :: cs) (c :: (cs ++ s)) = some 0
    rw [strFind, if_pos (by rw [← List.cons_append]; exact List.isPrefixOf_iff_prefix.mpr (List.prefix_append _ _))]

/-- The first occurrence is not in a text without the first character. -/
theorem strFind_skip (c : Char) (cs a b : Str) (h : c ∉ a) :
    strFind (c :: cs) (a ++ b) = (strFind (c :: cs) b).map (a.length + ·) := by
  induction a with
  | nil => simp
  | cons x a ih =>
    rw [List.cons_append, strFind, if_neg, ih fun hx => h (by simp [hx]), Option.map_map]
    · congr 1
      funext n
      simp only [Function.comp_apply, List.length_cons]
      omega
    · intro hp
      have := List.isPrefixOf_iff_prefix.mp hp
      obtain ⟨t, ht⟩ := this
      simp only [List.cons_append, List.cons.injEq] at ht
      exact h (by simp [ht.1])

theorem articleChar_plain {c : Char} (h : articleChar c = true) : quoteDelta c = 0 := by
  simp only [articleChar, Bool.or_eq_true, beq_iff_eq] at h
  rcases h with ((h | h) | rfl) | rfl
  · exact digit_plain h
  · exact upper_plain h
  · decide
  · decide

theorem ink_plain {s : Str} (h : ∀ c ∈ s, articleChar c = true) : ink s = s := by
  unfold ink
  have h1 : s.filter (· ≠ ' ') = s := by
    rw [List.filter_eq_self]
    intro c hc
    have : c ≠ ' ' := by rintro rfl; have := h _ hc; revert this; decide
    simpa using this
  rw [h1]
  conv => rhs; rw [← List.map_id s]
  apply List.map_congr_left
  intro c hc
  have : c ≠ '“' := by rintro rfl; have := h _ hc; revert this; decide
  simp [this]

/-- The header of an article ends after the paragraph sign. -/
theorem article_header {s i : Str} {n : Nat} (h : matchArticle s = some i) (hn : strFind (py"§ ") s = some n) :
    ∃ number t, s = number ++ t ∧ number.length = n + 2 ∧ ink number = i ++ py".§" ∧
      (number.map quoteDelta).sum = 0 ∧ ∃ x, number = x ++ py"§ " := by
  obtain ⟨⟨t, ht⟩, hc⟩ := matchArticle_shape h
  have hsec : '§' ∉ i := by intro hx; have := hc _ hx; revert this; decide
  have hsum := plain_of_sum fun c hx => articleChar_plain (hc c hx)
  have key : ∀ mid : Str, '§' ∉ mid → s = (i ++ mid) ++ (py"§ " ++ t) → n = (i ++ mid).length := by
    intro mid hm he
    have h1 : '§' ∉ i ++ mid := by simp [hsec, hm]
    rw [he] at hn
    rw [show (py"§ ") = '§' :: [' '] from rfl, strFind_skip '§' [' '] _ _ h1,
      show (['§', ' '] ++ t) = py"§ " ++ t from rfl, strFind_here _ _ (by decide)] at hn
    simpa using hn.symm
  rcases ht with ht | ht
  · have hk := key (py". ") (by decide) (by rw [ht]; simp)
    refine ⟨i ++ py". " ++ py"§ ", t, by rw [ht]; simp, ?_, ?_, ?_, _, rfl⟩
    · rw [List.length_append, ← hk]; rfl
    · rw [ink_append, ink_append, ink_plain hc, List.append_assoc]; congr 1
    · simp only [List.map_append, List.sum_append, hsum]; decide
  · have hk := key (py".") (by decide) (by rw [ht]; simp)
    refine ⟨i ++ py"." ++ py"§ ", t, by rw [ht]; simp, ?_, ?_, ?_, _, rfl⟩
    · rw [List.length_append, ← hk]; rfl
    · rw [ink_append, ink_append, ink_plain hc, List.append_assoc]; congr 1
    · simp only [List.map_append, List.sum_append, hsum]; decide

/-! ## Article bodies -/

theorem articleParagraphs_spec {lines : List Line} {pi : Bool} {ps : List Node}
    (h : articleParagraphs lines pi = .ok ps) :
    ((∀ l ∈ lines, FineEnd l) → openQuotes lines = 0) ∧ (∀ p ∈ ps, p.type = .sae .paragraph) ∧
    ((∃ p, ps = [p]) ∨ NumberedFrom .paragraph (py"1") ps) ∧
    ∃ blocks, SameLines lines blocks.flatten ∧ Levels 0 blocks ∧ ParsedL blocks ps := by
  cases lines with
  | nil => cases h
  | cons first rest =>
    simp only [articleParagraphs] at h
    by_cases hc : paragraphParser.header first.content ≠ some paragraphParser.first
    · rw [if_pos hc] at h
      obtain ⟨p, hp, h⟩ := resBind_ok h
      obtain rfl := Except.ok.inj h
      obtain ⟨h1, h2, _⟩ := parseElement_parsed paragraph_sound paragraphKids_sound hp fun _ => rfl
      refine ⟨fun hf => paragraph_balanced (hf first (by simp)) hp, ?_, .inl ⟨p, rfl⟩, [first :: rest], ?_, ⟨rfl, trivial⟩,
        .cons h1 .nil⟩
      · intro q hq; rw [List.mem_singleton.mp hq]; exact h2
      · simp only [List.flatten_cons, List.flatten_nil, List.append_nil]; exact SameLines.rfl' _
    · rw [if_neg hc] at h
      obtain ⟨⟨ps', w⟩, hx, h⟩ := resBind_ok h
      simp only at h
      split at h
      · cases h
      · rename_i hw
        obtain rfl := Except.ok.inj h
        obtain ⟨x0, blocks, wl, x1, x2, x3, x4, x5, _⟩ := extractMultiple_spec paragraph_sound.visible hx
        have hwl : wl = [] := x4.2 (x5 rfl)
        subst hwl
        have heads := x3.heads
        have hparse : Both (fun b c => Parsed b c ∧ c.type = .sae .paragraph ∧ c.identifier = blockId paragraphParser b)
            blocks ps' :=
          x2.imp fun b hb c _ hbc => parseElement_parsed paragraph_sound paragraphKids_sound hbc fun _ => rfl
        refine ⟨fun _ => x0, ?_, .inr ⟨?_, ?_⟩, blocks, by simpa using x1, x3.levels,
          parsedL_of_both (hparse.imp fun _ _ _ _ h => h.1)⟩
        · intro c hc
          obtain ⟨b, _, h⟩ := hparse.mem_right hc
          exact h.2.1
        · intro c hc
          obtain ⟨b, _, h⟩ := hparse.mem_right hc
          exact h.2.1
        · obtain ⟨ids, i1, i2, i3, _, i5⟩ := x3.ids
          refine ⟨ids, ?_, ?_, paragraph_sound.consecutive i5 i2, paragraph_sound.nodup ids i5 i2⟩
          · rw [← i1]; exact both_map_eq hparse fun a b h => h.2.2
          · refine i3 rfl ?_
            rintro rfl
            have := (sameLines_filter (first :: rest)).symm.trans x1
            have hv : first.isEmptyLine = false := by
              apply nonempty_of_content
              intro e
              rw [e] at hc
              exact hc (by decide)
            unfold SameLines at x1
            simp [hv] at x1

theorem skipEmptyLine_spec {lines lines' : List Line} (h : skipEmptyLine lines = .ok lines') :
    SameLines lines lines' ∧ ∀ l ∈ lines', l ∈ lines := by
  cases lines with
  | nil => cases h
  | cons l ls =>
    simp only [skipEmptyLine, Except.ok.injEq] at h
    cases he : l.isEmptyLine with
    | true =>
      simp only [he, if_true] at h
      subst h
      exact ⟨by simp [SameLines, he], fun x hx => by simp [hx]⟩
    | false =>
      simp only [he, Bool.false_eq_true, if_false] at h
      subst h
      exact ⟨SameLines.rfl' _, fun x hx => hx⟩

theorem closesBracket_ok {l : Option Line} {b : Bool} (h : closesBracket l = .ok b) :
    ∃ x c, l = some x ∧ x.content.getLast? = some c ∧ b = (c == ']') := by
  unfold closesBracket at h
  cases l with
  | none => simp at h
  | some x =>
    cases hc : x.content.getLast? with
    | none => simp [hc] at h
    | some c =>
      simp only [Option.bind_some, hc] at h
      exact ⟨x, c, rfl, hc, (Except.ok.inj h).symm⟩

theorem content_last {s : Str} {c : Char} (h : s.getLast? = some c) : s = s.dropLast ++ [c] := by
  rcases List.eq_nil_or_concat s with rfl | ⟨t, x, rfl⟩
  · cases h
  · rw [List.concat_eq_append] at h ⊢
    rw [List.getLast?_append] at h
    simp only [List.getLast?_singleton, Option.some_or] at h
    rw [List.dropLast_concat]
    rw [Option.some.inj h]

/-- A title that ends on the third line of an article. -/
def ThreeLineTitle (lines : List Line) : Prop :=
  ∃ a b c rest, lines = a :: b :: c :: rest ∧ a.content.head? = some '[' ∧
    a.content.getLast? ≠ some ']' ∧ b.content.getLast? ≠ some ']' ∧ c.content.getLast? = some ']'

theorem articleTitle_spec {lines lines' : List Line} {t : Option Str} (h : articleTitle lines = .ok (t, lines')) :
    ∃ title, lines = title ++ lines' ∧ ((t = none ∧ title = []) ∨
      ∃ s, t = some s ∧ (¬ ThreeLineTitle lines → ink (linesText title) = ink (py"[" ++ s ++ py"]"))) := by
  unfold articleTitle at h
  cases hh : lines.head?.bind (fun l => l.content.head?) with
  | none => simp [hh] at h
  | some c =>
    simp only [hh] at h
    by_cases hc : c ≠ '['
    · rw [if_pos hc] at h
      simp only [Except.ok.injEq, Prod.mk.injEq] at h
      obtain ⟨rfl, rfl⟩ := h
      exact ⟨[], rfl, .inl ⟨rfl, rfl⟩⟩
    · rw [if_neg hc] at h
      have hc' : c = '[' := by simpa using hc
      subst hc'
      cases lines with
      | nil => simp at hh
      | cons l0 ls0 =>
        have hhead : l0.content.head? = some '[' := by simpa using hh
        obtain ⟨u, hu⟩ : ∃ u, l0.content = '[' :: u := by
          cases hl : l0.content with
          | nil => rw [hl] at hhead; cases hhead
          | cons x u => rw [hl] at hhead; obtain rfl := Option.some.inj hhead; exact ⟨u, rfl⟩
        obtain ⟨b0, hb0, h⟩ := resBind_ok h
        obtain ⟨x0, c0, e0, hl0, rfl⟩ := closesBracket_ok hb0
        obtain rfl : l0 = x0 := by simpa using e0
        have hcut0 := content_last hl0
        by_cases h0 : c0 = ']'
        · subst h0
          simp only [beq_self_eq_true, if_true, Except.ok.injEq, Prod.mk.injEq] at h
          obtain ⟨rfl, rfl⟩ := h
          refine ⟨[l0], rfl, .inr ⟨_, rfl, fun _ => ?_⟩⟩
          simp only [linesText_cons, linesText_nil, List.append_nil, List.getElem?_cons_zero, Option.map_some,
            Option.getD_some]
          congr 1
          rw [hu] at hcut0 hl0 ⊢
          cases u with
          | nil => simp at hl0
          | cons a u =>
            rw [List.dropLast_cons_cons] at hcut0
            simpa using hcut0
        · have hf0 : (c0 == ']') = false := by simpa using h0
          simp only [hf0, Bool.false_eq_true, if_false] at h
          obtain ⟨b1, hb1, h⟩ := resBind_ok h
          obtain ⟨x1, c1, e1, hl1, rfl⟩ := closesBracket_ok hb1
          cases ls0 with
          | nil => simp at e1
          | cons l1 ls1 =>
            obtain rfl : l1 = x1 := by simpa using e1
            have hcut1 := content_last hl1
            by_cases h1 : c1 = ']'
            · subst h1
              simp only [beq_self_eq_true, if_true, Except.ok.injEq, Prod.mk.injEq] at h
              obtain ⟨rfl, rfl⟩ := h
              refine ⟨[l0, l1], rfl, .inr ⟨_, rfl, fun _ => ?_⟩⟩
              simp only [linesText_cons, linesText_nil, List.append_nil, List.getElem?_cons_zero, Option.map_some,
                Option.getD_some, List.getElem?_cons_succ, hu, ink_append, ink_join, List.flatten_cons, List.flatten_nil,
                List.drop_succ_cons, List.drop_zero]
              conv => lhs; rw [hcut1]
              rw [ink_cons, ink_append]
              simp only [List.append_assoc]
            · have hf1 : (c1 == ']') = false := by simpa using h1
              simp only [hf1, Bool.false_eq_true, if_false] at h
              obtain ⟨b2, hb2, h⟩ := resBind_ok h
              obtain ⟨x2, c2, e2, hl2, rfl⟩ := closesBracket_ok hb2
              cases ls1 with
              | nil => simp at e2
              | cons l2 ls2 =>
                obtain rfl : l2 = x2 := by simpa using e2
                by_cases h2 : c2 = ']'
                · subst h2
                  simp only [beq_self_eq_true, if_true, Except.ok.injEq, Prod.mk.injEq] at h
                  obtain ⟨rfl, rfl⟩ := h
                  refine ⟨[l0, l1, l2], rfl, .inr ⟨_, rfl, fun hno => ?_⟩⟩
                  exfalso
                  apply hno
                  refine ⟨l0, l1, l2, ls2, rfl, hhead, ?_, ?_, hl2⟩
                  · rw [hl0]; simpa using h0
                  · rw [hl1]; simpa using h1
                · have hf2 : (c2 == ']') = false := by simpa using h2
                  simp [hf2] at h

theorem ThreeLineTitle.sub {a b : List Line} (h : ThreeLineTitle a) (hb : b = a) : ThreeLineTitle b := hb ▸ h

/-- What is said about a parsed article. -/
structure ArticleFacts (lines : List Line) (i : Str) (t : Option Str) (ps : List Node) : Prop where
  parts : ∃ first rest number cut title blocks, lines = first :: rest ∧
    ((∀ l ∈ lines, FineEnd l) → first.content = number ++ cut.content ∧ openQuotes blocks.flatten = 0) ∧
    ink number = i ++ py".§" ∧ (i.map quoteDelta).sum = 0 ∧ (number.map quoteDelta).sum = 0 ∧
    SameLines (cut :: rest) (title ++ blocks.flatten) ∧ Levels 0 blocks ∧ ParsedL blocks ps ∧
    (∀ l ∈ cut :: rest, l = cut ∨ l ∈ rest) ∧ ((∀ l ∈ lines, FineEnd l) → FineEnd cut) ∧
    ((t = none ∧ title = []) ∨
      ∃ s, t = some s ∧ ((∀ l ∈ lines, FineEnd l) → ¬ LongTitle lines →
        ink (linesText title) = ink (py"[" ++ s ++ py"]")))
  numbered : (∃ p, ps = [p]) ∨ NumberedFrom .paragraph (py"1") ps
  read : ∃ content, matchArticle content = some i

theorem isInfix_append (needle a b : Str) : isInfix needle (a ++ (needle ++ b)) = true := by
  induction a with
  | nil =>
    rw [List.nil_append]
    cases needle with
    | nil => cases b <;> simp [isInfix]
    | cons c cs =>
      show isInfix (c :: cs) (c :: (cs ++ b)) = true
      rw [isInfix, Bool.or_eq_true]
      left
      rw [← List.cons_append]
      exact List.isPrefixOf_iff_prefix.mpr (List.prefix_append _ _)
  | cons x a ih =>
    rw [List.cons_append, isInfix, ih, Bool.or_true]

theorem parseArticle_spec {lines : List Line} {pi : Bool} {n : Node} (h : parseArticle lines pi = .ok n) :
    ∃ i t ps, n = .article i t ps ∧ ArticleFacts lines i t ps := by
  cases lines with
  | nil => cases h
  | cons first rest =>
    simp only [parseArticle] at h
    cases hm : matchArticle first.content with
    | none => simp [hm] at h
    | some i =>
      cases hs : strFind (py"§ ") first.content with
      | none => simp [hm, hs] at h
      | some k =>
        simp only [hm, hs] at h
        obtain ⟨cut, hcut, h⟩ := resBind_ok h
        have hbody : articleBody i (cut :: rest) pi = .ok n := by
          cases hb : articleBody i (cut :: rest) pi with
          | ok a => rw [hb] at h; exact h
          | error e => rw [hb] at h; cases h
        unfold articleBody at hbody
        obtain ⟨⟨t, lines1⟩, ht, hbody⟩ := resBind_ok hbody
        obtain ⟨lines2, hskip, hbody⟩ := resBind_ok hbody
        obtain ⟨ps, hps, hbody⟩ := resBind_ok hbody
        obtain ⟨title, e1, htitle⟩ := articleTitle_spec ht
        obtain ⟨e2, e3⟩ := skipEmptyLine_spec hskip
        obtain ⟨p1, p2, p3, blocks, p4, p5, p6⟩ := articleParagraphs_spec hps
        have hfilter : ps.filter (fun p => p.type == .sae .paragraph) = ps := by
          rw [List.filter_eq_self]
          intro p hp
          rw [p2 p hp]; rfl
        rw [hfilter] at hbody
        obtain ⟨number, tail, n1, n2, n3, n4, x, n5⟩ := article_header hm hs
        have hi : (i.map quoteDelta).sum = 0 :=
          plain_of_sum fun c hx => articleChar_plain ((matchArticle_shape hm).2 c hx)
        have hn : n = .article i t ps := by
          unfold mkArticle at hbody
          split at hbody
          · cases hbody
          · exact (Except.ok.inj hbody).symm
        have hcontent : FineEnd first → cut.content = tail := by
          intro hf
          have : first.slice ((k + 2 : Nat) : Int) = .ok cut := by
            rw [← hcut]; rfl
          rw [slice_fine_from hf this, n1, List.drop_left' n2]
        refine ⟨i, t, ps, hn, ⟨first, rest, number, cut, title, blocks, rfl, ?_, n3, hi, n4, ?_, p5, p6, ?_, ?_, ?_⟩, p3, _, hm⟩
        · intro hf
          refine ⟨by rw [n1, hcontent (hf first (by simp))], ?_⟩
          rw [← openQuotes_same p4]
          apply p1
          intro l hl
          have : l ∈ cut :: rest := by rw [e1]; exact List.mem_append.mpr (.inr (e3 l hl))
          rcases List.mem_cons.mp this with rfl | hl
          · exact slice_fineEnd (hf first (by simp)) hcut
          · exact hf l (by simp [hl])
        · rw [e1]
          exact SameLines.append (SameLines.rfl' _) (SameLines.trans' e2 p4)
        · intro l hl; exact List.mem_cons.mp hl
        · intro hf; exact slice_fineEnd (hf first (by simp)) hcut
        · rcases htitle with h | ⟨s, hs', htext⟩
          · exact .inl h
          · refine .inr ⟨s, hs', fun hf hno => htext ?_⟩
            rintro ⟨a, b, c, r, hl, ha, ha', hb, hc⟩
            apply hno
            obtain ⟨rfl, rfl⟩ := List.cons.inj hl
            refine ⟨[], first, b, c, r, rfl, ?_, ?_, hb, hc⟩
            · have hcc := hcontent (hf first (by simp))
              cases htl : tail with
              | nil => rw [hcc, htl] at ha; cases ha
              | cons y tl =>
                rw [hcc, htl] at ha
                obtain rfl : y = '[' := by simpa using ha
                have : first.content = x ++ (py"§ [" ++ tl) := by rw [n1, n5, htl]; simp
                rw [this]
                exact isInfix_append _ _ _
            · have hcc := hcontent (hf first (by simp))
              cases htl : tail with
              | nil => rw [hcc, htl] at ha; cases ha
              | cons y tl =>
                rw [n1, List.getLast?_append, ← hcc]
                rw [hcc, htl] at ha' ⊢
                cases hgl : (y :: tl).getLast? with
                | none => simp at hgl
                | some z => rw [hgl] at ha'; simpa using ha'

theorem article_text {lines : List Line} {i : Str} {t : Option Str} {ps : List Node} (h : ArticleFacts lines i t ps)
    (hf : ∀ l ∈ lines, FineEnd l) (hno : ¬ LongTitle lines) :
    ink (linesText lines) = ink (printed (.article i t ps)) := by
  obtain ⟨first, rest, number, cut, title, blocks, e, hc, hn, _, _, hsame, _, hps, _, hcut, ht⟩ := h.parts
  have hl : ink i = i := by
    have h1 : ink (ink number) = ink number := by
      unfold ink
      rw [List.filter_map, List.map_map]
      have : ∀ s : Str, (List.filter ((fun x => decide (x ≠ ' ')) ∘ fun c => if c = '“' then '„' else c)
          (s.filter (· ≠ ' '))) = s.filter (· ≠ ' ') := by
        intro s
        rw [List.filter_eq_self]
        intro c hc
        have := (List.mem_filter.mp hc).2
        simp only [Function.comp_apply]
        split
        · decide
        · exact this
      rw [this]
      apply List.map_congr_left
      intro c _
      simp only [Function.comp_apply]
      split <;> simp_all
    rw [hn, ink_append] at h1
    have h2 : ink (py".§") = py".§" := by decide
    rw [h2] at h1
    exact (List.append_inj' h1 rfl).1
  have hblocks : ∀ b ∈ blocks, ∀ l ∈ b, FineEnd l := by
    have := fine_of_same hsame (fun l hl => by
      rcases List.mem_cons.mp hl with rfl | hl
      · exact hcut hf
      · exact hf l (by rw [e]; simp [hl]))
    intro b hb l hl
    exact this l (List.mem_append.mpr (.inr (List.mem_flatten.mpr ⟨b, hb, hl⟩)))
  have htext := linesText_same hsame
  rw [linesText_cons, linesText_append] at htext
  rw [e, linesText_cons, (hc hf).1, List.append_assoc, htext, ink_append, ink_append, hn, parsedL_text hps hblocks]
  simp only [printed, ink_append, hl]
  have h2 : ink (py".§") = py".§" := by decide
  rw [h2]
  rcases ht with ⟨rfl, rfl⟩ | ⟨s, rfl, hs⟩
  · simp [ink, linesText]
  · rw [hs hf hno]
    simp only [List.append_assoc, ink_append]

theorem article_divided {lines : List Line} {i : Str} {t : Option Str} {ps : List Node} (h : ArticleFacts lines i t ps)
    (hf : ∀ l ∈ lines, FineEnd l) (h0 : openQuotes lines = 0) {before : List Line} (hb : openQuotes before = 0) :
    Divided before lines (.article i t ps) := by
  obtain ⟨first, rest, number, cut, title, blocks, rfl, hc, hn, hi, hnp, hsame, hl, hps, _, hcut, ht⟩ := h.parts
  have hblocks : ∀ b ∈ blocks, ∀ l ∈ b, FineEnd l := by
    have := fine_of_same hsame (fun l hl => by
      rcases List.mem_cons.mp hl with rfl | hl
      · exact hcut hf
      · exact hf l (by simp [hl]))
    intro b hb l hl
    exact this l (List.mem_append.mpr (.inr (List.mem_flatten.mpr ⟨b, hb, hl⟩)))
  refine .article hb (hc hf).1 hn hi hsame (parsedL_divided hps hblocks ?_)
  have hlev : openQuotes (cut :: rest) = 0 := by
    rw [openQuotes_eq, linesText_cons, (hc hf).1] at h0
    rw [openQuotes_eq, linesText_cons]
    simp only [List.map_append, List.sum_append, hnp] at h0 ⊢
    omega
  have htitle : openQuotes title = 0 := by
    rw [openQuotes_same hsame, openQuotes_append, (hc hf).2] at hlev
    omega
  rw [openQuotes_append, hb, htitle]
  exact hl

theorem article_numbered {lines : List Line} {i : Str} {t : Option Str} {ps : List Node} (h : ArticleFacts lines i t ps) :
    ∀ m, Inside m (.article i t ps) → ChildrenNumbered m := by
  obtain ⟨first, rest, number, cut, title, blocks, rfl, _, _, _, _, _, _, hps, _, _, _⟩ := h.parts
  intro m hm
  cases hm with
  | self => exact h.numbered
  | deeper hc hm => exact parsedL_numbered hps _ hc m hm

end Verif
