import Verif.Spec.Amendments
import Verif.Proofs.ParsedAct
import Verif.Proofs.Structure

/-! # Lemmas about amendments -/

namespace Verif

open Verif.Spec

/-! ## The regular expression -/

theorem matchBrackets_iff (s inner : Str) : matchBrackets s = some inner ↔ InBrackets s inner := by
  have key : ∀ t : Str, unbracket (dropFinalNewline t) = some inner ↔
      ∃ o c newline, t = o :: (inner ++ c :: newline) ∧ (newline = [] ∨ newline = ['\n']) ∧ '\n' ∉ inner ∧
        ((o = '(' ∧ c = ')') ∨ (o = '[' ∧ c = ']')) := by
    intro t
    constructor
    · intro h
      have hnl : ∃ nl, t = dropFinalNewline t ++ nl ∧ (nl = [] ∨ nl = ['\n']) := by
        unfold dropFinalNewline
        split
        · rename_i hl
          exact ⟨['\n'], content_last hl, .inr rfl⟩
        · exact ⟨[], by simp, .inl rfl⟩
      obtain ⟨nl, ht, hnl⟩ := hnl
      generalize dropFinalNewline t = u at h ht
      cases u with
      | nil => cases h
      | cons o body =>
        rw [unbracket] at h
        split at h
        · cases h
        · rename_i hc
          split at h
          · rename_i hb
            obtain rfl := Option.some.inj h
            have hn : '\n' ∉ o :: body := by simpa using hc
            rcases hb with ⟨rfl, hb⟩ | ⟨rfl, hb⟩
            · refine ⟨'(', ')', nl, ?_, hnl, fun hx => hn (List.mem_cons_of_mem _ (List.dropLast_subset _ hx)), .inl ⟨rfl, rfl⟩⟩
              rw [ht]; conv => lhs; rw [content_last hb]
              simp
            · refine ⟨'[', ']', nl, ?_, hnl, fun hx => hn (List.mem_cons_of_mem _ (List.dropLast_subset _ hx)), .inr ⟨rfl, rfl⟩⟩
              rw [ht]; conv => lhs; rw [content_last hb]
              simp
          · cases h
    · rintro ⟨o, c, nl, rfl, hnl, hin, hoc⟩
      have hu : dropFinalNewline (o :: (inner ++ c :: nl)) = o :: (inner ++ [c]) := by
        unfold dropFinalNewline
        have hcn : c ≠ '\n' := by rcases hoc with ⟨_, rfl⟩ | ⟨_, rfl⟩ <;> decide
        have e1 : o :: (inner ++ [c]) = (o :: inner) ++ [c] := by simp
        rcases hnl with rfl | rfl
        · rw [if_neg]
          rw [e1, List.getLast?_append]; simpa using hcn
        · have e2 : o :: (inner ++ [c, '\n']) = (o :: (inner ++ [c])) ++ ['\n'] := by simp
          rw [e2, if_pos (by rw [List.getLast?_append]; rfl), List.dropLast_concat]
      rw [hu]
      have hno : '\n' ∉ o :: (inner ++ [c]) := by
        rcases hoc with ⟨rfl, rfl⟩ | ⟨rfl, rfl⟩ <;> simp [hin]
      rw [unbracket, if_neg (by simpa using hno), if_pos, List.dropLast_concat]
      rw [List.getLast?_append]
      rcases hoc with ⟨rfl, rfl⟩ | ⟨rfl, rfl⟩
      · exact .inl ⟨rfl, rfl⟩
      · exact .inr ⟨rfl, rfl⟩
  constructor
  · intro h
    unfold matchBrackets at h
    split at h
    · rename_i r
      obtain ⟨o, c, nl, rfl, h1, h2, h3⟩ := (key r).mp h
      exact ⟨[' '], o, c, nl, rfl, .inr rfl, h1, h2, h3⟩
    · obtain ⟨o, c, nl, rfl, h1, h2, h3⟩ := (key s).mp h
      exact ⟨[], o, c, nl, rfl, .inl rfl, h1, h2, h3⟩
  · rintro ⟨space, o, c, nl, rfl, hs, h1, h2, h3⟩
    rcases hs with rfl | rfl
    · have ho : o ≠ ' ' := by rcases h3 with ⟨rfl, _⟩ | ⟨rfl, _⟩ <;> decide
      have := (key (o :: (inner ++ c :: nl))).mpr ⟨o, c, nl, rfl, h1, h2, h3⟩
      unfold matchBrackets
      rw [List.nil_append]
      split
      · rename_i r hr
        exact absurd (List.cons.inj hr).1 ho
      · exact this
    · exact (key (o :: (inner ++ c :: nl))).mpr ⟨o, c, nl, rfl, h1, h2, h3⟩

theorem InBrackets.inj {s a b : Str} (h : InBrackets s a) (h' : InBrackets s b) : a = b :=
  Option.some.inj (((matchBrackets_iff s a).mpr h).symm.trans ((matchBrackets_iff s b).mpr h'))

/-- What the loop finds. -/
theorem matchContext_some (s : Str) : ∀ (seen actual inner : Str), matchContext seen s = some (actual, inner) →
    ∃ x rest, actual = seen ++ x ++ [':'] ∧ s = x ++ ':' :: rest ∧ '\n' ∉ x ∧ InBrackets rest inner ∧
      ∀ y r i, s = y ++ ':' :: r → '\n' ∉ y → InBrackets r i → y.length ≤ x.length := by
  induction s with
  | nil => intro seen actual inner h; cases h
  | cons c s ih =>
    intro seen actual inner h
    rw [matchContext] at h
    split at h
    · cases h
    · rename_i hc
      cases hm : matchContext (seen ++ [c]) s with
      | some r =>
        rw [hm] at h
        obtain rfl := Option.some.inj h
        obtain ⟨x, rest, h1, rfl, h3, h4, h5⟩ := ih _ _ _ hm
        refine ⟨c :: x, rest, by simp [h1], rfl, by simp [h3, Ne.symm hc], h4, ?_⟩
        intro y r i hy hn hb
        cases y with
        | nil => simp
        | cons d y =>
          rw [List.cons_append] at hy
          have := h5 y r i (List.cons.inj hy).2 (fun hx => hn (by simp [hx])) hb
          simp only [List.length_cons]; omega
      | none =>
        rw [hm] at h
        simp only at h
        split at h
        · rename_i hcol
          subst hcol
          cases hb : matchBrackets s with
          | none => rw [hb] at h; cases h
          | some i =>
            rw [hb] at h
            obtain ⟨rfl, rfl⟩ := Prod.mk.inj (Option.some.inj h)
            refine ⟨[], s, by simp, rfl, by simp, (matchBrackets_iff _ _).mp hb, ?_⟩
            intro y r j hy hn hbr
            cases y with
            | nil => simp
            | cons d y =>
              exfalso
              rw [List.cons_append] at hy
              have he := (List.cons.inj hy).2
              have : ∀ (y : Str) (seen s : Str), s = y ++ ':' :: r → '\n' ∉ y → matchContext seen s ≠ none := by
                intro y
                induction y with
                | nil =>
                  rintro seen _ rfl _
                  rw [List.nil_append, matchContext, if_neg (by decide)]
                  cases matchContext (seen ++ [':']) r with
                  | some _ => simp
                  | none => simp [(matchBrackets_iff r j).mpr hbr]
                | cons e y ih2 =>
                  rintro seen _ rfl hne
                  rw [List.cons_append, matchContext, if_neg (fun hx => hne (by simp [hx]))]
                  cases hq : matchContext (seen ++ [e]) (y ++ ':' :: r) with
                  | some _ => simp
                  | none => exact absurd hq (ih2 _ _ rfl fun hx => hne (by simp [hx]))
              exact this y _ s he (fun hx => hn (by simp [hx])) hm
        · cases h

theorem matchContext_none (y : Str) : ∀ (seen r i : Str), '\n' ∉ y → InBrackets r i →
    matchContext seen (y ++ ':' :: r) ≠ none := by
  induction y with
  | nil =>
    intro seen r i _ hb
    rw [List.nil_append, matchContext, if_neg (by decide)]
    cases matchContext (seen ++ [':']) r with
    | some _ => simp
    | none => simp [(matchBrackets_iff r i).mpr hb]
  | cons e y ih =>
    intro seen r i hn hb
    rw [List.cons_append, matchContext, if_neg (fun hx => hn (by simp [hx]))]
    cases hq : matchContext (seen ++ [e]) (y ++ ':' :: r) with
    | some _ => simp
    | none => exact absurd hq (ih _ r i (fun hx => hn (by simp [hx])) hb)

theorem matchContext_iff (intro actual inner : Str) :
    matchContext [] intro = some (actual, inner) ↔ HasContext intro actual inner := by
  constructor
  · intro h
    obtain ⟨x, rest, h1, h2, h3, h4, h5⟩ := matchContext_some intro [] actual inner h
    rw [List.nil_append] at h1
    exact ⟨x, rest, h1, by rw [h1, h2]; simp, h3, h4, h5⟩
  · rintro ⟨x, rest, rfl, rfl, h3, h4, h5⟩
    cases hm : matchContext [] (x ++ [':'] ++ rest) with
    | none => exact absurd hm (by simpa using matchContext_none x [] rest inner h3 h4)
    | some r =>
      obtain ⟨a, i⟩ := r
      obtain ⟨x', rest', rfl, h2', h3', h4', h5'⟩ := matchContext_some _ [] a i hm
      have e1 := h5 x' rest' i h2' h3' h4'
      have e2 := h5' x rest inner (by simp) h3 h4
      have hx : x = x' := by
        have : (x ++ ':' :: rest).take x.length = (x' ++ ':' :: rest').take x.length := by
          rw [← h2']; simp
        rw [List.take_left, show x.length = x'.length by omega, List.take_left] at this
        exact this
      subst hx
      have hr : rest = rest' := by
        rw [List.append_assoc] at h2'
        have := List.append_cancel_left h2'
        exact (List.cons.inj this).2
      subst hr
      rw [InBrackets.inj h4 h4']
      simp

theorem splitContext_actual (intro : Str) (w : Option Str) : Announcement intro (splitContext intro w).1 := by
  unfold splitContext
  cases hm : matchContext [] intro with
  | none => exact .inr ⟨rfl, fun a i h => by rw [(matchContext_iff intro a i).mpr h] at hm; cases hm⟩
  | some r => exact .inl ⟨r.2, (matchContext_iff intro r.1 r.2).mp hm⟩

theorem announcement_unique {intro a : Str} (w : Option Str) (h : Announcement intro a) : a = (splitContext intro w).1 := by
  unfold splitContext
  rcases h with ⟨i, h⟩ | ⟨rfl, h⟩
  · rw [(matchContext_iff intro a i).mpr h]
  · cases hm : matchContext [] a with
    | none => rfl
    | some r => exact absurd ((matchContext_iff _ _ _).mp hm) (h r.1 r.2)

/-! ## Announcements -/

theorem firstBlockAmendment_some {l : List SemanticData} {p : Position} (h : firstBlockAmendment l = some p) :
    ∃ before pure after, l = before ++ .blockAmendment p pure :: after ∧ ∀ x ∈ before, ∀ p q, x ≠ .blockAmendment p q := by
  induction l with
  | nil => cases h
  | cons d l ih =>
    have other : firstBlockAmendment l = some p → (∀ p q, d ≠ .blockAmendment p q) →
        ∃ before pure after, d :: l = before ++ .blockAmendment p pure :: after ∧
          ∀ x ∈ before, ∀ p q, x ≠ .blockAmendment p q := by
      intro h hd
      obtain ⟨b, q, a, e, hb⟩ := ih h
      refine ⟨d :: b, q, a, by simp [e], fun x hx => ?_⟩
      rcases List.mem_cons.mp hx with rfl | hx
      · exact hd
      · exact hb x hx
    cases d with
    | blockAmendment p' q =>
      simp only [firstBlockAmendment, Option.some.injEq] at h
      subst h
      exact ⟨[], q, l, rfl, by simp⟩
    | _ => exact other h (by simp)

theorem firstBlockAmendment_of (before : List SemanticData) (p : Position) (q : Bool) (after : List SemanticData)
    (h : ∀ x ∈ before, ∀ p q, x ≠ .blockAmendment p q) :
    firstBlockAmendment (before ++ .blockAmendment p q :: after) = some p := by
  induction before with
  | nil => rfl
  | cons d l ih =>
    have hd := h d (by simp)
    cases d with
    | blockAmendment p' q' => exact absurd rfl (hd p' q')
    | _ => exact ih fun x hx => h x (by simp [hx])

theorem childrenType_quoted {k : SaeKind} {cs : List Node} :
    childrenType k (optChildren cs) = .ok (some .quoted) ↔ cs ≠ [] ∧ ∀ c ∈ cs, c.type = .quoted := by
  unfold optChildren
  cases cs with
  | nil => simp [childrenType]
  | cons c cs =>
    simp only [List.isEmpty_cons, Bool.false_eq_true, if_false, childrenType]
    constructor
    · intro h
      split at h
      · rename_i ha
        have hc : c.type = .quoted := by simpa using h
        refine ⟨by simp, fun d hd => ?_⟩
        rcases List.mem_cons.mp hd with rfl | hd
        · exact hc
        · have := List.all_eq_true.mp ha d hd
          rw [← hc]; simpa using this
      · split at h <;> cases h
    · rintro ⟨_, h⟩
      have hc := h c (by simp)
      rw [if_pos, hc]
      rw [List.all_eq_true]
      intro d hd
      rw [hc, h d (by simp [hd])]; rfl

theorem announces_iff {analyze : Analyzer} {k : SaeKind} {d : SaeData} {cs : List Node} {p : Position} :
    Announces analyze (.sae k d cs) p ↔ childrenType k (optChildren cs) = .ok (some .quoted) ∧
      ∃ intro analysis, d.intro = some intro ∧ intro.length ≤ 10000 ∧
        analyze (splitContext intro d.wrapUp).1 = .ok analysis ∧ firstBlockAmendment analysis.semantic = some p := by
  constructor
  · rintro ⟨k', d', cs', intro, actual, an, b, q, a, e, h1, h2, h3, h4, h5, h6, h7, h8⟩
    obtain ⟨rfl, rfl, rfl⟩ := Node.sae.inj e
    refine ⟨childrenType_quoted.mpr ⟨h1, h2⟩, intro, an, h3, h4, ?_, ?_⟩
    · rw [← announcement_unique d.wrapUp h5]; exact h6
    · rw [h7]; exact firstBlockAmendment_of _ _ _ _ h8
  · rintro ⟨h1, intro, an, h2, h3, h4, h5⟩
    obtain ⟨e1, e2⟩ := childrenType_quoted.mp h1
    obtain ⟨b, q, a, e3, e4⟩ := firstBlockAmendment_some h5
    exact ⟨k, d, cs, intro, _, an, b, q, a, rfl, e1, e2, h2, h3, splitContext_actual intro d.wrapUp, h4, e3, e4⟩

theorem announces_unique {analyze : Analyzer} {n : Node} {p q : Position} (h : Announces analyze n p)
    (h' : Announces analyze n q) : p = q := by
  obtain ⟨k, d, cs, _, _, _, _, _, _, rfl, _⟩ := id h
  obtain ⟨_, i, a, h1, _, h3, h4⟩ := announces_iff.mp h
  obtain ⟨_, i', a', h1', _, h3', h4'⟩ := announces_iff.mp h'
  obtain rfl := Option.some.inj (h1.symm.trans h1')
  obtain rfl := Except.ok.inj (h3.symm.trans h3')
  exact Option.some.inj (h4.symm.trans h4')

/-! ## One paragraph -/

theorem parseBlockAmendment_ok {p : Position} {i w : Option Str} {lines : List Line} {b : Node}
    (h : parseBlockAmendment p i w lines = .ok b) : ∃ cs, blockChildren p lines = .ok cs ∧
      b = .sae .blockAmendmentContainer { intro := i, wrapUp := w } cs ∧ cs ≠ [] := by
  unfold parseBlockAmendment at h
  cases hc : blockChildren p lines with
  | error e => simp [hc, bind, Except.bind] at h
  | ok cs =>
    simp only [hc, bind, Except.bind] at h
    cases hm : mkSae .blockAmendmentContainer { intro := i, wrapUp := w } (some cs) with
    | error e => simp [hm] at h
    | ok n =>
      simp only [hm, Except.ok.injEq] at h
      subst h
      obtain ⟨rfl, _, _, t, ht⟩ := mkSae_ok hm
      exact ⟨cs, rfl, rfl, by rintro rfl; simp [childrenType] at ht⟩

theorem parseBlockAmendment_error {p : Position} {i w : Option Str} {lines : List Line} {e : Err}
    (h : parseBlockAmendment p i w lines = .error e) : e = .blockAmendmentParsing := by
  unfold parseBlockAmendment at h
  split at h
  · exact (Except.error.inj h).symm
  · cases h

theorem splitContext_cases (intro : Str) (w : Option Str) :
    (∃ i, HasContext intro (splitContext intro w).1 i ∧ (splitContext intro w).2.1 = some i ∧
      (splitContext intro w).2.2 = w.map fun w => (w.drop 1).dropLast) ∨
    ((∀ a i, ¬ HasContext intro a i) ∧ (splitContext intro w).1 = intro ∧ (splitContext intro w).2.1 = none ∧
      (splitContext intro w).2.2 = none) := by
  unfold splitContext
  cases hm : matchContext [] intro with
  | none =>
    exact .inr ⟨fun a i h => (by rw [(matchContext_iff intro a i).mpr h] at hm; cases hm), rfl, rfl, rfl⟩
  | some r =>
    refine .inl ⟨r.2, (matchContext_iff intro r.1 r.2).mp hm, rfl, ?_⟩
    cases w with
    | none => rfl
    | some w =>
      simp only [Option.map_some, Option.some.injEq]
      unfold pySlice pyBound
      cases w with
      | nil => rfl
      | cons c w =>
        simp only [List.length_cons]
        have e2 : (-1 + ((w.length + 1 : Nat) : Int)).toNat = w.length := by omega
        rw [if_neg (by decide), if_pos (by decide), e2, List.dropLast_eq_take]
        cases w <;> simp

theorem parseBlockAmendment_of {p : Position} {i w : Option Str} {lines : List Line} {e : Err}
    (h : parseBlockAmendment p i w lines = .error e) (hc : ∀ cs, blockChildren p lines = .ok cs →
      ∃ n, mkSae .blockAmendmentContainer { intro := i, wrapUp := w } (some cs) = .ok n) :
    ∀ cs, blockChildren p lines ≠ .ok cs := by
  intro cs hcs
  obtain ⟨n, hn⟩ := hc cs hcs
  simp [parseBlockAmendment, hcs, hn, bind, Except.bind] at h

/-- A paragraph that announces an amendment, with several quoted blocks. -/
theorem blockParagraph_several {analyze : Analyzer} {k : SaeKind} {d : SaeData} {cs : List Node} {p : Position}
    (h : Announces analyze (.sae k d cs) p) (hc : ∀ lines, cs ≠ [.quoted lines]) :
    blockParagraph analyze (.sae k d cs) = .error .assertionError := by
  obtain ⟨h1, intro, an, h2, h3, h4, h5⟩ := announces_iff.mp h
  simp only [blockParagraph]
  rw [if_neg (by simp [h1]), h2]
  simp only
  rw [if_neg (by omega), h4]
  simp only [h5]

/-- A paragraph that announces an amendment, with one quoted block. -/
theorem blockParagraph_one {analyze : Analyzer} {k : SaeKind} {d : SaeData} {lines : List Line} {p : Position}
    (h : Announces analyze (.sae k d [.quoted lines]) p) : ∃ intro, d.intro = some intro ∧
    (∀ b, parseBlockAmendment p (splitContext intro d.wrapUp).2.1 (splitContext intro d.wrapUp).2.2 lines = .ok b →
      blockParagraph analyze (.sae k d [.quoted lines]) =
        mkSae k { d with intro := some (splitContext intro d.wrapUp).1, wrapUp := some [] } (some [b])) ∧
    ∀ e, parseBlockAmendment p (splitContext intro d.wrapUp).2.1 (splitContext intro d.wrapUp).2.2 lines = .error e →
      blockParagraph analyze (.sae k d [.quoted lines]) = .error .blockAmendmentParsing := by
  obtain ⟨h1, intro, an, h2, h3, h4, h5⟩ := announces_iff.mp h
  refine ⟨intro, h2, fun b hb => ?_, fun e he => ?_⟩
  · simp only [blockParagraph]
    rw [if_neg (by simp [h1]), h2]
    simp only
    rw [if_neg (by omega), h4]
    simp only [h5, hb]
  · simp only [blockParagraph]
    rw [if_neg (by simp [h1]), h2]
    simp only
    rw [if_neg (by omega), h4]
    simp only [h5, he]
    rw [parseBlockAmendment_error he]

theorem blockParagraph_amended {analyze : Analyzer} {n n' : Node} {p : Position} (h : Announces analyze n p)
    (hb : blockParagraph analyze n = .ok n') : Amended p n n' := by
  obtain ⟨k, d, cs, _, _, _, _, _, _, rfl, _⟩ := id h
  by_cases hc : ∃ lines, cs = [.quoted lines]
  · obtain ⟨lines, rfl⟩ := hc
    obtain ⟨intro, hi, h1, h2⟩ := blockParagraph_one h
    cases hp : parseBlockAmendment p (splitContext intro d.wrapUp).2.1 (splitContext intro d.wrapUp).2.2 lines with
    | error e => rw [h2 e hp] at hb; cases hb
    | ok b =>
      rw [h1 b hp] at hb
      obtain ⟨rfl, _⟩ := mkSae_ok hb
      obtain ⟨cs, e1, rfl, _⟩ := parseBlockAmendment_ok hp
      exact ⟨k, d, lines, intro, _, _, _, cs, rfl, hi, e1, splitContext_cases intro d.wrapUp, rfl⟩
  · rw [blockParagraph_several h fun lines e => hc ⟨lines, e⟩] at hb
    cases hb

/-- What happens to all other paragraphs. -/
theorem blockParagraph_other {analyze : Analyzer} {n n' : Node} (h : ∀ p, ¬ Announces analyze n p)
    (hb : blockParagraph analyze n = .ok n') : n' = n := by
  cases n with
  | sae k d cs =>
    simp only [blockParagraph] at hb
    split at hb
    · exact (Except.ok.inj hb).symm
    · rename_i hq
      cases hi : d.intro with
      | none => rw [hi] at hb; cases hb
      | some intro =>
        rw [hi] at hb
        simp only at hb
        split at hb
        · exact (Except.ok.inj hb).symm
        · rename_i hl
          cases ha : analyze (splitContext intro d.wrapUp).1 with
          | error e => rw [ha] at hb; cases hb
          | ok an =>
            rw [ha] at hb
            simp only at hb
            cases hf : firstBlockAmendment an.semantic with
            | none => rw [hf] at hb; exact (Except.ok.inj hb).symm
            | some p =>
              exact absurd (announces_iff.mpr ⟨by simpa using hq, intro, an, hi, by omega, ha, hf⟩) (h p)
  | _ => exact (Except.ok.inj hb).symm

theorem mapRes_ok {α β : Type} {f : α → Res β} {as : List α} {bs : List β} (h : mapRes f as = .ok bs) :
    Both (fun a b => f a = .ok b) as bs := by
  induction as generalizing bs with
  | nil => obtain rfl := Except.ok.inj h; exact .nil
  | cons a as ih =>
    rw [mapRes] at h
    obtain ⟨b, hb, h⟩ := resBind_ok h
    obtain ⟨cs, hcs, h⟩ := resBind_ok h
    obtain rfl := Except.ok.inj h
    exact .cons hb (ih hcs)

theorem mapRes_of {α β : Type} {f : α → Res β} {as : List α} (h : ∀ a ∈ as, ∃ b, f a = .ok b) :
    ∃ bs, mapRes f as = .ok bs := by
  induction as with
  | nil => exact ⟨[], rfl⟩
  | cons a as ih =>
    obtain ⟨b, hb⟩ := h a (by simp)
    obtain ⟨bs, hbs⟩ := ih fun x hx => h x (by simp [hx])
    exact ⟨b :: bs, by rw [mapRes, hb]; simp [bind, Except.bind, hbs]⟩

/-! ## The lines of an amendment -/

/-- The lines are divided among the elements; all but the first one begin with a header. -/
theorem blockLoop_spec {P : BlockParser} (ls : List Line) : ∀ (level : Int) (last : Str) (current : List Line)
    (done : List Node) (blocks : List (List Line)) (out : List Node) (left : List Line),
    (quoteLevelLoop true level ls).stop = none →
    blockLoop P last current done (quoteLevelLoop true level ls).yields = .ok (out, left) →
    Both (fun b e => P.parse b = .ok e) blocks done →
    ((∀ b ∈ (blocks ++ [current]).tail, ∃ l i, b.head? = some l ∧ P.header l.content = some i) ∧
      (blocks ≠ [] → current ≠ [])) →
    ∃ blocks', (blocks'.flatten ++ left = blocks.flatten ++ current ++ ls) ∧
      Both (fun b e => P.parse b = .ok e) blocks' out ∧
      ∀ b ∈ (blocks' ++ [left]).tail, ∃ l i, b.head? = some l ∧ P.header l.content = some i := by
  induction ls with
  | nil =>
    intro level last current done blocks out left h0 h hb hh
    simp only [quoteLevelLoop, blockLoop] at h
    obtain ⟨rfl, rfl⟩ := Prod.mk.inj (Except.ok.inj h)
    exact ⟨blocks, by simp, hb, hh.1⟩
  | cons l ls ih =>
    intro level last current done blocks out left h0 h hb hh
    simp only [quoteLevelLoop] at h0 h
    by_cases hneg : level + quoteLevelDiff l.content < 0
    · simp [hneg] at h0
    · simp only [hneg, decide_false, Bool.and_false, Bool.false_eq_true, if_false] at h0 h
      rw [blockLoop] at h
      obtain ⟨found, hf, h⟩ := resBind_ok h
      cases found with
      | none =>
        simp only at h
        have hh' : ∀ b ∈ (blocks ++ [current ++ [l]]).tail, ∃ l i, b.head? = some l ∧ P.header l.content = some i := by
          intro b hm
          cases blocks with
          | nil => simp at hm
          | cons x xs =>
            simp only [List.cons_append, List.tail_cons, List.mem_append, List.mem_singleton] at hm hh
            rcases hm with hm | rfl
            · exact hh.1 b (.inl hm)
            · obtain ⟨l', i, h1, h2⟩ := hh.1 current (.inr rfl)
              refine ⟨l', i, ?_, h2⟩
              cases current with
              | nil => cases h1
              | cons => exact h1
        obtain ⟨bs, e1, e2, e3⟩ := ih _ _ _ _ blocks _ _ h0 h hb ⟨hh', by simp⟩
        exact ⟨bs, by rw [e1]; simp, e2, e3⟩
      | some i =>
        simp only at h
        obtain ⟨e, he, h⟩ := resBind_ok h
        have hhead : P.header l.content = some i ∧ current ≠ [] := by
          unfold blockHeader at hf
          cases hp : P.header l.content with
          | none => rw [hp] at hf; cases hf
          | some j =>
            rw [hp] at hf
            simp only at hf
            split at hf
            · cases hf
            · rename_i hc
              obtain ⟨r, _, hf⟩ := resBind_ok hf
              cases r with
              | false => simp at hf
              | true =>
                simp at hf
                subst hf
                refine ⟨rfl, ?_⟩
                rintro rfl
                simp at hc
        have hb' : Both (fun b e => P.parse b = .ok e) (blocks ++ [current]) (done ++ [e]) := hb.append (.cons he .nil)
        have hh' : ∀ b ∈ (blocks ++ [current] ++ [[l]]).tail, ∃ l i, b.head? = some l ∧ P.header l.content = some i := by
          intro b hm
          rw [List.tail_append_of_ne_nil (by simp)] at hm
          rcases List.mem_append.mp hm with hm | hm
          · exact hh.1 b hm
          · obtain rfl := List.mem_singleton.mp hm
            exact ⟨l, i, rfl, hhead.1⟩
        obtain ⟨bs, e1, e2, e3⟩ := ih _ _ _ _ (blocks ++ [current]) _ _ h0 h hb' ⟨hh', by simp⟩
        exact ⟨bs, by rw [e1]; simp, e2, e3⟩

theorem parseBlocks_spec {P : BlockParser} {expected : Str} {lines : List Line} {es : List Node}
    (h : parseBlocks P expected lines = .ok es) : ∃ blocks, lines = blocks.flatten ∧
      Both (fun b e => P.parse b = .ok e) blocks es ∧ blocks ≠ [] ∧
      ∀ b ∈ blocks.tail, ∃ l i, b.head? = some l ∧ P.header l.content = some i := by
  unfold parseBlocks at h
  simp only [iterateWithQuoteLevel] at h
  obtain ⟨⟨done, current⟩, hl, h⟩ := resBind_ok h
  simp only at h
  cases hs : (quoteLevelLoop true 0 lines).stop with
  | some e => rw [hs] at h; cases h
  | none =>
    rw [hs] at h
    simp only at h
    obtain ⟨e, he, h⟩ := resBind_ok h
    obtain rfl := Except.ok.inj h
    obtain ⟨bs, e1, e2, e3⟩ := blockLoop_spec lines 0 expected [] [] [] done current hs hl .nil ⟨by simp, by simp⟩
    exact ⟨bs ++ [current], by simpa using e1.symm, e2.append (.cons he .nil), by simp, e3⟩

/-- The text of an element that was read, not after a header with the word None. -/
theorem element_text {P : ElementParser} {kids : ChildReader} (hP : P.Sound) (hk : KidsSound P kids) {b : List Line}
    {pi : Bool} {e : Node} (h : parseElement P kids b pi = .ok e) (hf : ∀ l ∈ b, FineEnd l)
    (hn : NoneFirst b → ∃ i, blockId P b = some i) : ink (linesText b) = ink (printed e) ∧ e.type = .sae P.kind := by
  have hname : blockId P b = none → P.kind = .paragraph := by
    intro hb
    cases b with
    | nil => simp [parseElement] at h
    | cons first rest =>
      by_cases hk : P.kind = .paragraph
      · exact hk
      · exfalso
        have hi : P.header first.content = none := hb
        simp only [parseElement, hi] at h
        obtain ⟨p, hp, h⟩ := resBind_ok h
        cases hs : startsWith first.content p with
        | false => simp [hs] at h
        | true =>
          have hpre : ∃ t, p = py"None" ++ t := by
            cases hkk : P.kind with
            | paragraph => exact absurd hkk hk
            | blockAmendmentContainer => rw [hkk] at hp; cases hp
            | _ => rw [hkk] at hp; obtain rfl := Except.ok.inj hp; exact ⟨_, rfl⟩
          obtain ⟨t, rfl⟩ := hpre
          obtain ⟨i, hi⟩ := hn ⟨first, t ++ first.content.drop (py"None" ++ t).length, rfl, by
            conv => lhs; rw [startsWith_drop hs]
            simp⟩
          rw [hb] at hi
          cases hi
  obtain ⟨h1, h2, _⟩ := parseElement_parsed hP hk h hname
  exact ⟨parsed_text h1 hf, h2⟩

/-- The same for a subpoint, whatever its prefix is. -/
theorem subpoint_text {p : Str} {b : List Line} {pi : Bool} {e : Node}
    (h : parseElement (alphabeticSubpointParser p) subpointKids b pi = .ok e) (hf : ∀ l ∈ b, FineEnd l)
    (hn : NoneFirst b → ∃ i, blockId (alphabeticSubpointParser p) b = some i) :
    ink (linesText b) = ink (printed e) ∧ e.type = .sae .alphabeticSubpoint := by
  cases b with
  | nil => simp [parseElement] at h
  | cons first rest =>
    simp only [parseElement] at h
    obtain ⟨pre, hp, h⟩ := resBind_ok h
    cases hs : startsWith first.content pre with
    | false => simp [hs] at h
    | true =>
      simp only [hs, Bool.not_true, Bool.false_eq_true, if_false] at h
      obtain ⟨first', hcut, h⟩ := resBind_ok h
      have hfirst : first.content = pre ++ first'.content := by
        rw [slice_fine_from (hf first (by simp)) hcut]; exact startsWith_drop hs
      have hid : ∃ i, (alphabeticSubpointParser p).header first.content = some i := by
        cases hi : (alphabeticSubpointParser p).header first.content with
        | some i => exact ⟨i, rfl⟩
        | none =>
          rw [hi] at hp
          obtain rfl := Except.ok.inj hp
          have : NoneFirst (first :: rest) := ⟨first, py") " ++ first'.content, rfl, by rw [hfirst]; simp⟩
          obtain ⟨i, h'⟩ := hn this
          rw [← hi]; exact ⟨i, h'⟩
      obtain ⟨i, hi⟩ := hid
      rw [hi] at hp
      simp only [hi, show subpointKids (first' :: rest) (some i) pi = .error .noSubelements from rfl] at h
      obtain ⟨rfl, _⟩ := mkSae_ok h
      obtain rfl := Except.ok.inj hp
      refine ⟨?_, rfl⟩
      simp only [printed, printedL, linesText_cons, hfirst, Option.getD_some, Option.getD_none, List.append_nil,
        ink_append, ink_joinLines, heading]
      simp [alphabeticSubpointParser, ink]

/-- Every amended element says what its lines say. -/
theorem blockParser_reads {r : Reference} {P : BlockParser} {expected : Str} (hp : blockParser r = .ok (P, expected))
    {b : List Line} {e : Node} (h : P.parse b = .ok e) (hf : ∀ l ∈ b, FineEnd l) (ht : ¬ LongTitle b)
    (hn : NoneFirst b → ∃ l i, b.head? = some l ∧ P.header l.content = some i) :
    ink (linesText b) = ink (printed e) ∧ (e.type = .article ∨ ∃ k, e.type = .sae k ∧ k ≠ .blockAmendmentContainer) := by
  have conv : ∀ (Q : ElementParser), P.header = Q.header → NoneFirst b → ∃ i, blockId Q b = some i := by
    intro Q hQ hb
    obtain ⟨l, i, h1, h2⟩ := hn hb
    exact ⟨i, by rw [blockId, h1, Option.bind_some, ← hQ, h2]⟩
  have fin : ∀ {Q : ElementParser} {kids : ChildReader}, Q.Sound → KidsSound Q kids →
      P = Q.asBlock kids → ink (linesText b) = ink (printed e) ∧
        (e.type = .article ∨ ∃ k, e.type = .sae k ∧ k ≠ .blockAmendmentContainer) := by
    rintro Q kids hQ hk rfl
    obtain ⟨h1, h2⟩ := element_text hQ hk h hf (conv Q rfl)
    exact ⟨h1, .inr ⟨_, h2, hQ.kind⟩⟩
  unfold blockParser at hp
  obtain ⟨⟨i, t⟩, _, hp⟩ := resBind_ok hp
  cases i with
  | none => simp at hp
  | some i =>
    cases t with
    | none => simp at hp
    | some t =>
      simp only at hp
      cases t with
      | act => cases hp
      | article =>
        obtain ⟨rfl, rfl⟩ := Prod.mk.inj (Except.ok.inj hp)
        obtain ⟨i, t, ps, rfl, facts⟩ := parseArticle_spec h
        exact ⟨article_text facts hf ht, .inl rfl⟩
      | paragraph =>
        exact fin paragraph_sound paragraphKids_sound (Prod.mk.inj (Except.ok.inj hp)).1.symm
      | alphabeticPoint =>
        exact fin alphabeticPoint_sound alphabeticPointKids_sound (Prod.mk.inj (Except.ok.inj hp)).1.symm
      | numericPoint =>
        exact fin numericPoint_sound numericPointKids_sound (Prod.mk.inj (Except.ok.inj hp)).1.symm
      | numericSubpoint =>
        exact fin numericSubpoint_sound (subpointKids_sound _) (Prod.mk.inj (Except.ok.inj hp)).1.symm
      | alphabeticSubpoint =>
        have hP := (Prod.mk.inj (Except.ok.inj hp)).1
        subst hP
        obtain ⟨h1, h2⟩ := subpoint_text (pi := false) h hf (conv _ rfl)
        exact ⟨h1, .inr ⟨_, h2, by decide⟩⟩

theorem blockChildren_reads {position : Position} {lines : List Line} {cs : List Node}
    (h : blockChildren position lines = .ok cs) (hf : ∀ l ∈ lines, FineEnd l) (ht : ¬ LongTitle lines)
    (hn : ¬ NoneFirst lines) : ∃ pre blocks, lines = pre ++ blocks.flatten ∧ Both Reads blocks cs ∧
      ((∃ r, position = .ref r) → pre = [] ∧ ∀ c ∈ cs, ∀ e, c ≠ .structural e) ∧
      ∀ l p, lines.head? = some l → headerParser false {} l emptyLine bodyParsers = .ok (some p) → pre = [] := by
  have wide : ∀ {pre : List Line} {blocks : List (List Line)}, lines = pre ++ blocks.flatten → ∀ b ∈ blocks,
      (∀ l ∈ b, FineEnd l) ∧ ¬ LongTitle b := by
    intro pre blocks e b hb
    obtain ⟨x, y, hxy⟩ := mem_flatten_split hb
    refine ⟨fun l hl => hf l ?_, fun hl => ht ?_⟩
    · rw [e, hxy]; simp [hl]
    · have := LongTitle.wider (a := pre ++ x) (c := y) hl
      rw [e, hxy]
      simpa using this
  cases position with
  | struct s =>
    obtain ⟨_, pre, blocks, h1, _, h3, h4⟩ := parseElements_spec (show parseElements false lines false = .ok cs from h)
    refine ⟨pre, blocks, h1, h3.imp fun b hb e _ hq => ?_, (by rintro ⟨r, hr⟩; cases hr), h4⟩
    obtain ⟨q, hq⟩ := hq
    exact body_reads hq (wide h1 b hb).1 (wide h1 b hb).2
  | ref r =>
    obtain ⟨⟨P, expected⟩, hP, h⟩ := resBind_ok (show (blockParser r >>= fun x => parseBlocks x.1 x.2 lines) = .ok cs from h)
    obtain ⟨blocks, h1, h2, h3, h4⟩ := parseBlocks_spec h
    have key : Both (fun b e => ink (linesText b) = ink (printed e) ∧
        (e.type = .article ∨ ∃ k, e.type = .sae k ∧ k ≠ .blockAmendmentContainer)) blocks cs := by
      refine h2.imp fun b hb e _ hq => ?_
      have hw := wide (pre := []) (by simpa using h1) b hb
      refine blockParser_reads hP hq hw.1 hw.2 fun hx => ?_
      cases blocks with
      | nil => cases hb
      | cons b0 bs =>
        rcases List.mem_cons.mp hb with rfl | hb
        · exfalso
          obtain ⟨l, s, e1, e2⟩ := hx
          refine hn ⟨l, s, ?_, e2⟩
          rw [h1]
          cases b with
          | nil => cases e1
          | cons => exact e1
        · exact h4 b hb
    have notStruct : ∀ c ∈ cs, ∀ e, c ≠ .structural e := by
      rintro c hc e rfl
      obtain ⟨b, _, _, hb⟩ := key.mem_right hc
      rcases hb with hb | ⟨k, hb, _⟩ <;> cases hb
    refine ⟨[], blocks, by simpa using h1, key.imp fun b _ e he hq => ?_, fun _ => ⟨rfl, notStruct⟩, fun _ _ _ _ => rfl⟩
    cases e with
    | structural s => exact absurd rfl (notStruct _ he s)
    | _ => exact hq.1

theorem parseElement_type {P : ElementParser} {kids : ChildReader} {ls : List Line} {pi : Bool} {n : Node}
    (h : parseElement P kids ls pi = .ok n) : n.type = .sae P.kind := by
  cases ls with
  | nil => simp [parseElement] at h
  | cons first rest =>
    simp only [parseElement] at h
    obtain ⟨p, hp, h⟩ := resBind_ok h
    cases hs : startsWith first.content p with
    | false => simp [hs] at h
    | true =>
      simp only [hs, Bool.not_true, Bool.false_eq_true, if_false] at h
      obtain ⟨first', hf, h⟩ := resBind_ok h
      cases hr : kids (first' :: rest) (P.header first.content) pi with
      | ok r =>
        simp only [hr] at h
        obtain ⟨rfl, _⟩ := mkSae_ok h
        rfl
      | error e =>
        have : mkSae P.kind { identifier := P.header first.content, text := some (joinLines (first' :: rest)) } none =
            .ok n := by
          simp only [hr] at h
          cases e <;> first | exact h | cases h
        obtain ⟨rfl, _⟩ := mkSae_ok this
        rfl

theorem blockParser_type {r : Reference} {P : BlockParser} {expected : Str} (hp : blockParser r = .ok (P, expected))
    {b : List Line} {e : Node} (h : P.parse b = .ok e) :
    e.type = .article ∨ ∃ k, e.type = .sae k ∧ k ≠ .blockAmendmentContainer := by
  have fin : ∀ {Q : ElementParser} {kids : ChildReader}, Q.kind ≠ .blockAmendmentContainer →
      P = Q.asBlock kids → (e.type = .article ∨ ∃ k, e.type = .sae k ∧ k ≠ .blockAmendmentContainer) := by
    rintro Q kids hQ rfl
    exact .inr ⟨_, parseElement_type h, hQ⟩
  unfold blockParser at hp
  obtain ⟨⟨i, t⟩, _, hp⟩ := resBind_ok hp
  cases i with
  | none => simp at hp
  | some i =>
    cases t with
    | none => simp at hp
    | some t =>
      simp only at hp
      cases t with
      | act => cases hp
      | article =>
        obtain ⟨rfl, rfl⟩ := Prod.mk.inj (Except.ok.inj hp)
        obtain ⟨i, t, ps, rfl, facts⟩ := parseArticle_spec h
        exact .inl rfl
      | paragraph => exact fin (by decide) (Prod.mk.inj (Except.ok.inj hp)).1.symm
      | alphabeticPoint => exact fin (by decide) (Prod.mk.inj (Except.ok.inj hp)).1.symm
      | numericPoint => exact fin (by decide) (Prod.mk.inj (Except.ok.inj hp)).1.symm
      | numericSubpoint => exact fin (by decide) (Prod.mk.inj (Except.ok.inj hp)).1.symm
      | alphabeticSubpoint =>
        have hP := (Prod.mk.inj (Except.ok.inj hp)).1
        refine fin ?_ hP.symm
        show SaeKind.alphabeticSubpoint ≠ _
        decide

/-- What was parsed always fits in a container. -/
theorem container_made {position : Position} {lines : List Line} {cs : List Node}
    (h : blockChildren position lines = .ok cs) (i w : Option Str) :
    mkSae .blockAmendmentContainer { intro := i, wrapUp := w } (some cs) =
      .ok (.sae .blockAmendmentContainer { intro := i, wrapUp := w } cs) := by
  have key : cs ≠ [] ∧ ∀ c ∈ cs, c.type = .article ∨ (∃ k, c.type = .sae k ∧ k ≠ .blockAmendmentContainer) ∨
      ∃ k, c.type = .structural k := by
    cases position with
    | struct s =>
      have h' : parseElements false lines false = .ok cs := h
      obtain ⟨_, pre, blocks, h1, _, h3, h4⟩ := parseElements_spec h'
      refine ⟨?_, fun c hc => ?_⟩
      · rintro rfl
        unfold parseElements at h'
        simp only at h'
        obtain ⟨v, hv, h'⟩ := resBind_ok h'
        cases hs : (iterateWithQuoteLevel lines).stop with
        | some e => rw [hs] at h'; cases h'
        | none =>
          rw [hs] at h'
          simp only at h'
          cases hp : v.parser with
          | none => rw [hp] at h'; cases h'
          | some p =>
            rw [hp] at h'
            simp only at h'
            obtain ⟨e, _, h'⟩ := resBind_ok h'
            have := Except.ok.inj h'
            simp at this
      · obtain ⟨b, _, q, hq⟩ := h3.mem_right hc
        cases q with
        | article =>
          obtain ⟨i, t, ps, rfl, _⟩ := parseArticle_spec hq
          exact .inl rfl
        | struct k =>
          obtain ⟨e', rfl, _, _⟩ := struct_reads hq
          exact .inr (.inr ⟨_, rfl⟩)
    | ref r =>
      obtain ⟨⟨P, expected⟩, hP, h⟩ := resBind_ok (show (blockParser r >>= fun x => parseBlocks x.1 x.2 lines) = .ok cs from h)
      obtain ⟨blocks, h1, h2, h3, h4⟩ := parseBlocks_spec h
      refine ⟨?_, fun c hc => ?_⟩
      · rintro rfl
        cases h2
        exact h3 rfl
      · obtain ⟨b, _, hb⟩ := h2.mem_right hc
        rcases blockParser_type hP hb with h | h
        · exact .inl h
        · exact .inr (.inl h)
  obtain ⟨h1, h2⟩ := key
  have hct : ∃ t, childrenType .blockAmendmentContainer (some cs) = .ok t := by
    cases cs with
    | nil => exact absurd rfl h1
    | cons c cs =>
      simp only [childrenType]
      split
      · exact ⟨_, rfl⟩
      · exact ⟨_, rfl⟩
  obtain ⟨t, hct⟩ := hct
  have hv : validChildren .blockAmendmentContainer (some cs) = true := by
    unfold validChildren
    rw [List.all_eq_true]
    intro c hc
    rcases h2 c hc with h | ⟨k, h, hk⟩ | ⟨k, h⟩
    · rw [h]; decide
    · rw [h]; cases k <;> first | decide | exact absurd rfl hk
    · rw [h]; cases k <;> decide
  unfold mkSae
  rw [hct]
  simp [bind, Except.bind, validText, hv]

/-- An announced amendment fails exactly if the quoted text is not one block that can be parsed. -/
theorem blockParagraph_unparsable {analyze : Analyzer} {n : Node} {p : Position} (h : Announces analyze n p)
    (hu : Unparsable p n) : ∃ e, blockParagraph analyze n = .error e := by
  obtain ⟨k, d, cs, _, _, _, _, _, _, rfl, _⟩ := id h
  by_cases hc : ∃ lines, cs = [.quoted lines]
  · obtain ⟨lines, rfl⟩ := hc
    obtain ⟨intro, hi, h1, h2⟩ := blockParagraph_one h
    cases hp : parseBlockAmendment p (splitContext intro d.wrapUp).2.1 (splitContext intro d.wrapUp).2.2 lines with
    | error e => exact ⟨_, h2 e hp⟩
    | ok b =>
      obtain ⟨cs, e1, _⟩ := parseBlockAmendment_ok hp
      exact absurd e1 (hu lines rfl cs)
  · exact ⟨_, blockParagraph_several h fun lines e => hc ⟨lines, e⟩⟩

theorem blockParagraph_parsable {analyze : Analyzer} {n : Node} {p : Position} (hb : Built n)
    (ht : n.type = .sae .paragraph) (h : Announces analyze n p)
    (hp : ∃ lines cs, n.children = [.quoted lines] ∧ blockChildren p lines = .ok cs) :
    ∃ n', blockParagraph analyze n = .ok n' := by
  obtain ⟨k, d, cs, _, _, _, _, _, _, rfl, _⟩ := id h
  obtain ⟨lines, es, hl, hes⟩ := hp
  obtain rfl : cs = [.quoted lines] := hl
  obtain rfl : k = .paragraph := by cases ht; rfl
  obtain ⟨intro, hi, h1, _⟩ := blockParagraph_one h
  have hm := container_made hes (splitContext intro d.wrapUp).2.1 (splitContext intro d.wrapUp).2.2
  have hpb : parseBlockAmendment p (splitContext intro d.wrapUp).2.1 (splitContext intro d.wrapUp).2.2 lines =
      .ok (.sae .blockAmendmentContainer
        { intro := (splitContext intro d.wrapUp).2.1, wrapUp := (splitContext intro d.wrapUp).2.2 } es) := by
    simp [parseBlockAmendment, hes, hm, bind, Except.bind]
  rw [h1 _ hpb]
  have hd : d.text = none := by
    cases hb with
    | sae children parts made =>
      obtain ⟨e, hv, _⟩ := mkSae_ok made
      obtain ⟨rfl, rfl, e3⟩ := Node.sae.inj e
      cases children with
      | none => cases e3
      | some c => simpa [validText] using hv
    | article children parts typed made =>
      unfold mkArticle at made
      split at made <;> cases made
  have hv : validChildren .paragraph (some [.sae .blockAmendmentContainer
    { intro := (splitContext intro d.wrapUp).2.1, wrapUp := (splitContext intro d.wrapUp).2.2 } es]) = true := rfl
  unfold mkSae
  simp [bind, Except.bind, childrenType, validText, hd, hv]

theorem blockParagraph_quiet {analyze : Analyzer} {n : Node} (hi : (∃ c ∈ n.children, c.type = .quoted) →
      ∃ k d cs i, n = .sae k d cs ∧ d.intro = some i) (ha : ∀ s, ∃ r, analyze s = .ok r)
    (h : ∀ p, ¬ Announces analyze n p) : blockParagraph analyze n = .ok n := by
  cases n with
  | sae k d cs =>
    simp only [blockParagraph]
    split
    · rfl
    · rename_i hq
      obtain ⟨q1, q2⟩ := childrenType_quoted.mp (by simpa using hq)
      obtain ⟨c, hc⟩ := List.exists_mem_of_ne_nil cs q1
      obtain ⟨_, _, _, i, e, hi⟩ := hi ⟨c, hc, q2 c hc⟩
      obtain ⟨rfl, rfl, rfl⟩ := Node.sae.inj e
      rw [hi]
      simp only
      split
      · rfl
      · rename_i hl
        obtain ⟨r, hr⟩ := ha (splitContext i d.wrapUp).1
        rw [hr]
        simp only
        cases hf : firstBlockAmendment r.semantic with
        | none => rfl
        | some p => exact absurd (announces_iff.mpr ⟨by simpa using hq, i, r, hi, by omega, hr, hf⟩) (h p)
  | _ => rfl

end Verif
