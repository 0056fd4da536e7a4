import Verif.Proofs.Parsed

/-! # The elements of an article say what their lines say -/

namespace Verif

open Verif.Spec

/-! ## Slices of lines with a fine end -/

theorem FineEnd.not_inside {l : Line} (h : FineEnd l) (k : Nat) : ¬ InsideLastPart l k := by
  rintro ⟨pre, last, e, h1, h2⟩
  have hl := h last (by rw [e]; simp)
  have : l.content = pre.flatMap (·.content) ++ last.content := by
    unfold Line.content; rw [e]; simp
  rw [this, List.length_append] at h2
  omega

theorem fine_of_empty {l : Line} (h : l.isEmptyLine = true) : FineEnd l := by
  unfold Line.isEmptyLine at h
  intro p hp
  rw [List.isEmpty_iff.mp h] at hp
  cases hp

theorem slice_fine {l r : Line} {a : Int} {b : Option Int} (hl : FineEnd l) (h : l.slice a b = .ok r) :
    r.content = pySlice l.content a (b.getD l.content.length) :=
  Props.slice_text_partial l r a b h (FineEnd.not_inside hl _)

theorem pySlice_from {α : Type} (xs : List α) (n : Nat) : pySlice xs (n : Int) (xs.length : Int) = xs.drop n := by
  unfold pySlice pyBound
  rw [if_neg (by omega), if_neg (by omega)]
  simp only [Int.toNat_natCast, Nat.min_self, List.take_length]
  by_cases h : n ≤ xs.length
  · rw [Nat.min_eq_left h]
  · rw [Nat.min_eq_right (by omega), List.drop_eq_nil_of_le (by omega), List.drop_eq_nil_of_le (by omega)]

theorem slice_fine_from {l r : Line} {n : Nat} (hl : FineEnd l) (h : l.slice (n : Int) = .ok r) :
    r.content = l.content.drop n := by
  rw [slice_fine hl h]
  exact pySlice_from _ _

/-- A slice up to the end keeps the fine end. -/
theorem slice_fineEnd {l r : Line} {a : Int} (hl : FineEnd l) (h : l.slice a = .ok r) : FineEnd r := by
  rw [Line.slice_eq] at h
  simp only [Option.getD_none] at h
  split at h
  · obtain rfl := Except.ok.inj h
    exact hl
  · split at h
    · obtain rfl := Except.ok.inj h
      exact fine_of_empty rfl
    · rename_i hlt
      have he : l.adjust (l.content.length : Int) = l.content.length := by
        unfold Line.adjust; rw [if_neg (by omega)]
      rw [he] at h hlt
      rcases Line.sliceMain_cases l (l.adjust a) l.content.length (by omega) with
        ⟨_, _, _, _, e⟩ | ⟨_, e⟩ | ⟨_, e⟩ | ⟨_, e⟩ | ⟨pre, f, more, left, hp, _, hb, e⟩
      · rw [e] at h; obtain rfl := Except.ok.inj h; exact fine_of_empty rfl
      · rw [e] at h; obtain rfl := Except.ok.inj h; exact fine_of_empty rfl
      · rw [e] at h; cases h
      · rw [e] at h; cases h
      · rw [e] at h
        obtain rfl := Except.ok.inj h
        have hleft : left = [] := by
          rcases List.eq_nil_or_concat left with h | ⟨xs, x, rfl⟩
          · exact h
          · exfalso
            have h1 := hl x (by rw [hp, List.concat_eq_append, ← List.append_assoc, List.getLast?_append]; rfl)
            have h2 : l.content = ptext (pre ++ (f :: more)) ++ (ptext xs ++ x.content) := by
              unfold Line.content ptext; rw [hp]; simp
            rw [h2, List.length_append, List.length_append] at hb
            omega
        subst hleft
        intro p hpl
        cases more with
        | nil =>
          obtain rfl : { f with dx := f.dx + (pre.map (·.dx)).sum } = p := by simpa using hpl
          exact hl f (by rw [hp]; simp)
        | cons m ms =>
          refine hl p ?_
          rw [hp]
          simp only [List.append_nil] at *
          rw [List.getLast?_append]
          rw [show (f :: m :: ms).getLast? = some p by simpa [List.getLast?_cons_cons] using hpl]
          rfl

/-! ## Headers -/

theorem startsWith_drop {s p : Str} (h : startsWith s p = true) : s = p ++ s.drop p.length := by
  unfold startsWith at h
  obtain ⟨t, rfl⟩ := List.isPrefixOf_iff_prefix.mp h
  rw [List.drop_left]

theorem Header.content {k : SaeKind} {i : Option Str} {first first' : Line} (h : Header k i first first')
    (hf : FineEnd first) : ∃ p, k.headerPrefix i = .ok p ∧ first.content = p ++ first'.content := by
  obtain ⟨p, h1, h2, h3⟩ := h.cut
  exact ⟨p, h1, by rw [slice_fine_from hf h3]; exact startsWith_drop h2⟩

theorem prefix_ink {k : SaeKind} {i : Option Str} {p : Str} (h : k.headerPrefix i = .ok p)
    (hn : i = none → k = .paragraph) : ink p = ink (heading k i) := by
  cases i with
  | none =>
    obtain rfl := hn rfl
    obtain rfl : ([] : Str) = p := by simpa [SaeKind.headerPrefix] using h
    rfl
  | some j =>
    have e1 : ink (py" ") = [] := by decide
    have e2 : py") " = py")" ++ py" " := by decide
    have e3 : py". " = py"." ++ py" " := by decide
    cases k <;> simp only [SaeKind.headerPrefix, Option.getD_some, heading] at h ⊢ <;>
      first
        | cases h; done
        | (obtain rfl := Except.ok.inj h; simp only [e2, e3, ink_append, e1, List.append_nil])

theorem plain_of_sum {s : Str} (h : ∀ c ∈ s, quoteDelta c = 0) : (s.map quoteDelta).sum = 0 := by
  induction s with
  | nil => rfl
  | cons c s ih =>
    rw [List.map_cons, List.sum_cons, h c (by simp), ih fun x hx => h x (by simp [hx])]
    rfl

theorem prefix_plain {k : SaeKind} {i : Option Str} {p : Str} (h : k.headerPrefix i = .ok p)
    (hn : i = none → k = .paragraph) (hp : ∀ j, i = some j → ∀ c ∈ j, quoteDelta c = 0) :
    (p.map quoteDelta).sum = 0 := by
  cases i with
  | none =>
    obtain rfl := hn rfl
    obtain rfl : ([] : Str) = p := by simpa [SaeKind.headerPrefix] using h
    rfl
  | some j =>
    have hj := plain_of_sum (hp j rfl)
    cases k <;> simp only [SaeKind.headerPrefix, Option.getD_some] at h <;>
      first
        | cases h; done
        | (obtain rfl := Except.ok.inj h
           simp only [List.map_append, List.sum_append, hj]
           decide)

theorem Header.same_level {k : SaeKind} {i : Option Str} {first first' : Line} (h : Header k i first first')
    (hf : FineEnd first) (more : List Line) : openQuotes (first :: more) = openQuotes (first' :: more) := by
  obtain ⟨p, h1, h2⟩ := h.content hf
  rw [openQuotes_eq, openQuotes_eq, linesText_cons, linesText_cons, h2]
  simp only [List.map_append, List.sum_append, prefix_plain h1 h.named h.plain]
  omega

/-! ## The text -/

theorem fine_of_same {a b : List Line} (h : SameLines a b) (ha : ∀ l ∈ a, FineEnd l) : ∀ l ∈ b, FineEnd l := by
  intro l hl
  cases he : l.isEmptyLine with
  | true => exact fine_of_empty he
  | false =>
    have : l ∈ b.filter fun l => !l.isEmptyLine := List.mem_filter.mpr ⟨hl, by simp [he]⟩
    rw [← h] at this
    exact ha l (List.mem_filter.mp this).1

theorem opens_content {l : Line} (h : opensWithQuote l = .ok true) :
    ∃ c t, l.content = c :: t ∧ (c = '„' ∨ c = '“') := by
  unfold opensWithQuote at h
  cases hc : l.content with
  | nil => simp [hc] at h
  | cons c t =>
    simp only [hc] at h
    exact ⟨c, t, rfl, by simpa using h⟩

theorem closes_content {l : Line} (h : closesWithQuote l = .ok true) : ∃ t, l.content = t ++ ['”'] := by
  unfold closesWithQuote at h
  rcases List.eq_nil_or_concat l.content with hc | ⟨t, c, hc⟩
  · simp [hc] at h
  · rw [List.concat_eq_append] at hc
    simp only [hc, List.getLast?_append, List.getLast?_singleton, Option.some_or] at h
    have : c = '”' := by simpa using h
    exact ⟨t, by rw [hc, this]⟩

theorem ink_open {c : Char} (h : c = '„' ∨ c = '“') : ink [c] = ink (py"„") := by
  rcases h with rfl | rfl <;> decide

theorem pySlice_upto_last {α : Type} (t : List α) (x : α) : pySlice (t ++ [x]) 0 (-1) = t := by
  unfold pySlice pyBound
  simp only [List.length_append, List.length_singleton]
  rw [if_neg (show ¬ (0 : Int) < 0 by omega), if_pos (show (-1 : Int) < 0 by omega)]
  have : (-1 + ((t.length + 1 : Nat) : Int)).toNat = t.length := by omega
  rw [this]
  simp

theorem pySlice_middle {α : Type} (a : α) (t : List α) (x : α) : pySlice (a :: t ++ [x]) 1 (-1) = t := by
  unfold pySlice pyBound
  simp only [List.length_append, List.length_cons, List.length_nil]
  rw [if_neg (show ¬ (1 : Int) < 0 by omega), if_pos (show (-1 : Int) < 0 by omega)]
  have : (-1 + ((t.length + 1 + (0 + 1) : Nat) : Int)).toNat = t.length + 1 := by omega
  rw [this]
  have h1 : min (Int.toNat 1) (t.length + 1 + (0 + 1)) = 1 := by
    rw [Nat.min_eq_left] <;> omega
  rw [h1]
  simp

theorem ink_cons (c : Char) (t : Str) : ink (c :: t) = ink [c] ++ ink t := by
  rw [← ink_append]; rfl

theorem quotedRaw_text {ls : List Line} {n : Node} (h : QuotedRaw ls n) (hf : ∀ l ∈ ls, FineEnd l) :
    ∃ qs, n = .quoted qs ∧ ink (linesText ls) = ink (printed n) := by
  cases h with
  | one opens closes cut =>
    rename_i l q
    refine ⟨_, rfl, ?_⟩
    have hq := slice_fine (hf l (by simp)) cut
    obtain ⟨c, t, h1, h2⟩ := opens_content opens
    obtain ⟨t', h3⟩ := closes_content closes
    rw [h1] at h3
    cases t' with
    | nil =>
      simp only [List.nil_append, List.cons.injEq] at h3
      rcases h2 with rfl | rfl <;> exact absurd h3.1 (by decide)
    | cons x t' =>
      simp only [List.cons_append, List.cons.injEq] at h3
      obtain ⟨rfl, rfl⟩ := h3
      have : q.content = t' := by
        rw [hq, h1]; exact pySlice_middle _ _ _
      simp only [printed, linesText_cons, linesText_nil, List.append_nil, h1, this, ink_append]
      rw [ink_cons, ink_open h2, ink_append, List.append_assoc]
  | more opens closes cut cut' =>
    rename_i l l' mid e e'
    refine ⟨_, rfl, ?_⟩
    have h1 := slice_fine_from (n := 1) (hf l (by simp)) cut
    have h2 := slice_fine (hf e (by simp)) cut'
    obtain ⟨c, t, h3, h4⟩ := opens_content opens
    obtain ⟨t', h5⟩ := closes_content closes
    have h6 : l'.content = t := by rw [h1, h3]; rfl
    have h7 : e'.content = t' := by rw [h2, h5]; exact pySlice_upto_last _ _
    simp only [printed, linesText_cons, linesText_append, linesText_nil, List.append_nil, h3, h5, h6, h7,
      List.cons_append, List.append_assoc]
    rw [ink_cons, ink_open h4, ← ink_append]
    rfl

mutual
theorem parsed_text : {ls : List Line} → {n : Node} → Parsed ls n → (∀ l ∈ ls, FineEnd l) →
    ink (linesText ls) = ink (printed n)
  | _, _, .text (first := first) header, hf => by
    obtain ⟨p, h1, h2⟩ := header.content (hf first (by simp))
    simp only [printed, printedL, linesText_cons, h2, Option.getD_some, Option.getD_none, List.append_nil, ink_append,
      ink_joinLines]
    rw [prefix_ink h1 header.named, List.append_assoc]
  | _, _, .parent (first := first) (blocks := blocks) header same _ _ wrapUp children _ _, hf => by
    obtain ⟨p, h1, h2⟩ := header.content (hf first (by simp))
    have hb := fine_of_same same fun l hl => hf l (by simp [hl])
    have hc := parsedL_text children fun b hbm l hl => hb l (by
      simp only [List.mem_append]
      exact .inl (.inr (List.mem_flatten.mpr ⟨b, hbm, hl⟩)))
    simp only [printed, linesText_cons, h2, Option.getD_some, Option.getD_none, List.append_nil, ink_append,
      ink_joinLines, linesText_same same, linesText_append, wrapUp.1, ← hc]
    rw [prefix_ink h1 header.named]
    simp only [List.append_assoc]
  | _, _, .quoted raw, hf => by
    obtain ⟨qs, rfl, h⟩ := quotedRaw_text raw hf
    exact h

theorem parsedL_text : {bs : List (List Line)} → {cs : List Node} → ParsedL bs cs → (∀ b ∈ bs, ∀ l ∈ b, FineEnd l) →
    ink (linesText bs.flatten) = ink (printedL cs)
  | _, _, .nil, _ => rfl
  | _, _, .cons head tail, hf => by
    simp only [List.flatten_cons, linesText_append, printedL, ink_append]
    rw [parsed_text head (hf _ (by simp)), parsedL_text tail fun b hb => hf b (by simp [hb])]
end

/-! ## Outside quotes -/

mutual
theorem parsed_divided : {ls : List Line} → {n : Node} → Parsed ls n → (∀ l ∈ ls, FineEnd l) → {before : List Line} →
    openQuotes before = 0 → Divided before ls n
  | _, _, .text header, hf, _, h0 => .plain h0 (parsed_text (.text header) hf)
  | _, _, .parent (first := first) (more := more) header same outside levels wrapUp children nonempty numbered, hf,
      before, h0 => by
    have hb := fine_of_same same fun l hl => hf l (by simp [hl])
    refine .parent h0 (parsed_text (.parent header same outside levels wrapUp children nonempty numbered) hf) rfl
      (SameLines.append (SameLines.rfl' [first]) same) ?_
    refine parsedL_divided children (fun b hbm l hl => hb l (by
      simp only [List.mem_append]
      exact .inl (.inr (List.mem_flatten.mpr ⟨b, hbm, hl⟩)))) ?_
    rw [openQuotes_append, h0, header.same_level (hf first (by simp)), outside]
    exact levels
  | _, _, .quoted raw, hf, _, h0 => by
    obtain ⟨qs, rfl, h⟩ := quotedRaw_text raw hf
    exact .quoted h0 h

theorem parsedL_divided : {bs : List (List Line)} → {cs : List Node} → ParsedL bs cs →
    (∀ b ∈ bs, ∀ l ∈ b, FineEnd l) → {before : List Line} → Levels (openQuotes before) bs → DividedL before bs cs
  | _, _, .nil, _, _, _ => .nil _
  | _, _, .cons head tail, hf, before, hl => by
    refine .cons (parsed_divided head (hf _ (by simp)) hl.1) (parsedL_divided tail (fun b hb => hf b (by simp [hb])) ?_)
    rw [openQuotes_append]
    exact hl.2
end

/-! ## Numbering -/

theorem parsed_numbered {ls : List Line} {n : Node} (h : Parsed ls n) : ∀ m, Inside m n → ChildrenNumbered m := by
  refine Parsed.rec (motive_1 := fun _ n _ => ∀ m, Inside m n → ChildrenNumbered m)
    (motive_2 := fun _ cs _ => ∀ c ∈ cs, ∀ m, Inside m c → ChildrenNumbered m) ?_ ?_ ?_ ?_ ?_ h
  · intro _ _ _ _ _ _ m hm
    cases hm with
    | self => exact .inl (by simp)
    | deeper hc => simp [Node.children] at hc
  · intro _ _ _ _ _ _ _ _ _ _ _ _ _ _ _ _ _ numbered ih m hm
    cases hm with
    | self => exact numbered
    | deeper hc h => exact ih _ hc m h
  · intro _ _ raw m hm
    cases raw <;>
    cases hm with
    | self => trivial
    | deeper hc => simp [Node.children] at hc
  · simp
  · intro _ _ _ _ _ _ ih ih' c hc m hm
    rcases List.mem_cons.mp hc with rfl | hc
    · exact ih m hm
    · exact ih' c hc m hm

theorem parsedL_numbered {bs : List (List Line)} {cs : List Node} (h : ParsedL bs cs) :
    ∀ c ∈ cs, ∀ m, Inside m c → ChildrenNumbered m := by
  induction cs generalizing bs with
  | nil => simp
  | cons c cs ih =>
    cases h with
    | cons head tail =>
      intro x hx m hm
      rcases List.mem_cons.mp hx with rfl | hx
      · exact parsed_numbered head m hm
      · exact ih tail x hx m hm

theorem parsed_identified {ls : List Line} {n : Node} (h : Parsed ls n) : ∀ m, Inside m n → Identified m := by
  refine Parsed.rec (motive_1 := fun _ n _ => ∀ m, Inside m n → Identified m)
    (motive_2 := fun _ cs _ => ∀ c ∈ cs, ∀ m, Inside m c → Identified m) ?_ ?_ ?_ ?_ ?_ h
  · intro _ _ _ _ _ header m hm
    cases hm with
    | self => exact ⟨header.shape, header.named⟩
    | deeper hc => simp [Node.children] at hc
  · intro _ _ _ _ _ _ _ _ _ _ header _ _ _ _ _ _ _ ih m hm
    cases hm with
    | self => exact ⟨header.shape, header.named⟩
    | deeper hc h => exact ih _ hc m h
  · intro _ _ raw m hm
    cases raw <;>
    cases hm with
    | self => trivial
    | deeper hc => simp [Node.children] at hc
  · simp
  · intro _ _ _ _ _ _ ih ih' c hc m hm
    rcases List.mem_cons.mp hc with rfl | hc
    · exact ih m hm
    · exact ih' c hc m hm

theorem parsedL_identified {bs : List (List Line)} {cs : List Node} (h : ParsedL bs cs) :
    ∀ c ∈ cs, ∀ m, Inside m c → Identified m := by
  induction cs generalizing bs with
  | nil => simp
  | cons c cs ih =>
    cases h with
    | cons head tail =>
      intro x hx m hm
      rcases List.mem_cons.mp hx with rfl | hx
      · exact parsed_identified head m hm
      · exact ih tail x hx m hm

end Verif
