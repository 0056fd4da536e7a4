import Verif.Proofs.Balanced

/-! # Which children an element gets, and which errors are answered by trying another kind -/

namespace Verif

open Verif.Spec

theorem headerLoop_skips (P : ElementParser) (ls : List Line) : ∀ (level : Int) (n k : Nat) (more : List Nat),
    (headerLoop P none n (quoteLevelLoop true level ls).yields).yields = k :: more →
    ∀ pre x post, ls = pre ++ x :: post → n + pre.length < k → level + openQuotes pre = 0 →
      P.header x.content ≠ some P.first := by
  induction ls with
  | nil => intro level n k more h; simp [quoteLevelLoop, headerLoop] at h
  | cons l ls ih =>
    intro level n k more h pre x post hsplit hk h0
    have step : ∀ (ys : List (Int × Line)), (quoteLevelLoop true level (l :: ls)).yields = (level, l) :: ys →
        (ys = [] ∨ ys = (quoteLevelLoop true (level + quoteLevelDiff l.content) ls).yields) →
        P.header x.content ≠ some P.first := by
      intro ys hy hcase
      rw [hy, headerLoop] at h
      have pass : (headerLoop P none (n + 1) ys).yields = k :: more → (pre = [] → P.header l.content ≠ some P.first) →
          P.header x.content ≠ some P.first := by
        intro h hl
        cases pre with
        | nil =>
          obtain ⟨rfl, rfl⟩ := List.cons.inj hsplit
          exact hl rfl
        | cons p pre =>
          obtain ⟨rfl, rfl⟩ := List.cons.inj hsplit
          rcases hcase with rfl | rfl
          · simp [headerLoop] at h
          · refine ih _ _ _ _ h pre x post rfl (by simp only [List.length_cons] at hk; omega) ?_
            rw [Props.openQuotes_cons] at h0; omega
      by_cases hq : level ≠ 0
      · rw [if_pos hq] at h
        refine pass h fun hp => ?_
        subst hp
        rw [openQuotes_nil] at h0
        exact absurd (by omega) hq
      · rw [if_neg hq, if_neg (by simp)] at h
        cases hh : P.header l.content with
        | none => simp only [hh] at h; exact pass h fun _ => by rw [hh]; simp
        | some i =>
          simp only [hh, ElementParser.accepts] at h
          by_cases hi : (i == P.first) = true
          · rw [hi] at h
            simp only [List.cons.injEq] at h
            omega
          · have hi' : (i == P.first) = false := by simpa using hi
            rw [hi'] at h
            refine pass h fun _ => ?_
            rw [hh]
            simpa using hi'
    simp only [quoteLevelLoop] at step
    by_cases hneg : level + quoteLevelDiff l.content < 0
    · simp only [hneg, decide_true, Bool.and_self, if_true] at step
      exact step [] rfl (.inl rfl)
    · simp only [hneg, decide_false, Bool.and_false, Bool.false_eq_true, if_false] at step
      exact step _ rfl (.inr rfl)

theorem findFirstHeader_first {P : ElementParser} {lines : List Line} {k : Nat}
    (h : findFirstHeader P lines = .ok (some k)) :
    FirstLine (fun l => P.header l.content = some P.first) lines k := by
  obtain ⟨pre, l, post, e1, e2, e3, e4⟩ := findFirstHeader_spec h
  refine ⟨pre, l, post, e1, e2, e3, e4, ?_⟩
  unfold findFirstHeader findHeaderLines iterateWithQuoteLevel Gen.next at h
  simp only at h
  cases hy : (headerLoop P none 0 (quoteLevelLoop true 0 lines).yields).yields with
  | nil =>
    rw [hy] at h
    split at h
    · rename_i a b e; cases e
    · split at h <;> cases h
  | cons a more =>
    rw [hy] at h
    obtain rfl : a = k := by simpa using h
    rintro x y z rfl h0
    exact headerLoop_skips P lines 0 0 a more hy x y (z ++ l :: post) (by rw [e1]; simp) (by simp at e2; omega) (by omega)

theorem quotedFirstLoop_skips (ls : List Line) : ∀ (level : Int) (n k : Nat) (stop : Option Err),
    quotedFirstLoop n (quoteLevelLoop true level ls).yields stop = .ok (some k) →
    ∀ pre x post, ls = pre ++ x :: post → n + pre.length < k → level + openQuotes pre = 0 →
      x.isEmptyLine = false → opensWithQuote x = .ok false := by
  induction ls with
  | nil =>
    intro level n k stop h
    simp only [quoteLevelLoop] at h
    cases stop <;> simp [quotedFirstLoop] at h
  | cons l ls ih =>
    intro level n k stop h pre x post hsplit hk h0 hx
    have main : ∀ ys, (ys = [] ∨ ys = (quoteLevelLoop true (level + quoteLevelDiff l.content) ls).yields) →
        quotedFirstLoop n ((level, l) :: ys) stop = .ok (some k) → opensWithQuote x = .ok false := by
      intro ys hy h
      have pass : quotedFirstLoop (n + 1) ys stop = .ok (some k) → (pre = [] → opensWithQuote l = .ok false) →
          opensWithQuote x = .ok false := by
        intro h hl
        cases pre with
        | nil =>
          obtain ⟨rfl, rfl⟩ := List.cons.inj hsplit
          exact hl rfl
        | cons p pre =>
          obtain ⟨rfl, rfl⟩ := List.cons.inj hsplit
          rcases hy with rfl | rfl
          · cases stop <;> simp [quotedFirstLoop] at h
          · refine ih _ _ _ _ h pre x post rfl (by simp only [List.length_cons] at hk; omega) ?_ hx
            rw [Props.openQuotes_cons] at h0; omega
      rw [quotedFirstLoop] at h
      by_cases hc : level = 0 ∧ l.isEmptyLine = false
      · rw [if_pos hc] at h
        obtain ⟨o, ho, h⟩ := resBind_ok h
        cases o with
        | true =>
          simp only [if_true, Except.ok.injEq, Option.some.injEq] at h
          omega
        | false => exact pass (by simpa using h) fun _ => ho
      · rw [if_neg hc] at h
        refine pass h fun hp => ?_
        subst hp
        obtain ⟨rfl, rfl⟩ := List.cons.inj hsplit
        rw [openQuotes_nil] at h0
        exact absurd ⟨by omega, hx⟩ hc
    simp only [quoteLevelLoop] at h
    by_cases hneg : level + quoteLevelDiff l.content < 0
    · simp only [hneg, decide_true, Bool.and_self, if_true] at h
      exact main [] (.inl rfl) h
    · simp only [hneg, decide_false, Bool.and_false, Bool.false_eq_true, if_false] at h
      exact main _ (.inr rfl) h

theorem quotedFirst_first {lines : List Line} {k : Nat} (h : quotedParser.firstHeader lines = .ok (some k)) :
    FirstLine (fun l => l.content.head? = some '„' ∨ l.content.head? = some '“') lines k := by
  obtain ⟨pre, l, post, e1, e2, e3, e4⟩ := quotedFirstLoop_spec lines 0 0 k _ h
  refine ⟨pre, l, post, e1, by omega, by omega, ?_, ?_⟩
  · obtain ⟨c, t, hc, hh⟩ := opens_content e4
    rw [hc]
    rcases hh with rfl | rfl
    · exact .inl rfl
    · exact .inr rfl
  · rintro x y z rfl h0 hy
    have hne : y.content ≠ [] := by
      intro e
      rw [e] at hy
      rcases hy with hy | hy <;> cases hy
    have := quotedFirstLoop_skips lines 0 0 k _ h x y (z ++ l :: post) (by rw [e1]; simp) (by simp at e2; omega) (by omega)
      (nonempty_of_content hne)
    unfold opensWithQuote at this
    cases hc : y.content with
    | nil => exact hne hc
    | cons c t =>
      rw [hc] at hy this
      simp only [Except.ok.injEq, Bool.or_eq_false_iff, beq_eq_false_iff_ne] at this
      rcases hy with hy | hy
      · exact this.1 (by simpa using hy)
      · exact this.2 (by simpa using hy)

/-! ## The choice -/

theorem tryParsers_choice {lines : List Line} {pi : Bool} {es : List (Nat × SubParser)} {intro w : Option Str}
    {cs : List Node} (hs : es.Pairwise fun a b => a.1 < b.1) (h : tryParsers lines pi es = .ok (intro, cs, w)) :
    ∃ e ∈ es, intro = (if e.1 = 0 then none else some (joinLines (lines.take e.1))) ∧
      e.2.extract (lines.drop e.1) pi = .ok (cs, w) ∧
      ∀ f ∈ es, f.1 < e.1 → f.2.extract (lines.drop f.1) pi = .error .saeNotFound := by
  induction es with
  | nil => simp [tryParsers] at h
  | cons e es ih =>
    rw [List.pairwise_cons] at hs
    obtain ⟨n, p⟩ := e
    simp only [tryParsers] at h
    cases hx : p.extract (lines.drop n) pi with
    | ok r =>
      simp only [hx, Except.ok.injEq, Prod.mk.injEq] at h
      obtain ⟨rfl, rfl, rfl⟩ := h
      refine ⟨(n, p), by simp, rfl, hx, ?_⟩
      intro f hf hlt
      rcases List.mem_cons.mp hf with rfl | hf
      · simp at hlt
      · have := hs.1 f hf
        simp only at this hlt
        omega
    | error e =>
      simp only [hx] at h
      have h' : e = .saeNotFound ∧ tryParsers lines pi es = .ok (intro, cs, w) := by
        cases e <;> first | exact ⟨rfl, h⟩ | cases h
      obtain ⟨rfl, h'⟩ := h'
      obtain ⟨e', he, h1, h2, h3⟩ := ih hs.2 h'
      refine ⟨e', by simp [he], h1, h2, ?_⟩
      intro f hf hlt
      rcases List.mem_cons.mp hf with rfl | hf
      · exact hx
      · exact h3 f hf hlt

theorem tryParsers_none {lines : List Line} {pi : Bool} {es : List (Nat × SubParser)}
    (hq : ∀ e ∈ es, ∀ r, e.2.extract (lines.drop e.1) pi = .error r → r ≠ .noSubelements)
    (h : tryParsers lines pi es = .error .noSubelements) :
    ∀ e ∈ es, e.2.extract (lines.drop e.1) pi = .error .saeNotFound := by
  induction es with
  | nil => simp
  | cons e es ih =>
    obtain ⟨n, p⟩ := e
    simp only [tryParsers] at h
    cases hx : p.extract (lines.drop n) pi with
    | ok r => simp [hx] at h
    | error e =>
      simp only [hx] at h
      have hne : e ≠ .noSubelements := hq (n, p) (by simp) e hx
      have h' : e = .saeNotFound ∧ tryParsers lines pi es = .error .noSubelements := by
        cases e <;> first | exact ⟨rfl, h⟩ | (exact absurd rfl hne) | (exact absurd (Except.error.inj h) (by decide))
      obtain ⟨rfl, h'⟩ := h'
      intro f hf
      rcases List.mem_cons.mp hf with rfl | hf
      · exact hx
      · exact ih (fun e he => hq e (by simp [he])) h' f hf

/-- The subparsers that find a header are all there. -/
theorem firstHeaders_complete {lines : List Line} {ps : List SubParser} {found : List (Nat × SubParser)}
    (h : firstHeaders lines ps = .ok found) : ∀ p ∈ ps, p.firstHeader lines = .ok none ∨
      ∃ n, p.firstHeader lines = .ok (some n) ∧ ((n = 0 ∧ p.mustHaveIntro = true) ∨ (n, p) ∈ found) := by
  induction ps generalizing found with
  | nil => simp
  | cons p ps ih =>
    rw [firstHeaders] at h
    obtain ⟨r, hr, h⟩ := resBind_ok h
    cases r with
    | none =>
      intro q hq
      rcases List.mem_cons.mp hq with rfl | hq
      · exact .inl hr
      · exact ih h q hq
    | some n =>
      simp only at h
      split at h
      · rename_i hc
        intro q hq
        rcases List.mem_cons.mp hq with rfl | hq
        · exact .inr ⟨n, hr, .inl (by simpa using hc)⟩
        · exact ih h q hq
      · obtain ⟨r', hr', h⟩ := resBind_ok h
        obtain rfl := Except.ok.inj h
        intro q hq
        rcases List.mem_cons.mp hq with rfl | hq
        · exact .inr ⟨n, hr, .inr (by simp)⟩
        · rcases ih hr' q hq with h | ⟨m, h1, h2⟩
          · exact .inl h
          · exact .inr ⟨m, h1, h2.imp id (by intro h; simp [h])⟩

theorem childrenBy_choice {ps : List SubParser} {lines : List Line} {pi : Bool} {intro w : Option Str} {cs : List Node}
    (h : childrenBy ps lines pi = .ok (intro, cs, w)) :
    ∃ p ∈ ps, ∃ n, p.firstHeader lines = .ok (some n) ∧ p.extract (lines.drop n) pi = .ok (cs, w) ∧
      ∀ q ∈ ps, ∀ m, q.firstHeader lines = .ok (some m) → m < n →
        (m = 0 ∧ q.mustHaveIntro = true) ∨ q.extract (lines.drop m) pi = .error .saeNotFound := by
  unfold childrenBy at h
  obtain ⟨found, hf, h⟩ := resBind_ok h
  obtain ⟨sorted, hs, h⟩ := resBind_ok h
  obtain ⟨p1, p2⟩ := sortHeaders_spec hs
  obtain ⟨e, he, _, h2, h3⟩ := tryParsers_choice p2 h
  obtain ⟨a, b, _⟩ := firstHeaders_spec hf e (p1.mem_iff.mp he)
  refine ⟨e.2, a, e.1, b, h2, ?_⟩
  intro q hq m hm hlt
  rcases firstHeaders_complete hf q hq with hn | ⟨n, hn, hc⟩
  · rw [hn] at hm; cases hm
  · rw [hn] at hm
    obtain rfl : n = m := by simpa using hm
    exact hc.imp id fun hm => h3 (n, q) (p1.mem_iff.mpr hm) hlt

theorem childrenBy_none {ps : List SubParser} {lines : List Line} {pi : Bool}
    (hq1 : ∀ p ∈ ps, Quiet (p.firstHeader lines))
    (hq2 : ∀ p ∈ ps, ∀ n r, p.extract (lines.drop n) pi = .error r → r ≠ .noSubelements)
    (h : childrenBy ps lines pi = .error .noSubelements) :
    ∀ p ∈ ps, p.firstHeader lines = .ok none ∨ ∃ n, p.firstHeader lines = .ok (some n) ∧
      ((n = 0 ∧ p.mustHaveIntro = true) ∨ p.extract (lines.drop n) pi = .error .saeNotFound) := by
  unfold childrenBy at h
  cases hf : firstHeaders lines ps with
  | error e =>
    rw [hf] at h
    obtain rfl := Except.error.inj h
    exfalso
    clear h hq2
    induction ps with
    | nil => cases hf
    | cons p ps ih =>
      have hp := hq1 p (by simp)
      rw [firstHeaders] at hf
      cases hr : p.firstHeader lines with
      | error e' =>
        rw [hr] at hf
        obtain rfl := Except.error.inj hf
        exact (hp _ hr).1 rfl
      | ok r =>
        rw [hr] at hf
        cases r with
        | none => exact ih (fun q hq => hq1 q (by simp [hq])) hf
        | some n =>
          simp only [bind, Except.bind] at hf
          split at hf
          · exact ih (fun q hq => hq1 q (by simp [hq])) hf
          · cases hr' : firstHeaders lines ps with
            | error e' =>
              rw [hr'] at hf
              obtain rfl := Except.error.inj hf
              exact ih (fun q hq => hq1 q (by simp [hq])) hr'
            | ok r => rw [hr'] at hf; cases hf
  | ok found =>
    rw [hf] at h
    cases hs : sortHeaders found with
    | error e =>
      exfalso
      simp only [bind, Except.bind, hs] at h
      obtain rfl := Except.error.inj h
      have insert : ∀ (es : List (Nat × SubParser)) (x : Nat × SubParser), insertHeader x es ≠ .error .noSubelements := by
        intro es
        induction es with
        | nil => intro x hx; cases hx
        | cons f fs ih =>
          intro x hx
          rw [insertHeader] at hx
          split at hx
          · cases hx
          · split at hx
            · cases hx
            · cases hr : insertHeader x fs with
              | error e => rw [hr] at hx; obtain rfl := Except.error.inj hx; exact ih x hr
              | ok r => rw [hr] at hx; cases hx
      clear hf h
      induction found with
      | nil => cases hs
      | cons e es ih =>
        rw [sortHeaders] at hs
        cases hr : sortHeaders es with
        | error e' => rw [hr] at hs; obtain rfl := Except.error.inj hs; exact ih hr
        | ok r => rw [hr] at hs; exact insert _ _ hs
    | ok sorted =>
      simp only [bind, Except.bind, hs] at h
      obtain ⟨p1, _⟩ := sortHeaders_spec hs
      have hall := tryParsers_none (fun e he r hr => hq2 e.2 (firstHeaders_spec hf e (p1.mem_iff.mp he)).1 e.1 r hr) h
      intro p hp
      rcases firstHeaders_complete hf p hp with hn | ⟨n, hn, hc⟩
      · exact .inl hn
      · exact .inr ⟨n, hn, hc.imp id fun hm => hall (n, p) (p1.mem_iff.mpr hm)⟩

/-! ## Errors of the parts -/

theorem mkSae_quiet (k : SaeKind) (d : SaeData) (cs : Option (List Node)) : Quiet (mkSae k d cs) := by
  unfold mkSae
  refine quiet_bind ?_ fun _ _ => ?_
  · unfold childrenType
    split
    · exact quiet_ok _
    · exact quiet_index
    · split
      · exact quiet_ok _
      · split
        · exact quiet_ok _
        · exact quiet_type
  · split
    · exact quiet_value
    · split
      · exact quiet_type
      · exact quiet_ok _

theorem headerPrefix_quiet (k : SaeKind) (i : Option Str) : Quiet (k.headerPrefix i) := by
  cases k <;> first | exact quiet_ok _ | exact quiet_type | (cases i <;> exact quiet_ok _)

theorem parseElement_quiet (P : ElementParser) (kids : ChildReader) (lines : List Line) (pi : Bool) :
    Quiet (parseElement P kids lines pi) := by
  cases lines with
  | nil => exact quiet_index
  | cons first rest =>
    simp only [parseElement]
    refine quiet_bind (headerPrefix_quiet _ _) fun p _ => ?_
    split
    · exact quiet_assert
    · refine quiet_bind (slice_quiet _ _ _) fun f _ => ?_
      split
      · exact mkSae_quiet _ _ _
      · exact mkSae_quiet _ _ _
      · exact quiet_error (by decide)

theorem parseBetween_quiet {parse : List Line → Res Node} (hp : ∀ ls, Quiet (parse ls)) (lines : List Line) :
    ∀ (more : List Nat) (start : Nat), Quiet (parseBetween parse lines start more) := by
  intro more
  induction more with
  | nil => intro start; exact quiet_ok _
  | cons stop more ih =>
    intro start
    rw [parseBetween]
    exact quiet_bind (hp _) fun _ _ => quiet_bind (ih _) fun _ _ => quiet_ok _

theorem splitWrapUp_quiet (P : ElementParser) (lines : List Line) (pi : Bool) : Quiet (splitWrapUp P lines pi) := by
  unfold splitWrapUp
  split
  · exact quiet_ok _
  · simp only
    refine quiet_bind ?_ fun r _ => ?_
    · split
      · split
        · exact quiet_index
        · exact quiet_ok _
      · exact quiet_ok _
    · cases r <;> exact quiet_ok _

/-- The error `saeNotFound` means that there is only one header of a kind of which two are needed; the other one never
occurs. -/
theorem extractMultiple_errors {P : ElementParser} {kids : ChildReader} {lines : List Line} {pi : Bool} {e : Err}
    (h : extractMultiple P kids lines pi = .error e) :
    e ≠ .noSubelements ∧ (e = .saeNotFound → P.mustHaveMultiple = true ∧ (findHeaderLines P lines).toList = .ok [0]) := by
  have quiet : ∀ x : Res (List Node × Option Str), Quiet x → x = .error e →
      e ≠ .noSubelements ∧ (e = .saeNotFound → P.mustHaveMultiple = true ∧ (findHeaderLines P lines).toList = .ok [0]) :=
    fun x hx hxe => ⟨(hx e hxe).1, fun hc => absurd hc (hx e hxe).2⟩
  unfold extractMultiple at h
  cases hl : (findHeaderLines P lines).toList with
  | error e' =>
    rw [hl] at h
    obtain rfl := Except.error.inj h
    have := findHeaderLines_quiet P lines _ hl
    exact ⟨this.1, fun hc => absurd hc this.2⟩
  | ok hs =>
    rw [hl] at h
    cases hs with
    | nil =>
      obtain rfl := Except.error.inj h
      exact ⟨by decide, fun hc => by cases hc⟩
    | cons n more =>
      simp only [bind, Except.bind] at h
      split at h
      · obtain rfl := Except.error.inj h; exact ⟨by decide, fun hc => by cases hc⟩
      · rename_i hn
        split at h
        · obtain rfl := Except.error.inj h; exact ⟨by decide, fun hc => by cases hc⟩
        · split at h
          · rename_i hm
            obtain rfl := Except.error.inj h
            rw [Bool.and_eq_true, List.isEmpty_iff] at hm
            refine ⟨by decide, fun _ => ⟨hm.2, ?_⟩⟩
            rw [hm.1, Decidable.not_not.mp hn]
          · refine (fun hq => ⟨(hq e h).1, fun hc => absurd hc (hq e h).2⟩ : Quiet _ → _) ?_
            exact quiet_bind (parseBetween_quiet (fun ls => parseElement_quiet P kids ls pi) _ _ _) fun a _ =>
              quiet_bind (splitWrapUp_quiet _ _ _) fun b _ => quiet_bind (parseElement_quiet _ _ _ _) fun c _ => quiet_ok _

theorem quotedExtract_errors {lines : List Line} {e : Err} (h : quotedExtract lines = .error e) : e ≠ .noSubelements := by
  unfold quotedExtract at h
  simp only at h
  cases hl : quotedLoop .start [] (iterateWithQuoteLevel lines).yields with
  | error e' =>
    rw [hl] at h
    obtain rfl := Except.error.inj h
    exact (quotedLoop_quiet _ _ _ _ hl).1
  | ok r =>
    rw [hl] at h
    simp only [bind, Except.bind] at h
    cases hs : (iterateWithQuoteLevel lines).stop with
    | some e' =>
      rw [hs] at h
      obtain rfl := Except.error.inj h
      rw [quoteLevel_error _ _ hs]; decide
    | none =>
      rw [hs] at h
      simp only at h
      split at h <;> first | (rw [← Except.error.inj h]; decide) | cases h

end Verif
