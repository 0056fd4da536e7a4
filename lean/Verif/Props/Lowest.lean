import Verif.Spec.Lowest
import Verif.Props.Referable

/-! # The lowest component of a reference (C94) -/

namespace Verif.Props
open Spec

theorem begins_digit {i : Ident} : Reference.beginsWithDigit i = .ok true ↔ NumberLike i := by
  constructor
  · intro h
    unfold Reference.beginsWithDigit at h
    cases i with
    | one s => cases s with
      | nil => cases h
      | cons c s => exact ⟨c, s, .one _, Except.ok.inj h⟩
    | range a b => cases a with
      | nil => cases h
      | cons c s => exact ⟨c, s, .range _ _, Except.ok.inj h⟩
  · rintro ⟨c, s, h, hc⟩
    cases h <;> simp [Reference.beginsWithDigit, hc]

theorem begins_letter {i : Ident} : Reference.beginsWithDigit i = .ok false ↔ LetterLike i := by
  constructor
  · intro h
    unfold Reference.beginsWithDigit at h
    cases i with
    | one s => cases s with
      | nil => cases h
      | cons c s => exact ⟨c, s, .one _, Except.ok.inj h⟩
    | range a b => cases a with
      | nil => cases h
      | cons c s => exact ⟨c, s, .range _ _, Except.ok.inj h⟩
  · rintro ⟨c, s, h, hc⟩
    cases h <;> simp [Reference.beginsWithDigit, hc]

theorem begins_error {i : Ident} {e : Err} : Reference.beginsWithDigit i = .error e ↔ e = .indexError ∧ FirstIdent i [] := by
  unfold Reference.beginsWithDigit
  constructor
  · intro h
    cases i with
    | one s => cases s with
      | nil => exact ⟨(Except.error.inj h).symm, .one _⟩
      | cons c s => cases h
    | range a b => cases a with
      | nil => exact ⟨(Except.error.inj h).symm, .range _ _⟩
      | cons c s => cases h
  · rintro ⟨rfl, h⟩
    cases h <;> rfl

/-- C94. The lowest component of a reference is the one that is given, with its kind; only the reference to nothing has none. -/
theorem lowest_component (r : Reference) (x : Option Ident) (l : Option Reference.Level) :
    r.lastComponentWithType = .ok (x, l) ↔
      (∃ i t, x = some i ∧ l = some t ∧ LowestOf r i t) ∨ (x = none ∧ l = none ∧ r = {}) := by
  constructor
  · intro h
    unfold Reference.lastComponentWithType at h
    cases hs : r.subpoint with
    | some i =>
      rw [hs] at h
      obtain ⟨b, hb, h⟩ := resBind_ok h
      cases b with
      | true => cases h; exact .inl ⟨i, .numericSubpoint, rfl, rfl, hs, begins_digit.1 hb⟩
      | false => cases h; exact .inl ⟨i, .alphabeticSubpoint, rfl, rfl, hs, begins_letter.1 hb⟩
    | none =>
    rw [hs] at h
    cases hp : r.point with
    | some i =>
      rw [hp] at h
      obtain ⟨b, hb, h⟩ := resBind_ok h
      cases b with
      | true => cases h; exact .inl ⟨i, .numericPoint, rfl, rfl, hs, hp, begins_digit.1 hb⟩
      | false => cases h; exact .inl ⟨i, .alphabeticPoint, rfl, rfl, hs, hp, begins_letter.1 hb⟩
    | none =>
    rw [hp] at h
    cases hq : r.paragraph with
    | some i => rw [hq] at h; cases h; exact .inl ⟨i, .paragraph, rfl, rfl, hs, hp, hq⟩
    | none =>
    rw [hq] at h
    cases ha : r.article with
    | some i => rw [ha] at h; cases h; exact .inl ⟨i, .article, rfl, rfl, hs, hp, hq, ha⟩
    | none =>
    rw [ha] at h
    cases hc : r.act with
    | some s => rw [hc] at h; cases h; exact .inl ⟨.one s, .act, rfl, rfl, hs, hp, hq, ha, s, hc, rfl⟩
    | none =>
      rw [hc] at h; cases h
      refine .inr ⟨rfl, rfl, ?_⟩
      cases r
      simp_all
  · rintro (⟨i, t, rfl, rfl, h⟩ | ⟨rfl, rfl, rfl⟩)
    · unfold Reference.lastComponentWithType
      cases t with
      | numericSubpoint => rw [h.1]; simp [begins_digit.2 h.2, bind, Except.bind]
      | alphabeticSubpoint => rw [h.1]; simp [begins_letter.2 h.2, bind, Except.bind]
      | numericPoint => rw [h.1, h.2.1]; simp [begins_digit.2 h.2.2, bind, Except.bind]
      | alphabeticPoint => rw [h.1, h.2.1]; simp [begins_letter.2 h.2.2, bind, Except.bind]
      | paragraph => rw [h.1, h.2.1, h.2.2]
      | article => rw [h.1, h.2.1, h.2.2.1, h.2.2.2]
      | act =>
        obtain ⟨h1, h2, h3, h4, s, h5, rfl⟩ := h
        rw [h1, h2, h3, h4, h5]
    · rfl

/-- C94. It is refused, as an index error, exactly if it would be a point or subpoint without any characters. -/
theorem lowest_refused (r : Reference) (e : Err) :
    r.lastComponentWithType = .error e ↔ e = .indexError ∧ ∃ i, FirstIdent i [] ∧
      (r.subpoint = some i ∨ (r.subpoint = none ∧ r.point = some i)) := by
  have step : ∀ (i : Ident) (f : Bool → Res (Option Ident × Option Reference.Level)), (∀ b, ∃ x, f b = .ok x) →
      ((Reference.beginsWithDigit i >>= f) = .error e ↔ e = .indexError ∧ FirstIdent i []) := by
    intro i f hf
    rw [← begins_error]
    cases hb : Reference.beginsWithDigit i with
    | ok b =>
      obtain ⟨x, hx⟩ := hf b
      show f b = .error e ↔ _
      rw [hx]
      simp
    | error e' =>
      show (Except.error e' : Res _) = .error e ↔ _
      simp
  unfold Reference.lastComponentWithType
  cases hs : r.subpoint with
  | some i =>
    refine (step i _ ?_).trans ?_
    · intro b; cases b <;> exact ⟨_, rfl⟩
    · simp
  | none =>
  cases hp : r.point with
  | some i =>
    refine (step i _ ?_).trans ?_
    · intro b; cases b <;> exact ⟨_, rfl⟩
    · simp
  | none =>
  cases hq : r.paragraph with
  | some i => simp
  | none =>
  cases ha : r.article with
  | some i => simp
  | none =>
  cases hc : r.act with
  | some s => simp
  | none => simp

/-- C94. Likewise for references to parts of the structure that are not to a subtitle with an article. -/
theorem structural_lowest (r : StructuralReference) (x : Option (Str × StructLevel)) :
    r.lastComponentWithType = .ok x ↔ r.special = none ∧
      ((∃ s l, x = some (s, l) ∧ StructLowest r s l) ∨ (x = none ∧ ∀ l, structComponent r l = none)) := by
  obtain ⟨act, book, part, title, chapter, subtitle, special⟩ := r
  unfold StructuralReference.lastComponentWithType
  cases special with
  | some s => simp
  | none =>
  simp only [Option.isSome_none, Bool.false_eq_true, if_false, Except.ok.injEq, true_and]
  have fin : ∀ {y : Option (Str × StructLevel)} {s l}, y = some (s, l) →
      StructLowest ⟨act, book, part, title, chapter, subtitle, none⟩ s l →
      (y = x ↔ ((∃ s l, x = some (s, l) ∧ StructLowest ⟨act, book, part, title, chapter, subtitle, none⟩ s l) ∨
        (x = none ∧ ∀ l, structComponent ⟨act, book, part, title, chapter, subtitle, none⟩ l = none))) := by
    intro y s l hy hl
    subst hy
    constructor
    · rintro rfl; exact .inl ⟨s, l, rfl, hl⟩
    · rintro (⟨s', l', rfl, hl'⟩ | ⟨rfl, h⟩)
      · have : l = l' := by
          refine Decidable.byContradiction fun hne => ?_
          have : Below l l' ∨ Below l' l := by
            rcases l with _ | l <;> rcases l' with _ | l'
            · exact absurd rfl hne
            · exact .inl trivial
            · exact .inr trivial
            · cases l <;> cases l' <;> simp_all [Below]
          rcases this with h | h
          · have := hl.2 _ h; rw [hl'.1] at this; cases this
          · have := hl'.2 _ h; rw [hl.1] at this; cases this
        subst this
        rw [Option.some.inj (hl.1.symm.trans hl'.1)]
      · have := hl.1; rw [h l] at this; cases this
  cases subtitle with
  | some s => exact fin (s := s) (l := .struct .subtitle) rfl ⟨rfl, fun k hk => by rcases k with _ | k <;> exact hk.elim⟩
  | none =>
  cases chapter with
  | some s =>
    refine fin (s := s) (l := .struct .chapter) rfl ⟨rfl, fun k hk => ?_⟩
    rcases k with _ | k
    · exact hk.elim
    · cases k <;> simp_all [Below, structComponent]
  | none =>
  cases title with
  | some s =>
    refine fin (s := s) (l := .struct .title) rfl ⟨rfl, fun k hk => ?_⟩
    rcases k with _ | k
    · exact hk.elim
    · cases k <;> simp_all [Below, structComponent]
  | none =>
  cases part with
  | some s =>
    refine fin (s := s) (l := .struct .part) rfl ⟨rfl, fun k hk => ?_⟩
    rcases k with _ | k
    · exact hk.elim
    · cases k <;> simp_all [Below, structComponent]
  | none =>
  cases book with
  | some s =>
    refine fin (s := s) (l := .struct .book) rfl ⟨rfl, fun k hk => ?_⟩
    rcases k with _ | k
    · exact hk.elim
    · cases k <;> simp_all [Below, structComponent]
  | none =>
  cases act with
  | some s =>
    refine fin (s := s) (l := .act) rfl ⟨rfl, fun k hk => ?_⟩
    rcases k with _ | k
    · exact hk.elim
    · cases k <;> simp_all [structComponent]
  | none =>
    constructor
    · rintro rfl
      refine .inr ⟨rfl, fun l => ?_⟩
      rcases l with _ | l
      · rfl
      · cases l <;> rfl
    · rintro (⟨s, l, rfl, hl⟩ | ⟨rfl, -⟩)
      · have := hl.1
        rcases l with _ | l
        · cases this
        · cases l <;> cases this
      · rfl

/-- C94. References to a subtitle with an article are refused, as a value error, and no others are. -/
theorem structural_refused (r : StructuralReference) (e : Err) :
    r.lastComponentWithType = .error e ↔ e = .valueError ∧ r.special ≠ none := by
  unfold StructuralReference.lastComponentWithType
  cases r.special with
  | some s => simp [eq_comm]
  | none => simp

example : (Reference.mk (some (py"2012. évi I. törvény")) (some (.one (py"3"))) none (some (.range (py"a") (py"c"))) none).lastComponentWithType =
    .ok (some (.range (py"a") (py"c")), some .alphabeticPoint) :=
  (lowest_component _ _ _).2 (.inl ⟨_, .alphabeticPoint, rfl, rfl, rfl, rfl, 'a', [], .range .., by decide⟩)

example : StructLowest { act := some (py"2013. évi V. törvény"), book := some (py"3"), title := some (py"2") } (py"2") (.struct .title) := by
  refine ⟨rfl, fun k hk => ?_⟩
  rcases k with _ | k
  · exact hk.elim
  · cases k <;> simp_all [Below, structComponent]

theorem number_digit {n : Str} (h : IsNumber n) (s : Str) : NumberLike (.one (n ++ s)) := by
  obtain ⟨h0, h1⟩ := h
  cases n with
  | nil => exact absurd rfl h0
  | cons c n => exact ⟨c, n ++ s, .one _, ascii_isDigit (h1 c (by simp))⟩

theorem numeric_like {i : Str} (h : IsNumericPointId i) : NumberLike (.one i) := by
  rcases h with (h | ⟨n, c, h, -, rfl⟩) | ⟨n, c, h, -, rfl⟩
  · simpa using number_digit h []
  · exact number_digit h _
  · exact number_digit h _

theorem letter_like {c : Char} {s : Str} (h : isLowerAz c = true) : LetterLike (.one (c :: s)) :=
  ⟨c, s, .one _, lower_not_digit h⟩

theorem lettered_like {i : Str} (h : IsLetteredId i) (s : Str) : LetterLike (.one (i ++ s)) := by
  rcases h with ⟨c, hc, rfl⟩ | rfl | rfl
  · exact letter_like hc
  · exact letter_like (by decide)
  · exact letter_like (by decide)

theorem own_below {n p m : Node} (h : Own p m) (hn : n ∈ p.children) (ht : n.type ≠ .sae .blockAmendmentContainer) : Own n m := by
  induction h with
  | self => exact .deeper hn ht (.self _)
  | deeper hc hk _ ih => exact .deeper hc hk ih

/-- C94. In every act that is made, the lowest component of the reference of an element is the number of the element, with its kind. For
an article with one paragraph without a number, it is the number of the article. -/
theorem element_lowest {r : LawRawText} {o : Extracted} {a : Act} (h : Produces s c r o)
    (ho : o = .structureOnly a ∨ o = .blockOnly a ∨ o = .act a) {q : Reference} {n : Node} (he : ElementAt a q n) :
    (∃ i t, n.identifier = some i ∧ NamedAt n t ∧ q.lastComponentWithType = .ok (some (.one i), some t)) ∨
      (n.identifier = none ∧ ∃ m i, ElementAt a q m ∧ NamedAt m .article ∧ m.identifier = some i ∧ n ∈ m.children ∧
        q.lastComponentWithType = .ok (some (.one i), some .article)) := by
  have hw := (produced_well_made h ho).2
  have below : ∀ {p n : Node}, (∃ m ∈ a.children, Own p m) → n ∈ p.children → n.type ≠ .sae .blockAmendmentContainer →
      ∃ m ∈ a.children, Own n m := fun ⟨m, hm, h⟩ hn ht => ⟨m, hm, own_below h hn ht⟩
  have own : ∀ {q n}, ElementAt a q n → ∃ m ∈ a.children, Own n m := by
    intro q n he
    induction he with
    | article h => exact ⟨_, h, .self _⟩
    | paragraph _ hp ih => exact below ih hp (by simp [Node.type])
    | point _ hk hp _ ih => exact below ih hp (by rcases hk with rfl | rfl <;> simp [Node.type])
    | subpoint _ _ hl hp _ ih => exact below ih hp (by rcases hl with rfl | rfl <;> simp [Node.type])
  have ident : Identified n := by
    obtain ⟨m, hm, hn⟩ := own he
    exact (produced_numbers h ho m hm n hn).1
  have low : ∀ {i t}, LowestOf q i t → q.lastComponentWithType = .ok (some i, some t) := fun h =>
    (lowest_component _ _ _).2 (.inl ⟨_, _, rfl, rfl, h⟩)
  cases he with
  | @article i t cs h => exact .inl ⟨i, _, rfl, .article .., low ⟨rfl, rfl, rfl, rfl⟩⟩
  | @paragraph r i t cs d ps h hp =>
    obtain ⟨-, rfl⟩ := elementAt_article h
    cases hd : d.identifier with
    | some j => exact .inl ⟨j, _, hd, .paragraph .., (lowest_component _ _ _).2 (.inl ⟨_, .paragraph, rfl, rfl, rfl, rfl, rfl⟩)⟩
    | none =>
      refine .inr ⟨hd, _, i, h, .article .., rfl, hp, ?_⟩
      exact (lowest_component _ _ _).2 (.inl ⟨_, .article, rfl, rfl, rfl, rfl, rfl, rfl⟩)
  | @point r d ps k e ss i h hk hp hi =>
    obtain ⟨j, t, cs, -, -, rfl⟩ := elementAt_paragraph h
    rcases hk with rfl | rfl
    · refine .inl ⟨i, _, hi, .alphabeticPoint .., low ⟨rfl, rfl, ?_⟩⟩
      simpa using lettered_like (ident.1 i hi) []
    · exact .inl ⟨i, _, hi, .numericPoint .., low ⟨rfl, rfl, numeric_like (ident.1 i hi)⟩⟩
  | @subpoint r k d ps l e ss i h hk hl hp hi =>
    rcases hl with rfl | rfl
    · refine .inl ⟨i, _, hi, .alphabeticSubpoint .., low ⟨rfl, ?_⟩⟩
      rcases ident.1 i hi with hj | ⟨p, c, hj, -, rfl⟩
      · simpa using lettered_like hj []
      · exact lettered_like hj _
    · exact .inl ⟨i, _, hi, .numericSubpoint .., low ⟨rfl, numeric_like (ident.1 i hi)⟩⟩

/-- The act `twoMade` has such elements: a lettered point, and a paragraph without a number. -/
example : ∃ a, twoMade (py"1") (py"2") = some a ∧ (∃ q n, ElementAt a q n ∧ NamedAt n .alphabeticPoint) ∧
    ∃ q n, ElementAt a q n ∧ n.identifier = none := by
  have h : (twoMade (py"1") (py"2")).any (fun a => match a.children with
    | [.article _ _ (.sae .paragraph _ (.sae .alphabeticPoint e _ :: _) :: _), .article _ _ [.sae .paragraph d _]] =>
      decide (e.identifier = some (py"a") ∧ d.identifier = none)
    | _ => false) = true := by decide +kernel
  cases ha : twoMade (py"1") (py"2") with
  | none => rw [ha] at h; cases h
  | some a =>
    rw [ha, Option.any_some] at h
    split at h
    · rename_i hc
      obtain ⟨h1, h2⟩ := of_decide_eq_true h
      have m1 := List.mem_cons_self (a := a.children.head (by simp [hc])) (l := a.children.tail)
      have m2 := List.getLast_mem (l := a.children) (by simp [hc])
      rw [List.cons_head_tail] at m1
      simp only [hc, List.head_cons, List.getLast_cons_cons, List.getLast_singleton] at m1 m2
      rw [← hc] at m1 m2
      exact ⟨a, rfl, ⟨_, _, .point (.paragraph (.article m1) (List.mem_cons_self ..)) (.inl rfl) (List.mem_cons_self ..) h1,
        .alphabeticPoint ..⟩, _, _, .paragraph (.article m2) (List.mem_cons_self ..), h2⟩
    · cases h

end Verif.Props
