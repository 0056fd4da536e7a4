import Verif.Proofs.IdString

/-! # Properties C14 to C19: references -/

namespace Verif.Props

open Verif Reference

/-! ## C14: relative references -/

theorem relativeTo_cases (r o : Reference) : r.relativeTo o =
    if r.act.isSome then r
    else if r.article.isSome then { r with act := o.act }
    else if r.paragraph.isSome then { r with act := o.act, article := o.article }
    else if r.point.isSome then { r with act := o.act, article := o.article, paragraph := o.paragraph }
    else if r.subpoint.isSome then { o with subpoint := r.subpoint }
    else o := by
  obtain ⟨a1, a2, a3, a4, a5⟩ := r
  cases a1 with
  | some _ => simp [relativeTo]
  | none => cases a2 with
    | some _ => simp [relativeTo]
    | none => cases a3 with
      | some _ => simp [relativeTo]
      | none => cases a4 with
        | some _ => simp [relativeTo]
        | none => cases a5 <;> simp [relativeTo]

/-- C14. Combining the contexts first and applying them one by one is the same. -/
theorem relativeTo_assoc (a b c : Reference) : (a.relativeTo b).relativeTo c = a.relativeTo (b.relativeTo c) := by
  obtain ⟨a1, a2, a3, a4, a5⟩ := a
  rw [relativeTo_cases ⟨a1, a2, a3, a4, a5⟩ b, relativeTo_cases ⟨a1, a2, a3, a4, a5⟩ (b.relativeTo c)]
  obtain ⟨b1, b2, b3, b4, b5⟩ := b
  cases a1 with
  | some _ => simp [relativeTo]
  | none => cases a2 with
    | some _ => cases b1 <;> simp [relativeTo]
    | none => cases a3 with
      | some _ => cases b1 <;> cases b2 <;> simp [relativeTo]
      | none => cases a4 with
        | some _ => cases b1 <;> cases b2 <;> cases b3 <;> simp [relativeTo]
        | none => cases a5 with
          | some _ => cases b1 <;> cases b2 <;> cases b3 <;> cases b4 <;> simp [relativeTo]
          | none => simp

/-- C14. The empty reference is a unit on both sides. -/
theorem relativeTo_unit (a : Reference) : a.relativeTo {} = a ∧ Reference.relativeTo {} a = a := by
  constructor
  · rw [relativeTo_cases]
    obtain ⟨a1, a2, a3, a4, a5⟩ := a
    cases a1 <;> cases a2 <;> cases a3 <;> cases a4 <;> cases a5 <;> simp
  · rfl

/-- C14. An absolute reference is unaffected, and stays so. -/
theorem relativeTo_absolute (a b : Reference) (h : a.isRelative = false) : a.relativeTo b = a := by
  rw [relativeTo_cases, if_pos]
  simpa [isRelative] using h

/-- C14. What the result is: up to the first component that is set it is the context, from there on the reference. -/
theorem relativeTo_components (a b : Reference) (p s : List (Option Ident)) (i : Ident)
    (hp : ∀ c ∈ p, c = none) (h : a.components = p ++ some i :: s) :
    (a.relativeTo b).components = b.components.take p.length ++ some i :: s := by
  rw [relativeTo_cases]
  obtain ⟨a1, a2, a3, a4, a5⟩ := a
  simp only [components] at h
  match p, h with
  | [], h => cases a1 <;> simp_all [components]
  | [p1], h => cases a1 <;> simp_all [components]
  | [p1, p2], h => cases a1 <;> simp_all [components]
  | [p1, p2, p3], h => cases a1 <;> simp_all [components]
  | [p1, p2, p3, p4], h => cases a1 <;> simp_all [components]
  | p1 :: p2 :: p3 :: p4 :: p5 :: p, h => simp at h

example : (Reference.relativeTo { paragraph := some (.one (py"2")) }
    { act := some (py"X"), article := some (.one (py"1")), paragraph := some (.one (py"7")), point := some (.one (py"a")) })
    = { act := some (py"X"), article := some (.one (py"1")), paragraph := some (.one (py"2")) } := by decide

/-! ## C15: the order -/

/-- C15. `>` is the converse of `<`, for all references. -/
theorem gt_converse (a b : Reference) : a.gt b = b.lt a := ltGtLoop_converse _ _

/-- C15. No reference is before itself. -/
theorem lt_irrefl (a : Reference) : a.lt a ≠ .ok true := ltGtLoop_irrefl _

/-- C15. `<` never holds in both directions. -/
theorem lt_asymm (a b : Reference) (h : a.lt b = .ok true) : b.lt a = .ok false := ltGtLoop_asymm _ _ h

/-- C15. `<` is transitive. -/
theorem lt_trans (a b c : Reference) (h1 : a.lt b = .ok true) (h2 : b.lt c = .ok true) : a.lt c = .ok true :=
  ltGtLoop_trans _ _ _ h1 h2

example : ∃ a b c : Reference, a.lt b = .ok true ∧ b.lt c = .ok true :=
  ⟨{ act := some (py"X") }, { act := some (py"X"), article := some (.one (py"2")) },
   { act := some (py"X"), article := some (.one (py"10")) }, by decide +kernel⟩

/-- C15. `<=` is equality or `<`, and `>=` is equality or `>`. -/
theorem le_ge_mean (a b : Reference) :
    (a.le b = .ok true ↔ a = b ∨ a.lt b = .ok true) ∧ (a.ge b = .ok true ↔ a = b ∨ a.gt b = .ok true) := by
  refine ⟨le_iff a b, ?_⟩
  rw [gt_converse]
  exact ge_iff a b

/-- C15. They raise only where `<` and `>` do. -/
theorem le_ge_raise (a b : Reference) (e : Err) :
    (a.le b = .error e ↔ a ≠ b ∧ a.lt b = .error e) ∧ (a.ge b = .error e ↔ a ≠ b ∧ a.gt b = .error e) := by
  unfold le ge lt gt
  by_cases h : a = b <;> simp [h]

/-- C15. Two references without ranges and with canonical identifiers are equal, or one is before the other. -/
theorem lt_total (a b : Reference) (sa : Spec.Single a) (sb : Spec.Single b) (ca : Spec.AllIdents Spec.Canonical a)
    (cb : Spec.AllIdents Spec.Canonical b) : a = b ∨ a.lt b = .ok true ∨ b.lt a = .ok true := by
  by_cases e : a = b
  · exact .inl e
  · exact .inr (ltGtLoop_total _ _ rfl (single_iff.1 sa) (single_iff.1 sb) ca cb fun h => e (components_inj h))

theorem allIdents_iff (P : Str → Prop) (r : Reference) : Spec.AllIdents P r ↔
    (∀ s ∈ Spec.identsOf (r.act.map .one), P s) ∧ (∀ s ∈ Spec.identsOf r.article, P s) ∧
    (∀ s ∈ Spec.identsOf r.paragraph, P s) ∧ (∀ s ∈ Spec.identsOf r.point, P s) ∧
    (∀ s ∈ Spec.identsOf r.subpoint, P s) := by
  simp [Spec.AllIdents, components]

example : Spec.Single { act := some (py"X"), article := some (.one (py"2/A")) } ∧
    Spec.AllIdents Spec.Canonical { act := some (py"X"), article := some (.one (py"2/A")) } := by
  constructor
  · rw [single_iff]; decide
  · rw [allIdents_iff]
    unfold Spec.Canonical
    decide +kernel

/-- C15. A comparison of readable references is refused exactly if a range is met before it is decided: the references
agree, without ranges, up to a component where one of them has a range. -/
theorem lt_refused_iff (a b : Reference) (ra : Spec.AllIdents Spec.Readable a) (rb : Spec.AllIdents Spec.Readable b) :
    (a.lt b = .error .valueError ↔
      ∃ p x y s t, a.components = p ++ x :: s ∧ b.components = p ++ y :: t ∧ (∀ c ∈ p, ∀ u v, c ≠ some (.range u v)) ∧
        ((∃ u v, x = some (.range u v)) ∨ ∃ u v, y = some (.range u v))) ∧
    (a.lt b ≠ .error .valueError → ∃ r, a.lt b = .ok r) := by
  have key : RangeMet a.components b.components ↔
      ∃ p x y s t, a.components = p ++ x :: s ∧ b.components = p ++ y :: t ∧ (∀ c ∈ p, ∀ u v, c ≠ some (.range u v)) ∧
        ((∃ u v, x = some (.range u v)) ∨ ∃ u v, y = some (.range u v)) := by
    unfold RangeMet
    simp only [isTuple_eq, isTuple_false]
  rw [← key]
  unfold lt ltGt
  rcases ltGtLoop_refused a.components b.components rfl ra rb with ⟨h1, h2⟩ | ⟨h1, r, h2⟩
  · simp [h1, h2]
  · simp [h1, h2]

example : Reference.lt { article := some (.one (py"1")), paragraph := some (.range (py"1") (py"2")) }
    { article := some (.one (py"1")), paragraph := some (.one (py"1")) } = .error .valueError ∧
    Reference.lt { article := some (.one (py"1")), paragraph := some (.range (py"1") (py"2")) }
    { article := some (.one (py"2")), paragraph := some (.one (py"1")) } = .ok true := by decide +kernel

/-! ## C16: containment -/

theorem closed_of {a : Reference} (gap : Spec.GapFree a) (rl : Spec.RangeLast a) :
    closedL [a.article, a.paragraph, a.point, a.subpoint] := by
  obtain ⟨a1, a2, a3, a4, a5⟩ := a
  obtain ⟨g1, g2, g3⟩ := gap
  simp only at g1 g2 g3
  unfold Spec.RangeLast at rl
  have r2 := fun x y (h : a2 = some (.range x y)) => rl [a1.map .one] x y [a3, a4, a5] (by simp [components, h])
  have r3 := fun x y (h : a3 = some (.range x y)) => rl [a1.map .one, a2] x y [a4, a5] (by simp [components, h])
  have r4 := fun x y (h : a4 = some (.range x y)) => rl [a1.map .one, a2, a3] x y [a5] (by simp [components, h])
  simp only [closedL, isTuple_eq]
  refine ⟨?_, ?_, ?_, by simp, trivial⟩
  · rintro (h | ⟨x, y, h⟩)
    · have h3 := g1 h; have h4 := g2 h3; have h5 := g3 h4
      simp [h3, h4, h5]
    · exact r2 x y h
  · rintro (h | ⟨x, y, h⟩)
    · have h4 := g2 h; have h5 := g3 h4
      simp [h4, h5]
    · exact r3 x y h
  · rintro (h | ⟨x, y, h⟩)
    · simp [g3 h]
    · exact r4 x y h

/-- C16. What a reference contains, for every reference without gaps whose range, if any, is its last component, and
every reference into the same act: it contains exactly what it covers component by component. -/
theorem contains_iff_covers (a b : Reference) (gap : Spec.GapFree a) (rl : Spec.RangeLast a)
    (act : a.act = b.act ∨ a = {}) (vb : Spec.ValidRanges b) : a.contains b = .ok true ↔ Spec.Covers a b := by
  rw [contains_iff, covers_iff]
  rcases act with act | rfl
  · have ha : a.components = a.act.map .one :: [a.article, a.paragraph, a.point, a.subpoint] := rfl
    have hb : b.components = a.act.map .one :: [b.article, b.paragraph, b.point, b.subpoint] := by rw [act]; rfl
    have ht : isTuple (a.act.map Ident.one) = false := by cases a.act <;> rfl
    have h1 : ∀ x : Option Ident, isTuple x = false → firstOf x = x ∧ lastOf x = x := by
      intro x hx
      cases x with
      | none => exact ⟨rfl, rfl⟩
      | some i => cases i with
        | one _ => exact ⟨rfl, rfl⟩
        | range _ _ => simp [isTuple] at hx
    have m1 : ∀ l, List.map firstOf (a.act.map Ident.one :: l) = a.act.map Ident.one :: l.map firstOf := by
      intro l; rw [List.map_cons, (h1 _ ht).1]
    have m2 : ∀ l, List.map lastOf (a.act.map Ident.one :: l) = a.act.map Ident.one :: l.map lastOf := by
      intro l; rw [List.map_cons, (h1 _ ht).2]
    rw [ha, hb, containsLoop_eq, m1, m1, m2, m2, leL_same ht, geL_same ht, ← containsLoop_eq,
      containsLoop_covers [a.article, a.paragraph, a.point, a.subpoint] [b.article, b.paragraph, b.point, b.subpoint] rfl
        (closed_of gap rl) (fun c hc => vb c (by rw [hb]; exact List.mem_cons_of_mem _ hc))]
    simp only [coversL]
    constructor
    · intro h
      refine ⟨?_, h⟩
      intro i hi
      cases hact : a.act with
      | none => rw [hact] at hi; cases hi
      | some s => rw [hact] at hi; cases hi; exact ⟨_, rfl, rfl⟩
    · exact fun h => h.2
  · refine containsLoop_covers ({} : Reference).components b.components rfl ?_ vb
    simp [closedL, components]

/-- C16. The question is answered whenever the identifiers are readable. -/
theorem contains_answers (a b : Reference) (ra : Spec.AllIdents Spec.Readable a) (rb : Spec.AllIdents Spec.Readable b) :
    ∃ r, a.contains b = .ok r := by
  have rd : ∀ (r : Reference), Spec.AllIdents Spec.Readable r →
      Spec.AllIdents Spec.Readable r.firstInRange ∧ Spec.AllIdents Spec.Readable r.lastInRange := by
    intro r hr
    constructor
    · intro c hc s hs
      rw [firstInRange_components] at hc
      obtain ⟨d, hd, rfl⟩ := List.mem_map.1 hc
      refine hr d hd s ?_
      cases d with
      | none => exact hs
      | some i => cases i with
        | one _ => exact hs
        | range _ _ => simp only [firstOf, Spec.identsOf, List.mem_singleton] at hs; simp [Spec.identsOf, hs]
    · intro c hc s hs
      rw [lastInRange_components] at hc
      obtain ⟨d, hd, rfl⟩ := List.mem_map.1 hc
      refine hr d hd s ?_
      cases d with
      | none => exact hs
      | some i => cases i with
        | one _ => exact hs
        | range _ _ => simp only [lastOf, Spec.identsOf, List.mem_singleton] at hs; simp [Spec.identsOf, hs]
  have noRange : ∀ as bs : List (Option Ident), (∀ c ∈ as, isTuple c = false) → (∀ c ∈ bs, isTuple c = false) →
      ¬ RangeMet as bs := by
    rintro as bs h1 h2 ⟨p, x, y, s, t, rfl, rfl, -, h | h⟩
    · rw [h1 x (by simp)] at h; cases h
    · rw [h2 y (by simp)] at h; cases h
  have cmp : ∀ x y : Reference, Spec.AllIdents Spec.Readable x → Spec.AllIdents Spec.Readable y →
      (∀ c ∈ x.components, isTuple c = false) → (∀ c ∈ y.components, isTuple c = false) →
      (∃ r, le x y = .ok r) ∧ ∃ r, ge x y = .ok r := by
    intro x y hx hy tx ty
    unfold le ge ltGt
    by_cases e : x = y
    · simp [e]
    · rw [if_neg e, if_neg e, ltGtLoop_converse]
      constructor
      · rcases ltGtLoop_refused x.components y.components rfl hx hy with h | h
        · exact absurd h.1 (noRange _ _ tx ty)
        · exact h.2
      · rcases ltGtLoop_refused y.components x.components rfl hy hx with h | h
        · exact absurd h.1 (noRange _ _ ty tx)
        · exact h.2
  obtain ⟨r, hr⟩ := (cmp _ _ (rd a ra).1 (rd b rb).1 (by rw [firstInRange_components]; exact map_firstOf_single _)
    (by rw [firstInRange_components]; exact map_firstOf_single _)).1
  obtain ⟨s, hs⟩ := (cmp _ _ (rd a ra).2 (rd b rb).2 (by rw [lastInRange_components]; exact map_lastOf_single _)
    (by rw [lastInRange_components]; exact map_lastOf_single _)).2
  unfold contains
  rw [hr, hs]
  cases r <;> cases s <;> cases isParentOf a.firstInRange b.firstInRange <;> simp [bind, Except.bind]

/-- C16. Every reference contains itself, whatever it is. -/
theorem contains_self (a : Reference) : a.contains a = .ok true := by
  rw [contains_iff]
  exact ⟨.inl rfl, .inl rfl⟩

theorem covers_single {a b : Reference} (sa : Spec.Single a) : Spec.Covers a b ↔ Spec.Extends a b := by
  have comp : ∀ x y : Option Ident, (∀ u v, x ≠ some (.range u v)) → (Spec.ComponentCovers x y ↔ x = none ∨ x = y) := by
    intro x y hx
    cases x with
    | none => simp [Spec.ComponentCovers]
    | some i => cases i with
      | range u v => exact absurd rfl (hx u v)
      | one s =>
        constructor
        · intro h
          obtain ⟨j, e1, e2⟩ := h _ rfl
          simp only [Spec.IdentCovers] at e2
          rw [e1, e2]
          exact .inr rfl
        · rintro (h | h)
          · cases h
          · intro i hi
            cases hi
            exact ⟨_, h.symm, rfl⟩
  unfold Spec.Covers Spec.Extends
  rw [comp _ _ (sa _ (by simp [components])), comp _ _ (sa a.article (by simp [components])),
    comp _ _ (sa a.paragraph (by simp [components])), comp _ _ (sa a.point (by simp [components])),
    comp _ _ (sa a.subpoint (by simp [components]))]
  have : (a.act.map Ident.one = none ∨ a.act.map Ident.one = b.act.map Ident.one) ↔ (a.act = none ∨ a.act = b.act) := by
    cases a.act <;> cases b.act <;> simp
  rw [this]

theorem single_rangeLast {a : Reference} (sa : Spec.Single a) : Spec.RangeLast a := by
  intro p x y s h
  exact absurd rfl (sa (some (.range x y)) (by rw [h]; simp) x y)

/-- C16. A single reference contains exactly itself and what is below it: the references that have all its components. -/
theorem single_contains_iff (a b : Reference) (gap : Spec.GapFree a) (sa : Spec.Single a)
    (act : a.act = b.act ∨ a = {}) (vb : Spec.ValidRanges b) : a.contains b = .ok true ↔ Spec.Extends a b := by
  rw [contains_iff_covers a b gap (single_rangeLast sa) act vb, covers_single sa]

example : Reference.contains { act := some (py"X"), article := some (.one (py"3")) }
    { act := some (py"X"), article := some (.one (py"3")), paragraph := some (.one (py"1")) } = .ok true ∧
    Reference.contains { act := some (py"X"), article := some (.one (py"3")) }
    { act := some (py"X"), article := some (.one (py"3/A")) } = .ok false := by decide +kernel

/-- C16. A range of articles contains exactly what has an article between its ends; likewise one level at a time for
the others, since everything before the range has to agree. -/
theorem range_contains_iff (a b : Reference) (x y z : Str) (gap : Spec.GapFree a) (rl : Spec.RangeLast a)
    (act : a.act = b.act) (sb : Spec.Single b) :
    (a.article = some (.range x y) → b.article = some (.one z) →
      (a.contains b = .ok true ↔ Spec.NotAfter x z ∧ Spec.NotAfter z y)) ∧
    (a.paragraph = some (.range x y) → b.paragraph = some (.one z) →
      (a.contains b = .ok true ↔ a.article = b.article ∧ Spec.NotAfter x z ∧ Spec.NotAfter z y)) ∧
    (a.point = some (.range x y) → b.point = some (.one z) →
      (a.contains b = .ok true ↔
        a.article = b.article ∧ a.paragraph = b.paragraph ∧ Spec.NotAfter x z ∧ Spec.NotAfter z y)) ∧
    (a.subpoint = some (.range x y) → b.subpoint = some (.one z) →
      (a.contains b = .ok true ↔ a.article = b.article ∧ a.paragraph = b.paragraph ∧ a.point = b.point ∧
        Spec.NotAfter x z ∧ Spec.NotAfter z y)) := by
  have vb : Spec.ValidRanges b := fun c hc u v h => absurd h (sb c hc u v)
  rw [contains_iff_covers a b gap rl (.inl act) vb]
  have r2 := fun u v (h : a.article = some (.range u v)) => rl [a.act.map .one] u v [a.paragraph, a.point, a.subpoint] (by simp [components, h])
  have r3 := fun u v (h : a.paragraph = some (.range u v)) => rl [a.act.map .one, a.article] u v [a.point, a.subpoint] (by simp [components, h])
  have r4 := fun u v (h : a.point = some (.range u v)) => rl [a.act.map .one, a.article, a.paragraph] u v [a.subpoint] (by simp [components, h])
  obtain ⟨g1, g2, g3⟩ := gap
  have hact : Spec.ComponentCovers (a.act.map .one) (b.act.map .one) := by
    rw [act]
    intro i hi
    cases hb : b.act with
    | none => rw [hb] at hi; cases hi
    | some s => rw [hb] at hi; cases hi; exact ⟨_, rfl, rfl⟩
  have hnone : ∀ u, Spec.ComponentCovers none u := by intro u i hi; cases hi
  have hrange : ∀ u v w, Spec.ComponentCovers (some (.range u v)) (some (.one w)) ↔ Spec.NotAfter u w ∧ Spec.NotAfter w v := by
    intro u v w
    constructor
    · intro h; obtain ⟨j, e1, e2⟩ := h _ rfl; cases e1; exact e2
    · intro h i hi; cases hi; exact ⟨_, rfl, h⟩
  have hone : ∀ c d, c ≠ none → (∀ u v, c ≠ some (.range u v)) → (Spec.ComponentCovers c d ↔ c = d) := by
    intro c d h1 h2
    cases c with
    | none => exact absurd rfl h1
    | some i => cases i with
      | range u v => exact absurd rfl (h2 u v)
      | one s =>
        constructor
        · intro h
          obtain ⟨j, e1, e2⟩ := h _ rfl
          simp only [Spec.IdentCovers] at e2
          rw [e1, e2]
        · intro h i hi
          cases hi
          exact ⟨_, h.symm, rfl⟩
  unfold Spec.Covers
  refine ⟨?_, ?_, ?_, ?_⟩
  · intro ha hb
    have := r2 x y ha
    simp only [List.mem_cons, List.not_mem_nil, or_false, forall_eq_or_imp, forall_eq] at this
    rw [this.1, this.2.1, this.2.2, ha, hb]
    simp [hact, hnone, hrange]
  · intro ha hb
    have := r3 x y ha
    simp only [List.mem_cons, List.not_mem_nil, or_false, forall_eq_or_imp, forall_eq] at this
    have n1 : a.article ≠ none := fun h => by rw [g1 h] at ha; cases ha
    have n2 : ∀ u v, a.article ≠ some (.range u v) := fun u v h => by
      rw [r2 u v h a.paragraph (by simp)] at ha; cases ha
    rw [this.1, this.2, ha, hb, hone _ _ n1 n2]
    simp [hact, hnone, hrange]
  · intro ha hb
    have := r4 x y ha
    simp only [List.mem_cons, List.not_mem_nil, or_false, forall_eq] at this
    have m1 : a.paragraph ≠ none := fun h => by rw [g2 h] at ha; cases ha
    have m2 : ∀ u v, a.paragraph ≠ some (.range u v) := fun u v h => by
      rw [r3 u v h a.point (by simp)] at ha; cases ha
    have n1 : a.article ≠ none := fun h => m1 (g1 h)
    have n2 : ∀ u v, a.article ≠ some (.range u v) := fun u v h => m1 (r2 u v h a.paragraph (by simp))
    rw [this, ha, hb, hone _ _ n1 n2, hone _ _ m1 m2]
    simp [hact, hnone, hrange]
  · intro ha hb
    have k1 : a.point ≠ none := fun h => by rw [g3 h] at ha; cases ha
    have k2 : ∀ u v, a.point ≠ some (.range u v) := fun u v h => by
      rw [r4 u v h a.subpoint (by simp)] at ha; cases ha
    have m1 : a.paragraph ≠ none := fun h => k1 (g2 h)
    have m2 : ∀ u v, a.paragraph ≠ some (.range u v) := fun u v h => k1 (r3 u v h a.point (by simp))
    have n1 : a.article ≠ none := fun h => m1 (g1 h)
    have n2 : ∀ u v, a.article ≠ some (.range u v) := fun u v h => m1 (r2 u v h a.paragraph (by simp))
    rw [ha, hb, hone _ _ n1 n2, hone _ _ m1 m2, hone _ _ k1 k2]
    simp [hact, hrange]

example : Spec.GapFree { act := some (py"X"), article := some (.one (py"3")), paragraph := some (.range (py"1") (py"5")) } ∧
    Reference.contains { act := some (py"X"), article := some (.one (py"3")), paragraph := some (.range (py"1") (py"5")) }
      { act := some (py"X"), article := some (.one (py"3")), paragraph := some (.one (py"2a")),
        point := some (.one (py"b")) } = .ok true := by
  constructor
  · simp [Spec.GapFree]
  · decide +kernel

theorem notAfter_trans {x y z : Str} (h1 : Spec.NotAfter x y) (h2 : Spec.NotAfter y z) : Spec.NotAfter x z := by
  rcases h2 with rfl | h2
  · exact h1
  · exact .inr (notAfter_ends h1 h2)

theorem identCovers_trans {i j k : Ident} (hk : ∀ u v, k = .range u v → identifierLess u v = .ok true)
    (h1 : Spec.IdentCovers i j) (h2 : Spec.IdentCovers j k) : Spec.IdentCovers i k := by
  cases i with
  | one x =>
    simp only [Spec.IdentCovers] at h1
    subst h1
    exact h2
  | range x y =>
    cases j with
    | one z =>
      simp only [Spec.IdentCovers] at h2
      subst h2
      exact h1
    | range z w =>
      cases k with
      | one u => exact ⟨notAfter_trans h1.1 h2.1, notAfter_trans h2.2 h1.2⟩
      | range u v => exact ⟨notAfter_trans h1.1 h2.1, notAfter_trans h2.2 h1.2⟩

theorem covers_trans {a b c : Reference} (vc : Spec.ValidRanges c) (h1 : Spec.Covers a b) (h2 : Spec.Covers b c) :
    Spec.Covers a c := by
  have comp : ∀ x y z : Option Ident, z ∈ c.components → Spec.ComponentCovers x y → Spec.ComponentCovers y z →
      Spec.ComponentCovers x z := by
    intro x y z hz h1 h2 i hi
    obtain ⟨j, hj, hij⟩ := h1 i hi
    obtain ⟨k, hk, hjk⟩ := h2 j hj
    exact ⟨k, hk, identCovers_trans (fun u v h => vc z hz u v (by rw [hk, h])) hij hjk⟩
  exact ⟨comp _ _ _ (by simp [components]) h1.1 h2.1, comp _ _ _ (by simp [components]) h1.2.1 h2.2.1,
    comp _ _ _ (by simp [components]) h1.2.2.1 h2.2.2.1, comp _ _ _ (by simp [components]) h1.2.2.2.1 h2.2.2.2.1,
    comp _ _ _ (by simp [components]) h1.2.2.2.2 h2.2.2.2.2⟩

/-- C16. Containment is transitive for references into one act, without gaps, whose range is their last component. -/
theorem contains_trans (a b c : Reference) (ga : Spec.GapFree a) (gb : Spec.GapFree b) (la : Spec.RangeLast a)
    (lb : Spec.RangeLast b) (vb : Spec.ValidRanges b) (vc : Spec.ValidRanges c) (hab : a.act = b.act) (hbc : b.act = c.act)
    (h1 : a.contains b = .ok true) (h2 : b.contains c = .ok true) : a.contains c = .ok true := by
  rw [contains_iff_covers a b ga la (.inl hab) vb] at h1
  rw [contains_iff_covers b c gb lb (.inl hbc) vc] at h2
  rw [contains_iff_covers a c ga la (.inl (hab.trans hbc)) vc]
  exact covers_trans vc h1 h2

example : Reference.contains { article := some (.range (py"1") (py"9")) } { article := some (.range (py"2") (py"5")) } = .ok true ∧
    Reference.contains { article := some (.range (py"2") (py"5")) } { article := some (.one (py"4/A")) } = .ok true := by
  decide +kernel

/-- C16. With a range above the last component containment is not transitive: 1–3. § (2) contains 3. §, and 3. §
contains 3. § (5), but 1–3. § (2) does not contain that. -/
theorem contains_not_transitive :
    ∃ a b c : Reference, a.contains b = .ok true ∧ b.contains c = .ok true ∧ a.contains c = .ok false :=
  ⟨{ article := some (.range (py"1") (py"3")), paragraph := some (.one (py"2")) }, { article := some (.one (py"3")) },
   { article := some (.one (py"3")), paragraph := some (.one (py"5")) }, by decide +kernel⟩

/-! ## C17: parents -/

theorem parent_components (r : Reference) : r = {} ∨
    ∃ p i s, r.components = p ++ some i :: s ∧ (∀ c ∈ s, c = none) ∧ r.parent.components = p ++ none :: s := by
  obtain ⟨a1, a2, a3, a4, a5⟩ := r
  cases a5 with
  | some i => exact .inr ⟨[a1.map .one, a2, a3, a4], i, [], rfl, by simp, rfl⟩
  | none => cases a4 with
    | some i => exact .inr ⟨[a1.map .one, a2, a3], i, [none], rfl, by simp, rfl⟩
    | none => cases a3 with
      | some i => exact .inr ⟨[a1.map .one, a2], i, [none, none], rfl, by simp, rfl⟩
      | none => cases a2 with
        | some i => exact .inr ⟨[a1.map .one], i, [none, none, none], rfl, by simp, rfl⟩
        | none => cases a1 with
          | some s => exact .inr ⟨[], .one s, [none, none, none, none], rfl, by simp, rfl⟩
          | none => exact .inl rfl

theorem isParentLoop_append (p as bs : List (Option Ident)) : isParentLoop (p ++ as) (p ++ bs) = isParentLoop as bs := by
  induction p with
  | nil => rfl
  | cons a p ih => simp only [List.cons_append, isParentLoop, if_true, ih]

/-- C17. Every reference that is not empty is below its parent, and the parent is a different reference. -/
theorem parent_is_parent (r : Reference) (h : r ≠ {}) : r.parent.isParentOf r = true ∧ r.parent ≠ r := by
  rcases parent_components r with e | ⟨p, i, s, e1, -, e2⟩
  · exact absurd e h
  · constructor
    · unfold isParentOf
      rw [e1, e2, isParentLoop_append]
      simp [isParentLoop]
    · intro e
      rw [e, e1] at e2
      simp at e2

example : ({ act := some (py"X"), article := some (.one (py"3")), point := some (.one (py"a")) } : Reference) ≠ {} := by decide

/-- The number of set components. -/
def setCount (r : Reference) : Nat := r.components.countP Option.isSome

/-- C17. Going to parents reaches the empty reference after as many steps as components are set. -/
theorem parents_end (r : Reference) : Nat.repeat parent (setCount r) r = {} ∧ setCount r ≤ 5 := by
  constructor
  · have step : ∀ n (r : Reference), Nat.repeat parent n r.parent = Nat.repeat parent (n + 1) r := by
      intro n
      induction n with
      | zero => intro r; rfl
      | succ n ih => intro r; simp only [Nat.repeat] at ih ⊢; rw [ih]
    have key : ∀ n (r : Reference), setCount r = n → Nat.repeat parent n r = {} := by
      intro n
      induction n with
      | zero =>
        intro r h
        rcases parent_components r with e | ⟨p, i, s, e1, -, -⟩
        · exact e
        · simp [setCount, e1] at h
      | succ n ih =>
        intro r h
        rcases parent_components r with e | ⟨p, i, s, e1, -, e2⟩
        · subst e; simp [setCount, components] at h
        · rw [← step]
          apply ih
          simp only [setCount, e1, List.countP_append, List.countP_cons] at h
          simp only [setCount, e2, List.countP_append, List.countP_cons]
          simp at h ⊢
          omega
    exact key _ r rfl
  · have := List.countP_le_length (p := Option.isSome) (l := r.components)
    exact this

/-- `p` is `r` with components removed from the end. -/
def Cut (p r : Reference) : Prop := ∃ k, p.components = r.components.take k ++ List.replicate (5 - k) none

theorem cut_parent {p r : Reference} (h : Cut p r) : Cut p.parent r := by
  obtain ⟨k, hk⟩ := h
  rcases parent_components p with e | ⟨q, i, s, e1, hs, e2⟩
  · exact ⟨k, by rw [← hk, e]; rfl⟩
  · have hlen : q.length + s.length = 4 := by
      have := congrArg List.length e1
      simp [components] at this
      omega
    have hrep : (none : Option Ident) :: s = List.replicate (5 - q.length) none := by
      rw [List.eq_replicate_iff]
      refine ⟨by simp; omega, ?_⟩
      intro c hc
      rcases List.mem_cons.1 hc with h | h
      · exact h
      · exact hs c h
    have hq : q = p.components.take q.length := by rw [e1]; simp
    have hle : q.length < k := by
      apply Nat.lt_of_not_le
      intro hkq
      have : p.components[q.length]? = some none := by
        rw [hk, List.getElem?_append_right (by simp; omega)]
        simp only [List.length_take, components_length, List.getElem?_replicate]
        rw [if_pos (by omega)]
      rw [e1] at this
      simp at this
    refine ⟨q.length, ?_⟩
    rw [e2, ← hrep]
    congr 1
    rw [hq, hk, List.take_append_of_le_length (by simp [components_length]; omega), List.take_take]
    congr 1
    simp [components_length]
    omega

theorem cut_chain (r : Reference) : ∀ n, Cut (Nat.repeat parent n r) r
  | 0 => ⟨5, by simp [Nat.repeat, components]⟩
  | n + 1 => cut_parent (cut_chain r n)

theorem ancestor_step (p r : Reference) (h : r ≠ {}) (hp : Spec.IsAncestor p r) : p = r.parent ∨ Spec.IsAncestor p r.parent := by
  obtain ⟨hne, k, hk⟩ := hp
  rcases parent_components r with e | ⟨q, i, s, e1, hs, e2⟩
  · exact absurd e h
  · by_cases e : p = r.parent
    · exact .inl e
    · refine .inr ⟨e, k, ?_⟩
      rw [hk, e1, e2]
      congr 1
      -- the removed part begins at or before the component that the parent removes
      have hlen : q.length + s.length = 4 := by
        have := congrArg List.length e1
        simp [components] at this
        omega
      by_cases hle : k ≤ q.length
      · rw [List.take_append_of_le_length hle, List.take_append_of_le_length hle]
      · exfalso
        apply hne
        apply components_inj
        rw [hk]
        have : r.components = r.components.take k ++ r.components.drop k := (List.take_append_drop k _).symm
        conv => rhs; rw [this]
        congr 1
        symm
        rw [List.eq_replicate_iff]
        refine ⟨by simp [components_length], ?_⟩
        intro c hc
        rw [e1, List.drop_append, List.drop_eq_nil_of_le (by omega), List.nil_append] at hc
        obtain ⟨m, hm⟩ : ∃ m, k - q.length = m + 1 := ⟨k - q.length - 1, by omega⟩
        rw [hm, List.drop_succ_cons] at hc
        exact hs c (List.drop_subset _ _ hc)

theorem repeat_parent (n : Nat) (r : Reference) : Nat.repeat parent n r.parent = Nat.repeat parent (n + 1) r := by
  induction n with
  | zero => rfl
  | succ n ih => simp only [Nat.repeat] at ih ⊢; rw [ih]

/-- C17. The chain of parents of a reference goes through exactly the references obtained by removing components from
the end. -/
theorem ancestor_iff_chain (p r : Reference) : Spec.IsAncestor p r ↔ p ≠ r ∧ ∃ n, p = Nat.repeat parent n r := by
  constructor
  · intro h
    refine ⟨h.1, ?_⟩
    have key : ∀ n (r : Reference), setCount r = n → Spec.IsAncestor p r → ∃ n, p = Nat.repeat parent n r := by
      intro n
      induction n with
      | zero =>
        intro r hr h
        rcases parent_components r with e | ⟨q, i, s, e1, -, -⟩
        · subst e
          exfalso
          obtain ⟨hne, k, hk⟩ := h
          apply hne
          apply components_inj
          rw [hk]
          have e : ({} : Reference).components = List.replicate 5 none := rfl
          rw [e, List.take_replicate, List.replicate_append_replicate]
          congr 1
          omega
        · simp [setCount, e1] at hr
      | succ n ih =>
        intro r hr h
        rcases parent_components r with e | ⟨q, i, s, e1, -, e2⟩
        · subst e; simp [setCount, components] at hr
        · have hne : r ≠ {} := by
            rintro rfl
            simp [setCount, components] at hr
          rcases ancestor_step p r hne h with e | h'
          · exact ⟨1, e⟩
          · obtain ⟨m, hm⟩ := ih r.parent (by
              simp only [setCount, e1, List.countP_append, List.countP_cons] at hr
              simp only [setCount, e2, List.countP_append, List.countP_cons]
              simp at hr ⊢
              omega) h'
            exact ⟨m + 1, by rw [hm, repeat_parent]⟩
    exact key _ r rfl h
  · rintro ⟨hne, n, rfl⟩
    exact ⟨hne, cut_chain r n⟩

theorem isParentLoop_split : ∀ as bs : List (Option Ident), isParentLoop as bs = true →
    ∃ p i s t, as = p ++ none :: s ∧ bs = p ++ some i :: t
  | [], [], h => by simp [isParentLoop] at h
  | [], _ :: _, h => by simp [isParentLoop] at h
  | _ :: _, [], h => by simp [isParentLoop] at h
  | a :: as, b :: bs, h => by
    unfold isParentLoop at h
    split at h
    · rename_i e; subst e
      obtain ⟨p, i, s, t, rfl, rfl⟩ := isParentLoop_split as bs h
      exact ⟨a :: p, i, s, t, rfl, rfl⟩
    · rename_i hne
      cases a with
      | some _ => simp at h
      | none => cases b with
        | none => exact absurd rfl hne
        | some i => exact ⟨[], i, as, bs, rfl, rfl⟩

/-- C17. Every ancestor of a reference claims to be its parent. -/
theorem ancestor_claims (p r : Reference) (h : Spec.IsAncestor p r) : p.isParentOf r = true := by
  obtain ⟨hne, k, hk⟩ := h
  have key : ∀ (l : List (Option Ident)) (k n : Nat), l.length = n →
      l.take k ++ List.replicate (n - k) none ≠ l →
      isParentLoop (l.take k ++ List.replicate (n - k) none) l = true := by
    intro l
    induction l with
    | nil => intro k n hl h; subst hl; simp at h
    | cons a l ih =>
      intro k n hl h
      obtain ⟨m, rfl⟩ : ∃ m, n = m + 1 := ⟨l.length, by simpa using hl.symm⟩
      have hl' : l.length = m := by simpa using hl
      cases k with
      | zero =>
        simp only [List.take_zero, List.nil_append, Nat.sub_zero, List.replicate_succ] at h ⊢
        unfold isParentLoop
        by_cases e : none = a
        · rw [if_pos e]
          have := ih 0 m hl' (by
            simp only [List.take_zero, List.nil_append, Nat.sub_zero]
            intro hh; exact h (by rw [hh, e]))
          simpa using this
        · rw [if_neg e]; rfl
      | succ k =>
        simp only [List.take_succ_cons, List.cons_append, Nat.add_sub_add_right] at h ⊢
        rw [isParentLoop, if_pos rfl]
        exact ih k m hl' fun hh => h (by rw [hh])
  unfold isParentOf
  rw [hk]
  refine key r.components k 5 rfl ?_
  intro e
  exact hne (components_inj (hk.trans e))

/-- C17. A reference without gaps that claims to be the parent of a reference of the same act is one of its ancestors;
so the two notions agree. -/
theorem claims_iff_ancestor (p r : Reference) (gap : Spec.GapFree p) (act : p.act = r.act ∨ p = {}) :
    p.isParentOf r = true ↔ Spec.IsAncestor p r := by
  refine ⟨?_, ancestor_claims p r⟩
  intro h
  obtain ⟨q, i, s, t, e1, e2⟩ := isParentLoop_split _ _ h
  have hne : p ≠ r := by
    intro e
    rw [e, e2] at e1
    simp at e1
  refine ⟨hne, q.length, ?_⟩
  have hq : r.components.take q.length = q := by rw [e2]; simp
  have hlen : q.length + s.length = 4 := by
    have := congrArg List.length e1
    simp [components] at this
    omega
  rw [hq, e1]
  congr 1
  rw [List.eq_replicate_iff]
  refine ⟨by simp; omega, ?_⟩
  intro c hc
  rcases List.mem_cons.1 hc with hc | hc
  · exact hc
  · obtain ⟨a1, a2, a3, a4, a5⟩ := p
    obtain ⟨g1, g2, g3⟩ := gap
    simp only at g1 g2 g3
    simp only [components] at e1
    match q, e1 with
    | [], e1 =>
      simp only [List.nil_append, List.cons.injEq] at e1
      rcases act with act | e
      · simp only [components, List.nil_append, List.cons.injEq] at e2
        simp only at act
        rw [← act, e1.1] at e2
        cases e2.1
      · simp only [Reference.mk.injEq] at e
        rw [← e1.2] at hc
        simp only [e.2.1, e.2.2.1, e.2.2.2.1, e.2.2.2.2, List.mem_cons, List.not_mem_nil, or_false, or_self] at hc
        exact hc
    | [_], e1 =>
      simp only [List.cons_append, List.nil_append, List.cons.injEq] at e1
      have h3 := g1 e1.2.1
      have h4 := g2 h3
      have h5 := g3 h4
      rw [← e1.2.2] at hc
      simp only [h3, h4, h5, List.mem_cons, List.not_mem_nil, or_false, or_self] at hc
      exact hc
    | [_, _], e1 =>
      simp only [List.cons_append, List.nil_append, List.cons.injEq] at e1
      have h4 := g2 e1.2.2.1
      have h5 := g3 h4
      rw [← e1.2.2.2] at hc
      simp only [h4, h5, List.mem_cons, List.not_mem_nil, or_false, or_self] at hc
      exact hc
    | [_, _, _], e1 =>
      simp only [List.cons_append, List.nil_append, List.cons.injEq] at e1
      have h5 := g3 e1.2.2.2.1
      rw [← e1.2.2.2.2] at hc
      simp only [h5, List.mem_cons, List.not_mem_nil, or_false] at hc
      exact hc
    | [_, _, _, _], e1 =>
      simp only [List.cons_append, List.nil_append, List.cons.injEq] at e1
      rw [← e1.2.2.2.2.2] at hc
      simp at hc
    | _ :: _ :: _ :: _ :: _ :: _, e1 => simp at hlen; omega

example : Spec.IsAncestor { act := some (py"X"), article := some (.one (py"3")) }
    { act := some (py"X"), article := some (.one (py"3")), paragraph := some (.one (py"1")), point := some (.one (py"a")) } ∧
    Spec.GapFree { act := some (py"X"), article := some (.one (py"3")) } :=
  ⟨⟨by decide, 2, rfl⟩, by simp [Spec.GapFree]⟩

/-- C17. Without these conditions the claim means little: a relative reference claims to be a parent of every absolute
one, and a reference with a gap claims to be the parent of one that it is not an ancestor of. -/
theorem claims_too_much :
    (Reference.isParentOf { article := some (.one (py"3")) } { act := some (py"X"), article := some (.one (py"5")) } = true) ∧
    (Reference.isParentOf { article := some (.one (py"3")), point := some (.one (py"a")) }
      { article := some (.one (py"3")), paragraph := some (.one (py"1")), point := some (.one (py"b")) } = true) := by
  decide

/-! ## C18: id strings -/

theorem idPart_clean {c : Option Ident} {w : Str} (hw : w ≠ []) (hd : '-' ∉ w)
    (h : ∀ s ∈ Spec.identsOf c, ¬ w <:+: s) : ¬ w <:+: idPart c := by
  cases c with
  | none => simpa [idPart] using hw
  | some i => cases i with
    | one s => exact h s (by simp [Spec.identsOf])
    | range x y =>
      intro hm
      rcases infix_separated hd hw hm with hm | hm
      · exact h x (by simp [Spec.identsOf]) hm
      · exact h y (by simp [Spec.identsOf]) hm

theorem idPart_no_underscore {c : Option Ident} (h : ∀ s ∈ Spec.identsOf c, '_' ∉ s) : '_' ∉ idPart c := by
  cases c with
  | none => simp [idPart]
  | some i => cases i with
    | one s => exact h s (by simp [Spec.identsOf])
    | range x y =>
      have h1 := h x (by simp [Spec.identsOf])
      have h2 := h y (by simp [Spec.identsOf])
      simp [idPart, h1, h2]

theorem readIdPart_idPart {c : Option Ident} (h : ∀ s ∈ Spec.identsOf c, '-' ∉ s ∧ s ≠ []) : readIdPart (idPart c) = c := by
  cases c with
  | none => rfl
  | some i => cases i with
    | one s =>
      obtain ⟨h1, h2⟩ := h s (by simp [Spec.identsOf])
      unfold readIdPart idPart
      rw [if_neg (by simpa using h1), if_neg (by simpa using h2)]
    | range x y =>
      obtain ⟨h1, -⟩ := h x (by simp [Spec.identsOf])
      obtain ⟨h2, -⟩ := h y (by simp [Spec.identsOf])
      unfold readIdPart idPart
      rw [if_pos (by simp), splitOn_append _ _ _ h1, splitOn_not_mem _ _ h2]

/-- An identifier that can be written into an id string: not empty, without the separators and without the words that
stand for the slash and the colon. -/
def Writable (s : Str) : Prop := s ≠ [] ∧ '_' ∉ s ∧ '-' ∉ s ∧ ¬ py"slash" <:+: s ∧ ¬ py"colon" <:+: s

/-- C18. Reading back the id string of a reference gives the reference without its act. -/
theorem idString_roundtrip (r : Reference) (h : Spec.AllIdents Writable { r with act := none }) :
    fromRelativeIdString r.relativeIdString = .ok { r with act := none } := by
  rw [allIdents_iff] at h
  obtain ⟨-, h2, h3, h4, h5⟩ := h
  simp only at h2 h3 h4 h5
  have clean : ∀ w : Str, w ≠ [] → '-' ∉ w → '_' ∉ w → (∀ s, Writable s → ¬ w <:+: s) →
      ¬ w <:+: joinWith '_' [idPart r.article, idPart r.paragraph, idPart r.point, idPart r.subpoint] := by
    intro w hw hd hu hs hm
    simp only [joinWith] at hm
    rcases infix_separated hu hw hm with hm | hm
    · exact idPart_clean hw hd (fun s hss => hs s (h2 s hss)) hm
    · rcases infix_separated hu hw hm with hm | hm
      · exact idPart_clean hw hd (fun s hss => hs s (h3 s hss)) hm
      · rcases infix_separated hu hw hm with hm | hm
        · exact idPart_clean hw hd (fun s hss => hs s (h4 s hss)) hm
        · exact idPart_clean hw hd (fun s hss => hs s (h5 s hss)) hm
  unfold fromRelativeIdString relativeIdString
  simp only [spell_all]
  rw [unspell_slash _ (clean _ (by simp) (by decide) (by decide) fun s hs => hs.2.2.2.1),
    unspell_colon _ (clean _ (by simp) (by decide) (by decide) fun s hs => hs.2.2.2.2)]
  simp only [joinWith]
  rw [splitOn_append _ _ _ (idPart_no_underscore fun s hs => (h2 s hs).2.1),
    splitOn_append _ _ _ (idPart_no_underscore fun s hs => (h3 s hs).2.1),
    splitOn_append _ _ _ (idPart_no_underscore fun s hs => (h4 s hs).2.1),
    splitOn_not_mem _ _ (idPart_no_underscore fun s hs => (h5 s hs).2.1)]
  simp only [readIdPart_idPart fun s hs => ⟨(h2 s hs).2.2.1, (h2 s hs).1⟩,
    readIdPart_idPart fun s hs => ⟨(h3 s hs).2.2.1, (h3 s hs).1⟩,
    readIdPart_idPart fun s hs => ⟨(h4 s hs).2.2.1, (h4 s hs).1⟩,
    readIdPart_idPart fun s hs => ⟨(h5 s hs).2.2.1, (h5 s hs).1⟩]

/-- C18. Different references into one act have different id strings. -/
theorem idString_unique (a b : Reference) (ha : Spec.AllIdents Writable { a with act := none })
    (hb : Spec.AllIdents Writable { b with act := none }) (hact : a.act = b.act)
    (h : a.relativeIdString = b.relativeIdString) : a = b := by
  have h1 := idString_roundtrip a ha
  rw [h, idString_roundtrip b hb] at h1
  simp only [Except.ok.injEq, Reference.mk.injEq, true_and] at h1
  obtain ⟨a1, a2, a3, a4, a5⟩ := a
  obtain ⟨b1, b2, b3, b4, b5⟩ := b
  simp_all

example : Spec.AllIdents Writable { article := some (.one (py"5:12/A")), paragraph := some (.range (py"1") (py"3a")) } ∧
    Reference.relativeIdString { article := some (.one (py"5:12/A")), paragraph := some (.range (py"1") (py"3a")) }
      = py"5colon12slashA_1-3a__" := by
  constructor
  · rw [allIdents_iff]
    simp [Writable, Spec.identsOf, List.infix_cons_iff]
  · decide +kernel

/-- C18. The condition is needed: an identifier that holds the spelled-out form collides with the slash. -/
theorem idString_collision :
    Reference.relativeIdString { article := some (.one (py"1slashA")) }
      = Reference.relativeIdString { article := some (.one (py"1/A")) } := by decide +kernel

/-! ## C19: ranges -/

theorem rangeOf_ends {x y c : Option Ident} (hx : isTuple x = false) (hy : isTuple y = false)
    (h : rangeOf x y = .ok c) : firstOf c = x ∧ lastOf c = y := by
  cases x with
  | none => cases y with
    | none => simp [rangeOf] at h; subst h; exact ⟨rfl, rfl⟩
    | some _ => simp [rangeOf] at h
  | some i => cases y with
    | none => simp [rangeOf] at h
    | some j =>
      cases i with
      | range _ _ => simp [isTuple] at hx
      | one u => cases j with
        | range _ _ => simp [isTuple] at hy
        | one v =>
          simp only [rangeOf] at h
          by_cases e : Ident.one u = Ident.one v
          · rw [if_pos e, Except.ok.injEq] at h
            rw [← h, ← e]
            exact ⟨rfl, rfl⟩
          · rw [if_neg e] at h
            obtain ⟨r, hr, h⟩ := bind_ok h
            cases r
            · simp at h
            · simp only [if_true, Except.ok.injEq] at h
              rw [← h]
              exact ⟨rfl, rfl⟩

/-- C19. If two references of one act that are not ranges make a range, they are its first and its last. -/
theorem makeRange_ends (first last r : Reference) (sf : Spec.Single first) (sl : Spec.Single last)
    (act : first.act = last.act) (h : makeRange first last = .ok r) :
    r.firstInRange = first ∧ r.lastInRange = last := by
  unfold makeRange at h
  obtain ⟨c2, h2, h⟩ := bind_ok h
  obtain ⟨c3, h3, h⟩ := bind_ok h
  obtain ⟨c4, h4, h⟩ := bind_ok h
  obtain ⟨c5, h5, h⟩ := bind_ok h
  rw [single_iff] at sf sl
  have e2 := rangeOf_ends (sf _ (by simp [components])) (sl _ (by simp [components])) h2
  have e3 := rangeOf_ends (sf _ (by simp [components])) (sl _ (by simp [components])) h3
  have e4 := rangeOf_ends (sf _ (by simp [components])) (sl _ (by simp [components])) h4
  have e5 := rangeOf_ends (sf _ (by simp [components])) (sl _ (by simp [components])) h5
  simp only [Except.ok.injEq] at h
  subst h
  obtain ⟨a1, a2, a3, a4, a5⟩ := first
  obtain ⟨b1, b2, b3, b4, b5⟩ := last
  simp only at act e2 e3 e4 e5
  subst act
  simp only [firstInRange, lastInRange, e2, e3, e4, e5]
  cases a1 with
  | none => exact ⟨rfl, rfl⟩
  | some s => cases s <;> exact ⟨rfl, rfl⟩

/-- C19. A range is in the act of its first end, or of its last end if the first one tells none. -/
theorem makeRange_act (first last r : Reference) (h : makeRange first last = .ok r) :
    (∃ c cs, first.act = some (c :: cs) ∧ r.act = first.act) ∨
      ((first.act = none ∨ first.act = some []) ∧ r.act = last.act) := by
  unfold makeRange at h
  obtain ⟨c2, h2, h⟩ := bind_ok h
  obtain ⟨c3, h3, h⟩ := bind_ok h
  obtain ⟨c4, h4, h⟩ := bind_ok h
  obtain ⟨c5, h5, h⟩ := bind_ok h
  obtain rfl := Except.ok.inj h
  cases hf : first.act with
  | none => exact .inr ⟨.inl rfl, rfl⟩
  | some s => cases s with
    | nil => exact .inr ⟨.inr rfl, rfl⟩
    | cons c cs => exact .inl ⟨c, cs, rfl, rfl⟩

example : (makeRange { act := some (py"X"), article := some (.one (py"3")) } { article := some (.one (py"5")) }).toOption =
    some { act := some (py"X"), article := some (.range (py"3") (py"5")) } := by decide +kernel

theorem rangeOf_valid {x y z : Option Ident} (hx : isTuple x = false) (h : rangeOf x y = .ok z) :
    ∀ u v, z = some (.range u v) → identifierLess u v = .ok true := by
  intro u v e
  subst e
  cases x with
  | none => cases y with
    | none => simp [rangeOf] at h
    | some _ => simp [rangeOf] at h
  | some i => cases y with
    | none => simp [rangeOf] at h
    | some j =>
      cases i with
      | range _ _ => simp [isTuple] at hx
      | one p =>
        simp only [rangeOf] at h
        by_cases e : Ident.one p = j
        · rw [if_pos e] at h; simp at h
        · rw [if_neg e] at h
          cases j with
          | range _ _ => simp at h
          | one q =>
            obtain ⟨r, hr, h⟩ := bind_ok h
            cases r
            · simp at h
            · simp only [if_true, Except.ok.injEq, Option.some.injEq, Ident.range.injEq] at h
              rw [← h.1, ← h.2]
              exact hr

/-- C19. A range is only made if its ends are in the right order. -/
theorem makeRange_valid (first last r : Reference) (sf : Spec.Single first) (h : makeRange first last = .ok r) :
    Spec.ValidRanges r := by
  unfold makeRange at h
  obtain ⟨c2, h2, h⟩ := bind_ok h
  obtain ⟨c3, h3, h⟩ := bind_ok h
  obtain ⟨c4, h4, h⟩ := bind_ok h
  obtain ⟨c5, h5, h⟩ := bind_ok h
  rw [single_iff] at sf
  have e2 := rangeOf_valid (sf _ (by simp [components])) h2
  have e3 := rangeOf_valid (sf _ (by simp [components])) h3
  have e4 := rangeOf_valid (sf _ (by simp [components])) h4
  have e5 := rangeOf_valid (sf _ (by simp [components])) h5
  simp only [Except.ok.injEq] at h
  subst h
  intro c hc x y e
  simp only [components, List.mem_cons, List.not_mem_nil, or_false] at hc
  rcases hc with rfl | rfl | rfl | rfl | rfl
  · generalize orStr first.act last.act = o at e
    cases o <;> simp at e
  · exact e2 x y e
  · exact e3 x y e
  · exact e4 x y e
  · exact e5 x y e

example : makeRange { act := some (py"X"), article := some (.one (py"3")) }
    { act := some (py"X"), article := some (.one (py"2")) } = .error .assertionError := by decide +kernel

theorem rangeOf_same {c : Option Ident} : rangeOf c c = .ok c := by
  cases c with
  | none => rfl
  | some i => simp [rangeOf]

theorem rangeOf_less {x y : Str} (h : identifierLess x y = .ok true) :
    rangeOf (some (.one x)) (some (.one y)) = .ok (some (.range x y)) := by
  have hne : x ≠ y := by rintro rfl; exact identifierLess_irrefl x h
  simp [rangeOf, hne, h, bind, Except.bind]

theorem orStr_same (a : Option Str) : orStr a a = a := by
  cases a with
  | none => rfl
  | some t => cases t <;> rfl

/-- C19. Two references that differ only in their last component, in the right order, make a range, which has them as
its first and last and has everything else in common with them. -/
theorem makeRange_last (first last : Reference) (p s : List (Option Ident)) (x y : Str) (hp : p ≠ [])
    (hf : first.components = p ++ some (.one x) :: s) (hl : last.components = p ++ some (.one y) :: s)
    (sf : Spec.Single first) (sl : Spec.Single last) (hxy : identifierLess x y = .ok true) :
    ∃ r, makeRange first last = .ok r ∧ r.components = p ++ some (.range x y) :: s ∧
      r.firstInRange = first ∧ r.lastInRange = last := by
  have hact : first.act = last.act := by
    cases p with
    | nil => exact absurd rfl hp
    | cons q p =>
      simp only [components, List.cons_append, List.cons.injEq] at hf hl
      have := hf.1.trans hl.1.symm
      cases h1 : first.act <;> cases h2 : last.act <;> rw [h1, h2] at this <;> clear hf hl <;> simp_all
  have main : ∃ r, makeRange first last = .ok r ∧ r.components = p ++ some (.range x y) :: s := by
    obtain ⟨a1, a2, a3, a4, a5⟩ := first
    obtain ⟨b1, b2, b3, b4, b5⟩ := last
    simp only at hact
    subst hact
    unfold makeRange
    simp only [components] at hf hl
    match p, hp, hf, hl with
    | [_], _, hf, hl =>
      simp only [List.cons_append, List.nil_append, List.cons.injEq] at hf hl
      obtain ⟨f1, rfl, f3⟩ := hf
      obtain ⟨l1, rfl, l3⟩ := hl
      rw [← f3, List.cons.injEq, List.cons.injEq, List.cons.injEq] at l3
      obtain ⟨rfl, rfl, rfl, -⟩ := l3
      refine ⟨_, by simp only [rangeOf_less hxy, rangeOf_same, bind, Except.bind, orStr_same]; rfl, ?_⟩
      simp [components, ← f3, f1]
    | [_, _], _, hf, hl =>
      simp only [List.cons_append, List.nil_append, List.cons.injEq] at hf hl
      obtain ⟨f1, rfl, rfl, f3⟩ := hf
      obtain ⟨l1, rfl, rfl, l3⟩ := hl
      rw [← f3, List.cons.injEq, List.cons.injEq] at l3
      obtain ⟨rfl, rfl, -⟩ := l3
      refine ⟨_, by simp only [rangeOf_less hxy, rangeOf_same, bind, Except.bind, orStr_same]; rfl, ?_⟩
      simp [components, ← f3, f1]
    | [_, _, _], _, hf, hl =>
      simp only [List.cons_append, List.nil_append, List.cons.injEq] at hf hl
      obtain ⟨f1, rfl, rfl, rfl, f3⟩ := hf
      obtain ⟨l1, rfl, rfl, rfl, l3⟩ := hl
      rw [← f3, List.cons.injEq] at l3
      obtain ⟨rfl, -⟩ := l3
      refine ⟨_, by simp only [rangeOf_less hxy, rangeOf_same, bind, Except.bind, orStr_same]; rfl, ?_⟩
      simp [components, ← f3, f1]
    | [_, _, _, _], _, hf, hl =>
      simp only [List.cons_append, List.nil_append, List.cons.injEq] at hf hl
      obtain ⟨f1, rfl, rfl, rfl, rfl, f3⟩ := hf
      obtain ⟨l1, rfl, rfl, rfl, rfl, l3⟩ := hl
      refine ⟨_, by simp only [rangeOf_less hxy, rangeOf_same, bind, Except.bind, orStr_same]; rfl, ?_⟩
      simp [components, ← f3, f1]
    | _ :: _ :: _ :: _ :: _ :: _, _, hf, _ => simp at hf
  obtain ⟨r, h1, h2⟩ := main
  exact ⟨r, h1, h2, makeRange_ends first last r sf sl hact h1⟩

example : makeRange { act := some (py"X"), article := some (.one (py"3")), paragraph := some (.one (py"2")) }
    { act := some (py"X"), article := some (.one (py"3")), paragraph := some (.one (py"10")) }
    = .ok { act := some (py"X"), article := some (.one (py"3")), paragraph := some (.range (py"2") (py"10")) } := by
  decide +kernel

/-- C19. The first and the last of any reference are not ranges. -/
theorem ends_not_range (r : Reference) :
    r.firstInRange.isRange = false ∧ r.lastInRange.isRange = false ∧ Spec.Single r.firstInRange ∧ Spec.Single r.lastInRange := by
  refine ⟨?_, ?_, ?_, ?_⟩
  · simp [isRange, firstInRange, isTuple_firstOf]
  · simp [isRange, lastInRange, isTuple_lastOf]
  · rw [single_iff, firstInRange_components]; exact map_firstOf_single _
  · rw [single_iff, lastInRange_components]; exact map_lastOf_single _

/-- C19. A reference that is not a range is its own first and last. -/
theorem own_ends (r : Reference) (h : r.isRange = false) : r.firstInRange = r ∧ r.lastInRange = r := by
  have same : ∀ c, isTuple c = false → firstOf c = c ∧ lastOf c = c := by
    intro c hc
    cases c with
    | none => exact ⟨rfl, rfl⟩
    | some i => cases i with
      | one _ => exact ⟨rfl, rfl⟩
      | range _ _ => simp [isTuple] at hc
  simp only [isRange, Bool.or_eq_false_iff] at h
  obtain ⟨⟨⟨h2, h3⟩, h4⟩, h5⟩ := h
  constructor
  · simp [firstInRange, (same _ h2).1, (same _ h3).1, (same _ h4).1, (same _ h5).1]
  · simp [lastInRange, (same _ h2).2, (same _ h3).2, (same _ h4).2, (same _ h5).2]

/-- C19. `is_range` says whether a component is a range. -/
theorem isRange_iff (r : Reference) : r.isRange = true ↔ ¬ Spec.Single r := by
  rw [single_iff]
  have : isTuple (r.act.map Ident.one) = false := by cases r.act <;> rfl
  cases h2 : isTuple r.article <;> cases h3 : isTuple r.paragraph <;> cases h4 : isTuple r.point <;>
    cases h5 : isTuple r.subpoint <;> simp [isRange, components, this, h2, h3, h4, h5]

/-- C19. Everything that an end of a valid range contains is contained in the range. -/
theorem range_contains_ends (r b : Reference) (gap : Spec.GapFree r) (rl : Spec.RangeLast r) (vr : Spec.ValidRanges r)
    (act : r.act = b.act) (vb : Spec.ValidRanges b)
    (h : r.firstInRange.contains b = .ok true ∨ r.lastInRange.contains b = .ok true) : r.contains b = .ok true := by
  rw [contains_iff_covers r b gap rl (.inl act) vb]
  have none1 : ∀ c, firstOf c = none ↔ c = none := by
    intro c
    cases c with
    | none => simp [firstOf]
    | some i => cases i <;> simp [firstOf]
  have none2 : ∀ c, lastOf c = none ↔ c = none := by
    intro c
    cases c with
    | none => simp [lastOf]
    | some i => cases i <;> simp [lastOf]
  have comp1 : ∀ c d, c ∈ r.components → Spec.ComponentCovers (firstOf c) d → Spec.ComponentCovers c d := by
    intro c d hc h i hi
    subst hi
    cases i with
    | one x => exact h _ rfl
    | range x y =>
      obtain ⟨j, e1, e2⟩ := h _ rfl
      simp only [Spec.IdentCovers] at e2
      subst e2
      exact ⟨_, e1, .inl rfl, .inr (vr _ hc x y rfl)⟩
  have comp2 : ∀ c d, c ∈ r.components → Spec.ComponentCovers (lastOf c) d → Spec.ComponentCovers c d := by
    intro c d hc h i hi
    subst hi
    cases i with
    | one x => exact h _ rfl
    | range x y =>
      obtain ⟨j, e1, e2⟩ := h _ rfl
      simp only [Spec.IdentCovers] at e2
      subst e2
      exact ⟨_, e1, .inr (vr _ hc x y rfl), .inl rfl⟩
  obtain ⟨g1, g2, g3⟩ := gap
  rcases h with h | h
  · rw [contains_iff_covers _ b ⟨fun h => (none1 _).2 (g1 ((none1 _).1 h)), fun h => (none1 _).2 (g2 ((none1 _).1 h)),
      fun h => (none1 _).2 (g3 ((none1 _).1 h))⟩ (single_rangeLast (ends_not_range r).2.2.1) (.inl act) vb] at h
    exact ⟨h.1, comp1 _ _ (by simp [components]) h.2.1, comp1 _ _ (by simp [components]) h.2.2.1,
      comp1 _ _ (by simp [components]) h.2.2.2.1, comp1 _ _ (by simp [components]) h.2.2.2.2⟩
  · rw [contains_iff_covers _ b ⟨fun h => (none2 _).2 (g1 ((none2 _).1 h)), fun h => (none2 _).2 (g2 ((none2 _).1 h)),
      fun h => (none2 _).2 (g3 ((none2 _).1 h))⟩ (single_rangeLast (ends_not_range r).2.2.2) (.inl act) vb] at h
    exact ⟨h.1, comp2 _ _ (by simp [components]) h.2.1, comp2 _ _ (by simp [components]) h.2.2.1,
      comp2 _ _ (by simp [components]) h.2.2.2.1, comp2 _ _ (by simp [components]) h.2.2.2.2⟩

example : Reference.contains { article := some (.range (py"3") (py"5")) }
    { article := some (.one (py"3")), paragraph := some (.one (py"1")) } = .ok true ∧
    Reference.contains (lastInRange { article := some (.range (py"3") (py"5")) })
    { article := some (.one (py"5")), paragraph := some (.one (py"1")) } = .ok true := by decide +kernel

end Verif.Props
