import Verif.Spec.References
import Verif.Props.Identifiers

/-! # References: lemmas about the loops over the components -/

namespace Verif

open Reference

theorem Reference.components_inj {a b : Reference} (h : a.components = b.components) : a = b := by
  obtain ⟨a1, a2, a3, a4, a5⟩ := a
  obtain ⟨b1, b2, b3, b4, b5⟩ := b
  simp only [components, List.cons.injEq] at h
  obtain ⟨h1, h2, h3, h4, h5, _⟩ := h
  have h1 : a1 = b1 := by cases a1 <;> cases b1 <;> simp_all
  rw [h1, h2, h3, h4, h5]

theorem Reference.components_length (a : Reference) : a.components.length = 5 := rfl

theorem isTuple_eq {c : Option Ident} : isTuple c = true ↔ ∃ x y, c = some (.range x y) := by
  cases c with
  | none => simp [isTuple]
  | some i => cases i <;> simp [isTuple]

theorem isTuple_false {c : Option Ident} : isTuple c = false ↔ ∀ x y, c ≠ some (.range x y) := by
  cases c with
  | none => simp [isTuple]
  | some i => cases i <;> simp [isTuple]

theorem single_iff {r : Reference} : Spec.Single r ↔ ∀ c ∈ r.components, isTuple c = false := by
  constructor
  · intro h c hc; exact isTuple_false.2 (h c hc)
  · intro h c hc; exact isTuple_false.1 (h c hc)

theorem ltGtLoop_converse : ∀ as bs : List (Option Ident), ltGtLoop false as bs = ltGtLoop true bs as
  | [], [] => rfl
  | [], _ :: _ => rfl
  | _ :: _, [] => rfl
  | a :: as, b :: bs => by
    unfold ltGtLoop
    rw [Bool.or_comm]
    split
    · rfl
    · rename_i hT
      simp only [Bool.or_eq_true, not_or, Bool.not_eq_true] at hT
      by_cases h : a = b
      · rw [if_pos h, if_pos h.symm]; exact ltGtLoop_converse as bs
      · rw [if_neg h, if_neg (Ne.symm h)]
        cases a with
        | none => cases b with
          | none => exact absurd rfl h
          | some j => cases j <;> rfl
        | some i => cases b with
          | none => cases i <;> rfl
          | some j => cases i <;> cases j <;> first | rfl | simp [isTuple] at hT

/-- How the comparison decides at the first component. -/
theorem ltGtLoop_cons {a b : Option Ident} {as bs : List (Option Ident)} {r : Bool}
    (h : ltGtLoop true (a :: as) (b :: bs) = .ok r) :
    isTuple a = false ∧ isTuple b = false ∧
    ((a = b ∧ ltGtLoop true as bs = .ok r) ∨ (a = none ∧ b ≠ none ∧ r = true) ∨ (a ≠ none ∧ b = none ∧ r = false) ∨
      ∃ x y, a = some (.one x) ∧ b = some (.one y) ∧ x ≠ y ∧ identifierLess x y = .ok r) := by
  unfold ltGtLoop at h
  split at h
  · cases h
  · rename_i hT
    simp only [Bool.or_eq_true, not_or, Bool.not_eq_true] at hT
    refine ⟨hT.1, hT.2, ?_⟩
    split at h
    · rename_i e; exact .inl ⟨e, h⟩
    · rename_i hne
      cases a with
      | none =>
        cases b with
        | none => exact absurd rfl hne
        | some j => simp only [Except.ok.injEq] at h; exact .inr (.inl ⟨rfl, by simp, h.symm⟩)
      | some i =>
        cases b with
        | none => cases i <;> (simp at h; exact .inr (.inr (.inl ⟨by simp, rfl, h⟩)))
        | some j =>
          cases i with
          | range _ _ => simp [isTuple] at hT
          | one x =>
            cases j with
            | range _ _ => simp [isTuple] at hT
            | one y =>
              refine .inr (.inr (.inr ⟨x, y, rfl, rfl, ?_, by simpa using h⟩))
              intro e; exact hne (by rw [e])

theorem ltGtLoop_eq {a : Option Ident} (ha : isTuple a = false) (lt : Bool) (as bs : List (Option Ident)) :
    ltGtLoop lt (a :: as) (a :: bs) = ltGtLoop lt as bs := by
  conv => lhs; unfold ltGtLoop
  rw [if_neg (by simp [ha]), if_pos rfl]

theorem ltGtLoop_none {b : Option Ident} (hb : isTuple b = false) (hn : b ≠ none) (as bs : List (Option Ident)) :
    ltGtLoop true (none :: as) (b :: bs) = .ok true := by
  unfold ltGtLoop
  have : isTuple (none : Option Ident) = false := rfl
  rw [this, hb, if_neg (by simp), if_neg (Ne.symm hn)]

theorem ltGtLoop_to_none {a : Option Ident} (ha : isTuple a = false) (hn : a ≠ none) (as bs : List (Option Ident)) :
    ltGtLoop true (a :: as) (none :: bs) = .ok false := by
  unfold ltGtLoop
  have : isTuple (none : Option Ident) = false := rfl
  rw [this, ha, if_neg (by simp), if_neg hn]
  cases a with
  | none => exact absurd rfl hn
  | some i => cases i <;> rfl

theorem ltGtLoop_one {x y : Str} (h : x ≠ y) (as bs : List (Option Ident)) :
    ltGtLoop true (some (.one x) :: as) (some (.one y) :: bs) = identifierLess x y := by
  unfold ltGtLoop
  rw [if_neg (by simp [isTuple]), if_neg (by simp [h])]
  rfl

theorem ltGtLoop_irrefl : ∀ as : List (Option Ident), ltGtLoop true as as ≠ .ok true
  | [], h => by simp [ltGtLoop] at h
  | a :: as, h => by
    rcases ltGtLoop_cons h with ⟨ha, -, ⟨-, h'⟩ | ⟨h1, h2, -⟩ | ⟨h1, h2, -⟩ | ⟨x, y, h1, h2, h3, -⟩⟩
    · exact ltGtLoop_irrefl as h'
    · exact h2 h1
    · exact h1 h2
    · rw [h1] at h2; simp at h2; exact h3 h2

theorem ltGtLoop_asymm : ∀ as bs : List (Option Ident), ltGtLoop true as bs = .ok true → ltGtLoop true bs as = .ok false
  | [], [], h => by simp [ltGtLoop] at h
  | [], _ :: _, h => by simp [ltGtLoop] at h
  | _ :: _, [], h => by simp [ltGtLoop] at h
  | a :: as, b :: bs, h => by
    rcases ltGtLoop_cons h with ⟨ha, hb, ⟨rfl, h'⟩ | ⟨rfl, h2, -⟩ | ⟨h1, rfl, h3⟩ | ⟨x, y, rfl, rfl, h3, h4⟩⟩
    · rw [ltGtLoop_eq ha]; exact ltGtLoop_asymm as bs h'
    · exact ltGtLoop_to_none hb h2 _ _
    · cases h3
    · rw [ltGtLoop_one (Ne.symm h3)]; exact identifierLess_asymm' h4
where
  identifierLess_asymm' {x y : Str} (h : identifierLess x y = .ok true) : identifierLess y x = .ok false :=
    Props.identifierLess_asymm x y h

theorem ltGtLoop_trans : ∀ as bs cs : List (Option Ident), ltGtLoop true as bs = .ok true →
    ltGtLoop true bs cs = .ok true → ltGtLoop true as cs = .ok true
  | [], _, _, h, _ => by simp [ltGtLoop] at h
  | _ :: _, [], _, h, _ => by simp [ltGtLoop] at h
  | _ :: _, _ :: _, [], _, h => by simp [ltGtLoop] at h
  | a :: as, b :: bs, c :: cs, h1, h2 => by
    obtain ⟨ha, hb, k1⟩ := ltGtLoop_cons h1
    obtain ⟨-, hc, k2⟩ := ltGtLoop_cons h2
    rcases k1 with ⟨rfl, k1⟩ | ⟨rfl, n1, -⟩ | ⟨-, -, h⟩ | ⟨x, y, rfl, rfl, n1, l1⟩
    · rcases k2 with ⟨rfl, k2⟩ | ⟨rfl, n2, -⟩ | ⟨-, -, h⟩ | ⟨x, y, rfl, rfl, n2, l2⟩
      · rw [ltGtLoop_eq ha]; exact ltGtLoop_trans as bs cs k1 k2
      · exact ltGtLoop_none hc n2 _ _
      · cases h
      · rw [ltGtLoop_one n2]; exact l2
    · rcases k2 with ⟨rfl, k2⟩ | ⟨rfl, n2, -⟩ | ⟨-, -, h⟩ | ⟨x, y, rfl, rfl, n2, l2⟩
      · exact ltGtLoop_none hb n1 _ _
      · exact absurd rfl n1
      · cases h
      · exact ltGtLoop_none hc (by simp) _ _
    · cases h
    · rcases k2 with ⟨rfl, k2⟩ | ⟨h, n2, -⟩ | ⟨-, -, h⟩ | ⟨y', z, e, rfl, n2, l2⟩
      · rw [ltGtLoop_one n1]; exact l1
      · cases h
      · cases h
      · simp only [Option.some.injEq, Ident.one.injEq] at e
        subst e
        have l3 := Props.identifierLess_trans _ _ _ l1 l2
        have : x ≠ z := by rintro rfl; exact Props.identifierLess_irrefl x l3
        rw [ltGtLoop_one this]; exact l3

/-- Not being less is transitive as well, so incomparable references behave like equal ones. -/
theorem ltGtLoop_total : ∀ as bs : List (Option Ident), as.length = bs.length →
    (∀ c ∈ as, isTuple c = false) → (∀ c ∈ bs, isTuple c = false) →
    (∀ c ∈ as, ∀ s ∈ Spec.identsOf c, Spec.Canonical s) → (∀ c ∈ bs, ∀ s ∈ Spec.identsOf c, Spec.Canonical s) →
    as ≠ bs → ltGtLoop true as bs = .ok true ∨ ltGtLoop true bs as = .ok true
  | [], [], _, _, _, _, _, h => absurd rfl h
  | [], _ :: _, h, _, _, _, _, _ => by simp at h
  | _ :: _, [], h, _, _, _, _, _ => by simp at h
  | a :: as, b :: bs, hl, ta, tb, ca, cb, hne => by
    have ha := ta a (by simp)
    have hb := tb b (by simp)
    by_cases e : a = b
    · subst e
      rw [ltGtLoop_eq ha, ltGtLoop_eq ha]
      exact ltGtLoop_total as bs (by simpa using hl) (fun c hc => ta c (by simp [hc])) (fun c hc => tb c (by simp [hc]))
        (fun c hc => ca c (by simp [hc])) (fun c hc => cb c (by simp [hc])) (fun h => hne (by rw [h]))
    · cases a with
      | none => exact .inl (ltGtLoop_none hb (Ne.symm e) _ _)
      | some i =>
        cases b with
        | none => exact .inr (ltGtLoop_none ha (by simp) _ _)
        | some j =>
          cases i with
          | range _ _ => simp [isTuple] at ha
          | one x =>
            cases j with
            | range _ _ => simp [isTuple] at hb
            | one y =>
              have hxy : x ≠ y := fun h => e (by rw [h])
              rw [ltGtLoop_one hxy, ltGtLoop_one (Ne.symm hxy)]
              rcases Props.canonical_total x y (ca (some (.one x)) (by simp) x (by simp [Spec.identsOf]))
                (cb (some (.one y)) (by simp) y (by simp [Spec.identsOf])) hxy with h | h
              · exact .inl h.1
              · exact .inr h.1

/-- The two lists agree up to a place where one of them has a range. -/
def RangeMet (as bs : List (Option Ident)) : Prop :=
  ∃ p a b s t, as = p ++ a :: s ∧ bs = p ++ b :: t ∧ (∀ c ∈ p, isTuple c = false) ∧ (isTuple a = true ∨ isTuple b = true)

theorem rangeMet_cons {a : Option Ident} (ha : isTuple a = false) {as bs : List (Option Ident)} :
    RangeMet (a :: as) (a :: bs) ↔ RangeMet as bs := by
  constructor
  · rintro ⟨p, x, y, s, t, e1, e2, hp, h⟩
    cases p with
    | nil =>
      simp only [List.nil_append, List.cons.injEq] at e1 e2
      rw [← e1.1, ← e2.1, ha] at h
      simp at h
    | cons q p =>
      simp only [List.cons_append, List.cons.injEq] at e1 e2
      exact ⟨p, x, y, s, t, e1.2, e2.2, fun c hc => hp c (by simp [hc]), h⟩
  · rintro ⟨p, x, y, s, t, e1, e2, hp, h⟩
    refine ⟨a :: p, x, y, s, t, by simp [e1], by simp [e2], ?_, h⟩
    intro c hc
    rcases List.mem_cons.1 hc with rfl | hc
    · exact ha
    · exact hp c hc

theorem rangeMet_head {a b : Option Ident} (hne : a ≠ b) {as bs : List (Option Ident)} :
    RangeMet (a :: as) (b :: bs) ↔ (isTuple a = true ∨ isTuple b = true) := by
  constructor
  · rintro ⟨p, x, y, s, t, e1, e2, hp, h⟩
    cases p with
    | nil =>
      simp only [List.nil_append, List.cons.injEq] at e1 e2
      rw [← e1.1, ← e2.1] at h
      exact h
    | cons q p =>
      simp only [List.cons_append, List.cons.injEq] at e1 e2
      exact absurd (e1.1.trans e2.1.symm) hne
  · intro h
    exact ⟨[], a, b, as, bs, rfl, rfl, by simp, h⟩

theorem ltGtLoop_refused : ∀ as bs : List (Option Ident), as.length = bs.length →
    (∀ c ∈ as, ∀ s ∈ Spec.identsOf c, Spec.Readable s) → (∀ c ∈ bs, ∀ s ∈ Spec.identsOf c, Spec.Readable s) →
    (RangeMet as bs ∧ ltGtLoop true as bs = .error .valueError) ∨
    (¬ RangeMet as bs ∧ ∃ r, ltGtLoop true as bs = .ok r)
  | [], [], _, _, _ => by
    refine .inr ⟨?_, false, rfl⟩
    rintro ⟨p, x, y, s, t, e1, -⟩
    simp at e1
  | [], _ :: _, h, _, _ => by simp at h
  | _ :: _, [], h, _, _ => by simp at h
  | a :: as, b :: bs, hl, ca, cb => by
    by_cases hT : isTuple a = true ∨ isTuple b = true
    · refine .inl ⟨⟨[], a, b, as, bs, rfl, rfl, by simp, hT⟩, ?_⟩
      unfold ltGtLoop
      rw [if_pos (by simpa using hT)]
    · rw [not_or, Bool.not_eq_true, Bool.not_eq_true] at hT
      by_cases e : a = b
      · subst e
        rw [rangeMet_cons hT.1, ltGtLoop_eq hT.1]
        exact ltGtLoop_refused as bs (by simpa using hl) (fun c hc => ca c (by simp [hc])) (fun c hc => cb c (by simp [hc]))
      · rw [rangeMet_head e]
        refine .inr ⟨by simp [hT], ?_⟩
        cases a with
        | none => exact ⟨_, ltGtLoop_none hT.2 (Ne.symm e) _ _⟩
        | some i =>
          cases b with
          | none => exact ⟨_, ltGtLoop_to_none hT.1 (by simp) _ _⟩
          | some j =>
            cases i with
            | range _ _ => simp [isTuple] at hT
            | one x =>
              cases j with
              | range _ _ => simp [isTuple] at hT
              | one y =>
                rw [ltGtLoop_one (fun h => e (by rw [h]))]
                exact (Props.identifierLess_answers x y).1
                  ⟨ca (some (.one x)) (by simp) x (by simp [Spec.identsOf]), cb (some (.one y)) (by simp) y (by simp [Spec.identsOf])⟩

/-! ## Parents -/

theorem isParentLoop_lt : ∀ as bs : List (Option Ident), (∀ c ∈ as, isTuple c = false) → (∀ c ∈ bs, isTuple c = false) →
    isParentLoop as bs = true → ltGtLoop true as bs = .ok true
  | [], [], _, _, h => by simp [isParentLoop] at h
  | [], _ :: _, _, _, h => by simp [isParentLoop] at h
  | _ :: _, [], _, _, h => by simp [isParentLoop] at h
  | a :: as, b :: bs, ta, tb, h => by
    unfold isParentLoop at h
    split at h
    · rename_i e; subst e
      rw [ltGtLoop_eq (ta a (by simp))]
      exact isParentLoop_lt as bs (fun c hc => ta c (by simp [hc])) (fun c hc => tb c (by simp [hc])) h
    · rename_i hne
      cases a with
      | none => exact ltGtLoop_none (tb b (by simp)) (Ne.symm hne) _ _
      | some _ => simp at h

theorem firstInRange_components (r : Reference) : r.firstInRange.components = r.components.map firstOf := by
  cases r with | mk a _ _ _ _ => cases a <;> rfl

theorem lastInRange_components (r : Reference) : r.lastInRange.components = r.components.map lastOf := by
  cases r with | mk a _ _ _ _ => cases a <;> rfl

theorem isTuple_firstOf (c : Option Ident) : isTuple (firstOf c) = false := by
  cases c with
  | none => rfl
  | some i => cases i <;> rfl

theorem isTuple_lastOf (c : Option Ident) : isTuple (lastOf c) = false := by
  cases c with
  | none => rfl
  | some i => cases i <;> rfl

theorem map_firstOf_single (l : List (Option Ident)) : ∀ c ∈ l.map firstOf, isTuple c = false := by
  intro c hc
  obtain ⟨d, -, rfl⟩ := List.mem_map.1 hc
  exact isTuple_firstOf d

theorem map_lastOf_single (l : List (Option Ident)) : ∀ c ∈ l.map lastOf, isTuple c = false := by
  intro c hc
  obtain ⟨d, -, rfl⟩ := List.mem_map.1 hc
  exact isTuple_lastOf d

/-- `contains`, on lists of components. -/
def containsLoop (as bs : List (Option Ident)) : Prop :=
  (as.map firstOf = bs.map firstOf ∨ ltGtLoop true (as.map firstOf) (bs.map firstOf) = .ok true) ∧
  (as.map lastOf = bs.map lastOf ∨ ltGtLoop true (bs.map lastOf) (as.map lastOf) = .ok true ∨
    isParentLoop (as.map lastOf) (bs.map lastOf) = true)

theorem le_iff (a b : Reference) :
    (le a b = .ok true ↔ a = b ∨ ltGtLoop true a.components b.components = .ok true) := by
  unfold le ltGt
  split
  · rename_i e; simp [e]
  · rename_i e; simp [e]

theorem ge_iff (a b : Reference) :
    (ge a b = .ok true ↔ a = b ∨ ltGtLoop true b.components a.components = .ok true) := by
  unfold ge ltGt
  split
  · rename_i e; simp [e]
  · rename_i e; simp [e, ltGtLoop_converse]

theorem ltGtLoop_of_le {as bs : List (Option Ident)} (h : ltGtLoop true as bs = .ok true) :
    ∃ r, ltGtLoop true bs as = .ok r := ⟨_, ltGtLoop_asymm as bs h⟩

theorem contains_iff (a b : Reference) :
    contains a b = .ok true ↔ containsLoop a.components b.components := by
  unfold contains containsLoop
  have fa := firstInRange_components a
  have fb := firstInRange_components b
  have la := lastInRange_components a
  have lb := lastInRange_components b
  rw [← fa, ← fb, ← la, ← lb]
  have hf : (a.firstInRange.components = b.firstInRange.components) ↔ a.firstInRange = b.firstInRange :=
    ⟨Reference.components_inj, fun h => by rw [h]⟩
  have hl : (a.lastInRange.components = b.lastInRange.components) ↔ a.lastInRange = b.lastInRange :=
    ⟨Reference.components_inj, fun h => by rw [h]⟩
  rw [hf, hl]
  cases h1 : le a.firstInRange b.firstInRange with
  | error e =>
    simp only [bind, Except.bind]
    constructor
    · intro h; cases h
    · rintro ⟨h, -⟩
      rw [← le_iff, h1] at h; cases h
  | ok r =>
    have key : (r = true ∨ isParentOf a.firstInRange b.firstInRange = true) ↔
        (a.firstInRange = b.firstInRange ∨ ltGtLoop true a.firstInRange.components b.firstInRange.components = .ok true) := by
      rw [← le_iff, h1]
      constructor
      · rintro (rfl | h)
        · rfl
        · have := isParentLoop_lt _ _ (by rw [fa]; exact map_firstOf_single _) (by rw [fb]; exact map_firstOf_single _) h
          have := (le_iff a.firstInRange b.firstInRange).2 (.inr this)
          rw [h1] at this; exact this
      · intro h
        simp only [Except.ok.injEq] at h
        exact .inl h
    rw [← key]
    have hpar : isParentLoop a.lastInRange.components b.lastInRange.components = true →
        ltGtLoop true a.lastInRange.components b.lastInRange.components = .ok true :=
      isParentLoop_lt _ _ (by rw [la]; exact map_lastOf_single _) (by rw [lb]; exact map_lastOf_single _)
    generalize hQ : (a.lastInRange = b.lastInRange ∨
      ltGtLoop true b.lastInRange.components a.lastInRange.components = .ok true ∨
        isParentLoop a.lastInRange.components b.lastInRange.components = true) = Q
    cases h2 : ge a.lastInRange b.lastInRange with
    | error e =>
      have hno : ¬ Q := by
        rw [← hQ]
        rintro (h | h | h)
        · rw [(ge_iff a.lastInRange b.lastInRange).2 (.inl h)] at h2; cases h2
        · rw [(ge_iff a.lastInRange b.lastInRange).2 (.inr h)] at h2; cases h2
        · unfold ge ltGt at h2
          rw [ltGtLoop_converse, ltGtLoop_asymm _ _ (hpar h)] at h2
          split at h2 <;> cases h2
      cases r <;> cases hp : isParentOf a.firstInRange b.firstInRange <;> simp [bind, Except.bind, hno]
    | ok s =>
      have hq : (s = true ∨ isParentOf a.lastInRange b.lastInRange = true) ↔ Q := by
        rw [← hQ, ← or_assoc, ← ge_iff, h2]
        simp [isParentOf]
      cases r <;> cases hp : isParentOf a.firstInRange b.firstInRange <;> cases s <;>
        simp [bind, Except.bind, ← hq]

/-! ## Containment, on lists of components -/

/-- At most, without ranges. -/
def leL (as bs : List (Option Ident)) : Prop := as = bs ∨ ltGtLoop true as bs = .ok true

/-- At least, or a parent. -/
def geL (as bs : List (Option Ident)) : Prop :=
  as = bs ∨ ltGtLoop true bs as = .ok true ∨ isParentLoop as bs = true

theorem containsLoop_eq (as bs : List (Option Ident)) :
    containsLoop as bs ↔ leL (as.map firstOf) (bs.map firstOf) ∧ geL (as.map lastOf) (bs.map lastOf) := Iff.rfl

theorem leL_same {a : Option Ident} (ha : isTuple a = false) (as bs : List (Option Ident)) :
    leL (a :: as) (a :: bs) ↔ leL as bs := by
  unfold leL; rw [ltGtLoop_eq ha]; simp

theorem geL_same {a : Option Ident} (ha : isTuple a = false) (as bs : List (Option Ident)) :
    geL (a :: as) (a :: bs) ↔ geL as bs := by
  unfold geL; rw [ltGtLoop_eq ha]
  have : isParentLoop (a :: as) (a :: bs) = isParentLoop as bs := by
    conv => lhs; unfold isParentLoop
    rw [if_pos rfl]
  rw [this]; simp

theorem leL_one {x y : Str} (h : x ≠ y) (as bs : List (Option Ident)) :
    leL (some (.one x) :: as) (some (.one y) :: bs) ↔ identifierLess x y = .ok true := by
  unfold leL; rw [ltGtLoop_one h]; simp [h]

theorem geL_one {x y : Str} (h : x ≠ y) (as bs : List (Option Ident)) :
    geL (some (.one x) :: as) (some (.one y) :: bs) ↔ identifierLess y x = .ok true := by
  unfold geL; rw [ltGtLoop_one (Ne.symm h)]
  have : isParentLoop (some (.one x) :: as) (some (.one y) :: bs) = false := by
    unfold isParentLoop; rw [if_neg (by simp [h])]; rfl
  rw [this]; simp [h]

theorem leL_to_none {x : Str} (as bs : List (Option Ident)) : ¬ leL (some (.one x) :: as) (none :: bs) := by
  unfold leL; rw [ltGtLoop_to_none rfl (by simp)]; simp

theorem nones_le : ∀ as bs : List (Option Ident), as.length = bs.length → (∀ c ∈ as, c = none) →
    (∀ c ∈ bs, isTuple c = false) → leL as bs ∧ geL as bs
  | [], [], _, _, _ => ⟨.inl rfl, .inl rfl⟩
  | [], _ :: _, h, _, _ => by simp at h
  | _ :: _, [], h, _, _ => by simp at h
  | a :: as, b :: bs, hl, ha, hb => by
    obtain rfl := ha a (by simp)
    by_cases e : b = none
    · subst e
      rw [leL_same rfl, geL_same rfl]
      exact nones_le as bs (by simpa using hl) (fun c hc => ha c (by simp [hc])) (fun c hc => hb c (by simp [hc]))
    · refine ⟨.inr (ltGtLoop_none (hb b (by simp)) e _ _), .inr (.inr ?_)⟩
      unfold isParentLoop
      rw [if_neg (Ne.symm e)]
      rfl

/-- `Spec.Covers` on lists. -/
def coversL : List (Option Ident) → List (Option Ident) → Prop
  | a :: as, b :: bs => Spec.ComponentCovers a b ∧ coversL as bs
  | _, _ => True

theorem covers_iff (a b : Reference) : Spec.Covers a b ↔ coversL a.components b.components := by
  simp [Spec.Covers, coversL, components]

theorem nones_cover : ∀ as bs : List (Option Ident), (∀ c ∈ as, c = none) → coversL as bs
  | [], _, _ => trivial
  | _ :: _, [], _ => trivial
  | a :: as, b :: bs, h => by
    refine ⟨?_, nones_cover as bs fun c hc => h c (by simp [hc])⟩
    intro i hi
    rw [h a (by simp)] at hi
    cases hi

/-- A missing component or a range is followed by missing components only. -/
def closedL : List (Option Ident) → Prop
  | [] => True
  | a :: as => ((a = none ∨ isTuple a = true) → ∀ c ∈ as, c = none) ∧ closedL as

def validL (l : List (Option Ident)) : Prop :=
  ∀ c ∈ l, ∀ x y, c = some (.range x y) → identifierLess x y = .ok true

theorem notAfter_ends {x z w : Str} (h1 : Spec.NotAfter x z) (h2 : identifierLess z w = .ok true) :
    identifierLess x w = .ok true := by
  rcases h1 with rfl | h1
  · exact h2
  · exact Props.identifierLess_trans _ _ _ h1 h2

theorem leL_notAfter {x y : Str} {as bs : List (Option Ident)} (h : leL (some (.one x) :: as) (some (.one y) :: bs)) :
    Spec.NotAfter x y := by
  by_cases e : x = y
  · exact .inl e
  · exact .inr ((leL_one e as bs).1 h)

theorem geL_notAfter {x y : Str} {as bs : List (Option Ident)} (h : geL (some (.one x) :: as) (some (.one y) :: bs)) :
    Spec.NotAfter y x := by
  by_cases e : x = y
  · exact .inl e.symm
  · exact .inr ((geL_one e as bs).1 h)

theorem notAfter_leL {x y : Str} {as bs : List (Option Ident)} (h : Spec.NotAfter x y) (hr : leL as bs) :
    leL (some (.one x) :: as) (some (.one y) :: bs) := by
  by_cases e : x = y
  · subst e; exact (leL_same rfl as bs).2 hr
  · exact (leL_one e as bs).2 (h.resolve_left e)

theorem notAfter_geL {x y : Str} {as bs : List (Option Ident)} (h : Spec.NotAfter y x) (hr : geL as bs) :
    geL (some (.one x) :: as) (some (.one y) :: bs) := by
  by_cases e : x = y
  · subst e; exact (geL_same rfl as bs).2 hr
  · exact (geL_one e as bs).2 (h.resolve_left (Ne.symm e))

theorem not_less_of_notAfter {x y : Str} (h1 : Spec.NotAfter x y) (h2 : identifierLess y x = .ok true) : False :=
  Props.identifierLess_irrefl x (notAfter_ends h1 h2)

theorem containsLoop_covers : ∀ as bs : List (Option Ident), as.length = bs.length → closedL as → validL bs →
    (containsLoop as bs ↔ coversL as bs)
  | [], [], _, _, _ => by simp [containsLoop, coversL]
  | [], _ :: _, h, _, _ => by simp at h
  | _ :: _, [], h, _, _ => by simp at h
  | a :: as, b :: bs, hl, hc, hv => by
    have hl' : as.length = bs.length := by simpa using hl
    have hv' : validL bs := fun c hm => hv c (by simp [hm])
    cases a with
    | none =>
      have hn := hc.1 (.inl rfl)
      have all : ∀ c ∈ (none : Option Ident) :: as, c = none := by
        intro c hm
        rcases List.mem_cons.1 hm with rfl | hm
        · rfl
        · exact hn c hm
      refine iff_of_true ?_ (nones_cover _ _ all)
      have m1 : ((none : Option Ident) :: as).map firstOf = none :: as := by
        conv => rhs; rw [← List.map_id (none :: as)]
        exact List.map_congr_left fun c hm => by rw [all c hm]; rfl
      have m2 : ((none : Option Ident) :: as).map lastOf = none :: as := by
        conv => rhs; rw [← List.map_id (none :: as)]
        exact List.map_congr_left fun c hm => by rw [all c hm]; rfl
      rw [containsLoop_eq, m1, m2]
      exact ⟨(nones_le _ _ (by simpa using hl) all (map_firstOf_single _)).1,
        (nones_le _ _ (by simpa using hl) all (map_lastOf_single _)).2⟩
    | some i =>
      cases i with
      | one x =>
        cases b with
        | none =>
          refine iff_of_false ?_ ?_
          · rintro ⟨h, -⟩
            exact leL_to_none _ _ h
          · rintro ⟨h, -⟩
            obtain ⟨j, e, -⟩ := h _ rfl
            cases e
        | some j =>
          cases j with
          | one z =>
            by_cases e : x = z
            · subst e
              rw [containsLoop_eq]
              simp only [List.map_cons, firstOf, lastOf]
              rw [leL_same rfl, geL_same rfl, ← containsLoop_eq, containsLoop_covers as bs hl' hc.2 hv']
              constructor
              · intro h
                refine ⟨?_, h⟩
                intro i hi
                exact ⟨_, rfl, by cases hi; rfl⟩
              · exact fun h => h.2
            · refine iff_of_false ?_ ?_
              · rintro ⟨h1, h2⟩
                exact not_less_of_notAfter (leL_notAfter h1) ((geL_notAfter h2).resolve_left (Ne.symm e))
              · rintro ⟨h, -⟩
                obtain ⟨j, e1, e2⟩ := h _ rfl
                simp only [Spec.IdentCovers] at e2
                subst e2
                simp only [Option.some.injEq, Ident.one.injEq] at e1
                exact e e1.symm
          | range z w =>
            have hzw := hv _ (List.mem_cons_self ..) z w rfl
            refine iff_of_false ?_ ?_
            · rintro ⟨h1, h2⟩
              exact not_less_of_notAfter (geL_notAfter h2) (notAfter_ends (leL_notAfter h1) hzw)
            · rintro ⟨h, -⟩
              obtain ⟨j, e1, e2⟩ := h _ rfl
              simp only [Spec.IdentCovers] at e2
              subst e2
              cases e1
      | range x y =>
        have hn := hc.1 (.inr rfl)
        have m1 : as.map firstOf = as := by
          conv => rhs; rw [← List.map_id as]
          exact List.map_congr_left fun c hm => by rw [hn c hm]; rfl
        have m2 : as.map lastOf = as := by
          conv => rhs; rw [← List.map_id as]
          exact List.map_congr_left fun c hm => by rw [hn c hm]; rfl
        have r1 := (nones_le as _ (by simpa using hl') hn (map_firstOf_single bs)).1
        have r2 := (nones_le as _ (by simpa using hl') hn (map_lastOf_single bs)).2
        have r3 := nones_cover as bs hn
        rw [containsLoop_eq]
        simp only [List.map_cons, m1, m2]
        cases b with
        | none =>
          refine iff_of_false ?_ ?_
          · rintro ⟨h, -⟩
            exact leL_to_none _ _ h
          · rintro ⟨h, -⟩
            obtain ⟨j, e, -⟩ := h _ rfl
            cases e
        | some j =>
          cases j with
          | one z =>
            constructor
            · rintro ⟨h1, h2⟩
              refine ⟨?_, r3⟩
              intro i hi
              cases hi
              exact ⟨_, rfl, leL_notAfter h1, geL_notAfter h2⟩
            · rintro ⟨h, -⟩
              obtain ⟨j, e1, e2⟩ := h _ rfl
              cases e1
              exact ⟨notAfter_leL e2.1 r1, notAfter_geL e2.2 r2⟩
          | range z w =>
            constructor
            · rintro ⟨h1, h2⟩
              refine ⟨?_, r3⟩
              intro i hi
              cases hi
              exact ⟨_, rfl, leL_notAfter h1, geL_notAfter h2⟩
            · rintro ⟨h, -⟩
              obtain ⟨j, e1, e2⟩ := h _ rfl
              cases e1
              exact ⟨notAfter_leL e2.1 r1, notAfter_geL e2.2 r2⟩

end Verif
