import Verif.Spec.Lines

/-! # Lemmas about slicing and joining lines -/

namespace Verif

/-- The text of parts. -/
abbrev ptext (ps : List Part) : Str := ps.flatMap (·.content)

theorem ptext_cons (p : Part) (ps : List Part) : ptext (p :: ps) = p.content ++ ptext ps := by simp [ptext]

theorem ptext_append (a b : List Part) : ptext (a ++ b) = ptext a ++ ptext b := by simp [ptext]

namespace Line

/-- What the first loop has done when it stops. -/
theorem skipLoop_spec (start : Int) (ps : List Part) : ∀ x len, ∃ pre rest,
    ps = pre ++ rest ∧ skipLoop start x len ps = (x + (pre.map (·.dx)).sum, len + (ptext pre).length, rest) ∧
    (rest ≠ [] → start ≤ len + (ptext pre).length) ∧
    (pre = [] ∨ ∃ pre' p, pre = pre' ++ [p] ∧ len + (ptext pre').length < start) := by
  induction ps with
  | nil => intro x len; exact ⟨[], [], rfl, by simp [skipLoop, ptext, Rat.add_zero], by simp, .inl rfl⟩
  | cons p ps ih =>
    intro x len
    simp only [skipLoop]
    by_cases h : len < start
    · simp only [h, if_true]
      obtain ⟨pre, rest, h1, h2, h3, h4⟩ := ih (x + p.dx) (len + p.content.length)
      refine ⟨p :: pre, rest, by simp [h1], ?_, ?_, ?_⟩
      · rw [h2]
        simp only [List.map_cons, List.sum_cons, ptext_cons, List.length_append, Prod.mk.injEq, and_true]
        constructor
        · grind
        · omega
      · intro hr
        have := h3 hr
        rw [ptext_cons, List.length_append]
        omega
      · right
        rcases h4 with rfl | ⟨pre', q, rfl, h5⟩
        · exact ⟨[], p, rfl, by simpa [ptext] using h⟩
        · refine ⟨p :: pre', q, rfl, ?_⟩
          rw [ptext_cons, List.length_append]
          omega
    · simp only [h]
      exact ⟨[], p :: ps, rfl, by simp [ptext, Rat.add_zero], by simp [ptext]; omega, .inl rfl⟩

/-- What the second loop has done when it stops. -/
theorem takeLoop_spec (n : Int) (ps : List Part) : ∀ len, ∃ inc left,
    ps = inc ++ left ∧ takeLoop n len ps = (len + (ptext inc).length, inc, left) ∧
    (left ≠ [] → n ≤ len + (ptext inc).length) ∧
    (inc = [] ∨ ∃ inc' p, inc = inc' ++ [p] ∧ len + (ptext inc').length < n) := by
  induction ps with
  | nil => intro len; exact ⟨[], [], rfl, by simp [takeLoop, ptext], by simp, .inl rfl⟩
  | cons p ps ih =>
    intro len
    simp only [takeLoop]
    by_cases h : len < n
    · simp only [h, if_true]
      obtain ⟨inc, left, h1, h2, h3, h4⟩ := ih (len + p.content.length)
      refine ⟨p :: inc, left, by simp [h1], ?_, ?_, ?_⟩
      · rw [h2]
        simp only [ptext_cons, List.length_append, Prod.mk.injEq, and_true]
        omega
      · intro hr
        have := h3 hr
        rw [ptext_cons, List.length_append]
        omega
      · right
        rcases h4 with rfl | ⟨inc', q, rfl, h5⟩
        · exact ⟨[], p, rfl, by simpa [ptext] using h⟩
        · refine ⟨p :: inc', q, rfl, ?_⟩
          rw [ptext_cons, List.length_append]
          omega
    · simp only [h]
      exact ⟨[], p :: ps, rfl, by simp [ptext], by simp [ptext]; omega, .inl rfl⟩

/-- The main part of `slice`, after the bounds are adjusted. -/
def sliceMain (l : Line) (start stop : Int) : Res Line :=
  let (skippedX, skippedLen, rest) := skipLoop start 0 0 l.parts
  match rest with
  | [] => .ok emptyLine
  | _ :: _ =>
    if skippedLen ≠ start then .error .valueError
    else
      let (includedLen, included, left) := takeLoop (stop - start) 0 rest
      if includedLen ≠ stop - start then .error .valueError
      else match included with
        | [] => .error .indexError
        | first :: more =>
          .ok { parts := { first with dx := first.dx + skippedX } :: more,
                marginRight := l.marginRight + 20 * (left.length : Rat) }

/-- A bound counted from the end if negative. -/
def adjust (l : Line) (k : Int) : Int := if k < 0 then (l.content.length : Int) + k else k

theorem slice_eq (l : Line) (start : Int) (stop : Option Int) :
    l.slice start stop =
      if l.adjust start = 0 ∧ l.adjust (stop.getD l.content.length) = l.content.length then .ok l
      else if l.adjust (stop.getD l.content.length) ≤ l.adjust start then .ok emptyLine
      else l.sliceMain (l.adjust start) (l.adjust (stop.getD l.content.length)) := rfl

/-- The outcomes of the main part. -/
theorem sliceMain_cases (l : Line) (a b : Int) (hab : a < b) :
    (∃ pre p, l.parts = pre ++ [p] ∧ ((ptext pre).length : Int) < a ∧ l.sliceMain a b = .ok emptyLine) ∨
    (l.parts = [] ∧ l.sliceMain a b = .ok emptyLine) ∨
    (¬ (0 ≤ a ∧ Spec.Border l a.toNat) ∧ l.sliceMain a b = .error .valueError) ∨
    (¬ (0 ≤ b ∧ Spec.Border l b.toNat) ∧ l.sliceMain a b = .error .valueError) ∨
    (∃ pre f more left, l.parts = pre ++ (f :: more) ++ left ∧ ((ptext pre).length : Int) = a ∧
      ((ptext (pre ++ (f :: more))).length : Int) = b ∧
      l.sliceMain a b = .ok { parts := { f with dx := f.dx + (pre.map (·.dx)).sum } :: more,
                              marginRight := l.marginRight + 20 * (left.length : Rat) }) := by
  obtain ⟨pre, rest, h1, h2, h3, h4⟩ := skipLoop_spec a l.parts 0 0
  unfold sliceMain
  rw [h2]
  cases rest with
  | nil =>
    rcases h4 with rfl | ⟨pre', p, rfl, h5⟩
    · right; left; exact ⟨by simpa using h1, rfl⟩
    · left; exact ⟨pre', p, by simpa using h1, by omega, rfl⟩
  | cons q qs =>
    have hge := h3 (by simp)
    simp only []
    by_cases ha : (0 : Int) + ((ptext pre).length : Int) = a
    · rw [if_neg (by simpa using ha)]
      obtain ⟨inc, left, k1, k2, k3, k4⟩ := takeLoop_spec (b - a) (q :: qs) 0
      rw [k2]
      simp only []
      by_cases hb : (0 : Int) + ((ptext inc).length : Int) = b - a
      · rw [if_neg (by simpa using hb)]
        cases inc with
        | nil => simp [ptext] at hb; omega
        | cons f more =>
          right; right; right; right
          refine ⟨pre, f, more, left, by rw [h1, k1]; simp, by omega, ?_, ?_⟩
          · rw [ptext_append, List.length_append]; omega
          · simp only [Rat.zero_add]
      · rw [if_pos (by simpa using hb)]
        right; right; right; left
        refine ⟨?_, rfl⟩
        rintro ⟨hb0, u, v, huv, hlen⟩
        -- a border at `b` would stop the second loop exactly there
        change (ptext u).length = b.toNat at hlen
        have hall : pre ++ inc ++ left = u ++ v := by rw [← huv, h1, k1]; simp
        rcases k4 with rfl | ⟨inc', p, rfl, k5⟩
        · cases left with
          | nil => simp at k1
          | cons y ys =>
            have := k3 (by simp)
            simp [ptext] at this
            omega
        · -- compare the lengths of the two decompositions
          have hlt : (ptext (pre ++ inc')).length < b.toNat := by
            rw [ptext_append, List.length_append]; omega
          have hgt : left ≠ [] → b.toNat < (ptext (pre ++ (inc' ++ [p]))).length := by
            intro hl
            have := k3 hl
            rw [ptext_append, List.length_append]; omega
          rw [List.append_eq_append_iff] at hall
          rcases hall with ⟨w, hw1, hw2⟩ | ⟨w, hw1, hw2⟩
          · -- u is longer: then `left = w ++ v`
            have hl : (ptext u).length = (ptext (pre ++ (inc' ++ [p]))).length + (ptext w).length := by
              rw [hw1, ptext_append, List.length_append]
            by_cases hleft : left = []
            · have : w = [] := by
                have := congrArg List.length (hleft ▸ hw2)
                simp at this
                exact List.eq_nil_of_length_eq_zero (by omega)
              subst this
              simp [ptext] at hl
              rw [ptext_append, List.length_append] at hlt
              have e : (ptext (pre ++ (inc' ++ [p]))).length = b.toNat := by
                have : u = pre ++ (inc' ++ [p]) := by simpa using hw1
                rw [← this]; exact hlen
              rw [ptext_append, List.length_append] at e
              omega
            · have := hgt hleft
              omega
          · -- pre ++ inc = u ++ w
            rcases List.eq_nil_or_concat w with rfl | ⟨w', z, rfl⟩
            · have e : (ptext (pre ++ (inc' ++ [p]))).length = b.toNat := by rw [hw1]; simpa using hlen
              rw [ptext_append, List.length_append] at e
              omega
            · rw [List.concat_eq_append, ← List.append_assoc, ← List.append_assoc] at hw1
              have := (List.append_inj' hw1 rfl).1
              rw [this, ptext_append, List.length_append] at hlt
              omega
    · rw [if_pos (by simpa using ha)]
      right; right; left
      refine ⟨?_, rfl⟩
      rintro ⟨ha0, u, v, huv, hlen⟩
      change (ptext u).length = a.toNat at hlen
      have hall : pre ++ q :: qs = u ++ v := by rw [← huv, h1]
      rcases h4 with rfl | ⟨pre', p, rfl, h5⟩
      · simp [ptext] at ha hge; omega
      · have hgt : a.toNat < (ptext (pre' ++ [p])).length := by omega
        rw [List.append_eq_append_iff] at hall
        rcases hall with ⟨w, hw1, hw2⟩ | ⟨w, hw1, hw2⟩
        · rw [hw1, ptext_append, List.length_append] at hlen
          omega
        · rcases List.eq_nil_or_concat w with rfl | ⟨w', z, rfl⟩
          · have : u = pre' ++ [p] := by simpa using hw1.symm
            rw [this] at hlen
            omega
          · rw [List.concat_eq_append, ← List.append_assoc] at hw1
            have := (List.append_inj' hw1 rfl).1
            rw [this, ptext_append, List.length_append] at h5
            omega

theorem place_append (ps qs : List Part) : ∀ x,
    Spec.place x (ps ++ qs) = Spec.place x ps ++ Spec.place (x + (ps.map (·.dx)).sum) qs := by
  induction ps with
  | nil => intro x; simp [Spec.place, Rat.add_zero]
  | cons p ps ih =>
    intro x
    simp only [List.cons_append, Spec.place, ih, List.map_cons, List.sum_cons]
    rw [Rat.add_assoc]

theorem place_text (ps : List Part) : ∀ x, Spec.placedText (Spec.place x ps) = ptext ps := by
  induction ps with
  | nil => intro x; rfl
  | cons p ps ih =>
    intro x
    rw [ptext_cons, ← ih (x + p.dx)]
    rfl

theorem fromRest_spec (ps : List Part) : ∀ x, fromRest x ps = (ps, x + (ps.map (·.dx)).sum) := by
  induction ps with
  | nil => intro x; simp [fromRest, Rat.add_zero]
  | cons p ps ih => intro x; simp [fromRest, ih, Rat.add_assoc]

/-- The line with the weight of its first part taken away. -/
def unboldFirst : List Spec.Placed → List Spec.Placed
  | [] => []
  | (x, s, _) :: ps => (x, s, false) :: ps

theorem fromLoop_place (ls : List Line) : ∀ x,
    Spec.place x (fromLoop x ls) = ls.flatMap fun l => unboldFirst (Spec.place 0 l.parts) := by
  induction ls with
  | nil => intro x; rfl
  | cons l ls ih =>
    intro x
    simp only [fromLoop, List.flatMap_cons]
    cases hl : l.parts with
    | nil => simp [Spec.place, unboldFirst, ih]
    | cons p ps =>
      simp only [fromRest_spec, List.cons_append, Spec.place, unboldFirst, Rat.zero_add]
      rw [show x + (p.dx - x) = p.dx by grind, place_append, ih]
      rfl

end Line

end Verif
