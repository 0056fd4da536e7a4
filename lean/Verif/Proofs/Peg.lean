import Verif.Model.Peg
import Verif.Spec.Wording

/-! # Parsing expressions read the text slice by slice -/

namespace Verif

open Spec

/-- A place in this text. -/
structure At.In (s : Str) (i : At) : Prop where
  le : i.pos ≤ s.length
  rest : i.rest = s.drop i.pos

theorem At.In.length {s : Str} {i : At} (h : i.In s) : i.rest.length = s.length - i.pos := by
  rw [h.rest, List.length_drop]

theorem At.in_start (s : Str) : (⟨0, s⟩ : At).In s := ⟨Nat.zero_le _, rfl⟩

theorem At.In.move {s : Str} {i : At} (h : i.In s) {n : Nat} (hn : n ≤ i.rest.length) : (i.move n).In s := by
  constructor
  · have := h.length
    have := h.le
    simp only [At.move]
    omega
  · simp [At.move, h.rest, List.drop_drop]

theorem At.In.eq {s : Str} {i j : At} (hi : i.In s) (hj : j.In s) (h : i.pos = j.pos) : i = j := by
  cases i
  cases j
  simp only at h
  subst h
  have := hi.rest
  have := hj.rest
  simp_all

theorem takeWhile_length_le {α : Type} (p : α → Bool) (l : List α) : (l.takeWhile p).length ≤ l.length := by
  induction l with
  | nil => simp
  | cons a l ih =>
    rw [List.takeWhile_cons]
    split
    · simpa using ih
    · simp

theorem take_takeWhile_length {α : Type} (p : α → Bool) (l : List α) : l.take (l.takeWhile p).length = l.takeWhile p := by
  induction l with
  | nil => simp
  | cons a l ih =>
    rw [List.takeWhile_cons]
    split
    · simp [ih]
    · simp

theorem At.In.skip {s : Str} {i : At} (h : i.In s) : i.skip.In s := h.move (takeWhile_length_le _ _)

theorem At.pos_le_skip (i : At) : i.pos ≤ i.skip.pos := by simp [At.skip, At.move]

theorem slice_move {s : Str} {i : At} (h : i.In s) (n : Nat) : slice s i.pos (i.move n).pos = i.rest.take n := by
  simp [slice, At.move, h.rest]

theorem told_skip {s : Str} {i : At} (h : i.In s) : told s i.pos i.skip.pos = [] := by
  unfold told squeeze
  rw [At.skip, slice_move h, take_takeWhile_length, List.filter_eq_nil_iff]
  intro c hc
  have := mem_takeWhile_imp' hc
  simp [this]
where
  mem_takeWhile_imp' {p : Char → Bool} {c : Char} {l : Str} (h : c ∈ l.takeWhile p) : p c = true := by
    induction l with
    | nil => simp at h
    | cons a l ih =>
      rw [List.takeWhile_cons] at h
      split at h
      · rcases List.mem_cons.mp h with rfl | h
        · assumption
        · exact ih h
      · simp at h

theorem slice_append (s : Str) {a b c : Nat} (h1 : a ≤ b) (h2 : b ≤ c) : slice s a c = slice s a b ++ slice s b c := by
  unfold slice
  rw [show c - a = (b - a) + (c - b) by omega, List.take_add, List.drop_drop, show a + (b - a) = b by omega]

theorem told_append (s : Str) {a b c : Nat} (h1 : a ≤ b) (h2 : b ≤ c) : told s a c = told s a b ++ told s b c := by
  unfold told squeeze
  rw [slice_append s h1 h2, List.filter_append]

theorem told_self (s : Str) (a : Nat) : told s a a = [] := by simp [told, slice, squeeze]

theorem lt_of_told {s : Str} {a b : Nat} (h : told s a b ≠ []) : a < b := by
  rcases Nat.lt_or_ge a b with h' | h'
  · exact h'
  · simp [told, slice, squeeze, Nat.sub_eq_zero_of_le h'] at h

/-! ## Reading -/

namespace Peg

variable {α β γ : Type}

/-- What is read is a slice of the text, with this connection between the value and the places where it begins and ends. -/
def Scans (s : Str) (p : Peg α) (P : α → Nat → Nat → Prop) : Prop :=
  ∀ i a j, i.In s → p i = some (a, j) → j.In s ∧ i.pos ≤ j.pos ∧ P a i.pos j.pos

/-- The connection is one between the value and what is written there. -/
abbrev Says (s : Str) (p : Peg α) (Q : α → Str → Prop) : Prop := Scans s p fun a i j => Q a (told s i j)

theorem Scans.mono {s : Str} {p : Peg α} {P Q : α → Nat → Nat → Prop} (h : Scans s p P)
    (hi : ∀ a i j, i ≤ j → j ≤ s.length → P a i j → Q a i j) : Scans s p Q := by
  intro i a j hin hp
  obtain ⟨h1, h2, h3⟩ := h i a j hin hp
  exact ⟨h1, h2, hi a _ _ h2 h1.le h3⟩

theorem reads_pure {s : Str} (a : α) : Scans s (pure a : Peg α) fun x i j => x = a ∧ i = j := by
  intro i x j hi h
  cases h
  exact ⟨hi, Nat.le_refl _, rfl, rfl⟩

theorem reads_bind {s : Str} {p : Peg α} {f : α → Peg β} {P : α → Nat → Nat → Prop} {Q : α → β → Nat → Nat → Prop}
    (hp : Scans s p P) (hf : ∀ a, Scans s (f a) (Q a)) :
    Scans s (p >>= f) fun b i k => ∃ a j, i ≤ j ∧ j ≤ k ∧ P a i j ∧ Q a b j k := by
  intro i b k hi h
  replace h : (match p i with | none => none | some (a, j) => f a j) = some (b, k) := h
  cases hpi : p i with
  | none => simp [hpi] at h
  | some x =>
    obtain ⟨a, j⟩ := x
    simp only [hpi] at h
    obtain ⟨h1, h2, h3⟩ := hp i a j hi hpi
    obtain ⟨h4, h5, h6⟩ := hf a j b k h1 h
    exact ⟨h4, Nat.le_trans h2 h5, a, j.pos, h2, h5, h3, h6⟩

/-- For conclusions about what is written. -/
theorem tells_pure {s : Str} {a : α} {Q : α → Str → Prop} (h : Q a []) : Says s (pure a : Peg α) Q := by
  refine (reads_pure a).mono ?_
  rintro x i j _ _ ⟨rfl, rfl⟩
  rw [told_self]
  exact h

theorem tells_bind {s : Str} {p : Peg α} {f : α → Peg β} {P : α → Str → Prop} {Q : β → Str → Prop}
    (hp : Says s p P) (hf : ∀ a u, P a u → Says s (f a) fun b v => Q b (u ++ v)) : Says s (p >>= f) Q := by
  intro i b k hi h
  replace h : (match p i with | none => none | some (a, j) => f a j) = some (b, k) := h
  cases hpi : p i with
  | none => simp [hpi] at h
  | some x =>
    obtain ⟨a, j⟩ := x
    simp only [hpi] at h
    obtain ⟨h1, h2, h3⟩ := hp i a j hi hpi
    obtain ⟨h4, h5, h6⟩ := hf a _ h3 j b k h1 h
    refine ⟨h4, Nat.le_trans h2 h5, ?_⟩
    show Q b (told s i.pos k.pos)
    rw [told_append s h2 h5]
    exact h6

theorem reads_rule {s : Str} {p : Peg α} {P : α → Nat → Nat → Prop} (h : Scans s p P) :
    Scans s (rule p) fun a i j => ∃ n, i ≤ n ∧ n ≤ j ∧ told s i n = [] ∧ P a n j := by
  intro i a j hi hp
  obtain ⟨h1, h2, h3⟩ := h i.skip a j hi.skip hp
  exact ⟨h1, Nat.le_trans i.pos_le_skip h2, i.skip.pos, i.pos_le_skip, h2, told_skip hi, h3⟩

theorem tells_rule {s : Str} {p : Peg α} {Q : α → Str → Prop} (h : Says s p Q) : Says s (rule p) Q := by
  refine (reads_rule h).mono ?_
  rintro a i j _ _ ⟨n, h1, h2, h3, h4⟩
  rw [told_append s h1 h2, h3]
  exact h4

theorem reads_located {s : Str} {p : Peg α} {P : α → Nat → Nat → Prop} (h : Scans s p P) :
    Scans s (located p) fun x i j => ∃ n, i ≤ n ∧ n ≤ j ∧ told s i n = [] ∧ x.2 = (↑n, ↑j) ∧ P x.1 n j := by
  intro i a j hi hp
  unfold located at hp
  cases hpi : p i.skip with
  | none => simp [hpi] at hp
  | some x =>
    obtain ⟨v, k⟩ := x
    simp only [hpi] at hp
    cases hp
    obtain ⟨h1, h2, h3⟩ := h _ _ _ hi.skip hpi
    exact ⟨h1, Nat.le_trans i.pos_le_skip h2, _, i.pos_le_skip, h2, told_skip hi, rfl, h3⟩

theorem reads_or {s : Str} {p q : Peg α} {P Q : α → Nat → Nat → Prop} (hp : Scans s p P) (hq : Scans s q Q) :
    Scans s (or p q) fun a i j => P a i j ∨ Q a i j := by
  intro i a j hi h
  unfold or at h
  cases hpi : p i with
  | none =>
    simp only [hpi] at h
    obtain ⟨h1, h2, h3⟩ := hq _ _ _ hi h
    exact ⟨h1, h2, Or.inr h3⟩
  | some x =>
    simp only [hpi] at h
    cases h
    obtain ⟨h1, h2, h3⟩ := hp _ _ _ hi hpi
    exact ⟨h1, h2, Or.inl h3⟩

theorem reads_or' {s : Str} {p q : Peg α} {P : α → Nat → Nat → Prop} (hp : Scans s p P) (hq : Scans s q P) : Scans s (or p q) P :=
  (reads_or hp hq).mono fun _ _ _ _ _ h => h.elim id id

theorem tells_or {s : Str} {p q : Peg α} {Q : α → Str → Prop} (hp : Says s p Q) (hq : Says s q Q) : Says s (or p q) Q :=
  reads_or' hp hq

theorem reads_opt {s : Str} {p : Peg α} {P : α → Nat → Nat → Prop} (h : Scans s p P) :
    Scans s (opt p) fun o i j => (o = none ∧ i = j) ∨ ∃ a, o = some a ∧ P a i j := by
  intro i a j hi hp
  unfold opt at hp
  cases hpi : p i with
  | none =>
    simp only [hpi] at hp
    cases hp
    exact ⟨hi, Nat.le_refl _, Or.inl ⟨rfl, rfl⟩⟩
  | some x =>
    simp only [hpi] at hp
    cases hp
    obtain ⟨h1, h2, h3⟩ := h _ _ _ hi hpi
    exact ⟨h1, h2, Or.inr ⟨_, rfl, h3⟩⟩

theorem tells_opt {s : Str} {p : Peg α} {Q : α → Str → Prop} {R : Option α → Str → Prop} (h : Says s p Q) (hn : R none [])
    (hs : ∀ a w, Q a w → R (some a) w) : Says s (opt p) R := by
  refine (reads_opt h).mono ?_
  rintro o i j _ _ (⟨rfl, rfl⟩ | ⟨a, rfl, h⟩)
  · rw [told_self]
    exact hn
  · exact hs _ _ h

/-- Things one after the other. -/
inductive Chain (P : α → Nat → Nat → Prop) : List α → Nat → Nat → Prop
  | nil (i) : Chain P [] i i
  | cons {a as i j k} (h : P a i j) (hij : i ≤ j) (hjk : j ≤ k) (hs : Chain P as j k) : Chain P (a :: as) i k

theorem manyLoop_reads {s : Str} {p : Peg α} {P : α → Nat → Nat → Prop} (h : Scans s p P) (n : Nat) :
    ∀ i : At, i.In s → (manyLoop p n i).2.In s ∧ i.pos ≤ (manyLoop p n i).2.pos ∧
      Chain P (manyLoop p n i).1 i.pos (manyLoop p n i).2.pos := by
  induction n with
  | zero =>
    intro i hi
    exact ⟨hi, Nat.le_refl _, .nil _⟩
  | succ n ih =>
    intro i hi
    unfold manyLoop
    cases hp : p i with
    | none => exact ⟨hi, Nat.le_refl _, .nil _⟩
    | some x =>
      obtain ⟨a, j⟩ := x
      obtain ⟨h1, h2, h3⟩ := h _ _ _ hi hp
      simp only
      split
      · obtain ⟨h4, h5, h6⟩ := ih j h1
        exact ⟨h4, Nat.le_trans h2 h5, .cons h3 h2 h5 h6⟩
      · exact ⟨hi, Nat.le_refl _, .nil _⟩

theorem reads_many {s : Str} {p : Peg α} {P : α → Nat → Nat → Prop} (h : Scans s p P) : Scans s (many p) (Chain P) := by
  intro i a j hi hp
  unfold many at hp
  injection hp with hp
  have := manyLoop_reads h i.rest.length i hi
  rw [hp] at this
  exact this

theorem reads_many1 {s : Str} {p : Peg α} {P : α → Nat → Nat → Prop} (h : Scans s p P) :
    Scans s (many1 p) fun as i j => as ≠ [] ∧ Chain P as i j := by
  unfold many1
  refine (reads_bind h fun a => reads_bind (reads_many h) fun as => reads_pure (a :: as)).mono ?_
  rintro as i j _ _ ⟨a, k, h1, h2, h3, as', l, h4, h5, h6, rfl, rfl⟩
  exact ⟨by simp, .cons h3 h1 h2 h6⟩

theorem reads_ahead {s : Str} {p : Peg α} : Scans s (ahead p) fun _ i j => i = j := by
  intro i a j hi h
  unfold ahead at h
  cases hp : p i with
  | none => simp [hp] at h
  | some x =>
    simp only [hp, Option.map_some] at h
    cases h
    exact ⟨hi, Nat.le_refl _, rfl⟩

theorem reads_not {s : Str} {p : Peg α} : Scans s (Peg.not p) fun _ i j => i = j := by
  intro i a j hi h
  unfold Peg.not at h
  split at h
  · cases h
  · cases h
    exact ⟨hi, Nat.le_refl _, rfl⟩

theorem reads_eof {s : Str} : Scans s eof fun _ i j => told s i j = [] ∧ j = s.length := by
  intro i a j hi h
  unfold eof at h
  split at h
  · rename_i he
    cases h
    refine ⟨hi.skip, i.pos_le_skip, told_skip hi, ?_⟩
    have h1 := hi.skip.length
    have h2 := hi.skip.le
    rw [List.isEmpty_iff.mp he] at h1
    simp only [List.length_nil] at h1
    omega
  · cases h

theorem isPrefixOf_take {t l : Str} (h : t.isPrefixOf l = true) : l.take t.length = t ∧ t.length ≤ l.length := by
  obtain ⟨r, rfl⟩ := List.isPrefixOf_iff_prefix.mp h
  simp

theorem reads_token {s : Str} (t : Str) :
    Scans s (token t) fun a i j => a = t ∧ ∃ n, i ≤ n ∧ n ≤ j ∧ told s i n = [] ∧ slice s n j = t := by
  intro i a j hi h
  unfold token at h
  simp only at h
  split at h
  · rename_i hc
    cases h
    rw [Bool.and_eq_true] at hc
    obtain ⟨h1, h2⟩ := isPrefixOf_take hc.1
    refine ⟨hi.skip.move h2, ?_, rfl, i.skip.pos, i.pos_le_skip, by simp [At.move], told_skip hi, ?_⟩
    · have := i.pos_le_skip
      show i.pos ≤ i.skip.pos + t.length
      omega
    · rw [slice_move hi.skip, h1]
  · cases h

theorem tells_token {s : Str} (t : Str) : Says s (token t) fun a w => a = t ∧ w = squeeze t := by
  refine (reads_token t).mono ?_
  rintro a i j _ _ ⟨rfl, n, h1, h2, h3, h4⟩
  refine ⟨rfl, ?_⟩
  rw [told_append s h1 h2, h3, told, h4]
  rfl

theorem tells_tokens {s : Str} (ts : List Str) : Says s (tokens ts) fun a w => a ∈ ts ∧ w = squeeze a := by
  induction ts with
  | nil =>
    intro i a j _ h
    cases h
  | cons t ts ih =>
    refine reads_or' ((tells_token t).mono ?_) (ih.mono ?_)
    · rintro a i j _ _ ⟨rfl, h⟩
      exact ⟨List.mem_cons_self .., h⟩
    · rintro a i j _ _ ⟨h1, h2⟩
      exact ⟨List.mem_cons_of_mem _ h1, h2⟩

/-! ## Patterns -/

/-- What a regular expression matches. -/
inductive Matches : Regex → Str → Prop
  | set {p : Char → Bool} {c : Char} (h : p c = true) : Matches (.set p) [c]
  | seq {a b u v} (hu : Matches a u) (hv : Matches b v) : Matches (.seq a b) (u ++ v)
  | left {a b u} (h : Matches a u) : Matches (.alt a b) u
  | right {a b u} (h : Matches b u) : Matches (.alt a b) u
  | some {a u} (h : Matches a u) : Matches (.opt a) u
  | none {a} : Matches (.opt a) []
  | star {p : Char → Bool} {u : Str} (h : ∀ c ∈ u, p c = true) : Matches (.star p) u

theorem take_all_of_le {p : Char → Bool} {l : Str} {n : Nat} (h : n ≤ (l.takeWhile p).length) : ∀ c ∈ l.take n, p c = true := by
  intro c hc
  have : c ∈ l.takeWhile p := by
    rw [← take_takeWhile_length p l]
    exact List.IsPrefix.subset (List.take_prefix_take_left h) hc
  exact told_skip.mem_takeWhile_imp' this

theorem ends_matches (r : Regex) : ∀ (s : Str) (n : Nat), n ∈ r.ends s → n ≤ s.length ∧ Matches r (s.take n) := by
  induction r with
  | set p =>
    intro s n h
    cases s with
    | nil => simp [Regex.ends] at h
    | cons c s =>
      unfold Regex.ends at h
      split at h
      · rename_i hc
        simp only [List.mem_singleton] at h
        subst h
        exact ⟨by simp, .set hc⟩
      · simp at h
  | seq a b iha ihb =>
    intro s n h
    unfold Regex.ends at h
    obtain ⟨m, hm, h⟩ := List.mem_flatMap.mp h
    obtain ⟨k, hk, rfl⟩ := List.mem_map.mp h
    obtain ⟨h1, h2⟩ := iha s m hm
    obtain ⟨h3, h4⟩ := ihb _ k hk
    rw [List.length_drop] at h3
    refine ⟨by omega, ?_⟩
    rw [List.take_add]
    exact .seq h2 h4
  | alt a b iha ihb =>
    intro s n h
    unfold Regex.ends at h
    rcases List.mem_append.mp h with h | h
    · exact ⟨(iha s n h).1, .left (iha s n h).2⟩
    · exact ⟨(ihb s n h).1, .right (ihb s n h).2⟩
  | opt a ih =>
    intro s n h
    unfold Regex.ends at h
    rcases List.mem_append.mp h with h | h
    · exact ⟨(ih s n h).1, .some (ih s n h).2⟩
    · simp only [List.mem_singleton] at h
      subst h
      exact ⟨by simp, .none⟩
  | star p =>
    intro s n h
    unfold Regex.ends at h
    simp only [List.mem_reverse, List.mem_range] at h
    have h := Nat.le_of_lt_succ h
    exact ⟨Nat.le_trans h (takeWhile_length_le _ _), .star (take_all_of_le h)⟩

theorem reads_pattern {s : Str} (r : Regex) : Scans s (pattern r) fun a i j => Matches r a ∧ slice s i j = a := by
  intro i a j hi h
  unfold pattern at h
  cases he : (r.ends i.rest).head? with
  | none => simp [he] at h
  | some n =>
    simp only [he] at h
    cases h
    obtain ⟨h1, h2⟩ := ends_matches r _ n (List.mem_of_mem_head? he)
    exact ⟨hi.move h1, by simp [At.move], h2, slice_move hi n⟩

theorem tells_pattern {s : Str} (r : Regex) : Says s (pattern r) fun a w => Matches r a ∧ w = squeeze a := by
  refine (reads_pattern r).mono ?_
  rintro a i j _ _ ⟨h1, h2⟩
  exact ⟨h1, by rw [told, h2]⟩

theorem matches_seq {a b : Regex} {w : Str} (h : Matches (.seq a b) w) : ∃ u v, w = u ++ v ∧ Matches a u ∧ Matches b v := by
  cases h with
  | seq h1 h2 => exact ⟨_, _, rfl, h1, h2⟩

theorem matches_set {p : Char → Bool} {w : Str} (h : Matches (.set p) w) : ∃ c, p c = true ∧ w = [c] := by
  cases h with
  | set h => exact ⟨_, h, rfl⟩

theorem matches_opt {a : Regex} {w : Str} (h : Matches (.opt a) w) : w = [] ∨ Matches a w := by
  cases h with
  | some h => exact Or.inr h
  | none => exact Or.inl rfl

theorem matches_alt {a b : Regex} {w : Str} (h : Matches (.alt a b) w) : Matches a w ∨ Matches b w := by
  cases h with
  | left h => exact Or.inl h
  | right h => exact Or.inr h

theorem matches_char {c : Char} {u : Str} (h : Matches (.char c) u) : u = [c] := by
  unfold Regex.char at h
  cases h with
  | set h => simp only [beq_iff_eq] at h; rw [h]

theorem matches_str {t u : Str} (h : Matches (.str t) u) : u = t := by
  induction t generalizing u with
  | nil =>
    cases h with
    | star h => cases u with
      | nil => rfl
      | cons c u => simpa using h c (List.mem_cons_self ..)
  | cons c t ih =>
    cases t with
    | nil => exact matches_char h
    | cons d t =>
      cases h with
      | seq hu hv => rw [matches_char hu, ih hv]; rfl

theorem matches_plus {p : Char → Bool} {u : Str} (h : Matches (.plus p) u) : u ≠ [] ∧ ∀ c ∈ u, p c = true := by
  unfold Regex.plus at h
  cases h with
  | seq hu hv =>
    cases hu with
    | set h1 => cases hv with
      | star h2 =>
        refine ⟨by simp, ?_⟩
        intro c hc
        rcases List.mem_append.mp hc with hc | hc
        · simp only [List.mem_singleton] at hc
          exact hc ▸ h1
        · exact h2 c hc

end Peg
end Verif
