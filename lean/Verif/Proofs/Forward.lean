import Verif.Proofs.Sentences
import Verif.Spec.Ordinary

/-! # What the grammar reads -/

namespace Verif

open Spec

namespace Peg

variable {α β : Type}

/-! ## Spaces -/

theorem skip_cons {c : Char} {s : Str} (h : isSpace c = false) (n : Nat) : (⟨n, c :: s⟩ : At).skip = ⟨n, c :: s⟩ := by
  simp [At.skip, At.move, h]

theorem skip_space {c : Char} {s : Str} (h : isSpace c = true) (n : Nat) : (⟨n, c :: s⟩ : At).skip = (⟨n + 1, s⟩ : At).skip := by
  simp [At.skip, At.move, h]
  omega

theorem skip_rest (n : Nat) (s : Str) : (⟨n, s⟩ : At).skip.rest = s.dropWhile isSpace := by
  show s.drop (s.takeWhile isSpace).length = _
  induction s with
  | nil => rfl
  | cons a s ih =>
    rw [List.takeWhile_cons, List.dropWhile_cons]
    by_cases ha : isSpace a = true
    · simp only [ha, if_true, List.length_cons, List.drop_succ_cons]
      exact ih
    · simp [ha]

theorem skip_append {w s : Str} {c : Char} (hc : w.head? = some c) (h : isSpace c = false) (n : Nat) :
    (⟨n, w ++ s⟩ : At).skip = ⟨n, w ++ s⟩ := by
  cases w with
  | nil => cases hc
  | cons a w => cases hc; exact skip_cons h n

theorem rule_skip (p : Peg α) (i : At) : rule p i.skip = rule p i := by simp [rule, skip_skip]

theorem token_skip (t : Str) (i : At) : token t i.skip = token t i := by simp [token, skip_skip]

theorem token_space {t s : Str} (n : Nat) : token t ⟨n, ' ' :: s⟩ = token t ⟨n + 1, s⟩ := by
  rw [← token_skip, skip_space (by decide), token_skip]

theorem rule_space {p : Peg α} {s : Str} (n : Nat) : rule p ⟨n, ' ' :: s⟩ = rule p ⟨n + 1, s⟩ := by
  rw [← rule_skip, skip_space (by decide), rule_skip]

theorem rule_eq {p : Peg α} {c : Char} {s : Str} (h : isSpace c = false) (n : Nat) : rule p ⟨n, c :: s⟩ = p ⟨n, c :: s⟩ := by
  rw [rule, skip_cons h]

theorem first_cons {c : Char} {s : Str} (h : isSpace c = false) : first (c :: s) = some c := by simp [first, h]

theorem first_space (s : Str) : first (' ' :: s) = first s := by
  have : isSpace ' ' = true := by decide
  simp [first, this]

theorem first_nil : first [] = none := rfl

theorem first_append {w s : Str} {c : Char} (hc : w.head? = some c) (h : isSpace c = false) : first (w ++ s) = some c := by
  cases w with
  | nil => cases hc
  | cons a w => cases hc; exact first_cons h

/-! ## Tokens -/

theorem token_reads {t s : Str} {c : Char} (n : Nat) (hc : t.head? = some c) (h : isSpace c = false)
    (hg : isName t = false ∨ ∀ d ∈ s.head?, isNameChar d = false) : token t ⟨n, t ++ s⟩ = some (t, ⟨n + t.length, s⟩) := by
  unfold token
  rw [skip_append hc h]
  have h1 : t.isPrefixOf (t ++ s) = true := by rw [List.isPrefixOf_iff_prefix]; exact List.prefix_append ..
  have h2 : (isName t && ((t ++ s).drop t.length).head?.any isNameChar) = false := by
    rcases hg with hg | hg
    · rw [hg]; rfl
    · rw [List.drop_left]
      cases hs : s.head? with
      | none => simp
      | some d => simp [hg d (by rw [hs]; rfl)]
  simp only [h1, h2, At.move, Bool.not_false, Bool.and_self, if_true]
  rw [List.drop_left]

theorem token_none {t s : Str} {a : Char} {n : Nat} (ht : t.head? = some a) (h : ∀ c ∈ first s, c ≠ a) : token t ⟨n, s⟩ = none := by
  unfold token
  have h1 : t.isPrefixOf (⟨n, s⟩ : At).skip.rest = false := by
    rw [skip_rest]
    cases t with
    | nil => cases ht
    | cons b t =>
      cases ht
      cases hs : s.dropWhile isSpace with
      | nil => rfl
      | cons d l =>
        have : d ≠ a := h d (by simp [first, hs])
        simp [List.isPrefixOf, Ne.symm this]
  simp [h1]

theorem token_not_prefix {t s : Str} {n : Nat} (h : t.isPrefixOf (s.dropWhile isSpace) = false) : token t ⟨n, s⟩ = none := by
  unfold token
  simp only [skip_rest, h, Bool.false_and, Bool.false_eq_true, if_false]

theorem or_left {p q : Peg α} {i : At} {x : α × At} (h : p i = some x) : or p q i = some x := by unfold or; rw [h]

theorem or_right {p q : Peg α} {i : At} (h : p i = none) : or p q i = q i := by unfold or; rw [h]

theorem opt_some {p : Peg α} {i j : At} {a : α} (h : p i = some (a, j)) : opt p i = some (some a, j) := by unfold opt; rw [h]

theorem opt_none {p : Peg α} {i : At} (h : p i = none) : opt p i = some (none, i) := by unfold opt; rw [h]

theorem tokens_none {ts : List Str} {s : Str} {n : Nat} (h : ∀ t ∈ ts, token t ⟨n, s⟩ = none) : tokens ts ⟨n, s⟩ = none := by
  induction ts with
  | nil => rfl
  | cons t ts ih =>
    unfold tokens
    rw [or_right (h t (List.mem_cons_self ..))]
    exact ih fun u hu => h u (List.mem_cons_of_mem _ hu)

theorem tokens_space {ts : List Str} {s : Str} (n : Nat) : tokens ts ⟨n, ' ' :: s⟩ = tokens ts ⟨n + 1, s⟩ := by
  induction ts with
  | nil => rfl
  | cons t ts ih =>
    unfold tokens or
    rw [token_space, ih]

/-! ## Patterns -/

theorem range_reverse_head (n : Nat) : (List.range (n + 1)).reverse.head? = some n := by
  rw [List.range_succ, List.reverse_append]
  rfl

theorem takeWhile_all {p : Char → Bool} {d s : Str} (h : ∀ c ∈ d, p c = true) (hs : ∀ c ∈ s.head?, p c = false) :
    (d ++ s).takeWhile p = d := by
  induction d with
  | nil => exact takeWhile_of_head fun c hc => hs c hc
  | cons a d ih =>
    rw [List.cons_append, List.takeWhile_cons, h a (List.mem_cons_self ..), if_pos rfl, ih fun c hc => h c (List.mem_cons_of_mem _ hc)]

theorem star_ends {p : Char → Bool} {d s : Str} (h : ∀ c ∈ d, p c = true) (hs : ∀ c ∈ s.head?, p c = false) :
    ((Regex.star p).ends (d ++ s)).head? = some d.length := by
  simp only [Regex.ends]
  rw [takeWhile_all h hs, range_reverse_head]

theorem pattern_of {r : Regex} {d s : Str} (n : Nat) (h : (r.ends (d ++ s)).head? = some d.length) :
    pattern r ⟨n, d ++ s⟩ = some (d, ⟨n + d.length, s⟩) := by
  unfold pattern
  simp only [h, List.take_left, At.move, List.drop_left]

theorem pattern_none {r : Regex} {n : Nat} {s : Str} (h : r.ends s = []) : pattern r ⟨n, s⟩ = none := by
  unfold pattern
  simp [h]

theorem plus_ends {p : Char → Bool} {d s : Str} (hd : d ≠ []) (h : ∀ c ∈ d, p c = true) (hs : ∀ c ∈ s.head?, p c = false) :
    ((Regex.plus p).ends (d ++ s)).head? = some d.length := by
  obtain ⟨a, d, rfl⟩ := List.exists_cons_of_ne_nil hd
  have ha := h a (List.mem_cons_self ..)
  have := star_ends (p := p) (d := d) (s := s) (fun c hc => h c (List.mem_cons_of_mem _ hc)) hs
  unfold Regex.plus
  simp only [Regex.ends, List.cons_append, ha, if_true, List.flatMap_cons, List.flatMap_nil, List.append_nil, List.drop_succ_cons,
    List.drop_zero, List.head?_map] at this ⊢
  rw [this]
  simp [Nat.add_comm]

theorem plus_none {p : Char → Bool} {s : Str} (h : ∀ c ∈ s.head?, p c = false) : (Regex.plus p).ends s = [] := by
  unfold Regex.plus
  cases s with
  | nil => simp [Regex.ends]
  | cons a s => simp [Regex.ends, h a rfl]

theorem set_none {p : Char → Bool} {s : Str} (h : ∀ c ∈ s.head?, p c = false) : (Regex.set p).ends s = [] := by
  cases s with
  | nil => rfl
  | cons a s => simp [Regex.ends, h a rfl]

theorem set_some {p : Char → Bool} {c : Char} {s : Str} (h : p c = true) (n : Nat) :
    pattern (.set p) ⟨n, c :: s⟩ = some ([c], ⟨n + 1, s⟩) := by
  unfold pattern
  simp [Regex.ends, h, At.move]

theorem str_ends : ∀ (t s : Str), t ≠ [] → (Regex.str t).ends (t ++ s) = [t.length]
  | [], _, h => absurd rfl h
  | [c], s, _ => by simp [Regex.str, Regex.char, Regex.ends]
  | c :: d :: t, s, _ => by
    have ih := str_ends (d :: t) s (by simp)
    show (Regex.seq (.char c) (.str (d :: t))).ends (c :: (d :: t ++ s)) = _
    simp only [Regex.ends, Regex.char, beq_self_eq_true, if_true, List.flatMap_cons, List.flatMap_nil, List.append_nil,
      List.drop_succ_cons, List.drop_zero, ih, List.map_cons, List.map_nil]
    simp
    omega

theorem str_none : ∀ (t s : Str), t ≠ [] → t.isPrefixOf s = false → (Regex.str t).ends s = []
  | [], _, h, _ => absurd rfl h
  | [c], s, _, h => by
    cases s with
    | nil => rfl
    | cons a s =>
      have : (c == a) = false := by simpa [List.isPrefixOf] using h
      have h' : (a == c) = false := by rw [beq_eq_false_iff_ne] at this ⊢; exact Ne.symm this
      simp [Regex.str, Regex.char, Regex.ends, h']
  | c :: d :: t, s, _, h => by
    cases s with
    | nil => rfl
    | cons a s =>
      show (Regex.seq (.char c) (.str (d :: t))).ends (a :: s) = _
      by_cases hca : a = c
      · subst hca
        have : (d :: t).isPrefixOf s = false := by simpa [List.isPrefixOf] using h
        simp [Regex.ends, Regex.char, str_none (d :: t) s (by simp) this]
      · have h' : (a == c) = false := by simpa using hca
        simp [Regex.ends, Regex.char, h']

theorem seq_none {a b : Regex} {s : Str} (h : a.ends s = []) : (Regex.seq a b).ends s = [] := by simp [Regex.ends, h]

theorem str_seq_ends {t d s : Str} {r : Regex} (ht : t ≠ []) (h : (r.ends (d ++ s)).head? = some d.length) :
    ((Regex.seq (.str t) r).ends (t ++ d ++ s)).head? = some (t ++ d).length := by
  simp only [Regex.ends]
  rw [List.append_assoc, str_ends t _ ht]
  simp only [List.flatMap_cons, List.flatMap_nil, List.append_nil, List.drop_left, List.head?_map, h]
  simp

theorem str_seq_none {t s : Str} {r : Regex} (ht : t ≠ []) (h : r.ends s = []) : (Regex.seq (.str t) r).ends (t ++ s) = [] := by
  simp only [Regex.ends]
  rw [str_ends t _ ht]
  simp [h]

/-! ## Loops -/

/-- Readings one after the other. -/
inductive Steps (p : Peg α) : At → List α → At → Prop
  | nil (i) : Steps p i [] i
  | cons {i j k a as} (h : p i = some (a, j)) (hl : j.rest.length < i.rest.length) (hs : Steps p j as k) : Steps p i (a :: as) k

theorem manyLoop_steps {p : Peg α} {i k : At} {as : List α} (h : Steps p i as k) (hk : p k = none) :
    ∀ n, i.rest.length ≤ n → manyLoop p n i = (as, k) := by
  induction h with
  | nil i =>
    intro n _
    cases n with
    | zero => rfl
    | succ n => unfold manyLoop; rw [hk]
  | @cons i j k a as h hl _ ih =>
    intro n hn
    cases n with
    | zero => omega
    | succ n =>
      unfold manyLoop
      rw [h]
      simp only [hl, if_true, ih hk n (by omega)]

theorem many_steps {p : Peg α} {i k : At} {as : List α} (h : Steps p i as k) (hk : p k = none) : many p i = some (as, k) := by
  unfold many
  rw [manyLoop_steps h hk _ (Nat.le_refl _)]

theorem many1_steps {p : Peg α} {i k : At} {as : List α} (h : Steps p i as k) (hn : as ≠ []) (hk : p k = none) :
    many1 p i = some (as, k) := by
  cases h with
  | nil => exact absurd rfl hn
  | cons h hl hs =>
    unfold many1
    rw [bind_some h, bind_some (many_steps hs hk)]
    rfl

theorem many1_none {p : Peg α} {i : At} (h : p i = none) : many1 p i = none := by
  unfold many1
  exact bind_none h

/-! ## Readings and failures -/

/-- A text is read before the rest. -/
def Reads (p : Peg α) (w rest : Str) (a : α) : Prop := ∀ n, p ⟨n, w ++ rest⟩ = some (a, ⟨n + w.length, rest⟩)

/-- Nothing can be read. -/
def Fails (p : Peg α) (s : Str) : Prop := ∀ n, p ⟨n, s⟩ = none

theorem Reads.bind {p : Peg α} {f : α → Peg β} {u v rest : Str} {a : α} {b : β} (h : Reads p u (v ++ rest) a) (hf : Reads (f a) v rest b) :
    Reads (p >>= f) (u ++ v) rest b := by
  intro n
  rw [List.append_assoc, bind_some (h n), hf, List.length_append, Nat.add_assoc]

theorem Reads.to {p : Peg α} {f : α → Peg β} {u rest : Str} {a : α} {b : β} (h : Reads p u rest a) (hf : Reads (f a) [] rest b) :
    Reads (p >>= f) u rest b := by
  intro n
  rw [bind_some (h n)]
  exact hf _

theorem reads_nil (a : α) (rest : Str) : Reads (Pure.pure a) [] rest a := fun _ => rfl

theorem Reads.rule {p : Peg α} {w rest : Str} {a : α} {c : Char} (h : Reads p w rest a) (hc : w.head? = some c) (hs : isSpace c = false) :
    Reads (rule p) w rest a := by
  intro n
  show p (At.skip ⟨n, w ++ rest⟩) = _
  rw [skip_append hc hs]
  exact h n

theorem Reads.left {p q : Peg α} {w rest : Str} {a : α} (h : Reads p w rest a) : Reads (or p q) w rest a := fun n => or_left (h n)

theorem Reads.right {p q : Peg α} {w rest : Str} {a : α} (hp : Fails p (w ++ rest)) (h : Reads q w rest a) : Reads (or p q) w rest a :=
  fun n => by rw [or_right (hp n)]; exact h n

theorem Reads.opt {p : Peg α} {w rest : Str} {a : α} (h : Reads p w rest a) : Reads (opt p) w rest (some a) := fun n => opt_some (h n)

theorem Fails.opt {p : Peg α} {rest : Str} (h : Fails p rest) : Reads (opt p) [] rest none := fun n => opt_none (h n)

theorem Fails.bind {p : Peg α} {f : α → Peg β} {s : Str} (h : Fails p s) : Fails (p >>= f) s := fun n => bind_none (h n)

theorem Reads.fails {p : Peg α} {f : α → Peg β} {u s : Str} {a : α} (h : Reads p u s a) (hf : Fails (f a) s) : Fails (p >>= f) (u ++ s) :=
  fun n => by rw [bind_some (h n)]; exact hf _

theorem Fails.or {p q : Peg α} {s : Str} (hp : Fails p s) (hq : Fails q s) : Fails (or p q) s := fun n => by rw [or_right (hp n)]; exact hq n

theorem Fails.rule {p : Peg α} {s : Str} (h : Fails p (s.dropWhile isSpace)) : Fails (rule p) s := by
  intro n
  have : (⟨n, s⟩ : At).skip = ⟨(⟨n, s⟩ : At).skip.pos, s.dropWhile isSpace⟩ := by rw [← skip_rest n s]
  show p (At.skip ⟨n, s⟩) = none
  rw [this]
  exact h _

theorem Fails.located {p : Peg α} {s : Str} (h : Fails p (s.dropWhile isSpace)) : Fails (located p) s := by
  intro n
  have : p (⟨n, s⟩ : At).skip = none := Fails.rule h n
  unfold Peg.located
  rw [this]

theorem fails_token {t s : Str} {a : Char} (ht : t.head? = some a) (h : ∀ c ∈ first s, c ≠ a) : Fails (token t) s := fun _ => token_none ht h

theorem reads_word {t s : Str} {c : Char} (hc : t.head? = some c) (h : isSpace c = false)
    (hg : isName t = false ∨ ∀ d ∈ s.head?, isNameChar d = false) : Reads (token t) t s t := fun n => token_reads n hc h hg

theorem Reads.matches {r : Regex} {d s : Str} (h : (r.ends (d ++ s)).head? = some d.length) : Reads (pattern r) d s d := fun n => pattern_of n h

theorem fails_pattern {r : Regex} {s : Str} (h : r.ends s = []) : Fails (pattern r) s := fun _ => pattern_none h

theorem fails_tokens {ts : List Str} {s : Str} (h : ∀ t ∈ ts, Fails (token t) s) : Fails (tokens ts) s :=
  fun n => tokens_none fun t ht => h t ht n

theorem Reads.rule_space {p : Peg α} {w rest : Str} {a : α} {c : Char} (h : Reads p w rest a) (hc : w.head? = some c)
    (hs : isSpace c = false) : Reads (Peg.rule p) (' ' :: w) rest a := by
  intro n
  rw [List.cons_append, Peg.rule_space, h.rule hc hs]
  simp
  omega

theorem Reads.token_space {t s : Str} (h : Reads (token t) t s t) : Reads (token t) (' ' :: t) s t := by
  intro n
  rw [List.cons_append, Peg.token_space, h]
  simp
  omega

theorem dropWhile_space (s : Str) : (' ' :: s).dropWhile isSpace = s.dropWhile isSpace := by
  have : isSpace ' ' = true := by decide
  simp [this]

theorem dropWhile_cons_of {c : Char} {s : Str} (h : isSpace c = false) : (c :: s).dropWhile isSpace = c :: s := by simp [h]

theorem dropWhile_first {s : Str} {c : Char} (h : first s = some c) : ∃ t, s.dropWhile isSpace = c :: t := by
  unfold first at h
  cases hs : s.dropWhile isSpace with
  | nil => rw [hs] at h; cases h
  | cons a t => rw [hs] at h; cases h; exact ⟨t, rfl⟩

theorem head_of_first {s : Str} {P : Char → Prop} (h : ∀ c ∈ first s, P c) : ∀ c ∈ (s.dropWhile isSpace).head?, P c := h

theorem dropWhile_idem (s : Str) : (s.dropWhile isSpace).dropWhile isSpace = s.dropWhile isSpace := by
  have h := skip_rest 0 s
  have h1 := skip_skip ⟨0, s⟩
  have h2 : (At.skip ⟨0, s⟩) = ⟨(At.skip ⟨0, s⟩).pos, s.dropWhile isSpace⟩ := by rw [← h]
  have h3 := skip_rest (At.skip ⟨0, s⟩).pos (s.dropWhile isSpace)
  rw [← h2, h1, h] at h3
  exact h3.symm

theorem first_dropWhile (s : Str) : first (s.dropWhile isSpace) = first s := by
  unfold first
  rw [dropWhile_idem]

end Peg
end Verif
