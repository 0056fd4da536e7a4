import Verif.Proofs.Reference
import Verif.Props.Dates

/-! # Writing and reading id strings -/

namespace Verif

open Reference

/-! ## Replacing -/

theorem replaceAux_skip (old new : Str) : ∀ (p s : Str), replaceAux old new p.length (p ++ s) = replaceAux old new 0 s
  | [], s => rfl
  | _ :: p, s => by
    simp only [List.length_cons, List.cons_append, replaceAux]
    exact replaceAux_skip old new p s

theorem replaceAll_nil (old new : Str) : replaceAll old new [] = [] := rfl

theorem replaceAll_match (o : Char) (os new s : Str) :
    replaceAll (o :: os) new (o :: os ++ s) = new ++ replaceAll (o :: os) new s := by
  unfold replaceAll
  have : (o :: os).isPrefixOf (o :: os ++ s) = true := by rw [List.isPrefixOf_iff_prefix]; exact ⟨s, rfl⟩
  rw [List.cons_append] at this ⊢
  rw [replaceAux, if_pos this]
  congr 1
  exact replaceAux_skip _ _ os s

theorem replaceAll_step (old new : Str) (c : Char) (s : Str) (h : ¬ old <+: c :: s) :
    replaceAll old new (c :: s) = c :: replaceAll old new s := by
  unfold replaceAll
  rw [replaceAux, if_neg]
  rw [List.isPrefixOf_iff_prefix]
  exact h

theorem replaceAll_char (o : Char) (new : Str) : ∀ s : Str,
    replaceAll [o] new s = s.flatMap fun c => if c = o then new else [c]
  | [] => rfl
  | c :: s => by
    by_cases h : c = o
    · subst h
      have := replaceAll_match c [] new s
      simp only [List.cons_append, List.nil_append] at this
      rw [this, replaceAll_char c new s]
      simp
    · rw [replaceAll_step _ _ _ _ (by simpa using Ne.symm h), replaceAll_char o new s]
      simp [h]

/-- What a character becomes in an id string. -/
def spell (c : Char) : Str := if c = '/' then py"slash" else if c = ':' then py"colon" else [c]

/-- The same for the colon alone. -/
def spellColon (c : Char) : Str := if c = ':' then py"colon" else [c]

theorem spell_all (s : Str) :
    replaceAll (py":") (py"colon") (replaceAll (py"/") (py"slash") s) = s.flatMap spell := by
  rw [replaceAll_char, replaceAll_char]
  induction s with
  | nil => rfl
  | cons c s ih =>
    simp only [List.flatMap_cons, List.flatMap_append, ih]
    congr 1
    by_cases h1 : c = '/'
    · subst h1; decide
    · by_cases h2 : c = ':'
      · subst h2; decide
      · simp [spell, h1, h2]

/-- A prefix of a spelled text that cannot begin a spelled-out sign begins with a character that stays as it is. -/
theorem prefix_spell {x : Char} {w t : Str} (h : x :: w <+: t.flatMap spell)
    (h1 : ∀ u, ¬ x :: w <+: py"slash" ++ u) (h2 : ∀ u, ¬ x :: w <+: py"colon" ++ u) :
    ∃ t', t = x :: t' ∧ w <+: t'.flatMap spell := by
  cases t with
  | nil => simp at h
  | cons c t =>
    rw [List.flatMap_cons] at h
    unfold spell at h
    split at h
    · exact absurd h (h1 _)
    · split at h
      · exact absurd h (h2 _)
      · rw [List.singleton_append, List.cons_prefix_cons] at h
        exact ⟨t, by rw [h.1], h.2⟩

theorem prefix_spellColon {x : Char} {w t : Str} (h : x :: w <+: t.flatMap spellColon)
    (h2 : ∀ u, ¬ x :: w <+: py"colon" ++ u) :
    ∃ t', t = x :: t' ∧ w <+: t'.flatMap spellColon := by
  cases t with
  | nil => simp at h
  | cons c t =>
    rw [List.flatMap_cons] at h
    unfold spellColon at h
    split at h
    · exact absurd h (h2 _)
    · rw [List.singleton_append, List.cons_prefix_cons] at h
      exact ⟨t, by rw [h.1], h.2⟩

theorem not_infix_cons {w : Str} {c : Char} {s : Str} (h : ¬ w <:+: c :: s) : ¬ w <+: c :: s ∧ ¬ w <:+: s := by
  rw [List.infix_cons_iff, not_or] at h
  exact h

theorem unspell_slash : ∀ s : Str, ¬ py"slash" <:+: s →
    replaceAll (py"slash") (py"/") (s.flatMap spell) = s.flatMap spellColon
  | [], _ => rfl
  | c :: s, h => by
    obtain ⟨hp, hi⟩ := not_infix_cons h
    have ih := unspell_slash s hi
    rw [List.flatMap_cons, List.flatMap_cons]
    by_cases h1 : c = '/'
    · subst h1
      have e : spell '/' = py"slash" := rfl
      rw [e, replaceAll_match, ih]
      rfl
    · by_cases h2 : c = ':'
      · subst h2
        have e : spell ':' = py"colon" := rfl
        have e2 : spellColon ':' = py"colon" := rfl
        rw [e, e2]
        simp only [List.cons_append, List.nil_append]
        rw [replaceAll_step _ _ _ _ (by simp), replaceAll_step _ _ _ _ (by simp), replaceAll_step _ _ _ _ (by simp),
          replaceAll_step _ _ _ _ (by simp), replaceAll_step _ _ _ _ (by simp), ih]
      · have e : spell c = [c] := by simp [spell, h1, h2]
        have e2 : spellColon c = [c] := by simp [spellColon, h2]
        rw [e, e2, List.singleton_append, List.singleton_append, replaceAll_step, ih]
        intro hm
        rw [List.cons_prefix_cons] at hm
        obtain ⟨hc, hm⟩ := hm
        obtain ⟨t1, rfl, m1⟩ := prefix_spell hm (by simp) (by simp)
        obtain ⟨t2, rfl, m2⟩ := prefix_spell m1 (by simp) (by simp)
        obtain ⟨t3, rfl, m3⟩ := prefix_spell m2 (by simp) (by simp)
        obtain ⟨t4, rfl, m4⟩ := prefix_spell m3 (by simp) (by simp)
        apply hp
        rw [← hc]
        simp

theorem unspell_colon : ∀ s : Str, ¬ py"colon" <:+: s →
    replaceAll (py"colon") (py":") (s.flatMap spellColon) = s
  | [], _ => rfl
  | c :: s, h => by
    obtain ⟨hp, hi⟩ := not_infix_cons h
    have ih := unspell_colon s hi
    rw [List.flatMap_cons]
    by_cases h2 : c = ':'
    · subst h2
      have e : spellColon ':' = py"colon" := rfl
      rw [e, replaceAll_match, ih]
      rfl
    · have e2 : spellColon c = [c] := by simp [spellColon, h2]
      rw [e2, List.singleton_append, replaceAll_step, ih]
      intro hm
      rw [List.cons_prefix_cons] at hm
      obtain ⟨hc, hm⟩ := hm
      obtain ⟨t1, rfl, m1⟩ := prefix_spellColon hm (by simp)
      obtain ⟨t2, rfl, m2⟩ := prefix_spellColon m1 (by simp)
      obtain ⟨t3, rfl, m3⟩ := prefix_spellColon m2 (by simp)
      obtain ⟨t4, rfl, m4⟩ := prefix_spellColon m3 (by simp)
      apply hp
      rw [← hc]
      simp

/-- A text without the separator lies on one side of it. -/
theorem infix_separated {w : Str} {d : Char} (hd : d ∉ w) (hw : w ≠ []) : ∀ {a b : Str}, w <:+: a ++ d :: b →
    w <:+: a ∨ w <:+: b
  | [], b, h => by
    rw [List.nil_append, List.infix_cons_iff] at h
    rcases h with h | h
    · obtain ⟨x, xs, rfl⟩ := List.exists_cons_of_ne_nil hw
      rw [List.cons_prefix_cons] at h
      exact absurd h.1.symm (by intro e; exact hd (by simp [e]))
    · exact .inr h
  | c :: a, b, h => by
    rw [List.cons_append, List.infix_cons_iff] at h
    rcases h with h | h
    · left
      rw [List.infix_cons_iff]
      left
      -- the prefix ends before the separator
      obtain ⟨t, ht⟩ := h
      have : w.length ≤ (c :: a).length := by
        apply Nat.le_of_not_lt
        intro hl
        apply hd
        have e : (w ++ t)[(c :: a).length]? = some d := by
          rw [ht, ← List.cons_append, List.getElem?_append_right (Nat.le_refl _)]
          simp
        rw [List.getElem?_append_left hl] at e
        exact List.mem_of_getElem? e
      exact List.prefix_of_prefix_length_le ⟨t, ht⟩ ⟨d :: b, by simp⟩ this
    · rcases infix_separated hd hw h with h | h
      · left
        rw [List.infix_cons_iff]
        exact .inr h
      · exact .inr h

end Verif
