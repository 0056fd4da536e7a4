import Verif.Model.Numerals
import Verif.Spec.Numerals
import Verif.Proofs.PyBasic

/-! # Lemmas about Roman numerals -/

namespace Verif

/-! ## Writing -/

theorem find_exists (i : Int) (h : 0 < i) :
    ∃ t v, romanNumerals.find? (fun tv => decide ((tv.2 : Int) ≤ i)) = some (t, v) ∧ 0 < v ∧ (v : Int) ≤ i := by
  cases hf : romanNumerals.find? (fun tv => decide ((tv.2 : Int) ≤ i)) with
  | none =>
    rw [List.find?_eq_none] at hf
    have := hf (py"I", 1) (by simp [romanNumerals])
    simp at this
    omega
  | some tv =>
    refine ⟨tv.1, tv.2, rfl, ?_, ?_⟩
    · have hm := List.mem_of_find?_eq_some hf
      have key : ∀ tv ∈ romanNumerals, 0 < tv.2 := by decide
      exact key tv hm
    · have := List.find?_some hf
      simpa using this

theorem romanLoop_acc (f : Nat) : ∀ i r, romanLoop f i r = r ++ romanLoop f i [] := by
  induction f with
  | zero => intro i r; simp [romanLoop]
  | succ f ih =>
    intro i r
    simp only [romanLoop]
    by_cases h : i > 0
    · simp only [h, if_true]
      obtain ⟨t, v, hf, _, _⟩ := find_exists i h
      simp only [hf]
      rw [ih, ih (i - v) ([] ++ t)]
      simp
    · simp [h]

/-- The value of the number is enough fuel for the writing loop. -/
theorem romanLoop_fuel (f : Nat) : ∀ (i : Int) r, i.toNat ≤ f → romanLoop f i r = romanLoop i.toNat i r := by
  suffices h : ∀ (f g : Nat) (i : Int) r, i.toNat ≤ f → i.toNat ≤ g → romanLoop f i r = romanLoop g i r by
    intro i r hi
    exact h f i.toNat i r hi (Nat.le_refl _)
  intro f
  induction f with
  | zero =>
    intro g i r hf hg
    have : ¬ i > 0 := by omega
    cases g <;> simp [romanLoop, this]
  | succ f ih =>
    intro g i r hf hg
    by_cases h : i > 0
    · cases g with
      | zero => omega
      | succ g =>
        obtain ⟨t, v, hfind, hv, hvi⟩ := find_exists i h
        simp only [romanLoop, h, if_true, hfind]
        exact ih g _ _ (by omega) (by omega)
    · cases g <;> simp [romanLoop, h]

theorem find_thousand (i : Int) (h : 1000 ≤ i) :
    romanNumerals.find? (fun tv => decide ((tv.2 : Int) ≤ i)) = some (py"M", 1000) := by
  simp [romanNumerals, h]

theorem intToTextRoman_thousand (n : Nat) (h : 1000 ≤ n) :
    intToTextRoman n = 'M' :: intToTextRoman ((n - 1000 : Nat) : Int) := by
  unfold intToTextRoman
  obtain ⟨m, rfl⟩ : ∃ m, n = m + 1 := ⟨n - 1, by omega⟩
  rw [show ((m + 1 : Nat) : Int).toNat = m + 1 by omega]
  simp only [romanLoop]
  rw [if_pos (by omega), find_thousand _ (by omega)]
  simp only []
  rw [romanLoop_acc, show (((m + 1 : Nat) : Int) - ((1000 : Nat) : Int)) = ((m + 1 - 1000 : Nat) : Int) by omega,
    romanLoop_fuel m _ _ (by omega)]
  simp only [List.nil_append, List.cons_append]

theorem intToTextRoman_small : ∀ n, n < 1000 → intToTextRoman ((n : Nat) : Int) = Spec.roman n := by
  decide +kernel

theorem intToTextRoman_eq (n : Nat) : intToTextRoman n = Spec.roman n := by
  induction n using Nat.strongRecOn with
  | ind n ih =>
    by_cases h : n < 1000
    · exact intToTextRoman_small n h
    · rw [intToTextRoman_thousand n (by omega), ih (n - 1000) (by omega)]
      unfold Spec.roman
      rw [show n / 1000 = (n - 1000) / 1000 + 1 by omega, show n / 100 % 10 = (n - 1000) / 100 % 10 by omega,
        show n / 10 % 10 = (n - 1000) / 10 % 10 by omega, show n % 10 = (n - 1000) % 10 by omega]
      simp [List.replicate_succ]

/-! ## Reading -/

/-- The table lookup of the reading loop. -/
def romanHead (s : Str) : Option (Str × Nat) := romanNumerals.find? fun tv => tv.1 == s.take tv.1.length

theorem romanHead_some {s : Str} {t : Str} {v : Nat} (h : romanHead s = some (t, v)) :
    t ≠ [] ∧ t.length ≤ 2 ∧ 0 < v ∧ s = t ++ s.drop t.length := by
  have hm := List.mem_of_find?_eq_some h
  have key : ∀ tv ∈ romanNumerals, tv.1 ≠ [] ∧ tv.1.length ≤ 2 ∧ 0 < tv.2 := by decide
  have hp : t == s.take t.length := by simpa using List.find?_some h
  have hk := key _ hm
  refine ⟨hk.1, hk.2.1, hk.2.2, ?_⟩
  have ht : t = s.take t.length := by simpa using hp
  conv => lhs; rw [← List.take_append_drop t.length s]
  rw [← ht]

theorem readRomanLoop_succ (f : Nat) (s : Str) (r : Nat) (hs : s ≠ []) :
    readRomanLoop (f + 1) s r = match romanHead s with
      | some (t, v) => readRomanLoop f (s.drop t.length) (r + v)
      | none => (r, s) := by
  simp only [readRomanLoop, romanHead]
  rw [if_neg (by simpa using hs)]
  cases romanNumerals.find? (fun tv => tv.1 == s.take tv.1.length) <;> rfl

/-- The reading loop consumes everything exactly if there are only Roman letters. -/
theorem readRomanLoop_rest (f : Nat) : ∀ s r, s.length ≤ f →
    ((readRomanLoop f s r).2 = [] ↔ ∀ c ∈ s, c ∈ Spec.romanLetters) ∧ r ≤ (readRomanLoop f s r).1 ∧
    (s ≠ [] → (readRomanLoop f s r).2 = [] → r < (readRomanLoop f s r).1) := by
  induction f with
  | zero =>
    intro s r hf
    have : s = [] := List.length_eq_zero_iff.mp (by omega)
    subst this
    simp [readRomanLoop]
  | succ f ih =>
    intro s r hf
    by_cases hs : s = []
    · subst hs; simp [readRomanLoop]
    · rw [readRomanLoop_succ f s r hs]
      cases hh : romanHead s with
      | none =>
        simp only []
        refine ⟨⟨fun h => absurd h hs, fun h => ?_⟩, Nat.le_refl _, fun _ h => absurd h hs⟩
        obtain ⟨c, t, rfl⟩ := List.exists_cons_of_ne_nil hs
        have hc := h c (by simp)
        have hn := List.find?_eq_none.mp hh
        have all : ∀ c ∈ Spec.romanLetters, ∃ v, ([c], v) ∈ romanNumerals := by
          intro c hc
          simp only [Spec.romanLetters, List.mem_cons, List.not_mem_nil, or_false] at hc
          rcases hc with rfl | rfl | rfl | rfl | rfl | rfl | rfl
          · exact ⟨1, by decide⟩
          · exact ⟨5, by decide⟩
          · exact ⟨10, by decide⟩
          · exact ⟨50, by decide⟩
          · exact ⟨100, by decide⟩
          · exact ⟨500, by decide⟩
          · exact ⟨1000, by decide⟩
        obtain ⟨v, hv⟩ := all c hc
        exact absurd (hn _ hv) (by simp)
      | some tv =>
        obtain ⟨t, v⟩ := tv
        obtain ⟨h1, _, h3, h4⟩ := romanHead_some hh
        have letters : ∀ tv ∈ romanNumerals, ∀ c ∈ tv.1, c ∈ Spec.romanLetters := by decide
        have ht := letters _ (List.mem_of_find?_eq_some hh)
        have hpos := List.length_pos_iff.mpr h1
        obtain ⟨i1, i2, _⟩ := ih (s.drop t.length) (r + v) (by rw [List.length_drop]; omega)
        simp only []
        refine ⟨?_, by omega, fun _ _ => by omega⟩
        rw [i1]
        constructor
        · intro h c hc
          rw [h4, List.mem_append] at hc
          exact hc.elim (ht c) (h c)
        · intro h c hc
          exact h c (List.mem_of_mem_drop hc)

/-- The length of the text is enough fuel for the reading loop. -/
theorem readRomanLoop_fuel (f : Nat) : ∀ g s r, s.length ≤ f → s.length ≤ g →
    readRomanLoop f s r = readRomanLoop g s r := by
  induction f with
  | zero =>
    intro g s r hf _
    have : s = [] := List.length_eq_zero_iff.mp (by omega)
    subst this
    cases g <;> simp [readRomanLoop]
  | succ f ih =>
    intro g s r hf hg
    by_cases hs : s = []
    · subst hs; cases g <;> simp [readRomanLoop]
    · cases g with
      | zero => exact absurd (List.length_eq_zero_iff.mp (by omega)) hs
      | succ g =>
        rw [readRomanLoop_succ f s r hs, readRomanLoop_succ g s r hs]
        cases hh : romanHead s with
        | none => rfl
        | some tv =>
          obtain ⟨t, v⟩ := tv
          have h1 := (romanHead_some hh).1
          have hl : 0 < t.length := List.length_pos_iff.mpr h1
          have hlen : (s.drop t.length).length ≤ f := by simp; omega
          have hlen' : (s.drop t.length).length ≤ g := by simp; omega
          exact ih g _ _ hlen hlen'

theorem readRomanLoop_acc (f : Nat) : ∀ s r,
    readRomanLoop f s r = ((readRomanLoop f s 0).1 + r, (readRomanLoop f s 0).2) := by
  induction f with
  | zero => intro s r; simp [readRomanLoop]
  | succ f ih =>
    intro s r
    by_cases hs : s = []
    · subst hs; simp [readRomanLoop]
    · rw [readRomanLoop_succ f s r hs, readRomanLoop_succ f s 0 hs]
      cases hh : romanHead s with
      | none => simp
      | some tv =>
        simp only []
        rw [ih _ (r + tv.2), ih _ (0 + tv.2)]
        simp only [Prod.mk.injEq, and_true]
        omega

/-- A postfix that does not begin with a Roman letter. -/
def RomanStop (p : Str) : Prop := ∀ c, p.head? = some c → c ∉ Spec.romanLetters

theorem find?_congr_mem {α : Type} {p q : α → Bool} {l : List α} (h : ∀ x ∈ l, p x = q x) :
    l.find? p = l.find? q := by
  induction l with
  | nil => rfl
  | cons a as ih =>
    have ha := h a (by simp)
    simp only [List.find?, ha]
    rw [ih (fun x hx => h x (by simp [hx]))]

theorem romanHead_eq_of {s p : Str} (hp : RomanStop p) (hs : s ≠ []) : romanHead (s ++ p) = romanHead s := by
  unfold romanHead
  apply find?_congr_mem
  match s, p with
  | [], _ => exact absurd rfl hs
  | a :: b :: r, p => simp [romanNumerals]
  | [a], [] => simp
  | [a], c :: cs =>
    have hc : c ∉ Spec.romanLetters := hp c rfl
    simp only [Spec.romanLetters, List.mem_cons, List.not_mem_nil, or_false, not_or] at hc
    obtain ⟨h1, h2, h3, h4, h5, h6, h7⟩ := hc
    simp [romanNumerals, Ne.symm h2, Ne.symm h3, Ne.symm h4, Ne.symm h5, Ne.symm h6, Ne.symm h7]

theorem romanHead_none_of_stop {p : Str} (hp : RomanStop p) : romanHead p = none := by
  unfold romanHead
  rw [List.find?_eq_none]
  match p with
  | [] => decide
  | c :: cs =>
    have hc : c ∉ Spec.romanLetters := hp c rfl
    simp only [Spec.romanLetters, List.mem_cons, List.not_mem_nil, or_false, not_or] at hc
    obtain ⟨h1, h2, h3, h4, h5, h6, h7⟩ := hc
    simp [romanNumerals, Ne.symm h1, Ne.symm h2, Ne.symm h3, Ne.symm h4, Ne.symm h5, Ne.symm h6, Ne.symm h7]

/-- Reading stops in front of a postfix that does not begin with a Roman letter. -/
theorem readRomanLoop_append {p : Str} (hp : RomanStop p) (f : Nat) : ∀ s r, s.length ≤ f →
    (readRomanLoop f s r).2 = [] →
    readRomanLoop (f + p.length) (s ++ p) r = ((readRomanLoop f s r).1, p) := by
  induction f with
  | zero =>
    intro s r hf _
    have : s = [] := List.length_eq_zero_iff.mp (by omega)
    subst this
    simp only [List.nil_append, Nat.zero_add]
    match p, hp with
    | [], _ => simp [readRomanLoop]
    | c :: cs, hp =>
      rw [List.length_cons, readRomanLoop_succ _ _ _ (by simp), romanHead_none_of_stop hp]
      rfl
  | succ f ih =>
    intro s r hf hend
    by_cases hs : s = []
    · subst hs
      match p, hp with
      | [], _ => simp [readRomanLoop]
      | c :: cs, hp =>
        simp only [List.nil_append]
        rw [show f + 1 + (c :: cs).length = (f + (c :: cs).length) + 1 by omega,
          readRomanLoop_succ _ _ _ (by simp), romanHead_none_of_stop hp]
        simp [readRomanLoop]
    · rw [show f + 1 + p.length = (f + p.length) + 1 by omega,
        readRomanLoop_succ _ _ _ (by simp [hs]), romanHead_eq_of hp hs]
      rw [readRomanLoop_succ _ _ _ hs] at hend ⊢
      cases hh : romanHead s with
      | none => rw [hh] at hend; exact absurd hend hs
      | some tv =>
        obtain ⟨t, v⟩ := tv
        rw [hh] at hend
        simp only [] at hend ⊢
        have h1 := romanHead_some hh
        have hl : 0 < t.length := List.length_pos_iff.mpr h1.1
        have hts : t.length ≤ s.length := by
          have := congrArg List.length h1.2.2.2
          simp at this
          omega
        rw [List.drop_append_of_le_length hts]
        exact ih _ _ (by simp; omega) hend

theorem readRoman_M (s : Str) (r : Nat) :
    readRomanLoop ('M' :: s).length ('M' :: s) r = readRomanLoop s.length s (r + 1000) := by
  rw [List.length_cons, readRomanLoop_succ _ _ _ (by simp)]
  have : romanHead ('M' :: s) = some (py"M", 1000) := by simp [romanHead, romanNumerals]
  rw [this]
  simp

theorem readRoman_small : ∀ n, n < 1000 →
    readRomanLoop (Spec.roman n).length (Spec.roman n) 0 = (n, []) := by
  decide +kernel

theorem readRoman (n : Nat) : readRomanLoop (Spec.roman n).length (Spec.roman n) 0 = (n, []) := by
  induction n using Nat.strongRecOn with
  | ind n ih =>
    by_cases h : n < 1000
    · exact readRoman_small n h
    · have hr : Spec.roman n = 'M' :: Spec.roman (n - 1000) := by
        rw [← intToTextRoman_eq, ← intToTextRoman_eq, intToTextRoman_thousand n (by omega)]
      rw [hr, readRoman_M, readRomanLoop_acc, ih (n - 1000) (by omega)]
      simp only [Prod.mk.injEq, and_true]
      omega

/-- Reading a numeral that is followed by a postfix not beginning with a Roman letter. -/
theorem textToIntRomanWithPostfix_roman (n : Nat) (hn : 0 < n) (p : Str) (hp : RomanStop p) :
    textToIntRomanWithPostfix (Spec.roman n ++ p) = .ok (n, p) := by
  unfold textToIntRomanWithPostfix
  have h := readRomanLoop_append hp (Spec.roman n).length (Spec.roman n) 0 (Nat.le_refl _)
    (by rw [readRoman])
  rw [List.length_append, h, readRoman]
  simp only []
  rw [if_neg (by omega)]

/-! ## What is read, for any text -/

/-- The table lookup finds a pair, or else a letter. -/
theorem romanHead_cases {c : Char} {s t : Str} {v : Nat} (h : romanHead (c :: s) = some (t, v)) :
    (∃ d, t = [c, d] ∧ s = d :: s.drop 1 ∧ (c, d, v) ∈ Spec.romanPairs) ∨
      (t = [c] ∧ (c, v) ∈ Spec.romanUnits ∧ ∀ d w, s.head? = some d → (c, d, w) ∉ Spec.romanPairs) := by
  have hm := List.mem_of_find?_eq_some h
  obtain ⟨h1, h2, -, h4⟩ := romanHead_some h
  have table : ∀ tv ∈ romanNumerals, (∃ p ∈ Spec.romanPairs, tv = ([p.1, p.2.1], p.2.2)) ∨
      ∃ p ∈ Spec.romanUnits, tv = ([p.1], p.2) := by decide
  rcases table _ hm with ⟨p, hp, he⟩ | ⟨p, hp, he⟩
  · obtain ⟨a, b, w⟩ := p
    simp only [Prod.mk.injEq] at he
    obtain ⟨rfl, rfl⟩ := he
    simp only [List.length_cons, List.length_nil, List.cons_append, List.nil_append, List.cons.injEq] at h4
    obtain ⟨rfl, h4⟩ := h4
    refine .inl ⟨b, rfl, ?_, hp⟩
    simpa using h4
  · obtain ⟨a, w⟩ := p
    simp only [Prod.mk.injEq] at he
    obtain ⟨rfl, rfl⟩ := he
    simp only [List.length_cons, List.length_nil, List.cons_append, List.nil_append, List.cons.injEq] at h4
    obtain ⟨rfl, -⟩ := h4
    refine .inr ⟨rfl, hp, ?_⟩
    intro d w' hd hpair
    cases s with
    | nil => cases hd
    | cons e s =>
      injection hd with hd
      subst hd
      have key : ∀ p ∈ Spec.romanPairs, ∀ u, ∀ s : Str, romanHead (p.1 :: p.2.1 :: s) ≠ some ([p.1], u) := by
        intro p hp u s
        simp only [Spec.romanPairs, List.mem_cons, List.not_mem_nil, or_false] at hp
        rcases hp with rfl | rfl | rfl | rfl | rfl | rfl <;> simp [romanHead, romanNumerals]
      exact key _ hpair v s h

/-- The lookup finds something for each Roman letter. -/
theorem romanHead_none {c : Char} {s : Str} (h : romanHead (c :: s) = none) : c ∉ Spec.romanLetters := by
  intro hc
  have hn := List.find?_eq_none.mp h
  have all : ∀ c ∈ Spec.romanLetters, ∃ tv ∈ romanNumerals, tv.1 = [c] := by decide
  obtain ⟨tv, hv, he⟩ := all c hc
  exact absurd (hn _ hv) (by simp [he])

theorem readRomanLoop_value (f : Nat) : ∀ s r, s.length ≤ f → ∃ letters n, s = letters ++ (readRomanLoop f s r).2 ∧
    RomanStop (readRomanLoop f s r).2 ∧ Spec.RomanValue letters n ∧ (readRomanLoop f s r).1 = r + n := by
  induction f with
  | zero =>
    intro s r hf
    have : s = [] := List.length_eq_zero_iff.mp (by omega)
    subst this
    exact ⟨[], 0, by simp [readRomanLoop], by simp [readRomanLoop, RomanStop], .nil, by simp [readRomanLoop]⟩
  | succ f ih =>
    intro s r hf
    cases s with
    | nil => exact ⟨[], 0, by simp [readRomanLoop], by simp [readRomanLoop, RomanStop], .nil, by simp [readRomanLoop]⟩
    | cons c s =>
      rw [readRomanLoop_succ f _ r (by simp)]
      cases hh : romanHead (c :: s) with
      | none =>
        refine ⟨[], 0, rfl, ?_, .nil, rfl⟩
        intro d hd
        injection hd with hd
        subst hd
        exact romanHead_none hh
      | some tv =>
        obtain ⟨t, v⟩ := tv
        dsimp only
        simp only [List.length_cons] at hf
        rcases romanHead_cases hh with ⟨d, rfl, hs, hp⟩ | ⟨rfl, hu, hp⟩
        · obtain ⟨letters, n, h1, h2, h3, h4⟩ := ih (s.drop 1) (r + v) (by rw [List.length_drop]; omega)
          refine ⟨c :: d :: letters, v + n, ?_, h2, .pair hp h3, ?_⟩
          · show c :: s = c :: d :: (letters ++ _)
            rw [show (List.drop [c, d].length (c :: s)) = s.drop 1 from rfl, ← h1, ← hs]
          · rw [show (List.drop [c, d].length (c :: s)) = s.drop 1 from rfl, h4]
            omega
        · obtain ⟨letters, n, h1, h2, h3, h4⟩ := ih s (r + v) (by omega)
          refine ⟨c :: letters, v + n, ?_, h2, .unit hu ?_ h3, ?_⟩
          · show c :: s = c :: (letters ++ _)
            rw [show (List.drop [c].length (c :: s)) = s from rfl, ← h1]
          · intro d w hd
            refine hp d w ?_
            rw [h1]
            cases letters with
            | nil => cases hd
            | cons e letters => exact hd
          · rw [show (List.drop [c].length (c :: s)) = s from rfl, h4]
            omega

theorem romanValue_letters {s : Str} {n : Nat} (h : Spec.RomanValue s n) : ∀ c ∈ s, c ∈ Spec.romanLetters := by
  have pairs : ∀ p ∈ Spec.romanPairs, p.1 ∈ Spec.romanLetters ∧ p.2.1 ∈ Spec.romanLetters := by decide
  have units : ∀ p ∈ Spec.romanUnits, p.1 ∈ Spec.romanLetters := by decide
  induction h with
  | nil => simp
  | pair hp _ ih =>
    intro c hc
    rcases List.mem_cons.mp hc with rfl | hc
    · exact (pairs _ hp).1
    · rcases List.mem_cons.mp hc with rfl | hc
      · exact (pairs _ hp).2
      · exact ih c hc
  | unit hu _ _ ih =>
    intro c hc
    rcases List.mem_cons.mp hc with rfl | hc
    · exact units _ hu
    · exact ih c hc

theorem romanValue_functional {s : Str} {n m : Nat} (h : Spec.RomanValue s n) (h' : Spec.RomanValue s m) : n = m := by
  have pairs : ∀ p ∈ Spec.romanPairs, ∀ q ∈ Spec.romanPairs, p.1 = q.1 → p.2.1 = q.2.1 → p.2.2 = q.2.2 := by decide
  have units : ∀ p ∈ Spec.romanUnits, ∀ q ∈ Spec.romanUnits, p.1 = q.1 → p.2 = q.2 := by decide
  induction h generalizing m with
  | nil =>
    cases h'
    rfl
  | pair hp _ ih =>
    cases h' with
    | pair hp' hs' =>
      have := pairs _ hp _ hp' rfl rfl
      have := ih hs'
      dsimp only at *
      omega
    | unit hu' hp' hs' => exact absurd hp (hp' _ _ rfl)
  | unit hu hp _ ih =>
    cases h' with
    | pair hp' hs' => exact absurd hp' (hp _ _ rfl)
    | unit hu' hp' hs' =>
      have := units _ hu _ hu' rfl
      have := ih hs'
      dsimp only at *
      omega

theorem romanValue_pos {s : Str} {n : Nat} (h : Spec.RomanValue s n) (hs : s ≠ []) : 0 < n := by
  have pairs : ∀ p ∈ Spec.romanPairs, 0 < p.2.2 := by decide
  have units : ∀ p ∈ Spec.romanUnits, 0 < p.2 := by decide
  cases h with
  | nil => exact absurd rfl hs
  | pair hp _ =>
    have := pairs _ hp
    dsimp only at this
    omega
  | unit hu _ _ =>
    have := units _ hu
    dsimp only at this
    omega

theorem roman_split {a b c d : Str} (ha : ∀ x ∈ a, x ∈ Spec.romanLetters) (hc : ∀ x ∈ c, x ∈ Spec.romanLetters) (hb : RomanStop b)
    (hd : RomanStop d) (h : a ++ b = c ++ d) : a = c ∧ b = d := by
  induction a generalizing c with
  | nil =>
    cases c with
    | nil => exact ⟨rfl, h⟩
    | cons y c =>
      have hy : b.head? = some y := by
        rw [show b = y :: (c ++ d) from h]
        rfl
      exact absurd (hc y List.mem_cons_self) (hb y hy)
  | cons x a ih =>
    cases c with
    | nil =>
      have hx : d.head? = some x := by
        rw [show d = x :: (a ++ b) from h.symm]
        rfl
      exact absurd (ha x List.mem_cons_self) (hd x hx)
    | cons y c =>
      injection h with h1 h2
      obtain ⟨h3, h4⟩ := ih (fun z hz => ha z (List.mem_cons_of_mem _ hz)) (fun z hz => hc z (List.mem_cons_of_mem _ hz)) h2
      exact ⟨by rw [h1, h3], h4⟩

/-- The number is read exactly if the text begins with a Roman letter. -/
theorem romanToArabic_iff {s i : Str} : romanToArabicWithPostfix s = .ok i ↔ Spec.RomanNumber s i := by
  obtain ⟨letters, n, h1, h2, h3, h4⟩ := readRomanLoop_value s.length s 0 (Nat.le_refl _)
  rw [Nat.zero_add] at h4
  unfold romanToArabicWithPostfix textToIntRomanWithPostfix
  constructor
  · intro h
    dsimp only at h
    by_cases hr : (readRomanLoop s.length s 0).1 = 0
    · rw [if_pos hr] at h
      cases h
    · rw [if_neg hr] at h
      injection (show Except.ok (natStr (readRomanLoop s.length s 0).1 ++ (readRomanLoop s.length s 0).2) = .ok i from h) with h
      refine ⟨letters, _, n, h1, ?_, h2, h3, by rw [← h, h4]⟩
      intro hl
      subst hl
      cases h3
      exact hr h4
  · rintro ⟨letters', rest, m, g1, g2, g3, g4, rfl⟩
    obtain ⟨e1, e2⟩ := roman_split (romanValue_letters h3) (romanValue_letters g4) h2 g3 (h1.symm.trans g1)
    subst e1
    have := romanValue_functional h3 g4
    subst this
    have hpos := romanValue_pos h3 g2
    dsimp only
    rw [if_neg (by omega), h4, e2]
    rfl

end Verif
