import Verif.Py.Basic

/-! # Lemmas about the Python notions -/

namespace Verif

/-! ## Decimal digits -/

/-- `isSpace` on code points. -/
theorem isSpace_of_decimal {c : Char} (h : (decimalValue c).isSome) : isSpace c = false := by
  unfold decimalValue at h
  rw [Option.isSome_map, List.find?_isSome] at h
  obtain ⟨z, hz, hc⟩ := h
  have key : ∀ z ∈ decimalZeros, ∀ k, k < 10 →
      ([(0x9, 0xd), (0x1c, 0x20), (0x85, 0x85), (0xa0, 0xa0), (0x1680, 0x1680), (0x2000, 0x200a),
        (0x2028, 0x2029), (0x202f, 0x202f), (0x205f, 0x205f), (0x3000, 0x3000)].any
        fun (r : Nat × Nat) => r.1 ≤ z + k && z + k ≤ r.2) = false := by decide +kernel
  simp only [Bool.and_eq_true, decide_eq_true_eq] at hc
  have hk := key z hz (c.toNat - z) (by omega)
  rw [show z + (c.toNat - z) = c.toNat by omega] at hk
  exact hk

theorem decimal_ne_minus : (decimalValue '-') = none := by decide +kernel
theorem decimal_ne_plus : (decimalValue '+') = none := by decide +kernel

theorem dropWhile_eq_self_of_all {α : Type} (p : α → Bool) (s : List α) (h : ∀ c ∈ s, p c = false) :
    s.dropWhile p = s := by
  cases s with
  | nil => rfl
  | cons a as => simp [List.dropWhile, h a (by simp)]

theorem strip_eq_self (s : Str) (h : ∀ c ∈ s, isSpace c = false) :
    ((s.dropWhile isSpace).reverse.dropWhile isSpace).reverse = s := by
  rw [dropWhile_eq_self_of_all isSpace s h, dropWhile_eq_self_of_all isSpace s.reverse (by simpa using h),
    List.reverse_reverse]

/-- `int()` of a text made of decimal digits only. -/
theorem pyInt_of_decimals (s : Str) (h : ∀ c ∈ s, (decimalValue c).isSome) :
    pyInt s = match pyIntDigits none false s with
      | some n => .ok (n : Int)
      | none => .error .valueError := by
  have hs : ∀ c ∈ s, isSpace c = false := fun c hc => isSpace_of_decimal (h c hc)
  unfold pyInt
  rw [strip_eq_self s hs]
  have h1 : ∀ r, s ≠ '-' :: r := fun r e => by
    have := h '-' (by simp [e])
    simp [decimal_ne_minus] at this
  have h2 : ∀ r, s ≠ '+' :: r := fun r e => by
    have := h '+' (by simp [e])
    simp [decimal_ne_plus] at this
  cases s with
  | nil => rfl
  | cons a r =>
    have h1' : a ≠ '-' := fun e => h1 r (by rw [e])
    have h2' : a ≠ '+' := fun e => h2 r (by rw [e])
    simp only []
    cases pyIntDigits none false (a :: r) <;> rfl

theorem digitChar_decimal (d : Nat) (h : d < 10) : decimalValue (digitChar d) = some d := by
  have key : ∀ d, d < 10 → decimalValue (digitChar d) = some d := by decide +kernel
  exact key d h

theorem digitChar_ascii (d : Nat) (h : d < 10) : isAsciiDigit (digitChar d) = true := by
  have key : ∀ d, d < 10 → isAsciiDigit (digitChar d) = true := by decide +kernel
  exact key d h

theorem digitChar_isDigit (d : Nat) (h : d < 10) : isDigit (digitChar d) = true := by
  simp [isDigit, digitChar_decimal d h]

/-- Appending digits and underscores to what `int()` reads. -/
theorem pyIntDigits_append (s : Str) (c : Char) (d : Nat) (hc : decimalValue c = some d) :
    ∀ acc us v, pyIntDigits acc us s = v → (s = [] → us = false) →
      pyIntDigits acc us (s ++ [c]) =
        match v with
        | some v => some (v * 10 + d)
        | none => if s = [] then some ((acc.getD 0) * 10 + d) else pyIntDigits acc us (s ++ [c]) := by
  induction s with
  | nil =>
    intro acc us v hv hus
    simp only [List.nil_append]
    have : us = false := hus rfl
    subst this
    simp only [pyIntDigits] at hv
    subst hv
    simp only [pyIntDigits, hc]
    cases acc <;> simp
  | cons x xs ih =>
    intro acc us v hv _
    cases v with
    | none => simp
    | some v =>
      simp only [List.cons_append]
      unfold pyIntDigits at hv ⊢
      cases hx : decimalValue x with
      | some dx =>
        simp only [hx] at hv ⊢
        have := ih _ false _ hv (fun _ => rfl)
        simpa using this
      | none =>
        simp only [hx] at hv ⊢
        by_cases hcond : (decide (x = '_') && acc.isSome && !us) = true
        · simp only [hcond, if_true] at hv ⊢
          by_cases hxs : xs = []
          · subst hxs
            simp [pyIntDigits] at hv
          · have := ih _ true _ hv (fun h => absurd h hxs)
            simpa using this
        · simp [hcond] at hv

/-! ## Decimal writing of natural numbers -/

theorem natStrAux_fuel (n : Nat) : ∀ f g, n < f → n < g → natStrAux f n = natStrAux g n := by
  induction n using Nat.strongRecOn with
  | ind n ih =>
    intro f g hf hg
    match f, g with
    | f + 1, g + 1 =>
      simp only [natStrAux]
      by_cases h : n < 10
      · simp [h]
      · simp only [h, if_false]
        rw [ih (n / 10) (by omega) f g (by omega) (by omega)]

theorem natStr_lt {n : Nat} (h : n < 10) : natStr n = [digitChar n] := by
  simp [natStr, natStrAux, h]

theorem natStr_ge {n : Nat} (h : 10 ≤ n) : natStr n = natStr (n / 10) ++ [digitChar (n % 10)] := by
  unfold natStr
  rw [natStrAux, if_neg (by omega), natStrAux_fuel (n / 10) n (n / 10 + 1) (by omega) (by omega)]

theorem natStr_ne_nil (n : Nat) : natStr n ≠ [] := by
  by_cases h : n < 10
  · simp [natStr_lt h]
  · simp [natStr_ge (Nat.le_of_not_lt h)]

/-- A property of all digit characters holds for all characters of `str(n)`. -/
theorem natStr_all (P : Char → Prop) (hP : ∀ d, d < 10 → P (digitChar d)) (n : Nat) : ∀ c ∈ natStr n, P c := by
  induction n using Nat.strongRecOn with
  | ind n ih =>
    by_cases h : n < 10
    · rw [natStr_lt h]; simpa using hP n h
    · rw [natStr_ge (Nat.le_of_not_lt h)]
      intro c hc
      rw [List.mem_append] at hc
      cases hc with
      | inl hc => exact ih (n / 10) (by omega) c hc
      | inr hc =>
        simp at hc
        subst hc
        exact hP _ (Nat.mod_lt _ (by omega))

theorem natStr_decimal (n : Nat) : ∀ c ∈ natStr n, (decimalValue c).isSome :=
  natStr_all _ (fun d h => by simp [digitChar_decimal d h]) n

theorem natStr_ascii (n : Nat) : ∀ c ∈ natStr n, isAsciiDigit c = true :=
  natStr_all _ digitChar_ascii n

theorem natStr_isDigit (n : Nat) : ∀ c ∈ natStr n, isDigit c = true :=
  natStr_all _ digitChar_isDigit n

theorem isDigitStr_natStr (n : Nat) : isDigitStr (natStr n) = true := by
  simp only [isDigitStr, Bool.and_eq_true, Bool.not_eq_true', List.all_eq_true]
  refine ⟨?_, natStr_isDigit n⟩
  cases h : natStr n with
  | nil => exact absurd h (natStr_ne_nil n)
  | cons => rfl

theorem pyIntDigits_natStr (n : Nat) : pyIntDigits none false (natStr n) = some n := by
  induction n using Nat.strongRecOn with
  | ind n ih =>
    by_cases h : n < 10
    · rw [natStr_lt h]; simp [pyIntDigits, digitChar_decimal n h]
    · have h10 := Nat.le_of_not_lt h
      rw [natStr_ge h10]
      have := pyIntDigits_append (natStr (n / 10)) (digitChar (n % 10)) (n % 10)
        (digitChar_decimal _ (Nat.mod_lt _ (by omega))) none false _ (ih (n / 10) (by omega)) (fun _ => rfl)
      rw [this]
      simp
      omega

/-- `int(str(n)) == n`. -/
theorem pyInt_natStr (n : Nat) : pyInt (natStr n) = .ok (n : Int) := by
  rw [pyInt_of_decimals _ (natStr_decimal n), pyIntDigits_natStr]

theorem natStr_injective {m n : Nat} (h : natStr m = natStr n) : m = n := by
  have hm := pyIntDigits_natStr m
  rw [h, pyIntDigits_natStr] at hm
  exact (Option.some.inj hm).symm

/-- The first digit of a positive number is not zero. -/
theorem natStr_head_ne_zero (n : Nat) (hn : 0 < n) : ∃ d s, 0 < d ∧ d < 10 ∧ natStr n = digitChar d :: s := by
  induction n using Nat.strongRecOn with
  | ind n ih =>
    by_cases h : n < 10
    · exact ⟨n, [], hn, h, natStr_lt h⟩
    · obtain ⟨d, s, h0, h1, hs⟩ := ih (n / 10) (by omega) (by omega)
      exact ⟨d, s ++ [digitChar (n % 10)], h0, h1, by rw [natStr_ge (Nat.le_of_not_lt h), hs]; rfl⟩

end Verif
