import Verif.Model.Identifiers
import Verif.Spec.Identifiers
import Verif.Proofs.PyBasic

/-! # Lemmas about identifiers -/

namespace Verif

/-! ## Order of texts -/

theorem strLt_irrefl : ∀ s, strLt s s = false
  | [] => rfl
  | a :: as => by simp [strLt, strLt_irrefl as]

theorem char_eq_of_toNat {a b : Char} (h : a.toNat = b.toNat) : a = b := by
  have h1 : a.val.toNat = b.val.toNat := h
  exact Char.ext (UInt32.toNat_inj.mp h1)

theorem strLt_trans : ∀ a b c, strLt a b = true → strLt b c = true → strLt a c = true
  | _, _, [], _, h2 => by cases ‹Str› <;> simp [strLt] at h2
  | _, [], _ :: _, h1, _ => by cases ‹Str› <;> simp [strLt] at h1
  | [], _ :: _, _ :: _, _, _ => rfl
  | a :: as, b :: bs, c :: cs, h1, h2 => by
    simp only [strLt] at *
    by_cases hab : a = b
    · subst hab
      simp only [if_true] at h1
      by_cases hac : a = c
      · simp only [hac, if_true] at h2 ⊢
        exact strLt_trans as bs cs h1 h2
      · simpa [hac] using h2
    · simp only [hab, if_false, decide_eq_true_eq] at h1
      by_cases hbc : b = c
      · subst hbc; simp [hab, h1]
      · simp only [hbc, if_false, decide_eq_true_eq] at h2
        have : a ≠ c := by intro e; subst e; omega
        simp only [this, if_false, decide_eq_true_eq]
        omega

theorem strLt_total : ∀ a b, strLt a b = false → strLt b a = false → a = b
  | [], [], _, _ => rfl
  | [], _ :: _, h, _ => by simp [strLt] at h
  | _ :: _, [], _, h => by simp [strLt] at h
  | a :: as, b :: bs, h1, h2 => by
    simp only [strLt] at h1 h2
    by_cases hab : a = b
    · subst hab
      simp only [if_true] at h1 h2
      rw [strLt_total as bs h1 h2]
    · simp only [hab, Ne.symm hab, if_false, decide_eq_false_iff_not] at h1 h2
      exact absurd (char_eq_of_toNat (by omega)) hab

theorem strLt_asymm {a b : Str} (h : strLt a b = true) : strLt b a = false := by
  cases hb : strLt b a with
  | false => rfl
  | true =>
    have := strLt_trans a b a h hb
    rw [strLt_irrefl] at this
    exact this.symm

/-! ## Order of parts -/

/-- A part of the given kind: a number if `d`, else a text. -/
def IdPart.kind : IdPart → Bool
  | .str _ => false
  | .num _ => true

/-- The parts alternate, beginning with the given kind. -/
def Alt : Bool → List IdPart → Prop
  | _, [] => True
  | d, p :: ps => p.kind = d ∧ Alt (!d) ps

theorem IdPart.lt_ok {a b : IdPart} (h : a.kind = b.kind) : ∃ r, a.lt b = .ok r := by
  cases a <;> cases b <;> simp_all [IdPart.kind, IdPart.lt]

theorem IdPart.lt_trans {a b c : IdPart} (h1 : a.lt b = .ok true) (h2 : b.lt c = .ok true) : a.lt c = .ok true := by
  cases a <;> cases b <;> cases c <;> simp_all [IdPart.lt]
  · exact strLt_trans _ _ _ h1 h2
  · omega

theorem IdPart.lt_asymm {a b : IdPart} (h1 : a.lt b = .ok true) : b.lt a = .ok false := by
  cases a <;> cases b <;> simp_all [IdPart.lt]
  · exact strLt_asymm h1
  · omega

theorem IdPart.lt_total {a b : IdPart} (h1 : a.lt b = .ok false) (h2 : b.lt a = .ok false) : a = b := by
  cases a <;> cases b <;> simp_all [IdPart.lt]
  · exact strLt_total _ _ h1 h2
  · omega

theorem partsLt_ok : ∀ (d : Bool) (a b : List IdPart), Alt d a → Alt d b → ∃ r, partsLt a b = .ok r
  | _, _, [], _, _ => ⟨false, by cases ‹List IdPart› <;> rfl⟩
  | _, [], _ :: _, _, _ => ⟨true, rfl⟩
  | d, a :: as, b :: bs, ha, hb => by
    simp only [partsLt]
    by_cases h : a = b
    · simp only [h, if_true]; exact partsLt_ok _ as bs ha.2 hb.2
    · simp only [h, if_false]; exact IdPart.lt_ok (ha.1.trans hb.1.symm)

theorem partsLt_irrefl : ∀ a, partsLt a a = .ok false
  | [] => rfl
  | a :: as => by simp [partsLt, partsLt_irrefl as]

theorem IdPart.lt_irrefl (a : IdPart) : a.lt a = .ok false := by
  cases a <;> simp [IdPart.lt, strLt_irrefl]

theorem IdPart.ne_of_lt {a b : IdPart} (h : a.lt b = .ok true) : a ≠ b := by
  intro e; subst e; rw [IdPart.lt_irrefl] at h; simp at h

theorem partsLt_trans : ∀ a b c, partsLt a b = .ok true → partsLt b c = .ok true → partsLt a c = .ok true
  | _, _, [], _, h2 => by cases ‹List IdPart› <;> simp [partsLt] at h2
  | _, [], _ :: _, h1, _ => by cases ‹List IdPart› <;> simp [partsLt] at h1
  | [], _ :: _, _ :: _, _, _ => rfl
  | a :: as, b :: bs, c :: cs, h1, h2 => by
    simp only [partsLt] at *
    by_cases hab : a = b
    · subst hab
      simp only [if_true] at h1
      by_cases hac : a = c
      · simp only [hac, if_true] at h2 ⊢
        exact partsLt_trans as bs cs h1 h2
      · simpa [hac] using h2
    · simp only [hab, if_false] at h1
      by_cases hbc : b = c
      · subst hbc; simp [hab, h1]
      · simp only [hbc, if_false] at h2
        have h := IdPart.lt_trans h1 h2
        simp only [IdPart.ne_of_lt h, if_false]
        exact h

theorem partsLt_asymm : ∀ a b, partsLt a b = .ok true → partsLt b a = .ok false
  | [], [], h => by simp [partsLt] at h
  | [], _ :: _, _ => rfl
  | _ :: _, [], h => by simp [partsLt] at h
  | a :: as, b :: bs, h => by
    simp only [partsLt] at *
    by_cases hab : a = b
    · simp only [hab, if_true] at h ⊢
      exact partsLt_asymm as bs h
    · simp only [hab, Ne.symm hab, if_false] at h ⊢
      exact IdPart.lt_asymm h

theorem partsLt_total : ∀ a b, partsLt a b = .ok false → partsLt b a = .ok false → a = b
  | [], [], _, _ => rfl
  | [], _ :: _, h, _ => by simp [partsLt] at h
  | _ :: _, [], _, h => by simp [partsLt] at h
  | a :: as, b :: bs, h1, h2 => by
    simp only [partsLt] at h1 h2
    by_cases hab : a = b
    · subst hab
      simp only [if_true] at h1 h2
      rw [partsLt_total as bs h1 h2]
    · simp only [hab, Ne.symm hab, if_false] at h1 h2
      exact absurd (IdPart.lt_total h1 h2) hab

/-! ## Splitting, without accumulator -/

/-- The part for a finished run. -/
def piece (d : Bool) (cur : Str) : Res IdPart :=
  if d then (pyInt cur).map .num else .ok (.str cur)

/-- `splitLoop` without the accumulated result. -/
def toks : Str → Bool → Str → Res (List IdPart)
  | cur, d, [] => if cur.isEmpty then .ok [] else (piece d cur).map fun p => [p]
  | cur, d, c :: cs =>
    if isDigit c != d then
      match piece d cur, toks [c] (isDigit c) cs with
      | .ok p, .ok ps => .ok (p :: ps)
      | .ok _, .error e => .error e
      | .error e, _ => .error e
    else toks (cur ++ [c]) d cs

theorem push_eq (r : List IdPart) (cur : Str) (d : Bool) :
    SplitState.push ⟨r, cur, d⟩ = (piece d cur).map fun p => r ++ [p] := by
  unfold SplitState.push piece
  cases d
  · simp [Except.map]
  · cases h : pyInt cur <;> simp [Except.map, bind, Except.bind]

theorem splitLoop_eq (s : Str) : ∀ r cur d,
    splitLoop ⟨r, cur, d⟩ s = (toks cur d s).map fun t => r ++ t := by
  induction s with
  | nil =>
    intro r cur d
    simp only [splitLoop, toks]
    by_cases hc : cur.isEmpty = true
    · simp [hc, Except.map]
    · simp only [hc, push_eq]
      cases piece d cur <;> simp [Except.map]
  | cons c cs ih =>
    intro r cur d
    simp only [splitLoop, toks]
    by_cases h : (isDigit c != d) = true
    · simp only [h, if_true, push_eq]
      cases hp : piece d cur with
      | error e => simp [Except.map, bind, Except.bind]
      | ok p =>
        simp only [Except.map, bind, Except.bind, ih]
        cases toks [c] (isDigit c) cs <;> simp
    · simp only [h]
      exact ih _ _ _

theorem splitIdentifier_eq (s : Str) : splitIdentifier s = toks [] false s := by
  unfold splitIdentifier
  rw [splitLoop_eq]
  cases toks [] false s <;> simp [Except.map]

theorem piece_kind {d : Bool} {cur : Str} {p : IdPart} (h : piece d cur = .ok p) : p.kind = d := by
  unfold piece at h
  cases d
  · simp at h; subst h; rfl
  · simp only [if_true] at h
    cases hi : pyInt cur with
    | error e => simp [hi, Except.map] at h
    | ok n => simp [hi, Except.map] at h; subst h; rfl

theorem toks_alt (s : Str) : ∀ cur d ps, toks cur d s = .ok ps → Alt d ps := by
  induction s with
  | nil =>
    intro cur d ps h
    simp only [toks] at h
    by_cases hc : cur.isEmpty = true
    · simp [hc] at h; subst h; trivial
    · simp only [hc] at h
      cases hp : piece d cur with
      | error e => simp [hp, Except.map] at h
      | ok p => simp [hp, Except.map] at h; subst h; exact ⟨piece_kind hp, trivial⟩
  | cons c cs ih =>
    intro cur d ps h
    simp only [toks] at h
    by_cases hd : (isDigit c != d) = true
    · simp only [hd, if_true] at h
      cases hp : piece d cur with
      | error e => simp [hp] at h
      | ok p =>
        cases ht : toks [c] (isDigit c) cs with
        | error e => simp [hp, ht] at h
        | ok ts =>
          simp [hp, ht] at h
          subst h
          refine ⟨piece_kind hp, ?_⟩
          have : isDigit c = !d := by cases hdc : isDigit c <;> cases d <;> simp_all
          rw [← this]
          exact ih _ _ _ ht
    · simp only [hd] at h
      exact ih _ _ _ h

theorem splitIdentifier_alt {s : Str} {ps : List IdPart} (h : splitIdentifier s = .ok ps) : Alt false ps := by
  rw [splitIdentifier_eq] at h
  exact toks_alt s _ _ _ h

/-! ## When splitting fails -/

theorem pyIntDigits_decimals_isSome (s : Str) : ∀ a us, (∀ c ∈ s, (decimalValue c).isSome) → (s = [] → us = false) →
    (pyIntDigits (some a) us s).isSome := by
  induction s with
  | nil => intro a us _ hus; simp [pyIntDigits, hus rfl]
  | cons c cs ih =>
    intro a us h _
    obtain ⟨d, hd⟩ := Option.isSome_iff_exists.mp (h c (by simp))
    simp only [pyIntDigits, hd]
    exact ih _ _ (fun x hx => h x (by simp [hx])) (fun _ => rfl)

theorem pyInt_decimals_ok (s : Str) (hs : s ≠ []) (h : ∀ c ∈ s, (decimalValue c).isSome) :
    ∃ n : Nat, pyInt s = .ok (n : Int) := by
  rw [pyInt_of_decimals s h]
  cases s with
  | nil => exact absurd rfl hs
  | cons c cs =>
    obtain ⟨d, hd⟩ := Option.isSome_iff_exists.mp (h c (by simp))
    have := pyIntDigits_decimals_isSome cs (0 * 10 + d) false (fun x hx => h x (by simp [hx])) (fun _ => rfl)
    obtain ⟨n, hn⟩ := Option.isSome_iff_exists.mp this
    refine ⟨n, ?_⟩
    simp only [pyIntDigits, hd]
    simp only [Option.getD_none]
    rw [hn]

theorem decimal_isDigit {c : Char} (h : (decimalValue c).isSome) : isDigit c = true := by
  simp [isDigit, h]

theorem decimal_ne_underscore : decimalValue '_' = none := by decide +kernel

theorem isDigit_not_underscore : isDigit '_' = false := by decide +kernel
theorem isDigit_not_minus : isDigit '-' = false := by decide +kernel
theorem isDigit_not_plus : isDigit '+' = false := by decide +kernel

theorem isSpace_of_isDigit {c : Char} (h : isDigit c = true) : isSpace c = false := by
  unfold isDigit at h
  rw [Bool.or_eq_true] at h
  cases h with
  | inl h => exact isSpace_of_decimal h
  | inr h =>
    rw [List.any_eq_true] at h
    obtain ⟨r, hr, hc⟩ := h
    simp only [Bool.and_eq_true, decide_eq_true_eq] at hc
    cases hsp : isSpace c with
    | false => rfl
    | true =>
      unfold isSpace at hsp
      rw [List.any_eq_true] at hsp
      obtain ⟨q, hq, hqc⟩ := hsp
      simp only [Bool.and_eq_true, decide_eq_true_eq] at hqc
      have key : ∀ r ∈ otherDigitRanges, ∀ q ∈ ([(0x9, 0xd), (0x1c, 0x20), (0x85, 0x85), (0xa0, 0xa0),
          (0x1680, 0x1680), (0x2000, 0x200a), (0x2028, 0x2029), (0x202f, 0x202f), (0x205f, 0x205f),
          (0x3000, 0x3000)] : List (Nat × Nat)), r.2 < q.1 ∨ q.2 < r.1 := by decide +kernel
      have := key r hr q hq
      omega

/-- `int()` of a non-empty text of digits fails if one of them has no value. -/
theorem pyIntDigits_none_of_bad (s : Str) : ∀ acc us, (∃ c ∈ s, isDigit c = true ∧ decimalValue c = none) →
    pyIntDigits acc us s = none := by
  induction s with
  | nil => rintro acc us ⟨c, hc, _⟩; simp at hc
  | cons x xs ih =>
    rintro acc us ⟨c, hc, h1, h2⟩
    rw [List.mem_cons] at hc
    unfold pyIntDigits
    cases hx : decimalValue x with
    | some d =>
      simp only []
      cases hc with
      | inl h => subst h; rw [h2] at hx; simp at hx
      | inr h => exact ih _ _ ⟨c, h, h1, h2⟩
    | none =>
      simp only []
      cases hc with
      | inl h =>
        subst h
        have : c ≠ '_' := by intro e; subst e; rw [isDigit_not_underscore] at h1; simp at h1
        simp [this]
      | inr h =>
        by_cases hcond : (decide (x = '_') && acc.isSome && !us) = true
        · simp only [hcond, if_true]; exact ih _ _ ⟨c, h, h1, h2⟩
        · simp [hcond]

theorem pyInt_digits_bad (s : Str) (hd : ∀ c ∈ s, isDigit c = true) (hb : ∃ c ∈ s, decimalValue c = none) :
    pyInt s = .error .valueError := by
  have hs : ∀ c ∈ s, isSpace c = false := fun c hc => isSpace_of_isDigit (hd c hc)
  have hn : pyIntDigits none false s = none := by
    obtain ⟨c, hc, h⟩ := hb
    exact pyIntDigits_none_of_bad s _ _ ⟨c, hc, hd c hc, h⟩
  unfold pyInt
  rw [strip_eq_self s hs]
  cases s with
  | nil => rfl
  | cons a r =>
    have h1 : a ≠ '-' := by intro e; have := hd a (by simp); rw [e, isDigit_not_minus] at this; simp at this
    have h2 : a ≠ '+' := by intro e; have := hd a (by simp); rw [e, isDigit_not_plus] at this; simp at this
    have e1 : ∀ t, a :: r ≠ '-' :: t := by intro t e; exact h1 (List.cons.inj e).1
    have e2 : ∀ t, a :: r ≠ '+' :: t := by intro t e; exact h2 (List.cons.inj e).1
    simp only []
    rw [hn]

/-- Splitting succeeds on readable texts and fails with ValueError on all others. -/
theorem toks_result (s : Str) : ∀ cur d, (∀ c ∈ cur, isDigit c = d) → (d = true → cur ≠ []) →
    (Spec.Readable (cur ++ s) → ∃ ps, toks cur d s = .ok ps) ∧
    (¬ Spec.Readable (cur ++ s) → toks cur d s = .error .valueError) := by
  have pieceRes : ∀ (cur : Str) (d : Bool), (∀ c ∈ cur, isDigit c = d) → (d = true → cur ≠ []) →
      (Spec.Readable cur → ∃ p, piece d cur = .ok p) ∧
      (¬ Spec.Readable cur → piece d cur = .error .valueError) := by
    intro cur d hcur hne
    unfold piece Spec.Readable
    cases d with
    | false =>
      refine ⟨fun _ => ⟨_, rfl⟩, fun h => absurd ?_ h⟩
      intro c hc hd
      rw [hcur c hc] at hd; simp at hd
    | true =>
      simp only [if_true]
      constructor
      · intro h
        obtain ⟨n, hn⟩ := pyInt_decimals_ok cur (hne rfl) (fun c hc => h c hc (hcur c hc))
        exact ⟨.num n, by rw [hn]; rfl⟩
      · intro h
        rw [pyInt_digits_bad cur hcur ?_]
        · rfl
        · apply Classical.byContradiction
          intro hno
          apply h
          intro c hc _
          cases hv : decimalValue c with
          | some v => rfl
          | none => exact absurd ⟨c, hc, hv⟩ hno
  induction s with
  | nil =>
    intro cur d hcur hne
    have hp := pieceRes cur d hcur hne
    simp only [List.append_nil, toks]
    by_cases hc : cur = []
    · subst hc
      refine ⟨fun _ => ⟨[], rfl⟩, fun h => absurd ?_ h⟩
      intro c hc; simp at hc
    · have : cur.isEmpty = false := by simpa using hc
      simp only [this]
      constructor
      · intro h; obtain ⟨p, hp⟩ := hp.1 h; exact ⟨[p], by rw [hp]; rfl⟩
      · intro h; rw [hp.2 h]; rfl
  | cons c cs ih =>
    intro cur d hcur hne
    simp only [toks]
    by_cases hd : (isDigit c != d) = true
    · simp only [hd, if_true]
      have hp := pieceRes cur d hcur hne
      have hi := ih [c] (isDigit c) (by intro x hx; simp at hx; rw [hx]) (by simp)
      have hsplit : Spec.Readable (cur ++ c :: cs) ↔ Spec.Readable cur ∧ Spec.Readable ([c] ++ cs) := by
        unfold Spec.Readable
        constructor
        · intro h
          exact ⟨fun x hx => h x (by simp [hx]), fun x hx => h x (by simp at hx ⊢; right; exact hx)⟩
        · rintro ⟨h1, h2⟩ x hx
          rw [List.mem_append] at hx
          cases hx with
          | inl hx => exact h1 x hx
          | inr hx => exact h2 x (by simpa using hx)
      constructor
      · intro h
        rw [hsplit] at h
        obtain ⟨p, hp⟩ := hp.1 h.1
        obtain ⟨ps, hps⟩ := hi.1 h.2
        exact ⟨p :: ps, by rw [hp, hps]⟩
      · intro h
        by_cases h1 : Spec.Readable cur
        · have h2 : ¬ Spec.Readable ([c] ++ cs) := fun h2 => h (hsplit.mpr ⟨h1, h2⟩)
          obtain ⟨p, hp⟩ := hp.1 h1
          rw [hp, hi.2 h2]
        · rw [hp.2 h1]
    · simp only [hd]
      have hdc : isDigit c = d := by simpa using hd
      have hi := ih (cur ++ [c]) d
        (by intro x hx; rw [List.mem_append] at hx; rcases hx with hx | hx
            · exact hcur x hx
            · simp at hx; rw [hx]; exact hdc)
        (by simp)
      simpa using hi

theorem splitIdentifier_result (s : Str) :
    (Spec.Readable s → ∃ ps, splitIdentifier s = .ok ps) ∧
    (¬ Spec.Readable s → splitIdentifier s = .error .valueError) := by
  rw [splitIdentifier_eq]
  exact toks_result s [] false (by simp) (by simp)

end Verif
