import Verif.Proofs.Identifiers

/-! # Lemmas about canonical identifiers and about the shapes of identifiers -/

namespace Verif

/-! ## Characters -/

theorem char_ofNat_toNat (c : Char) : Char.ofNat c.toNat = c := by simp

/-- A check of all ASCII characters lifts to every character below 128. -/
theorem ascii_lift (P : Char → Prop) (h : ∀ n, n < 128 → P (Char.ofNat n)) (c : Char) (hc : c.toNat < 128) : P c := by
  have := h c.toNat hc
  rwa [char_ofNat_toNat] at this

theorem le_toNat {a b : Char} : (a ≤ b) ↔ a.toNat ≤ b.toNat := Iff.rfl

theorem isAsciiDigit_iff (c : Char) : isAsciiDigit c = true ↔ 48 ≤ c.toNat ∧ c.toNat ≤ 57 := by
  simp [isAsciiDigit, le_toNat]

theorem isLowerAz_iff (c : Char) : isLowerAz c = true ↔ 97 ≤ c.toNat ∧ c.toNat ≤ 122 := by
  simp [isLowerAz, le_toNat]

theorem isUpperAz_iff (c : Char) : isUpperAz c = true ↔ 65 ≤ c.toNat ∧ c.toNat ≤ 90 := by
  simp [isUpperAz, le_toNat]

theorem ascii_digit_exists (c : Char) (h : isAsciiDigit c = true) : ∃ d, d < 10 ∧ c = digitChar d := by
  rw [isAsciiDigit_iff] at h
  refine ⟨c.toNat - 48, by omega, ?_⟩
  unfold digitChar
  rw [show 0x30 + (c.toNat - 48) = c.toNat by omega, char_ofNat_toNat]

theorem ascii_isDigit {c : Char} (h : isAsciiDigit c = true) : isDigit c = true := by
  obtain ⟨d, hd, rfl⟩ := ascii_digit_exists c h
  exact digitChar_isDigit d hd

theorem ascii_decimal {c : Char} (h : isAsciiDigit c = true) : (decimalValue c).isSome := by
  obtain ⟨d, hd, rfl⟩ := ascii_digit_exists c h
  simp [digitChar_decimal d hd]

theorem lower_not_digit {c : Char} (h : isLowerAz c = true) : isDigit c = false := by
  have hc := (isLowerAz_iff c).mp h
  have key : ∀ n, n < 128 → (97 ≤ (Char.ofNat n).toNat → isDigit (Char.ofNat n) = false) := by decide +kernel
  exact ascii_lift (fun c => 97 ≤ c.toNat → isDigit c = false) key c (by omega) hc.1

theorem upper_not_digit {c : Char} (h : isUpperAz c = true) : isDigit c = false := by
  have hc := (isUpperAz_iff c).mp h
  have key : ∀ n, n < 128 →
      (65 ≤ (Char.ofNat n).toNat ∧ (Char.ofNat n).toNat ≤ 90 → isDigit (Char.ofNat n) = false) := by decide +kernel
  exact ascii_lift (fun c => 65 ≤ c.toNat ∧ c.toNat ≤ 90 → isDigit c = false) key c (by omega) hc

theorem slash_not_digit : isDigit '/' = false := by decide +kernel
theorem colon_not_digit : isDigit ':' = false := by decide +kernel

/-! ## Digit strings without leading zero are decimal writings -/

theorem digits_eq_natStr : ∀ (k : Nat) (s : Str), s.length = k → s ≠ [] → (∀ c ∈ s, isAsciiDigit c = true) →
    (s.head? ≠ some '0') → ∃ n, 0 < n ∧ s = natStr n := by
  intro k
  induction k using Nat.strongRecOn with
  | ind k ih =>
    intro s hk hne hall hhead
    rcases List.eq_nil_or_concat s with rfl | ⟨t, c, rfl⟩
    · exact absurd rfl hne
    · rw [List.concat_eq_append] at *
      obtain ⟨d, hd, rfl⟩ := ascii_digit_exists c (hall c (by simp))
      by_cases ht : t = []
      · subst ht
        refine ⟨d, ?_, by rw [natStr_lt hd]; rfl⟩
        apply Nat.pos_of_ne_zero
        intro h0
        subst h0
        exact hhead (by decide)
      · obtain ⟨n, hn, rfl⟩ := ih t.length (by simp at hk; omega) t rfl ht
          (fun c hc => hall c (by simp [hc]))
          (by cases t with
              | nil => exact absurd rfl ht
              | cons a as => simpa using hhead)
        refine ⟨n * 10 + d, by omega, ?_⟩
        rw [natStr_ge (show 10 ≤ n * 10 + d by omega)]
        rw [show (n * 10 + d) / 10 = n by omega, show (n * 10 + d) % 10 = d by omega]

theorem zero_natStr : natStr 0 = ['0'] := by decide

/-! ## Reconstruction of canonical identifiers -/

/-- Writing the parts one after the other. -/
def unsplit (ps : List IdPart) : Str :=
  ps.flatMap fun
    | .str s => s
    | .num n => natStr n.toNat

/-- What the splitting loop has in hand while it reads a canonical identifier. -/
def RunOk (cur : Str) (s : Str) : Prop :=
  cur ≠ [] ∧ (∀ c ∈ cur, isAsciiDigit c = true) ∧
    (cur.head? ≠ some '0' ∨ (cur = ['0'] ∧ ∀ c, s.head? = some c → isDigit c = false))

theorem runOk_piece {cur s : Str} (h : RunOk cur s) : ∃ n : Nat, piece true cur = .ok (.num n) ∧ natStr n = cur := by
  obtain ⟨hne, hall, hz⟩ := h
  have : ∃ n, cur = natStr n := by
    rcases hz with hz | ⟨rfl, _⟩
    · obtain ⟨n, _, hn⟩ := digits_eq_natStr _ cur rfl hne hall hz
      exact ⟨n, hn⟩
    · exact ⟨0, by decide⟩
  obtain ⟨n, rfl⟩ := this
  exact ⟨n, by simp [piece, pyInt_natStr, Except.map], rfl⟩

theorem toks_unsplit (s : Str) : ∀ cur d ps, (d = true → RunOk cur s) → Spec.canonicalFrom d s = true →
    toks cur d s = .ok ps → unsplit ps = cur ++ s := by
  induction s with
  | nil =>
    intro cur d ps hrun _ h
    simp only [toks] at h
    by_cases hc : cur = []
    · subst hc; simp at h; subst h; simp [unsplit]
    · have hce : cur.isEmpty = false := by simpa using hc
      simp only [hce] at h
      cases d with
      | false => simp [piece, Except.map] at h; subst h; simp [unsplit]
      | true =>
        obtain ⟨n, hp, hn⟩ := runOk_piece (hrun rfl)
        simp [hp, Except.map] at h
        subst h
        simp [unsplit, hn]
  | cons c cs ih =>
    intro cur d ps hrun hcan h
    simp only [toks] at h
    simp only [Spec.canonicalFrom, Bool.and_eq_true] at hcan
    obtain ⟨hc, hcs⟩ := hcan
    by_cases hd : (isDigit c != d) = true
    · simp only [hd, if_true] at h
      -- the run in hand is finished
      obtain ⟨p, hp, hpu⟩ : ∃ p, piece d cur = .ok p ∧ unsplit [p] = cur := by
        cases d with
        | false => exact ⟨.str cur, rfl, by simp [unsplit]⟩
        | true =>
          obtain ⟨n, hp, hn⟩ := runOk_piece (hrun rfl)
          exact ⟨_, hp, by simp [unsplit, hn]⟩
      cases ht : toks [c] (isDigit c) cs with
      | error e => simp [hp, ht] at h
      | ok ts =>
        simp [hp, ht] at h
        subst h
        have hrun' : isDigit c = true → RunOk [c] cs := by
          intro hdig
          have hdf : d = false := by cases d <;> simp_all
          subst hdf
          simp only [hdig, Bool.not_true, Bool.false_or, Bool.and_eq_true, Bool.or_eq_true, decide_eq_true_eq,
            Bool.not_eq_true'] at hc
          refine ⟨by simp, by simp [hc.1], ?_⟩
          rcases hc.2 with h | h
          · left; simpa using h
          · by_cases hz : c = '0'
            · right
              refine ⟨by rw [hz], ?_⟩
              intro x hx
              rw [hx] at h
              simpa using h
            · left; simpa using hz
        have := ih _ _ _ hrun' hcs ht
        show unsplit ([p] ++ ts) = cur ++ (c :: cs)
        unfold unsplit at *
        rw [List.flatMap_append, hpu, this]
        rfl
    · simp only [hd] at h
      have hdc : isDigit c = d := by simpa using hd
      have := ih (cur ++ [c]) d ps ?_ (by rw [← hdc]; exact hcs) h
      · simpa using this
      · intro hdt
        subst hdt
        have hr := hrun rfl
        simp only [hdc, Bool.not_true, Bool.false_or, Bool.and_eq_true, Bool.or_eq_true, decide_eq_true_eq] at hc
        refine ⟨by simp, ?_, ?_⟩
        · intro x hx
          rw [List.mem_append] at hx
          rcases hx with hx | hx
          · exact hr.2.1 x hx
          · simp at hx; rw [hx]; exact hc.1
        · left
          rcases hr.2.2 with hz | ⟨_, hstop⟩
          · cases hcur : cur with
            | nil => exact absurd hcur hr.1
            | cons a as => rw [hcur] at hz; simpa using hz
          · have := hstop c rfl
            rw [hdc] at this; simp at this

theorem splitIdentifier_canonical_inj {a b : Str} {ps : List IdPart} (ha : Spec.Canonical a) (hb : Spec.Canonical b)
    (h1 : splitIdentifier a = .ok ps) (h2 : splitIdentifier b = .ok ps) : a = b := by
  rw [splitIdentifier_eq] at h1 h2
  have e1 := toks_unsplit a [] false ps (by simp) ha h1
  have e2 := toks_unsplit b [] false ps (by simp) hb h2
  simpa using e1.symm.trans e2

theorem canonicalFrom_readable (s : Str) : ∀ d, Spec.canonicalFrom d s = true → Spec.Readable s := by
  induction s with
  | nil => intro d _ c hc; simp at hc
  | cons a as ih =>
    intro d h c hc hdig
    simp only [Spec.canonicalFrom, Bool.and_eq_true] at h
    rw [List.mem_cons] at hc
    rcases hc with rfl | hc
    · simp only [hdig, Bool.not_true, Bool.false_or, Bool.and_eq_true] at h
      exact ascii_decimal h.1.1
    · exact ih _ h.2 c hc hdig

/-! ## Splitting texts of known shape -/

/-- The text is empty or begins with something that is not a digit. -/
def StopsNumber (r : Str) : Prop := ∀ c, r.head? = some c → isDigit c = false

/-- The parts of what follows a number. -/
def stopToks : Str → Res (List IdPart)
  | [] => .ok []
  | c :: cs => toks [c] false cs

theorem toks_digits (D : Str) : ∀ cur r, (∀ c ∈ D, isDigit c = true) → toks cur true (D ++ r) = toks (cur ++ D) true r := by
  induction D with
  | nil => intro cur r _; simp
  | cons c cs ih =>
    intro cur r h
    have hc := h c (by simp)
    simp only [List.cons_append, toks, hc, bne_self_eq_false, Bool.false_eq_true, if_false]
    rw [ih _ _ (fun x hx => h x (by simp [hx]))]
    simp

theorem toks_nondigits (t : Str) : ∀ cur r, (∀ c ∈ t, isDigit c = false) →
    toks cur false (t ++ r) = toks (cur ++ t) false r := by
  induction t with
  | nil => intro cur r _; simp
  | cons c cs ih =>
    intro cur r h
    have hc := h c (by simp)
    simp only [List.cons_append, toks, hc, bne_self_eq_false, Bool.false_eq_true, if_false]
    rw [ih _ _ (fun x hx => h x (by simp [hx]))]
    simp

theorem toks_number_end (D r : Str) (n : Int) (hne : D ≠ []) (hr : StopsNumber r) (hn : pyInt D = .ok n) :
    toks D true r = (stopToks r).map fun ts => .num n :: ts := by
  cases r with
  | nil =>
    have : D.isEmpty = false := by simpa using hne
    simp [toks, this, stopToks, piece, hn, Except.map]
  | cons c cs =>
    have hc := hr c rfl
    simp only [toks, hc, stopToks, piece, hn]
    cases toks [c] false cs <;> simp [Except.map]

/-- A text that begins with a number. -/
theorem toks_begin_number (cur D r : Str) (n : Int) (hne : D ≠ []) (hD : ∀ c ∈ D, isDigit c = true)
    (hr : StopsNumber r) (hn : pyInt D = .ok n) :
    toks cur false (D ++ r) = (stopToks r).map fun ts => .str cur :: .num n :: ts := by
  cases D with
  | nil => exact absurd rfl hne
  | cons c cs =>
    have hc := hD c (by simp)
    simp only [List.cons_append, toks, hc, Bool.bne_false, if_true, piece]
    rw [toks_digits cs [c] r (fun x hx => hD x (by simp [hx]))]
    rw [show [c] ++ cs = c :: cs from rfl, toks_number_end _ r n hne hr hn]
    cases stopToks r <;> simp [Except.map]

/-- What follows a number: a text without digits up to the end. -/
theorem stopToks_text (t : Str) (hne : t ≠ []) (ht : ∀ c ∈ t, isDigit c = false) : stopToks t = .ok [.str t] := by
  cases t with
  | nil => exact absurd rfl hne
  | cons c cs =>
    have := toks_nondigits cs [c] [] (fun x hx => ht x (by simp [hx]))
    rw [List.append_nil] at this
    simp only [stopToks, this]
    simp [toks, piece, Except.map]

theorem splitIdentifier_alphabetic (t : Str) (hne : t ≠ []) (ht : ∀ c ∈ t, isDigit c = false) :
    splitIdentifier t = .ok [.str t] := by
  rw [splitIdentifier_eq]
  have := toks_nondigits t [] [] ht
  rw [List.append_nil] at this
  rw [this]
  have h : t.isEmpty = false := by simpa using hne
  simp [toks, h, piece, Except.map]

theorem isNumber_digit {D : Str} (h : Spec.IsNumber D) : ∀ c ∈ D, isDigit c = true :=
  fun c hc => ascii_isDigit (h.2 c hc)

theorem isNumber_int {D : Str} (h : Spec.IsNumber D) : ∃ n : Nat, pyInt D = .ok (n : Int) :=
  pyInt_decimals_ok D h.1 (fun c hc => ascii_decimal (h.2 c hc))

theorem splitIdentifier_number (D r : Str) (n : Int) (h : Spec.IsNumber D) (hr : StopsNumber r) (hn : pyInt D = .ok n) :
    splitIdentifier (D ++ r) = (stopToks r).map fun ts => .str [] :: .num n :: ts := by
  rw [splitIdentifier_eq]
  exact toks_begin_number [] D r n h.1 (isNumber_digit h) hr hn

theorem partsLt_num {m n : Int} (h : m < n) (X Y : List IdPart) :
    partsLt (.str [] :: .num m :: X) (.str [] :: .num n :: Y) = .ok true := by
  have : (IdPart.num m = IdPart.num n) = False := by
    apply eq_false; intro e; cases e; omega
  simp [partsLt, this, IdPart.lt, h]

theorem partsLt_cons (p : IdPart) (X Y : List IdPart) : partsLt (p :: X) (p :: Y) = partsLt X Y := by
  simp [partsLt]

end Verif
