import Verif.Proofs.Date
import Verif.Proofs.NextIdentifier

/-! # Property C08: dates -/

namespace Verif.Props

open Verif

/-- C08. Exactly the real dates of the years 1 to 9999 can be constructed. -/
theorem date_constructed_iff (y m d : Int) (r : Date) :
    mkDate y m d = .ok r ↔ r = ⟨y, m, d⟩ ∧ Spec.RealDate r := by
  rw [mkDate_ok]
  by_cases h : Spec.RealDate ⟨y, m, d⟩
  · rw [if_pos h]
    constructor
    · intro e; rw [← Except.ok.inj e]; exact ⟨rfl, h⟩
    · rintro ⟨rfl, _⟩; rfl
  · rw [if_neg h]
    constructor
    · intro e; cases e
    · rintro ⟨rfl, h'⟩; exact absurd h' h

example : mkDate 2000 2 29 = .ok ⟨2000, 2, 29⟩ ∧ mkDate 1900 2 29 = .error .valueError := by decide

/-- C08. Adding days to a real date gives a real date or OverflowError. -/
theorem addDays_valid (d : Date) (hd : Spec.RealDate d) (n : Int) :
    (∃ e, d.addDays n = .ok e ∧ Spec.RealDate e) ∨ d.addDays n = .error .overflowError := by
  cases h : d.addDays n with
  | ok e => exact .inl ⟨e, rfl, ((addDays_ok_iff d e hd n).mp h).1⟩
  | error x =>
    right
    rw [addDays_real d hd] at h
    split at h
    · exact h.symm
    · split at h
      · cases h
      · exact h.symm

/-- C08. Adding one day gives the next day of the calendar; only the last day of year 9999 has none. -/
theorem addDays_one (d : Date) (hd : Spec.RealDate d) :
    d.addDays 1 = if d = ⟨9999, 12, 31⟩ then .error .overflowError else .ok (Spec.nextDay d) := by
  by_cases h : d = ⟨9999, 12, 31⟩
  · rw [if_pos h, h]; decide
  · rw [if_neg h, addDays_ok_iff d _ hd]
    exact ⟨nextDay_real d hd h, nextDay_ord d hd⟩

/-- C08. Adding no days changes nothing. -/
theorem addDays_zero (d : Date) (hd : Spec.RealDate d) : d.addDays 0 = .ok d := by
  rw [addDays_ok_iff d d hd]
  exact ⟨hd, by omega⟩

/-- C08. Adding `a` and then `b` days is adding `a + b` days, when the middle stays in range. -/
theorem addDays_add (d e : Date) (hd : Spec.RealDate d) (a b : Int) (h : d.addDays a = .ok e) :
    e.addDays b = d.addDays (a + b) := by
  obtain ⟨he, ho⟩ := (addDays_ok_iff d e hd a).mp h
  cases hb : e.addDays b with
  | ok f =>
    obtain ⟨hf, hof⟩ := (addDays_ok_iff e f he b).mp hb
    exact ((addDays_ok_iff d f hd (a + b)).mpr ⟨hf, by omega⟩).symm
  | error x =>
    rcases addDays_valid d hd (a + b) with ⟨f, hf, _⟩ | hf
    · obtain ⟨hf', hof⟩ := (addDays_ok_iff d f hd (a + b)).mp hf
      have := (addDays_ok_iff e f he b).mpr ⟨hf', by omega⟩
      rw [hb] at this
      cases this
    · rcases addDays_valid e he b with ⟨g, hg, _⟩ | hg
      · rw [hb] at hg; cases hg
      · rw [hf, ← hg, hb]

/-- C08. Adding `n` and then `-n` days returns the date. -/
theorem addDays_back (d e : Date) (hd : Spec.RealDate d) (n : Int) (h : d.addDays n = .ok e) :
    e.addDays (-n) = .ok d := by
  rw [addDays_add d e hd n (-n) h, show n + -n = 0 by omega, addDays_zero d hd]

/-- C08. A later date is reached exactly by adding a positive number of days. -/
theorem addDays_later_iff (d e : Date) (hd : Spec.RealDate d) (n : Int) (h : d.addDays n = .ok e) :
    Spec.Before d e ↔ 0 < n := by
  obtain ⟨he, ho⟩ := (addDays_ok_iff d e hd n).mp h
  constructor
  · intro hb
    have := ymd2ord_lt d e hd he hb
    omega
  · intro hn
    rcases before_total d e with hb | rfl | hb
    · exact hb
    · omega
    · have := ymd2ord_lt e d he hd hb
      omega

/-- C08. Every real date is reached from every other one by adding some number of days. -/
theorem addDays_reaches (d e : Date) (hd : Spec.RealDate d) (he : Spec.RealDate e) : ∃ n, d.addDays n = .ok e :=
  ⟨ymd2ord e.year e.month e.day - ymd2ord d.year d.month d.day,
    (addDays_ok_iff d e hd _).mpr ⟨he, by omega⟩⟩

example : Spec.RealDate ⟨2019, 12, 31⟩ ∧ (Date.mk 2019 12 31).addDays 60 = .ok ⟨2020, 2, 29⟩ := by decide

/-! ### Reading dates -/

theorem bind_ok {α β : Type} {x : Res α} {f : α → Res β} {b : β} (h : (x >>= f) = .ok b) : ∃ a, x = .ok a ∧ f a = .ok b := by
  cases x with
  | error e => cases h
  | ok a => exact ⟨a, rfl, h⟩

/-- C08. A date read from a Hungarian text is a real date. -/
theorem fromHungarianText_real (s : Str) (d : Date) (h : Date.fromHungarianText s = .ok d) : Spec.RealDate d := by
  unfold Date.fromHungarianText at h
  simp only [] at h
  split at h
  · obtain ⟨y, _, h⟩ := bind_ok h
    obtain ⟨m, _, h⟩ := bind_ok h
    obtain ⟨k, _, h⟩ := bind_ok h
    exact ((date_constructed_iff _ _ _ _).mp h).2
  · cases h

/-- C08. A date read from a simple text is a real date. -/
theorem fromSimpleString_real (s : Str) (d : Date) (h : Date.fromSimpleString s = .ok d) : Spec.RealDate d := by
  unfold Date.fromSimpleString at h
  simp only [] at h
  split at h
  · obtain ⟨y, _, h⟩ := bind_ok h
    obtain ⟨m, _, h⟩ := bind_ok h
    obtain ⟨k, _, h⟩ := bind_ok h
    exact ((date_constructed_iff _ _ _ _).mp h).2
  · cases h

theorem pyInt_error {s : Str} {e : Err} (h : pyInt s = .error e) : e = .valueError := by
  unfold pyInt at h
  simp only [] at h
  split at h <;> split at h <;> first | cases h; done | exact (Except.error.inj h).symm

theorem bind_error {α β : Type} {x : Res α} {f : α → Res β} {e : Err} (h : (x >>= f) = .error e) :
    x = .error e ∨ ∃ a, x = .ok a ∧ f a = .error e := by
  cases x with
  | error e' => exact .inl (congrArg _ (Except.error.inj h))
  | ok a => exact .inr ⟨a, rfl, h⟩

theorem mkDate_error {y m d : Int} {e : Err} (h : mkDate y m d = .error e) : e = .valueError := by
  unfold mkDate at h
  split at h
  · cases h
  · exact (Except.error.inj h).symm

/-- C08. A date in digits that cannot be read is refused with a ValueError. -/
theorem fromSimpleString_refuses {s : Str} {e : Err} (h : Date.fromSimpleString s = .error e) : e = .valueError := by
  unfold Date.fromSimpleString at h
  simp only [] at h
  split at h
  · rcases bind_error h with h | ⟨y, _, h⟩
    · exact pyInt_error h
    rcases bind_error h with h | ⟨m, _, h⟩
    · exact pyInt_error h
    rcases bind_error h with h | ⟨d, _, h⟩
    · exact pyInt_error h
    exact mkDate_error h
  · exact (Except.error.inj h).symm

theorem splitOn_join (c : Char) (s : Str) : splitOn c s ≠ [] ∧ joinWith c (splitOn c s) = s := by
  induction s with
  | nil => exact ⟨by simp [splitOn], rfl⟩
  | cons x xs ih =>
    rw [splitOn]
    by_cases hx : x = c
    · rw [if_pos hx]
      refine ⟨by simp, ?_⟩
      cases hs : splitOn c xs with
      | nil => exact absurd hs ih.1
      | cons p ps =>
        rw [hs] at ih
        rw [joinWith, ih.2, hx, List.nil_append]
    · rw [if_neg hx]
      cases hs : splitOn c xs with
      | nil => exact absurd hs ih.1
      | cons p ps =>
        rw [hs] at ih
        refine ⟨by simp, ?_⟩
        rw [← ih.2]
        cases ps <;> simp [joinWith]

/-- C08. A date in words that cannot be read is refused with a KeyError, if its second word is no month, and otherwise with a ValueError. -/
theorem fromHungarianText_refuses {s : Str} {e : Err} (h : Date.fromHungarianText s = .error e) :
    e = .valueError ∨ e = .keyError ∧ ∃ year month day rest, month ∉ Spec.monthNames ∧ (rest = [] ∨ ∃ t, rest = ',' :: t) ∧
      s = year ++ ' ' :: (month ++ ' ' :: (day ++ rest)) := by
  unfold Date.fromHungarianText at h
  simp only [] at h
  split at h
  · rename_i year month day hs
    rcases bind_error h with h | ⟨y, _, h⟩
    · exact .inl (pyInt_error h)
    rcases bind_error h with h | ⟨m, _, h⟩
    · right
      unfold textToMonthHun at h
      split at h
      · cases h
      · rename_i hm
        refine ⟨(Except.error.inj h).symm, year, month, day, s.dropWhile (· ≠ ','), fun hx => ?_, ?_, ?_⟩
        · rw [List.findIdx?_eq_none_iff] at hm
          simpa using hm month hx
        · cases hd : s.dropWhile (· ≠ ',') with
          | nil => exact .inl rfl
          | cons c t =>
            have : c = ',' := by
              have := List.head?_dropWhile_not (fun c => decide (c ≠ ',')) s
              rw [hd] at this
              simpa using this
            exact .inr ⟨t, by rw [this]⟩
        · have hj := (splitOn_join ' ' (s.takeWhile (· ≠ ','))).2
          rw [hs] at hj
          have ht := List.takeWhile_append_dropWhile (p := fun c => decide (c ≠ ',')) (l := s)
          rw [← hj] at ht
          simpa [joinWith] using ht.symm
    rcases bind_error h with h | ⟨d, _, h⟩
    · exact .inl (pyInt_error h)
    exact .inl (mkDate_error h)
  · exact .inl (Except.error.inj h).symm

example : Date.fromHungarianText (py"2013. Február 1.") = .error .keyError ∧ Date.fromHungarianText (py"2013. február 30.") = .error .valueError := by
  decide +kernel

theorem natStr_not_mem (n : Nat) (c : Char) (hc : isAsciiDigit c = false) : c ∉ natStr n := by
  intro hm
  have := natStr_ascii n c hm
  rw [hc] at this; cases this

theorem read_three (y m d : Nat) (hd : Spec.RealDate ⟨y, m, d⟩) :
    (do let a ← pyInt (natStr y); let b ← pyInt (natStr m); let c ← pyInt (natStr d); mkDate a b c : Res Date)
      = .ok ⟨y, m, d⟩ := by
  rw [pyInt_natStr, pyInt_natStr, pyInt_natStr]
  exact (date_constructed_iff _ _ _ _).mpr ⟨rfl, hd⟩

theorem splitOn_three (c : Char) (a b d : Str) (ha : c ∉ a) (hb : c ∉ b) (hd : c ∉ d) :
    splitOn c (a ++ c :: (b ++ c :: d)) = [a, b, d] := by
  rw [splitOn_append c a _ ha, splitOn_append c b _ hb, splitOn_not_mem c d hd]

/-- C08. The written forms year.month.day, year.month.day. and year/month/day are read as that date. -/
theorem fromSimpleString_reads (y m d : Nat) (hd : Spec.RealDate ⟨y, m, d⟩) :
    Date.fromSimpleString (natStr y ++ '.' :: (natStr m ++ '.' :: natStr d)) = .ok ⟨y, m, d⟩ ∧
    Date.fromSimpleString (natStr y ++ '.' :: (natStr m ++ '.' :: (natStr d ++ ['.']))) = .ok ⟨y, m, d⟩ ∧
    Date.fromSimpleString (natStr y ++ '/' :: (natStr m ++ '/' :: natStr d)) = .ok ⟨y, m, d⟩ := by
  have dot : ∀ n, '.' ∉ natStr n := fun n => natStr_not_mem n '.' (by decide)
  have slash : ∀ n, '/' ∉ natStr n := fun n => natStr_not_mem n '/' (by decide)
  have hends : ∀ (s : Str) n, endsWith (s ++ natStr n) (py".") = false := by
    intro s n
    rcases List.eq_nil_or_concat (natStr n) with h | ⟨t, c, h⟩
    · exact absurd h (natStr_ne_nil n)
    · rw [List.concat_eq_append] at h
      have hc : c ≠ '.' := by
        intro e
        exact dot n (by rw [h, e]; simp)
      rw [h, ← List.append_assoc]
      simp [endsWith, List.isSuffixOf, List.isPrefixOf, Ne.symm hc]
  refine ⟨?_, ?_, ?_⟩ <;> unfold Date.fromSimpleString
  · have hc : (natStr y ++ '.' :: (natStr m ++ '.' :: natStr d)).contains '.' = true := by simp
    have he : endsWith (natStr y ++ '.' :: (natStr m ++ '.' :: natStr d)) (py".") = false := by
      have := hends (natStr y ++ '.' :: (natStr m ++ ['.'])) d
      simpa using this
    simp only [hc, he, if_true, Bool.false_eq_true, if_false, splitOn_three '.' _ _ _ (dot y) (dot m) (dot d)]
    exact read_three y m d hd
  · have hc : (natStr y ++ '.' :: (natStr m ++ '.' :: (natStr d ++ ['.']))).contains '.' = true := by simp
    have he : endsWith (natStr y ++ '.' :: (natStr m ++ '.' :: (natStr d ++ ['.']))) (py".") = true := by
      have : endsWith ((natStr y ++ '.' :: (natStr m ++ '.' :: natStr d)) ++ ['.']) (py".") = true := by
        simp [endsWith, List.isSuffixOf]
      simpa using this
    have hdl : (natStr y ++ '.' :: (natStr m ++ '.' :: (natStr d ++ ['.']))).dropLast
        = natStr y ++ '.' :: (natStr m ++ '.' :: natStr d) := by
      have : ((natStr y ++ '.' :: (natStr m ++ '.' :: natStr d)) ++ ['.']).dropLast = _ := List.dropLast_concat
      simpa using this
    simp only [hc, he, if_true, hdl, splitOn_three '.' _ _ _ (dot y) (dot m) (dot d)]
    exact read_three y m d hd
  · have hc : (natStr y ++ '/' :: (natStr m ++ '/' :: natStr d)).contains '/' = true := by simp
    have hnc : (natStr y ++ '/' :: (natStr m ++ '/' :: natStr d)).contains '.' = false := by
      simp [dot y, dot m, dot d]
    simp only [hc, hnc, Bool.false_eq_true, if_false, if_true, splitOn_three '/' _ _ _ (slash y) (slash m) (slash d)]
    exact read_three y m d hd

example : Date.fromSimpleString (py"2013.03.18.") = .ok ⟨2013, 3, 18⟩ := by decide +kernel

theorem month_names : ∀ i : Nat, i < 12 → ∃ w, monthsHun[i]? = some w ∧ textToMonthHun w = .ok (i + 1 : Nat) ∧
    ' ' ∉ w ∧ ',' ∉ w := by
  intro i hi
  have key : ∀ i : Nat, i < 12 → (monthsHun[i]?.any fun w =>
      decide (textToMonthHun w = .ok ((i + 1 : Nat) : Int)) && !w.contains ' ' && !w.contains ',') = true := by
    decide +kernel
  have h := key i hi
  cases hw : monthsHun[i]? with
  | none => rw [hw] at h; cases h
  | some w =>
    rw [hw] at h
    simp at h
    exact ⟨w, rfl, h.1.1, h.1.2, h.2⟩

/-- C08. A text "year. month day., anything" with the Hungarian month name is read as that date. -/
theorem fromHungarianText_reads (y m d : Nat) (w rest : Str) (hd : Spec.RealDate ⟨y, m, d⟩)
    (hw : Spec.monthNames[m - 1]? = some w) (hr : rest = [] ∨ ∃ t, rest = ',' :: t) :
    Date.fromHungarianText (natStr y ++ py". " ++ w ++ py" " ++ natStr d ++ py"." ++ rest) = .ok ⟨y, m, d⟩ := by
  have hm : 1 ≤ m ∧ m ≤ 12 := by
    obtain ⟨_, _, h3, h4, _, _⟩ := hd
    simp only [] at h3 h4
    omega
  obtain ⟨w', hw', hv, hs, hc⟩ := month_names (m - 1) (by omega)
  rw [show monthsHun = Spec.monthNames from rfl, hw] at hw'
  obtain rfl : w = w' := by simpa using hw'
  have comma : ∀ n, ',' ∉ natStr n := fun n => natStr_not_mem n ',' (by decide)
  have space : ∀ n, ' ' ∉ natStr n := fun n => natStr_not_mem n ' ' (by decide)
  have hstart : ∀ c ∈ natStr y ++ py". " ++ w ++ py" " ++ natStr d ++ py".", decide (c ≠ ',') = true := by
    intro c hc'
    have : c ≠ ',' := by
      intro e
      subst e
      simp [comma, hc] at hc'
    simpa using this
  have htake : (natStr y ++ py". " ++ w ++ py" " ++ natStr d ++ py"." ++ rest).takeWhile (· ≠ ',')
      = natStr y ++ py". " ++ w ++ py" " ++ natStr d ++ py"." := by
    rw [List.takeWhile_append_of_pos hstart]
    rcases hr with rfl | ⟨t, rfl⟩ <;> simp
  unfold Date.fromHungarianText
  simp only [htake]
  have hsplit : splitOn ' ' (natStr y ++ py". " ++ w ++ py" " ++ natStr d ++ py".")
      = [natStr y ++ ['.'], w, natStr d ++ ['.']] := by
    have := splitOn_three ' ' (natStr y ++ ['.']) w (natStr d ++ ['.']) (by simp [space]) hs (by simp [space])
    simpa using this
  rw [hsplit]
  simp only [List.dropLast_concat, pyInt_natStr, hv]
  rw [show m - 1 + 1 = m by omega]
  exact (date_constructed_iff _ _ _ _).mpr ⟨rfl, hd⟩

example : Date.fromHungarianText (py"2011. június 28., kedd") = .ok ⟨2011, 6, 28⟩ := by decide +kernel

end Verif.Props
