import Verif.Spec.Calendar

/-! # Lemmas: dates and day numbers are inverse to each other -/

namespace Verif

theorem isLeap_iff (y : Int) : isLeap y = true ↔ Spec.LeapYear y := by
  unfold isLeap Spec.LeapYear
  simp only [Bool.and_eq_true, Bool.or_eq_true, beq_iff_eq, bne_iff_ne, ne_eq, Int.dvd_iff_emod_eq_zero]

theorem daysInMonth_eq (y m : Int) : daysInMonth y m = Spec.monthLength y m := by
  unfold daysInMonth Spec.monthLength
  by_cases h : isLeap y = true
  · simp only [h, (isLeap_iff y).mp h, if_true]
  · have : ¬ Spec.LeapYear y := fun hl => h ((isLeap_iff y).mpr hl)
    simp only [this, if_false]
    rw [if_neg h]

theorem month_named {s : Str} {m : Int} : textToMonthHun s = .ok m ↔ Spec.MonthNamed s m := by
  have hnames : monthsHun = Spec.monthNames := rfl
  have hdiff : ∀ (i j : Fin Spec.monthNames.length), Spec.monthNames[i] = Spec.monthNames[j] → i = j := by decide +kernel
  unfold textToMonthHun Spec.MonthNamed
  rw [hnames]
  constructor
  · intro h
    split at h
    · rename_i i hi
      injection h with h
      subst h
      obtain ⟨hl, he, -⟩ := List.findIdx?_eq_some_iff_getElem.mp hi
      refine ⟨by omega, ?_⟩
      rw [show ((i : Int) + 1 - 1).toNat = i by omega, List.getElem?_eq_getElem hl]
      rw [eq_of_beq he]
    · cases h
  · rintro ⟨h1, h2⟩
    obtain ⟨hl, he⟩ := List.getElem?_eq_some_iff.mp h2
    have : Spec.monthNames.findIdx? (· == s) = some (m - 1).toNat := by
      rw [List.findIdx?_eq_some_iff_getElem]
      refine ⟨hl, by rw [he]; exact beq_self_eq_true s, ?_⟩
      intro j hj
      rw [beq_iff_eq]
      intro hjs
      have := congrArg Fin.val (hdiff ⟨j, by omega⟩ ⟨(m - 1).toNat, hl⟩ (hjs.trans he.symm))
      dsimp only at this
      omega
    rw [this]
    dsimp only
    congr 1
    omega

theorem mkDate_ok (y m d : Int) : mkDate y m d = if Spec.RealDate ⟨y, m, d⟩ then .ok ⟨y, m, d⟩ else .error .valueError := by
  unfold mkDate Spec.RealDate
  simp only [daysInMonth_eq]

/-- `daysBeforeMonth` by leap year. -/
def dbm (leap : Bool) (m : Int) : Int :=
  (match m with
    | 1 => 0 | 2 => 31 | 3 => 59 | 4 => 90 | 5 => 120 | 6 => 151
    | 7 => 181 | 8 => 212 | 9 => 243 | 10 => 273 | 11 => 304 | _ => 334)
  + (if m > 2 ∧ leap then 1 else 0)

/-- `daysInMonth` by leap year. -/
def dim (leap : Bool) (m : Int) : Int :=
  if m = 2 then (if leap then 29 else 28) else if m = 4 ∨ m = 6 ∨ m = 9 ∨ m = 11 then 30 else 31

theorem dbm_eq (y m : Int) : daysBeforeMonth y m = dbm (isLeap y) m := rfl
theorem dim_eq (y m : Int) : daysInMonth y m = dim (isLeap y) m := rfl

/-- Length of a year. -/
def yearLen (leap : Bool) : Int := if leap then 366 else 365

theorem months_table : ∀ leap : Bool, ∀ m : Nat, m < 13 → 1 ≤ m →
    0 ≤ dbm leap m ∧ dbm leap m + dim leap m ≤ yearLen leap ∧ 28 ≤ dim leap m ∧
    (m < 12 → dbm leap m + dim leap m = dbm leap (m + 1 : Nat)) ∧
    (m = 12 → dbm leap m + dim leap m = yearLen leap) := by decide +kernel

theorem months_order : ∀ leap : Bool, ∀ m : Nat, m < 13 → 1 ≤ m → ∀ k : Nat, k < 13 → m < k →
    dbm leap m + dim leap m ≤ dbm leap k := by decide +kernel

theorem monthDay_table : ∀ leap : Bool, ∀ n : Nat, n < 366 → (n < 365 ∨ leap = true) →
    1 ≤ (monthDay leap n).1 ∧ (monthDay leap n).1 ≤ 12 ∧ 1 ≤ (monthDay leap n).2 ∧
    (monthDay leap n).2 ≤ dim leap (monthDay leap n).1 ∧
    dbm leap (monthDay leap n).1 + (monthDay leap n).2 - 1 = n := by decide +kernel

theorem months_table_int (leap : Bool) (m : Int) (h1 : 1 ≤ m) (h2 : m ≤ 12) :
    0 ≤ dbm leap m ∧ dbm leap m + dim leap m ≤ yearLen leap ∧ 28 ≤ dim leap m ∧
    (m < 12 → dbm leap m + dim leap m = dbm leap (m + 1)) ∧
    (m = 12 → dbm leap m + dim leap m = yearLen leap) := by
  have h := months_table leap m.toNat (by omega) (by omega)
  rw [show ((m.toNat + 1 : Nat) : Int) = m + 1 by omega, show ((m.toNat : Nat) : Int) = m by omega] at h
  exact ⟨h.1, h.2.1, h.2.2.1, fun hm => h.2.2.2.1 (by omega), fun hm => h.2.2.2.2 (by omega)⟩

theorem months_order_int (leap : Bool) (m k : Int) (h1 : 1 ≤ m) (h2 : k ≤ 12) (h : m < k) :
    dbm leap m + dim leap m ≤ dbm leap k := by
  have h := months_order leap m.toNat (by omega) (by omega) k.toNat (by omega) (by omega)
  rwa [show ((m.toNat : Nat) : Int) = m by omega, show ((k.toNat : Nat) : Int) = k by omega] at h

theorem daysBeforeYear_succ (y : Int) : daysBeforeYear (y + 1) = daysBeforeYear y + yearLen (isLeap y) := by
  unfold daysBeforeYear yearLen
  by_cases h : isLeap y = true
  · rw [if_pos h]
    rw [isLeap_iff] at h
    unfold Spec.LeapYear at h
    simp only []
    omega
  · rw [if_neg h]
    rw [isLeap_iff] at h
    unfold Spec.LeapYear at h
    simp only []
    omega

theorem daysBeforeYear_mono (a b : Int) (h : a ≤ b) : daysBeforeYear a ≤ daysBeforeYear b := by
  unfold daysBeforeYear
  simp only []
  omega

/-- Earlier dates have smaller day numbers. -/
theorem ymd2ord_lt (a b : Date) (ha : Spec.RealDate a) (hb : Spec.RealDate b) (h : Spec.Before a b) :
    ymd2ord a.year a.month a.day < ymd2ord b.year b.month b.day := by
  obtain ⟨a1, a2, a3, a4, a5, a6⟩ := ha
  obtain ⟨b1, b2, b3, b4, b5, b6⟩ := hb
  rw [← daysInMonth_eq, dim_eq] at a6 b6
  unfold ymd2ord
  rw [dbm_eq, dbm_eq]
  have ta := months_table_int (isLeap a.year) a.month a3 a4
  have tb := months_table_int (isLeap b.year) b.month b3 b4
  rcases h with h | ⟨hy, h | ⟨hm, h⟩⟩
  · have h1 := daysBeforeYear_succ a.year
    have h2 := daysBeforeYear_mono (a.year + 1) b.year (by omega)
    omega
  · have := months_order_int (isLeap a.year) a.month b.month a3 b4 h
    rw [← hy] at tb b6 ⊢
    omega
  · rw [← hy, ← hm]
    omega

theorem before_total (a b : Date) : Spec.Before a b ∨ a = b ∨ Spec.Before b a := by
  unfold Spec.Before
  by_cases h : a = b
  · exact .inr (.inl h)
  · have : ¬ (a.year = b.year ∧ a.month = b.month ∧ a.day = b.day) := by
      rintro ⟨h1, h2, h3⟩
      apply h
      cases a; cases b
      simp_all
    omega

theorem ymd2ord_inj (a b : Date) (ha : Spec.RealDate a) (hb : Spec.RealDate b)
    (h : ymd2ord a.year a.month a.day = ymd2ord b.year b.month b.day) : a = b := by
  rcases before_total a b with hlt | rfl | hlt
  · have := ymd2ord_lt a b ha hb hlt; omega
  · rfl
  · have := ymd2ord_lt b a hb ha hlt; omega

theorem ymd2ord_range (a : Date) (ha : Spec.RealDate a) :
    0 < ymd2ord a.year a.month a.day ∧ ymd2ord a.year a.month a.day ≤ maxOrdinal := by
  obtain ⟨a1, a2, a3, a4, a5, a6⟩ := ha
  rw [← daysInMonth_eq, dim_eq] at a6
  have ta := months_table_int (isLeap a.year) a.month a3 a4
  unfold ymd2ord
  rw [dbm_eq]
  have h0 := daysBeforeYear_mono 1 a.year a1
  have h1 := daysBeforeYear_succ a.year
  have h2 := daysBeforeYear_mono (a.year + 1) 10000 (by omega)
  have e0 : daysBeforeYear 1 = 0 := by decide
  have e1 : daysBeforeYear 10000 = 3652059 := by decide
  unfold maxOrdinal
  omega

/-- A day number gives a real date with that day number. -/
theorem ord2ymd_spec (n : Int) (h1 : 0 < n) (h2 : n ≤ maxOrdinal) :
    Spec.RealDate (ord2ymd n) ∧ ymd2ord (ord2ymd n).year (ord2ymd n).month (ord2ymd n).day = n := by
  unfold maxOrdinal at h2
  -- the digits of the day number
  have q0 : ∃ q, (n - 1) / 146097 = q := ⟨_, rfl⟩
  obtain ⟨q, hq⟩ := q0
  obtain ⟨r, hr⟩ : ∃ r, (n - 1) % 146097 = r := ⟨_, rfl⟩
  obtain ⟨b, hb⟩ : ∃ b, r / 36524 = b := ⟨_, rfl⟩
  obtain ⟨s, hs⟩ : ∃ s, r % 36524 = s := ⟨_, rfl⟩
  obtain ⟨c, hc⟩ : ∃ c, s / 1461 = c := ⟨_, rfl⟩
  obtain ⟨t, ht⟩ : ∃ t, s % 1461 = t := ⟨_, rfl⟩
  obtain ⟨e, he⟩ : ∃ e, t / 365 = e := ⟨_, rfl⟩
  obtain ⟨d, hd⟩ : ∃ d, t % 365 = d := ⟨_, rfl⟩
  have hyear : ∀ y, y = q * 400 + 1 + b * 100 + c * 4 + e → ord2ymd n =
      if e = 4 ∨ b = 4 then { year := y - 1, month := 12, day := 31 }
      else { year := y, month := (monthDay (e == 3 && (c != 24 || b == 3)) d).1,
             day := (monthDay (e == 3 && (c != 24 || b == 3)) d).2 } := by
    intro y hy
    unfold ord2ymd
    simp only [hq, hr, hb, hs, hc, ht, he, hd, hy]
  obtain ⟨y, hy⟩ : ∃ y, y = q * 400 + 1 + b * 100 + c * 4 + e := ⟨_, rfl⟩
  rw [hyear y hy]
  have hn : n - 1 = q * 146097 + (b * 36524 + (c * 1461 + (e * 365 + d))) := by omega
  by_cases hlast : e = 4 ∨ b = 4
  · rw [if_pos hlast]
    simp only []
    unfold Spec.RealDate ymd2ord
    simp only []
    have hm : Spec.monthLength (y - 1) 12 = 31 := by rfl
    have hleap : isLeap (y - 1) = true := by
      rw [isLeap_iff]
      unfold Spec.LeapYear
      omega
    have hdb : daysBeforeMonth (y - 1) 12 = 335 := by
      rw [dbm_eq, hleap]; decide
    rw [hm, hdb]
    unfold daysBeforeYear
    simp only []
    constructor
    · omega
    · by_cases hb4 : b = 4
      · have e0 : e = 0 ∧ c = 0 ∧ d = 0 := by omega
        have e1 : (y - 1 - 1) / 4 = 100 * q + 99 := by omega
        have e2 : (y - 1 - 1) / 100 = 4 * q + 3 := by omega
        have e3 : (y - 1 - 1) / 400 = q := by omega
        omega
      · have e0 : e = 4 ∧ d = 0 := by omega
        have e1 : (y - 1 - 1) / 4 = 100 * q + 25 * b + c := by omega
        have e2 : (y - 1 - 1) / 100 = 4 * q + b := by omega
        have e3 : (y - 1 - 1) / 400 = q := by omega
        omega
  · rw [if_neg hlast]
    simp only []
    have hleap : isLeap y = (e == 3 && (c != 24 || b == 3)) := by
      apply Bool.eq_iff_iff.mpr
      rw [isLeap_iff]
      unfold Spec.LeapYear
      simp only [Bool.and_eq_true, Bool.or_eq_true, beq_iff_eq, bne_iff_ne, ne_eq]
      omega
    have tab := monthDay_table (isLeap y) d.toNat (by omega) (by omega)
    rw [show ((d.toNat : Nat) : Int) = d by omega] at tab
    rw [← hleap]
    obtain ⟨t1, t2, t3, t4, t5⟩ := tab
    unfold Spec.RealDate ymd2ord
    simp only []
    rw [← daysInMonth_eq, dim_eq, dbm_eq]
    have hdby : daysBeforeYear y = q * 146097 + (b * 36524 + (c * 1461 + e * 365)) := by
      unfold daysBeforeYear
      simp only []
      have e1 : (y - 1) / 4 = 100 * q + 25 * b + c := by omega
      have e2 : (y - 1) / 100 = 4 * q + b := by omega
      have e3 : (y - 1) / 400 = q := by omega
      omega
    have hy9 : y ≤ 9999 := by omega
    refine ⟨⟨by omega, hy9, t1, t2, t3, t4⟩, by omega⟩

theorem ord2ymd_ymd2ord (a : Date) (ha : Spec.RealDate a) : ord2ymd (ymd2ord a.year a.month a.day) = a := by
  have hr := ymd2ord_range a ha
  have hs := ord2ymd_spec _ hr.1 hr.2
  exact ymd2ord_inj _ _ hs.1 ha hs.2

theorem addDays_real (d : Date) (hd : Spec.RealDate d) (n : Int) : d.addDays n =
    if n < -999999999 ∨ 999999999 < n then .error .overflowError
    else if 0 < ymd2ord d.year d.month d.day + n ∧ ymd2ord d.year d.month d.day + n ≤ maxOrdinal then
      .ok (ord2ymd (ymd2ord d.year d.month d.day + n))
    else .error .overflowError := by
  unfold Date.addDays
  rw [mkDate_ok, if_pos hd]
  simp only []
  split
  · rfl
  · split
    · rename_i h
      rw [mkDate_ok, if_pos (ord2ymd_spec _ h.1 h.2).1]
    · rfl

/-- The result of adding days, if any, is the date with the day number increased. -/
theorem addDays_ok_iff (d e : Date) (hd : Spec.RealDate d) (n : Int) : d.addDays n = .ok e ↔
    Spec.RealDate e ∧ ymd2ord e.year e.month e.day = ymd2ord d.year d.month d.day + n := by
  have hrd := ymd2ord_range d hd
  rw [addDays_real d hd]
  constructor
  · intro h
    split at h
    · cases h
    · split at h
      · rename_i h'
        have := ord2ymd_spec _ h'.1 h'.2
        rw [← Except.ok.inj h]
        exact this
      · cases h
  · rintro ⟨he, ho⟩
    have hre := ymd2ord_range e he
    unfold maxOrdinal at *
    rw [if_neg (by omega), if_pos (by omega), ← ho, ord2ymd_ymd2ord e he]

theorem nextDay_ord (d : Date) (hd : Spec.RealDate d) : 
    ymd2ord (Spec.nextDay d).year (Spec.nextDay d).month (Spec.nextDay d).day = ymd2ord d.year d.month d.day + 1 := by
  obtain ⟨d1, d2, d3, d4, d5, d6⟩ := hd
  have tab := months_table_int (isLeap d.year) d.month d3 d4
  unfold Spec.nextDay
  by_cases h1 : d.day < Spec.monthLength d.year d.month
  · rw [if_pos h1]; simp only [ymd2ord]; omega
  · rw [if_neg h1]
    rw [← daysInMonth_eq, dim_eq] at d6 h1
    by_cases h2 : d.month < 12
    · rw [if_pos h2]
      simp only [ymd2ord, dbm_eq]
      have := tab.2.2.2.1 h2
      omega
    · rw [if_neg h2]
      simp only [ymd2ord, dbm_eq]
      have h := tab.2.2.2.2 (by omega)
      rw [daysBeforeYear_succ]
      have : dbm (isLeap (d.year + 1)) 1 = 0 := by cases isLeap (d.year + 1) <;> decide
      omega

theorem nextDay_real (d : Date) (hd : Spec.RealDate d) (hmax : d ≠ ⟨9999, 12, 31⟩) : Spec.RealDate (Spec.nextDay d) := by
  obtain ⟨d1, d2, d3, d4, d5, d6⟩ := hd
  unfold Spec.nextDay
  by_cases h1 : d.day < Spec.monthLength d.year d.month
  · rw [if_pos h1]
    exact ⟨d1, d2, d3, d4, by simp only []; omega, by simp only []; omega⟩
  · rw [if_neg h1]
    by_cases h2 : d.month < 12
    · rw [if_pos h2]
      refine ⟨d1, d2, by simp only []; omega, by simp only []; omega, by simp only []; omega, ?_⟩
      have := (months_table_int (isLeap d.year) (d.month + 1) (by omega) (by omega)).2.2.1
      simp only []
      rw [← daysInMonth_eq, dim_eq]
      omega
    · rw [if_neg h2]
      have hy : d.year ≠ 9999 := by
        intro hy
        apply hmax
        have hm : d.month = 12 := by omega
        have hl : Spec.monthLength d.year d.month = 31 := by rw [hm]; rfl
        have hday : d.day = 31 := by omega
        cases d
        simp_all
      refine ⟨by simp only []; omega, by simp only []; omega, by simp, by simp, by simp, ?_⟩
      simp [Spec.monthLength]

end Verif
