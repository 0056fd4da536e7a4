import Verif.Proofs.Expressions

/-! # Acts are read -/

namespace Verif

open Spec Peg

/-- What matches a regular expression is among the matches that are tried. -/
theorem matches_ends {r : Regex} {w : Str} (h : Matches r w) : ∀ rest, w.length ∈ r.ends (w ++ rest) := by
  induction h with
  | set h => intro rest; simp [Regex.ends, h]
  | @seq a b u v _ _ ih1 ih2 =>
    intro rest
    simp only [Regex.ends, List.mem_flatMap, List.mem_map]
    refine ⟨u.length, by rw [List.append_assoc]; exact ih1 _, v.length, ?_, by simp⟩
    rw [List.append_assoc, List.drop_left]
    exact ih2 rest
  | left _ ih => intro rest; simp only [Regex.ends, List.mem_append]; exact .inl (ih rest)
  | right _ ih => intro rest; simp only [Regex.ends, List.mem_append]; exact .inr (ih rest)
  | some _ ih => intro rest; simp only [Regex.ends, List.mem_append]; exact .inl (ih rest)
  | none => intro rest; simp [Regex.ends]
  | @star p u h =>
    intro rest
    simp only [Regex.ends, List.mem_reverse, List.mem_range]
    have : u.length ≤ ((u ++ rest).takeWhile p).length := by
      induction u with
      | nil => simp
      | cons c u ih =>
        rw [List.cons_append, List.takeWhile_cons_of_pos (h c (List.mem_cons_self ..))]
        have := ih fun x hx => h x (List.mem_cons_of_mem _ hx)
        simp only [List.length_cons]
        omega
    omega

namespace ActGrammar

theorem Reads.located {α : Type} {p : Peg α} {w rest : Str} {a : α} {c : Char} (h : Reads p w rest a) (hc : w.head? = some c)
    (hs : isSpace c = false) (n : Nat) : located p ⟨n, w ++ rest⟩ = some ((a, ↑n, ↑(n + w.length)), ⟨n + w.length, rest⟩) := by
  unfold Peg.located
  rw [skip_append hc hs, h n]

theorem pattern_cases (r : Regex) (n : Nat) (s : Str) : pattern r ⟨n, s⟩ = none ∨
    ∃ k, k ≤ s.length ∧ Matches r (s.take k) ∧ pattern r ⟨n, s⟩ = some (s.take k, ⟨n + k, s.drop k⟩) := by
  unfold pattern
  cases he : (r.ends s).head? with
  | none => exact .inl (by simp)
  | some k =>
    obtain ⟨h1, h2⟩ := ends_matches r s k (List.mem_of_mem_head? he)
    exact .inr ⟨k, h1, h2, by simp [At.move]⟩

/-! ## Abbreviations -/

/-- The text is read as an abbreviation if it is the only one here. -/
theorem abbreviation_of {n : Nat} {w rest : Str} (hs : ∀ c ∈ w.head?, isSpace c = false)
    (hm : Matches (.seq (.set isUpperHun) (.seq (.plus isLowerHun) (.seq (.opt (.char '.'))
        (.seq (.opt (.char ' ')) (.alt (.str (py"tv.")) (.str (py"vhr."))))))) w ∨
      Matches (.seq (.set isUpperHun) (.seq (.plus isLowerHun) (.char '.'))) w)
    (hu : ∀ a, a <+: w ++ rest → Abbreviated a → a = w) :
    abbreviation ⟨n, w ++ rest⟩ = some ((w, ↑n, ↑(n + w.length)), ⟨n + w.length, rest⟩) := by
  have hA := abbreviated_of_matches hm
  obtain ⟨c, t, rfl⟩ := List.exists_cons_of_ne_nil (abbreviated_ne_nil hA)
  have hc := hs c rfl
  have same : ∀ k, k ≤ (c :: t ++ rest).length → Abbreviated ((c :: t ++ rest).take k) →
      ((c :: t ++ rest).take k, (⟨n + k, (c :: t ++ rest).drop k⟩ : At)) = (c :: t, ⟨n + (c :: t).length, rest⟩) := by
    intro k hk ha
    have h1 := hu _ (List.take_prefix k _) ha
    have h2 : k = (c :: t).length := by
      have := congrArg List.length h1
      rw [List.length_take] at this
      omega
    rw [h1, h2, List.drop_left]
  have key : Peg.or (pattern (.seq (.set isUpperHun) (.seq (.plus isLowerHun) (.seq (.opt (.char '.')) (.seq (.opt (.char ' '))
      (.alt (.str (py"tv.")) (.str (py"vhr.")))))))) (pattern (.seq (.set isUpperHun) (.seq (.plus isLowerHun) (.char '.'))))
      ⟨n, c :: t ++ rest⟩ = some (c :: t, ⟨n + (c :: t).length, rest⟩) := by
    rcases pattern_cases (.seq (.set isUpperHun) (.seq (.plus isLowerHun) (.seq (.opt (.char '.')) (.seq (.opt (.char ' '))
      (.alt (.str (py"tv.")) (.str (py"vhr.")))))) ) n (c :: t ++ rest) with h1 | ⟨k, h1, h2, h3⟩
    · rw [or_right h1]
      rcases pattern_cases (.seq (.set isUpperHun) (.seq (.plus isLowerHun) (.char '.'))) n (c :: t ++ rest) with h4 | ⟨k, h4, h5, h6⟩
      · exfalso
        have none_ends : ∀ r : Regex, pattern r ⟨n, c :: t ++ rest⟩ = none → ¬ Matches r (c :: t) := by
          intro r hr hm
          have h7 := matches_ends hm rest
          unfold pattern at hr
          cases he : r.ends (c :: t ++ rest) with
          | nil => rw [he] at h7; cases h7
          | cons k ks => simp only [he, List.head?_cons] at hr; cases hr
        exact hm.elim (none_ends _ h1) (none_ends _ h4)
      · rw [h6, same k h4 (abbreviated_of_matches (.inr h5))]
    · rw [or_left h3, same k h1 (abbreviated_of_matches (.inl h2))]
  unfold abbreviation Peg.located
  rw [skip_append (c := c) rfl hc, key]

theorem upper_letter {c : Char} (h : isUpperAz c = true ∨ c ∈ py"ÉÁŐÚÖÜÓÍŰ") : hunLetter c := .inr h

theorem name_not_space {c : Char} (h : isUpperAz c = true ∨ c ∈ py"ÉÁŐÚÖÜÓÍŰ") : isSpace c = false := letter_not_space (upper_letter h)

theorem name_letters {c : Char} {e : Str} (hc : isUpperAz c = true ∨ c ∈ py"ÉÁŐÚÖÜÓÍŰ") (he : ∀ x ∈ e, hunLower x) :
    ∀ x ∈ c :: e, hunLetter x ∨ x = '-' := by
  intro x hx
  rcases List.mem_cons.mp hx with rfl | hx
  · exact .inl (.inr hc)
  · exact .inl (.inl (he x hx))

theorem matches_lowers {e : Str} (hn : e ≠ []) (he : ∀ x ∈ e, hunLower x) : Matches (.plus isLowerHun) e := by
  obtain ⟨c, e, rfl⟩ := List.exists_cons_of_ne_nil hn
  exact .seq (u := [c]) (.set (isLowerHun_of (he c (List.mem_cons_self ..)))) (.star fun x hx => isLowerHun_of (he x (List.mem_cons_of_mem _ hx)))

theorem matches_one (c : Char) : Matches (.char c) [c] := .set (by simp)

theorem matches_text : ∀ (t : Str), t ≠ [] → Matches (.str t) t
  | [], h => absurd rfl h
  | [c], _ => matches_one c
  | c :: d :: t, _ => .seq (u := [c]) (matches_one c) (matches_text (d :: t) (by simp))

theorem short_read {n : Nat} {w rest : Str} (h : ShortName w) (hr : ∀ e ∈ [py"tv.", py"vhr.", py" tv.", py" vhr."], ¬ e <+: rest) :
    abbreviation ⟨n, w ++ rest⟩ = some ((w, ↑n, ↑(n + w.length)), ⟨n + w.length, rest⟩) := by
  obtain ⟨c, e, rfl, hc, hn, he⟩ := h
  refine abbreviation_of (by rintro _ ⟨⟩; exact name_not_space hc) (.inr ?_) ?_
  · exact .seq (u := [c]) (.set (upper_first hc)) (.seq (matches_lowers hn he) (matches_one '.'))
  · intro a hp hA
    rw [List.append_assoc] at hp
    obtain ⟨r, h1, h2, h3 | ⟨z, rfl, h3⟩⟩ := abbreviated_prefix (name_letters hc he) (by rintro _ ⟨⟩; decide +kernel) hp hA
    · exfalso
      obtain ⟨u, hu⟩ := h2
      simp only [List.mem_cons, List.not_mem_nil, or_false] at h3
      rcases h3 with rfl | rfl <;> exact absurd (List.cons.inj hu).1 (by decide)
    · have h4 : z <+: rest := by
        rw [List.singleton_append, List.cons_prefix_cons] at h2
        exact h2.2
      rcases List.mem_cons.mp h3 with rfl | h3
      · exact h1
      · exact absurd h4 (hr z h3)

theorem seq_head {a b : Regex} {u v s : Str} (h1 : (a.ends (u ++ (v ++ s))).head? = some u.length) (h2 : (b.ends (v ++ s)).head? = some v.length) :
    ((Regex.seq a b).ends (u ++ v ++ s)).head? = some (u ++ v).length := by
  simp only [Regex.ends]
  rw [List.append_assoc]
  cases he : a.ends (u ++ (v ++ s)) with
  | nil => rw [he] at h1; cases h1
  | cons k ks =>
    rw [he] at h1
    cases h1
    rw [List.flatMap_cons, List.drop_left]
    cases hb : b.ends (v ++ s) with
    | nil => rw [hb] at h2; cases h2
    | cons j js =>
      rw [hb] at h2
      cases h2
      simp

theorem long_read {n : Nat} {w rest : Str} (h : LongName w) :
    abbreviation ⟨n, w ++ rest⟩ = some ((w, ↑n, ↑(n + w.length)), ⟨n + w.length, rest⟩) := by
  obtain ⟨c, e, z, rfl, hc, hn, he, hz⟩ := h
  simp only [List.mem_cons, List.not_mem_nil, or_false] at hz
  have h1 : ((Regex.seq (.opt (.char '.')) (.seq (.opt (.char ' ')) (.alt (.str (py"tv.")) (.str (py"vhr."))))).ends (z ++ rest)).head? =
      some z.length := by
    rcases hz with rfl | rfl | rfl | rfl | rfl | rfl <;> rfl
  have h2 : ∀ x ∈ (z ++ rest).head?, isLowerHun x = false := by
    rcases hz with rfl | rfl | rfl | rfl | rfl | rfl <;> (rintro _ ⟨⟩; decide +kernel)
  have h3 := seq_head (plus_ends hn (fun x hx => isLowerHun_of (he x hx)) h2) h1
  have h4 := seq_head (a := .set isUpperHun) (u := [c]) (by simp [Regex.ends, upper_first hc]) h3
  have h5 : pattern (.seq (.set isUpperHun) (.seq (.plus isLowerHun) (.seq (.opt (.char '.')) (.seq (.opt (.char ' '))
      (.alt (.str (py"tv.")) (.str (py"vhr."))))))) ⟨n, c :: e ++ z ++ rest⟩ = some (c :: e ++ z, ⟨n + (c :: e ++ z).length, rest⟩) := by
    refine pattern_of n ?_
    exact h4
  unfold abbreviation Peg.located
  have hsk : (⟨n, c :: e ++ z ++ rest⟩ : At).skip = ⟨n, c :: e ++ z ++ rest⟩ := skip_cons (name_not_space hc) n
  rw [hsk, or_left h5]

/-! ## Numbers of acts -/

theorem token_guard {t s : Str} {c d : Char} (n : Nat) (hc : t.head? = some c) (hs : isSpace c = false) (hn : isName t = true) (hd : isNameChar d = true) :
    token t ⟨n, t ++ d :: s⟩ = none := by
  unfold token
  rw [skip_append hc hs]
  simp [hn, hd]

theorem lower_name {c : Char} (h : hunLower c) : isNameChar c = true := letter_name (.inl h)

theorem reads_actSuffix {e rest : Str} (h : Inflected (py"törvény") e ∨ e = py"tv.") (hr : WordEnds rest) : ∃ x, Reads actSuffix e rest x := by
  rcases h with ⟨l, rfl, hl⟩ | rfl
  · cases l with
    | nil =>
      refine ⟨py"törvény", ?_⟩
      rw [List.append_nil]
      refine (Reads.left (reads_word (c := 't') rfl (by decide) (.inr ?_))).rule (c := 't') rfl (by decide)
      exact hr.not (by decide +kernel)
    | cons x l =>
      refine ⟨(py"törvény") ++ x :: l, (Reads.right (fun n => ?_) (Reads.left (Reads.matches ?_))).rule (c := 't') rfl (by decide)⟩
      · rw [List.append_assoc]
        exact token_guard (c := 't') n rfl (by decide) (by decide +kernel) (lower_name (hl x (List.mem_cons_self ..)))
      · have h1 : ((Regex.plus isLowerHun).ends ((py"y") ++ x :: l ++ rest)).head? = some ((py"y") ++ x :: l).length := by
          refine plus_ends (by simp) (fun c hc => ?_) (hr.not (by decide +kernel))
          rcases List.mem_append.mp hc with hc | hc
          · rw [List.mem_singleton.mp hc]; decide +kernel
          · exact isLowerHun_of (hl c hc)
        exact str_seq_ends (t := py"törvén") (by simp) h1
  · refine ⟨py"tv.", (Reads.right (fun n => ?_) (Reads.right ?_ (reads_word (c := 't') rfl (by decide) (.inl (by decide +kernel))))).rule (c := 't') rfl (by decide)⟩
    · refine token_not_prefix ?_
      rw [List.cons_append, dropWhile_cons_of (by decide)]
      rfl
    · refine fails_pattern (seq_none (str_none _ _ (by simp) ?_))
      rfl

theorem actNumber_read {n : Nat} {year number w rest : Str} (h : ActNumber year number w) (hr : WordEnds rest) :
    actId ⟨n, w ++ rest⟩ = some (((year, number), ↑n, ↑(n + w.length)), ⟨n + w.length, rest⟩) := by
  obtain ⟨e, hy, hn, he, rfl⟩ := h
  obtain ⟨x, hx⟩ := reads_actSuffix he hr
  obtain ⟨c, hc, hd⟩ := digits_head hy
  have hev : ∃ a, e.head? = some a ∧ isSpace a = false := by
    rcases he with ⟨l, rfl, _⟩ | rfl
    · exact ⟨'t', rfl, by decide⟩
    · exact ⟨'t', rfl, by decide⟩
  obtain ⟨a, ha, hs⟩ := hev
  have hx' : Reads actSuffix (' ' :: e) rest x := by
    intro m
    show rule _ ⟨m, ' ' :: e ++ rest⟩ = _
    rw [List.cons_append, rule_space]
    have := hx (m + 1)
    unfold actSuffix at this
    rw [this]
    simp only [List.length_cons]
    congr 3
    omega
  obtain ⟨d, num, rfl⟩ := List.exists_cons_of_ne_nil hn.1
  have rom : ∀ c ∈ py"IVXLCDM", isSpace c = false ∧ isNameChar c = true := by decide +kernel
  have hroman : Reads roman (' ' :: (d :: num)) ((py".") ++ (' ' :: e ++ rest)) (d :: num) := by
    refine Reads.rule_space (c := d) (Reads.matches (plus_ends hn.1 (fun c hc => ?_) (by rintro _ ⟨⟩; decide))) rfl
      (rom d (hn.2 d (List.mem_cons_self ..))).1
    rw [List.contains_iff_mem]
    exact hn.2 c hc
  have hevi : Reads (token (py"évi")) (' ' :: py"évi") (' ' :: (d :: num) ++ ((py".") ++ (' ' :: e ++ rest))) (py"évi") :=
    Reads.token_space (reads_word (c := 'é') rfl (by decide) (.inr (by rintro _ ⟨⟩; decide +kernel)))
  have hyear : Reads ActGrammar.number year ((py".") ++ (' ' :: (py"évi") ++ (' ' :: (d :: num) ++ ((py".") ++ (' ' :: e ++ rest))))) year :=
    reads_number hy (by rintro _ ⟨⟩; decide)
  have key : Reads (do
      let year ← ActGrammar.number
      let _ ← token (py".")
      let _ ← token (py"évi")
      let number ← roman
      let _ ← token (py".")
      let _ ← actSuffix
      pure (year, number) : Peg (Str × Str)) (year ++ ((py".") ++ (' ' :: (py"évi") ++ (' ' :: (d :: num) ++ ((py".") ++ (' ' :: e)))))) rest
      (year, d :: num) := by
    refine Reads.bind (by simpa using hyear) (Reads.bind (reads_dot _) (Reads.bind (by simpa using hevi) (Reads.bind (by simpa using hroman)
      (Reads.bind (reads_dot _) (hx'.to (reads_nil _ _))))))
  have hfin := Reads.located (c := c) key (by simp [List.head?_append, hc]) (digit_not_space hd) n
  have e1 : year ++ ((py".") ++ (' ' :: (py"évi") ++ (' ' :: (d :: num) ++ ((py".") ++ (' ' :: e))))) =
      year ++ (py". évi ") ++ (d :: num) ++ (py". ") ++ e := by simp
  rw [e1] at hfin
  exact hfin

theorem fails_fromNowOn {s : Str} (h : NotFirst (py"(") s) :
    Fails (Peg.or (do let s ← fromNowOn; pure (some s)) (do fromNowOnLong; pure none)) s := by
  have h' : NotFirst (py"(") (s.dropWhile isSpace) := by intro c hc; rw [first_dropWhile] at hc; exact h c hc
  have ho : Fails (token (py"(")) (s.dropWhile isSpace) := fails_first (a := '(') rfl h'
  exact Fails.or (Fails.bind (Fails.rule ho.bind)) (Fails.bind (Fails.rule ho.bind))

/-- An abbreviation in brackets is read. -/
theorem bracketed_read {t c rest : Str} (ht : ShortName t ∨ LongName t) (hc : c ∈ [py")", py" törvény)"]) (m : Nat) :
    abbreviation ⟨m, ' ' :: (t ++ (c ++ rest))⟩ = some ((t, ↑(m + 1), ↑(m + 1 + t.length)), ⟨m + 1 + t.length, c ++ rest⟩) := by
  have h : abbreviation ⟨m + 1, t ++ (c ++ rest)⟩ = some ((t, ↑(m + 1), ↑(m + 1 + t.length)), ⟨m + 1 + t.length, c ++ rest⟩) := by
    rcases ht with ht | ht
    · refine short_read ht ?_
      intro e he
      simp only [List.mem_cons, List.not_mem_nil, or_false] at he hc
      rcases he with rfl | rfl | rfl | rfl <;> rcases hc with rfl | rfl <;> simp
    · exact long_read ht
  unfold abbreviation at h ⊢
  rw [← located_skip, skip_space (by decide), located_skip, h]

/-- The colon is read if there is one. -/
theorem colon_read {o v s : Str} {d : Char} (ho : o ∈ [py" (a továbbiakban: ", py" (a továbbiakban "]) (hd : hunLetter d) :
    ∃ k x, (k = [] ∨ k = py":") ∧ o = (py" (a továbbiakban") ++ k ++ [' '] ∧ Reads (opt (token (py":"))) k (' ' :: (d :: v ++ s)) x := by
  simp only [List.mem_cons, List.not_mem_nil, or_false] at ho
  rcases ho with rfl | rfl
  · exact ⟨py":", _, .inr rfl, rfl, (reads_colon (' ' :: (d :: v ++ s))).opt⟩
  · have hno : Fails (token (py":")) (' ' :: (d :: v ++ s)) := by
      refine fails_first (a := ':') rfl ?_
      intro x hx
      unfold first at hx
      rw [List.dropWhile_cons_of_pos (by decide), List.cons_append, dropWhile_cons_of (letter_not_space hd)] at hx
      cases hx
      intro hm
      rw [List.mem_singleton.mp hm] at hd
      exact absurd (hunLetter_iff.mp hd) (by decide +kernel)
    exact ⟨[], _, .inl rfl, rfl, hno.opt⟩

theorem fromNowOn_read {n : Nat} {o t c rest : Str} (ho : o ∈ [py" (a továbbiakban: ", py" (a továbbiakban "]) (ht : ShortName t ∨ LongName t)
    (hc : c ∈ [py")", py" törvény)"]) :
    fromNowOn ⟨n, o ++ t ++ c ++ rest⟩ = some (t, ⟨n + (o ++ t ++ c).length, rest⟩) := by
  have h1 := bracketed_read (rest := rest) ht hc
  have last : ∀ m, ∃ x, opt (token (py"törvény")) ⟨m, c ++ rest⟩ = some (x, ⟨m + (c.length - 1), (py")") ++ rest⟩) := by
    intro m
    simp only [List.mem_cons, List.not_mem_nil, or_false] at hc
    rcases hc with rfl | rfl
    · have hno : Fails (token (py"törvény")) ((py")") ++ rest) := fails_first (a := 't') rfl (notFirst_cons (by decide) (by decide))
      exact ⟨_, hno.opt m⟩
    · have hyes : Reads (token (py"törvény")) (' ' :: py"törvény") ((py")") ++ rest) (py"törvény") :=
        Reads.token_space (reads_word (c := 't') rfl (by decide) (.inr (by rintro _ ⟨⟩; decide +kernel)))
      exact ⟨_, hyes.opt m⟩
  have colon : ∃ k x, (k = [] ∨ k = py":") ∧ o = (py" (a továbbiakban") ++ k ++ [' '] ∧
      Reads (opt (token (py":"))) k (' ' :: (t ++ (c ++ rest))) x := by
    rcases ht with ⟨d, e, rfl, hd, _⟩ | ⟨d, e, z, rfl, hd, _⟩ <;> exact colon_read ho (upper_letter hd)
  obtain ⟨k, x, hk, rfl, hcolon⟩ := colon
  have hopen := reads_open ((py"a") ++ (' ' :: (py"továbbiakban") ++ (k ++ (' ' :: (t ++ (c ++ rest))))))
  have ha : Reads (token (py"a")) (py"a") (' ' :: (py"továbbiakban") ++ (k ++ (' ' :: (t ++ (c ++ rest))))) (py"a") :=
    reads_word (c := 'a') rfl (by decide) (.inr (by rintro _ ⟨⟩; decide +kernel))
  have hf : Reads (token (py"továbbiakban")) (' ' :: py"továbbiakban") (k ++ (' ' :: (t ++ (c ++ rest)))) (py"továbbiakban") :=
    Reads.token_space (reads_word (c := 't') rfl (by decide) (.inr (by rcases hk with rfl | rfl <;> (rintro _ ⟨⟩; decide +kernel))))
  unfold fromNowOn
  have e1 : (py" (a továbbiakban") ++ k ++ [' '] ++ t ++ c ++ rest =
      ' ' :: ((py"(") ++ ((py"a") ++ (' ' :: (py"továbbiakban") ++ (k ++ (' ' :: (t ++ (c ++ rest))))))) := by simp
  rw [e1, rule_space]
  unfold rule
  rw [skip_append (c := '(') rfl (by decide)]
  rw [bind_some (hopen _), bind_some (ha _), bind_some (hf _), bind_some (hcolon _), bind_some (h1 _)]
  obtain ⟨y, hy⟩ := last (n + 1 + (py"(").length + (py"a").length + (' ' :: py"továbbiakban").length + k.length + 1 + t.length)
  rw [bind_some hy, bind_some (reads_close _ _)]
  show some _ = some _
  have : 0 < c.length := by
    simp only [List.mem_cons, List.not_mem_nil, or_false] at hc
    rcases hc with rfl | rfl <;> simp
  simp only [List.length_append, List.length_cons, List.length_nil]
  congr 3
  omega

theorem small_words {t rest : Str} (h : SmallWords t) : ∀ m, ∃ as, as ≠ [] ∧
    Steps word ⟨m, ' ' :: (t ++ ((py")") ++ rest))⟩ as ⟨m + 1 + t.length, (py")") ++ rest⟩ := by
  have one : ∀ (w s : Str) (m : Nat), w ≠ [] → (∀ x ∈ w, hunLower x) → (∀ x ∈ s.head?, ¬ hunLetter x ∧ x ≠ '-') →
      word ⟨m, ' ' :: (w ++ s)⟩ = some (w, ⟨m + 1 + w.length, s⟩) := by
    intro w s m hn hl hs
    obtain ⟨c, w, rfl⟩ := List.exists_cons_of_ne_nil hn
    have h1 : Reads (pattern (.plus fun c => isLowerHun c || isUpperHun c || c == '-')) (c :: w) s (c :: w) := by
      refine Reads.matches (plus_ends (by simp) (fun x hx => ?_) (fun x hx => ?_))
      · rw [isLowerHun_of (hl x hx), Bool.true_or, Bool.true_or]
      · obtain ⟨h1, h2⟩ := hs x hx
        rw [Bool.or_eq_false_iff]
        exact ⟨by rw [← Bool.not_eq_true, ← hunLetter_iff]; exact h1, by simpa using h2⟩
    have h2 := h1.rule (c := c) rfl (letter_not_space (.inl (hl c (List.mem_cons_self ..)))) (m + 1)
    unfold word
    rw [rule_space]
    exact h2
  induction h with
  | @one w hn hl =>
    intro m
    refine ⟨[w], by simp, .cons (one w _ m hn hl ?_) ?_ (.nil _)⟩
    · rintro _ ⟨⟩
      exact ⟨fun h => absurd (hunLetter_iff.mp h) (by decide +kernel), by decide⟩
    · simp
      omega
  | @cons w v hn hl hv ih =>
    intro m
    obtain ⟨as, h1, h2⟩ := ih (m + 1 + w.length)
    have h3 := one w (' ' :: (v ++ ((py")") ++ rest))) m hn hl (by
      rintro _ ⟨⟩
      exact ⟨fun h => absurd (hunLetter_iff.mp h) (by decide +kernel), by decide⟩)
    have e1 : w ++ ' ' :: v ++ ((py")") ++ rest) = w ++ ' ' :: (v ++ ((py")") ++ rest)) := by simp
    have e2 : m + 1 + (w ++ ' ' :: v).length = m + 1 + w.length + 1 + v.length := by simp; omega
    rw [e1, e2]
    refine ⟨w :: as, by simp, .cons h3 ?_ h2⟩
    simp
    omega

theorem small_first {t : Str} (h : SmallWords t) : ∃ d v, t = d :: v ∧ hunLower d := by
  cases h with
  | one hn hl | cons hn hl _ =>
    obtain ⟨d, v, rfl⟩ := List.exists_cons_of_ne_nil hn
    exact ⟨d, _, rfl, hl d (List.mem_cons_self ..)⟩

/-- A name in brackets that is no abbreviation is read. -/
theorem fromNowOnLong_read {n : Nat} {o t rest : Str} (ho : o ∈ [py" (a továbbiakban: ", py" (a továbbiakban "]) (ht : SmallWords t) :
    fromNowOn ⟨n, o ++ t ++ (py")") ++ rest⟩ = none ∧
      fromNowOnLong ⟨n, o ++ t ++ (py")") ++ rest⟩ = some ((), ⟨n + (o ++ t ++ py")").length, rest⟩) := by
  have words := small_words (rest := rest) ht
  obtain ⟨d, v, rfl, hd⟩ := small_first ht
  have hl : hunLetter d := .inl hd
  have hsp := letter_not_space hl
  obtain ⟨k, x, hk, rfl, hcolon⟩ := colon_read (v := v) (s := (py")") ++ rest) ho hl
  have hopen := reads_open ((py"a") ++ (' ' :: (py"továbbiakban") ++ (k ++ (' ' :: (d :: v ++ ((py")") ++ rest))))))
  have ha : Reads (token (py"a")) (py"a") (' ' :: (py"továbbiakban") ++ (k ++ (' ' :: (d :: v ++ ((py")") ++ rest))))) (py"a") :=
    reads_word (c := 'a') rfl (by decide) (.inr (by rintro _ ⟨⟩; decide +kernel))
  have hf : Reads (token (py"továbbiakban")) (' ' :: py"továbbiakban") (k ++ (' ' :: (d :: v ++ ((py")") ++ rest)))) (py"továbbiakban") :=
    Reads.token_space (reads_word (c := 't') rfl (by decide) (.inr (by rcases hk with rfl | rfl <;> (rintro _ ⟨⟩; decide +kernel))))
  have e1 : (py" (a továbbiakban") ++ k ++ [' '] ++ d :: v ++ (py")") ++ rest =
      ' ' :: ((py"(") ++ ((py"a") ++ (' ' :: (py"továbbiakban") ++ (k ++ (' ' :: (d :: v ++ ((py")") ++ rest))))))) := by simp
  have noAbbr : ∀ m, abbreviation ⟨m, ' ' :: (d :: v ++ ((py")") ++ rest))⟩ = none := by
    intro m
    have hu : isUpperHun d = false := by
      rcases hd with hd | hd
      · exact (begins_not_upper (k := .alphabeticPoint) hd).1
      · have : ∀ x ∈ py"éáőúöüóíű", isUpperHun x = false := by decide +kernel
        exact this d hd
    have h := fails_abbreviation (s := v ++ ((py")") ++ rest)) hsp hu (m + 1)
    unfold abbreviation at h ⊢
    rw [← located_skip, skip_space (by decide), located_skip]
    exact h
  have noId : ∀ m, actId ⟨m, ' ' :: (d :: v ++ ((py")") ++ rest))⟩ = none := by
    intro m
    unfold actId
    rw [← located_skip, skip_space (by decide), located_skip]
    unfold Peg.located
    rw [List.cons_append, skip_cons hsp]
    rw [bind_none (fails_number (by rw [first_cons hsp]; rintro _ ⟨⟩; exact letter_not_digit hl) _)]
  constructor
  · unfold fromNowOn
    rw [e1, rule_space]
    unfold rule
    rw [skip_append (c := '(') rfl (by decide)]
    rw [bind_some (hopen _), bind_some (ha _), bind_some (hf _), bind_some (hcolon _), bind_none (noAbbr _)]
  · unfold fromNowOnLong
    rw [e1, rule_space]
    unfold rule
    rw [skip_append (c := '(') rfl (by decide)]
    rw [bind_some (hopen _), bind_some (ha _), bind_some (hf _), bind_some (hcolon _)]
    obtain ⟨as, h1, h2⟩ := words (n + 1 + (py"(").length + (py"a").length + (' ' :: py"továbbiakban").length + k.length)
    have h3 := many1_steps h2 h1 (fails_word (by decide) (fun h => absurd (hunLetter_iff.mp h) (by decide +kernel)) (by decide) _)
    have h4 : Peg.or (do let _ ← actId; pure ()) (do let _ ← many1 word; pure ())
        ⟨n + 1 + (py"(").length + (py"a").length + (' ' :: py"továbbiakban").length + k.length, ' ' :: (d :: v ++ ((py")") ++ rest))⟩ =
        some ((), ⟨n + 1 + (py"(").length + (py"a").length + (' ' :: py"továbbiakban").length + k.length + 1 + (d :: v).length, (py")") ++ rest⟩) := by
      rw [or_right (bind_none (noId _)), bind_some h3]
      rfl
    rw [bind_some h4, bind_some (reads_close _ _)]
    show some _ = some _
    simp only [List.length_append, List.length_cons, List.length_nil]
    congr 3
    omega

theorem number_head {year number w : Str} (h : ActNumber year number w) : ∃ c t, w = c :: t ∧ isAsciiDigit c = true := by
  obtain ⟨e, hy, hn, he, rfl⟩ := h
  obtain ⟨c, t, rfl⟩ := List.exists_cons_of_ne_nil hy.1
  exact ⟨c, _, rfl, hy.2 c (List.mem_cons_self ..)⟩

/-- An act is read. -/
theorem act_read {n : Nat} {a : ParsedActRef} {w rest : Str} (h : ActText n a w rest) :
    actReference ⟨n, w ++ rest⟩ = some (a, ⟨n + w.length, rest⟩) := by
  have digit : ∀ {year number w rest : Str}, ActNumber year number w → (⟨n, w ++ rest⟩ : At).skip = ⟨n, w ++ rest⟩ ∧ Fails abbreviation (w ++ rest) := by
    intro year number w rest h
    obtain ⟨c, t, rfl, hc⟩ := number_head h
    exact ⟨skip_cons (digit_not_space hc) n, fails_abbreviation (digit_not_space hc) (begins_not_upper (k := .article) hc).1⟩
  unfold actReference rule
  cases h with
  | short h hr =>
    have hsk : (⟨n, w ++ rest⟩ : At).skip = ⟨n, w ++ rest⟩ := by
      obtain ⟨c, e, rfl, hc, _⟩ := h
      exact skip_cons (name_not_space hc) n
    rw [hsk]
    refine or_left ?_
    rw [bind_some (short_read h hr)]
    rfl
  | long h =>
    have hsk : (⟨n, w ++ rest⟩ : At).skip = ⟨n, w ++ rest⟩ := by
      obtain ⟨c, e, z, rfl, hc, _⟩ := h
      exact skip_cons (name_not_space hc) n
    rw [hsk]
    refine or_left ?_
    rw [bind_some (long_read h)]
    rfl
  | number h he hr =>
    obtain ⟨hsk, hna⟩ := digit (rest := rest) h
    rw [hsk, or_right (bind_none (hna n)), bind_some (actNumber_read h he), bind_some (opt_none (fails_fromNowOn hr _))]
    rfl
  | @defined year number w o t c _ h ho ht hc =>
    obtain ⟨hsk, hna⟩ := digit (rest := o ++ t ++ c ++ rest) h
    have e1 : w ++ o ++ t ++ c ++ rest = w ++ (o ++ t ++ c ++ rest) := by simp
    have hw : WordEnds (o ++ t ++ c ++ rest) := by
      simp only [List.mem_cons, List.not_mem_nil, or_false] at ho
      rcases ho with rfl | rfl <;> (rintro _ ⟨⟩; decide)
    rw [e1, hsk, or_right (bind_none (hna n)), bind_some (actNumber_read h hw)]
    have h1 := fromNowOn_read (n := n + w.length) (rest := rest) ho ht hc
    have h2 : Peg.or (do let s ← fromNowOn; pure (some s)) (do fromNowOnLong; pure none) ⟨n + w.length, o ++ t ++ c ++ rest⟩ =
        some (some t, ⟨n + w.length + (o ++ t ++ c).length, rest⟩) := by
      refine or_left ?_
      rw [bind_some h1]
      rfl
    have e2 : n + w.length + (o ++ t ++ c).length = n + (w ++ o ++ t ++ c).length := by
      simp only [List.length_append]
      omega
    rw [e2] at h2
    rw [bind_some (opt_some h2)]
    rfl
  | @described year number w o t _ h ho ht =>
    obtain ⟨hsk, hna⟩ := digit (rest := o ++ t ++ (py")") ++ rest) h
    have e1 : w ++ o ++ t ++ (py")") ++ rest = w ++ (o ++ t ++ (py")") ++ rest) := by simp
    have hw : WordEnds (o ++ t ++ (py")") ++ rest) := by
      simp only [List.mem_cons, List.not_mem_nil, or_false] at ho
      rcases ho with rfl | rfl <;> (rintro _ ⟨⟩; decide)
    rw [e1, hsk, or_right (bind_none (hna n)), bind_some (actNumber_read h hw)]
    obtain ⟨h0, h1⟩ := fromNowOnLong_read (n := n + w.length) (rest := rest) ho ht
    have h2 : Peg.or (do let s ← fromNowOn; pure (some s)) (do fromNowOnLong; pure none) ⟨n + w.length, o ++ t ++ (py")") ++ rest⟩ =
        some (none, ⟨n + w.length + (o ++ t ++ py")").length, rest⟩) := by
      rw [or_right (bind_none h0), bind_some h1]
      rfl
    have e2 : n + w.length + (o ++ t ++ py")").length = n + (w ++ o ++ t ++ py")").length := by
      simp only [List.length_append]
      omega
    rw [e2] at h2
    rw [bind_some (opt_some h2)]
    rfl

end ActGrammar
end Verif
