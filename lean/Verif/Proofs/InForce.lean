import Verif.Proofs.Changes

/-! # Sentences about coming into force -/

namespace Verif.ActGrammar

open Spec Peg

theorem _root_.Verif.Peg.Reads.space {α : Type} {p : Peg α} {w rest : Str} {a : α} (h : Reads p w rest a) (hp : ∀ i, p i.skip = p i) :
    Reads p (' ' :: w) rest a := by
  intro n
  have h1 := h (n + 1)
  rw [← hp] at h1 ⊢
  rw [List.cons_append, skip_space (by decide), h1]
  simp
  omega

theorem _root_.Verif.Peg.Fails.space {α : Type} {p : Peg α} {s : Str} (h : Fails p s) (hp : ∀ i, p i.skip = p i) : Fails p (' ' :: s) := by
  intro n
  have h1 := h (n + 1)
  rw [← hp] at h1 ⊢
  rw [skip_space (by decide), h1]

/-! ## Times -/

theorem month_names : months.all (fun u => isName u && u.head?.any fun c => !isSpace c) = true := by decide +kernel

theorem ordinal_names : ordinalWords.all (fun u => isName u && u.head?.any fun c => !isSpace c) = true := by decide +kernel

/-- The head of a word. -/
theorem name_head {ts : List Str} (hn : ts.all (fun u => isName u && u.head?.any fun c => !isSpace c) = true) {t : Str} (ht : t ∈ ts) :
    ∃ c u, t = c :: u ∧ isSpace c = false := by
  have := List.all_eq_true.mp hn t ht
  rw [Bool.and_eq_true] at this
  cases t with
  | nil => simp at this
  | cons c u => exact ⟨c, u, rfl, by simpa using this.2⟩

theorem words_read {ts : List Str} (hn : ts.all (fun u => isName u && u.head?.any fun c => !isSpace c) = true) {t rest : Str} (ht : t ∈ ts)
    (hr : ∀ c ∈ rest.head?, isNameChar c = false) : Reads (rule (tokens ts)) t rest t := by
  obtain ⟨c, u, rfl, hc⟩ := name_head hn ht
  exact (reads_names ht hn hr).rule (c := c) rfl hc

theorem date_end {e : Str} (he : e ∈ [py"-án", py"-jén", py"-én", py". napján"]) (rest : Str) :
    (∀ c ∈ (e ++ rest).head?, isAsciiDigit c = false) ∧ ∃ x, Reads (tokens [py"-án", py"-jén", py"-én", py". napján"]) e rest x := by
  simp only [List.mem_cons, List.not_mem_nil, or_false] at he
  rcases he with rfl | rfl | rfl | rfl
  · exact ⟨by rintro _ ⟨⟩; decide, _, .left (reads_text (by decide +kernel))⟩
  · exact ⟨by rintro _ ⟨⟩; decide, _, .right (fails_text (by rfl)) (.left (reads_text (by decide +kernel)))⟩
  · exact ⟨by rintro _ ⟨⟩; decide, _, .right (fails_text (by rfl)) (.right (fails_text (by rfl)) (.left (reads_text (by decide +kernel))))⟩
  · exact ⟨by rintro _ ⟨⟩; decide, _, .right (fails_text (by rfl)) (.right (fails_text (by rfl)) (.right (fails_text (by rfl))
      (.left (reads_text (by decide +kernel)))))⟩

theorem number_skip (i : At) : number i.skip = number i := rule_skip _ i

theorem date_reads {d : ParsedDate} {w : Str} (h : DateText d w) (rest : Str) : Reads date w rest d := by
  obtain ⟨h1, h2, h3, e, he, rfl⟩ := h
  obtain ⟨e1, x, e2⟩ := date_end he rest
  obtain ⟨c, hc, hd⟩ := digits_head h1
  obtain ⟨y, hy⟩ := List.head?_eq_some_iff.mp hc
  have r1 : Reads number d.year ((py".") ++ (' ' :: d.month ++ (' ' :: d.day ++ e)) ++ rest) d.year := reads_number h1 (by rintro _ ⟨⟩; decide)
  have r3 : Reads month (' ' :: d.month) (' ' :: d.day ++ e ++ rest) d.month := (words_read month_names h2 no_name_space).space (rule_skip _)
  have r4 : Reads number (' ' :: d.day) (e ++ rest) d.day := (reads_number h3 e1).space number_skip
  have r5 := e2.to (f := fun _ => pure d) (reads_nil _ _)
  have r := Reads.bind (f := fun year => do
    let _ ← token (py".")
    let month ← month
    let day ← number
    let _ ← tokens [py"-án", py"-jén", py"-én", py". napján"]
    pure (⟨year, month, day⟩ : ParsedDate)) r1 (Reads.bind (reads_dot _) (Reads.bind r3 (Reads.bind r4 r5)))
  have e0 : d.year ++ (py". ") ++ d.month ++ ' ' :: d.day ++ e = d.year ++ ((py".") ++ (' ' :: d.month ++ (' ' :: d.day ++ e))) := by simp
  rw [e0]
  exact r.rule (c := c) (by rw [hy]; rfl) (digit_not_space hd)

theorem fails_date {s : Str} (h : ∀ c ∈ first s, isAsciiDigit c = false) : Fails date s :=
  Fails.rule (fails_number (by rw [first_dropWhile]; exact h)).bind

theorem after_head {u : Str} (h : AfterText u) : ∃ c t, u = c :: t ∧ c ∈ py"ake" := by
  obtain ⟨a, k, rfl, ha, hk⟩ := h
  simp only [List.mem_cons, List.not_mem_nil, or_false] at ha hk
  rcases ha with rfl | rfl | rfl
  · rcases hk with rfl | rfl <;> exact ⟨_, _, rfl, by decide⟩
  · exact ⟨_, _, rfl, by decide⟩
  · exact ⟨_, _, rfl, by decide⟩

theorem publication_names : [py"kihirdetését", py"kihirdetést"].all (fun u => isName u && u.head?.any fun c => !isSpace c) = true := by decide +kernel

theorem after_reads {u rest : Str} (h : AfterText u) (hr : ∀ c ∈ rest.head?, isNameChar c = false) : Reads afterItsPublication u rest () := by
  obtain ⟨a, k, rfl, ha, hk⟩ := h
  have r3 : Reads (token (py"követő")) (py" követő") rest (py"követő") := name_space (by decide +kernel) hr
  have r4 := r3.to (f := fun _ => pure ()) (reads_nil () _)
  have r2 : Reads (tokens [py"kihirdetését", py"kihirdetést"]) k ((py" követő") ++ rest) k := reads_names hk publication_names no_name_space
  have hk' : ∃ t, k = 'k' :: t := by
    simp only [List.mem_cons, List.not_mem_nil, or_false] at hk
    rcases hk with rfl | rfl <;> exact ⟨_, rfl⟩
  simp only [List.mem_cons, List.not_mem_nil, or_false] at ha
  unfold afterItsPublication
  rw [List.append_assoc]
  rcases ha with rfl | rfl | rfl
  · obtain ⟨t, rfl⟩ := hk'
    have r1 : Fails (tokens [py"a", py"e törvény"]) (('k' :: t ++ (py" követő")) ++ rest) := fails_texts rfl
    exact Reads.bind r1.opt (r2.bind r4)
  · have r1 : Reads (tokens [py"a", py"e törvény"]) (py"a") (' ' :: k ++ (py" követő") ++ rest) (py"a") := .left (reads_name (by decide +kernel) no_name_space)
    show Reads _ ((py"a") ++ (' ' :: k ++ py" követő")) rest ()
    exact Reads.bind r1.opt ((tokens_reads_space r2).bind r4)
  · have r1 : Reads (tokens [py"a", py"e törvény"]) (py"e törvény") (' ' :: k ++ (py" követő") ++ rest) (py"e törvény") :=
      .right (fails_text rfl) (.left (reads_text (by decide +kernel)))
    show Reads _ ((py"e törvény") ++ (' ' :: k ++ py" követő")) rest ()
    exact Reads.bind r1.opt ((tokens_reads_space r2).bind r4)

theorem count_head {x y : Option Str} {v : Str} (h : CountWritten x y v) : ∃ c t, v = c :: t ∧ isSpace c = false := by
  rcases h with ⟨_, t, _, h, rfl⟩ | ⟨_, n, _, h, rfl⟩
  · exact name_head ordinal_names h
  · obtain ⟨c, t, rfl⟩ := List.exists_cons_of_ne_nil h.1
    exact ⟨c, _, rfl, digit_not_space (h.2 c (List.mem_cons_self ..))⟩

theorem fails_ordinal {s : Str} (h : ordinalWords.all (fun t => !t.isPrefixOf (s.dropWhile isSpace)) = true) : Fails hungarianOrdinal s := by
  refine Fails.rule (fails_texts ?_)
  rw [dropWhile_idem]
  exact h

theorem digits_no_ordinal {d s : Str} (h : Digits d) : Fails hungarianOrdinal (d ++ s) := by
  obtain ⟨c, t, rfl⟩ := List.exists_cons_of_ne_nil h.1
  have hc := h.2 c (List.mem_cons_self ..)
  refine fails_ordinal ?_
  rw [List.cons_append, dropWhile_cons_of (digit_not_space hc)]
  rw [List.all_eq_true]
  intro t ht
  have : ∀ t ∈ ordinalWords, t.head?.all (fun c => ! isAsciiDigit c) = true ∧ t ≠ [] := by decide +kernel
  obtain ⟨h1, h2⟩ := this t ht
  obtain ⟨a, u, rfl⟩ := List.exists_cons_of_ne_nil h2
  have : a ≠ c := by
    rintro rfl
    simp [hc] at h1
  simp [List.isPrefixOf, this]

theorem reads_numberWithDot {d : Str} (h : Digits d) (rest : Str) : Reads numberWithDot (d ++ py".") rest d := by
  obtain ⟨c, t, rfl⟩ := List.exists_cons_of_ne_nil h.1
  have hc := h.2 c (List.mem_cons_self ..)
  have r1 : Reads number (c :: t) ((py".") ++ rest) (c :: t) := reads_number h (by rintro _ ⟨⟩; decide)
  have r2 := (reads_dot rest).to (f := fun _ => pure (c :: t)) (reads_nil _ _)
  exact (Reads.bind r1 r2).rule (c := c) rfl (digit_not_space hc)

theorem fails_numberWithDot {s : Str} (h : ∀ c ∈ first s, isAsciiDigit c = false) : Fails numberWithDot s :=
  Fails.rule (fails_number (by rw [first_dropWhile]; exact h)).bind

/-- A number in digits or in words. -/
theorem count_reads {α : Type} {x y : Option Str} {v rest : Str} (h : CountWritten x y v) (hr : rest.head? = some ' ') (f : Option Str → Option Str → α) :
    Reads (Peg.or (do let t ← hungarianOrdinal; pure (f none (some t))) (do let n ← numberWithDot; pure (f (some n) none))) (' ' :: v) rest (f x y) := by
  rcases h with ⟨rfl, t, rfl, h, rfl⟩ | ⟨rfl, n, rfl, h, rfl⟩
  · have r1 : Reads hungarianOrdinal (' ' :: v) rest v := (words_read ordinal_names h (by rw [hr]; exact no_name_space (s := []))).space (rule_skip _)
    exact .left (r1.to (f := fun t => pure (f none (some t))) (reads_nil _ _))
  · have r1 : Reads numberWithDot (' ' :: (n ++ py".")) rest n := (reads_numberWithDot h rest).space (rule_skip _)
    refine .right (Fails.bind ?_) (r1.to (f := fun n => pure (f (some n) none)) (reads_nil _ _))
    rw [List.cons_append, List.append_assoc]
    exact (digits_no_ordinal h).space (rule_skip _)

/-- The times. -/
def timeOf : Peg ParsedEnforcementDate :=
  Peg.or (do let e ← date; pure { exactDate := some e }) (Peg.or (do let p ← afterPublication; pure { afterPublication := some p })
    (do let m ← dayInMonth; pure { dayInMonth := some m }))

theorem after_not_digit {u s : Str} (h : AfterText u) : Fails date (u ++ s) := by
  obtain ⟨c, t, rfl, hc⟩ := after_head h
  have : ∀ c ∈ py"ake", isSpace c = false ∧ isAsciiDigit c = false := by decide +kernel
  refine fails_date ?_
  rw [List.cons_append, first_cons (this c hc).1]
  rintro _ ⟨⟩
  exact (this c hc).2

theorem after_rule {α : Type} {p : Peg α} {u v rest : Str} {a : α} (h : AfterText u) (hp : Reads p (u ++ v) rest a) : Reads (rule p) (u ++ v) rest a := by
  obtain ⟨c, t, rfl, hc⟩ := after_head h
  have : ∀ c ∈ py"ake", isSpace c = false := by decide +kernel
  exact hp.rule (c := c) rfl (this c hc)

theorem after_dropWhile {u s : Str} (h : AfterText u) : (u ++ s).dropWhile isSpace = u ++ s := by
  obtain ⟨c, t, rfl, hc⟩ := after_head h
  have : ∀ c ∈ py"ake", isSpace c = false := by decide +kernel
  exact dropWhile_cons_of (this c hc)

theorem day_reads (rest : Str) : Reads (token (py"napon")) (py" napon") (' ' :: rest) (py"napon") := name_space (by decide +kernel) no_name_space

/-- A time is read. -/
theorem time_reads {d : ParsedEnforcementDate} {t rest : Str} (h : TimeText d t) (hr : rest.head? = some ' ') :
    ∃ x : ParsedEnforcementDate, Reads timeOf t rest x ∧ x.exactDate = d.exactDate ∧ x.afterPublication = d.afterPublication ∧ x.dayInMonth = d.dayInMonth := by
  obtain ⟨rest, rfl⟩ : ∃ r, rest = ' ' :: r := by
    cases rest with
    | nil => cases hr
    | cons c r => exact ⟨r, by cases hr; rfl⟩
  cases h with
  | date h ha hm he =>
    exact ⟨{ exactDate := _ }, .left ((date_reads he _).to (reads_nil _ _)), h.symm, ha.symm, hm.symm⟩
  | @nextDay u h ha hm hu =>
    have r1 : Reads afterItsPublication u ((py" napon") ++ ' ' :: rest) () := after_reads hu no_name_space
    have r2 : Fails (Peg.or (do let t ← hungarianOrdinal; pure { asText := some t }) (do let n ← numberWithDot; pure { asNumber := some n }) : Peg ParsedAfterPublication)
        ((py" napon") ++ ' ' :: rest) :=
      Fails.or (Fails.bind (fails_ordinal (by rfl))) (Fails.bind (fails_numberWithDot (by rintro _ ⟨⟩; decide)))
    have r3 := (day_reads rest).to (f := fun _ => pure ({} : ParsedAfterPublication)) (reads_nil _ _)
    have r : Reads afterPublication (u ++ py" napon") (' ' :: rest) {} := after_rule hu (Reads.bind r1 (Reads.bind r2.opt r3))
    refine ⟨{ afterPublication := some {} }, .right ?_ (.left (r.to (reads_nil _ _))), h.symm, ha.symm, hm.symm⟩
    rw [List.append_assoc]
    exact (after_not_digit hu).bind
  | @days a u v h ha hm hu hn =>
    have r1 : Reads afterItsPublication u (' ' :: v ++ (py" napon") ++ ' ' :: rest) () := after_reads hu no_name_space
    have r2 := count_reads (rest := (py" napon") ++ ' ' :: rest) hn rfl (fun x y => ({ asNumber := x, asText := y } : ParsedAfterPublication))
    have r3 := (day_reads rest).to (f := fun _ => pure a) (reads_nil _ _)
    have r : Reads afterPublication (u ++ (' ' :: v ++ py" napon")) (' ' :: rest) a := after_rule hu (Reads.bind r1 (Reads.bind r2.opt r3))
    rw [← List.append_assoc] at r
    refine ⟨{ afterPublication := some a }, .right ?_ (.left (r.to (reads_nil _ _))), h.symm, ha.symm, hm.symm⟩
    rw [List.append_assoc, List.append_assoc]
    exact (after_not_digit hu).bind
  | @dayInMonth m u v x h ha hm hu hv hx =>
    have e0 : u ++ v ++ (py" hónap ") ++ x ++ (py" napján") = u ++ (v ++ ((py" hónap") ++ (' ' :: x ++ py" napján"))) := by simp
    rw [e0]
    have hS : (v ++ ((py" hónap") ++ (' ' :: x ++ py" napján")) ++ ' ' :: rest).head? = some ' ' := by
      rcases hv with ⟨_, rfl⟩ | ⟨t, _, _, rfl⟩ <;> rfl
    have r1 : Reads afterItsPublication u (v ++ ((py" hónap") ++ (' ' :: x ++ py" napján")) ++ ' ' :: rest) () :=
      after_reads hu (by rw [hS]; exact no_name_space (s := []))
    have nap : Fails (token (py"napon")) ((py" hónap") ++ (' ' :: x ++ py" napján") ++ ' ' :: rest) := fails_text rfl
    have ho : Reads (opt hungarianOrdinal) v ((py" hónap") ++ (' ' :: x ++ py" napján") ++ ' ' :: rest) m.month := by
      rcases hv with ⟨h, rfl⟩ | ⟨t, h, ht, rfl⟩
      · rw [h]
        exact (fails_ordinal rfl).opt
      · rw [h]
        exact ((words_read ordinal_names ht no_name_space).space (rule_skip _)).opt
    have no : Fails afterPublication (u ++ (v ++ ((py" hónap") ++ (' ' :: x ++ py" napján")) ++ ' ' :: rest)) := by
      refine Fails.rule ?_
      rw [after_dropWhile hu]
      refine r1.fails ?_
      rcases hv with ⟨h, rfl⟩ | ⟨t, h, ht, rfl⟩
      · have r2 : Fails (Peg.or (do let t ← hungarianOrdinal; pure { asText := some t }) (do let n ← numberWithDot; pure { asNumber := some n }) : Peg ParsedAfterPublication)
            ((py" hónap") ++ (' ' :: x ++ py" napján") ++ ' ' :: rest) :=
          Fails.or (Fails.bind (fails_ordinal (by rfl))) (Fails.bind (fails_numberWithDot (by rintro _ ⟨⟩; decide)))
        exact Reads.fails (u := []) r2.opt nap.bind
      · have r2 := count_reads (x := none) (y := some t) (v := t) (rest := (py" hónap") ++ (' ' :: x ++ py" napján") ++ ' ' :: rest) (.inl ⟨rfl, t, rfl, ht, rfl⟩) rfl
          (fun x y => ({ asNumber := x, asText := y } : ParsedAfterPublication))
        have e1 : ' ' :: t ++ ((py" hónap") ++ (' ' :: x ++ py" napján")) ++ ' ' :: rest = ' ' :: t ++ ((py" hónap") ++ (' ' :: x ++ py" napján") ++ ' ' :: rest) := by
          simp only [List.append_assoc]
        rw [e1]
        exact Reads.fails r2.opt nap.bind
    have r3 : Reads (token (py"hónap")) (py" hónap") (' ' :: x ++ (py" napján") ++ ' ' :: rest) (py"hónap") := name_space (by decide +kernel) no_name_space
    have r4 := count_reads (rest := (py" napján") ++ ' ' :: rest) hx rfl (fun x y => ({ month := m.month, dayAsNumber := x, dayAsText := y } : ParsedDayInMonth))
    have r5 : Reads (token (py"napján")) (py" napján") (' ' :: rest) (py"napján") := name_space (by decide +kernel) no_name_space
    have r6 := r5.to (f := fun _ => pure m) (reads_nil _ _)
    have r : Reads dayInMonth (u ++ (v ++ ((py" hónap") ++ (' ' :: x ++ py" napján")))) (' ' :: rest) m :=
      after_rule hu (Reads.bind r1 (Reads.bind (by rw [← List.append_assoc]; exact ho) (Reads.bind r3 (Reads.bind r4 r6))))
    refine ⟨{ dayInMonth := some m }, .right ?_ (.right ?_ (r.to (reads_nil _ _))), h.symm, ha.symm, hm.symm⟩
    · rw [List.append_assoc]
      exact (after_not_digit hu).bind
    · rw [List.append_assoc]
      exact no.bind

/-! ## The other pieces -/

theorem fails_longer {t rest : Str} {c : Char} (ht : isName t = true) (hs : t.head?.any (fun c => !isSpace c) = true) (hc : isNameChar c = true) :
    Fails (token t) (t ++ c :: rest) := by
  intro n
  have hsk : (⟨n, t ++ c :: rest⟩ : At).skip = ⟨n, t ++ c :: rest⟩ := by
    cases t with
    | nil => cases hs
    | cons a u => exact skip_cons (by simpa using hs) n
  unfold token
  rw [hsk]
  simp [ht, hc]

/-- The beginning of the sentence. -/
def opening : Peg Unit := Peg.or (do
      let _ ← tokens [py"E", py"Ez a"]
      let _ ← token (py"törvény")
      pure ()) (do
      let _ ← pattern (.seq (.char 'A') (.opt (.char 'z')))
      pure ())

theorem opening_reads {o : Str} (ho : o ∈ [py"E törvény", py"Ez a törvény", py"A", py"Az"]) (s : Str) : Reads opening o (' ' :: s) () := by
  have law : Reads (token (py"törvény")) (py" törvény") (' ' :: s) (py"törvény") := name_space (by decide +kernel) no_name_space
  have law' := law.to (f := fun _ => pure ()) (reads_nil () _)
  have notE : ∀ {r : Str}, Fails (tokens [py"E", py"Ez a"]) ('A' :: r) := fails_texts rfl
  simp only [List.mem_cons, List.not_mem_nil, or_false] at ho
  rcases ho with rfl | rfl | rfl | rfl
  · have h1 : Reads (tokens [py"E", py"Ez a"]) (py"E") ((py" törvény") ++ ' ' :: s) (py"E") := .left (reads_name (by decide +kernel) no_name_space)
    exact .left (Reads.bind (u := py"E") (v := py" törvény") h1 law')
  · have h1 : Reads (tokens [py"E", py"Ez a"]) (py"Ez a") ((py" törvény") ++ ' ' :: s) (py"Ez a") :=
      .right (fails_longer (t := py"E") (c := 'z') (by decide +kernel) (by decide +kernel) (by decide +kernel)) (.left (reads_text (by decide +kernel)))
    exact .left (Reads.bind (u := py"Ez a") (v := py" törvény") h1 law')
  · have h1 : Reads (pattern (.seq (.char 'A') (.opt (.char 'z')))) (py"A") (' ' :: s) (py"A") := Reads.matches (by simp [Regex.ends, Regex.char])
    exact .right notE.bind (h1.to (f := fun _ => pure ()) (reads_nil _ _))
  · have h1 : Reads (pattern (.seq (.char 'A') (.opt (.char 'z')))) (py"Az") (' ' :: s) (py"Az") := Reads.matches (by simp [Regex.ends, Regex.char])
    exact .right notE.bind (h1.to (f := fun _ => pure ()) (reads_nil _ _))

theorem month_head {m : Str} (h : Month m) (s : Str) : ∃ c t, m = c :: t ∧ isSpace c = false ∧ isAsciiDigit c = false ∧ c ∉ py"§,;évi-–−" ∧
    ∀ u ∈ [py"pont", py"alpont"], ¬ u <+: m ++ s := by
  unfold Month at h
  simp only [List.mem_cons, List.not_mem_nil, or_false] at h
  rcases h with rfl | rfl | rfl | rfl | rfl | rfl | rfl | rfl | rfl | rfl | rfl | rfl
  all_goals
    refine ⟨_, _, rfl, by decide +kernel, by decide, by decide, ?_⟩
    simp

/-- Before a time, nothing of a reference is read. -/
theorem time_plain {d : ParsedEnforcementDate} {t : Str} (h : TimeText d t) (rest : Str) : ∃ w z, t ++ rest = w ++ z ∧ PlainText w z ∧
    (∀ c ∈ w.head?, c ∉ py"-–−") ∧ NotFirst (py",;évi") (' ' :: (t ++ rest)) := by
  have after : ∀ {u s : Str}, AfterText u → ∃ w z, u ++ s = w ++ z ∧ PlainText w z ∧ (∀ c ∈ w.head?, c ∉ py"-–−") ∧
      NotFirst (py",;évi") (' ' :: (u ++ s)) := by
    rintro u s ⟨a, k, rfl, ha, hk⟩
    simp only [List.mem_cons, List.not_mem_nil, or_false] at ha hk
    rcases ha with rfl | rfl | rfl
    · rcases hk with rfl | rfl
      · exact ⟨py"kihirdetését", (py" követő") ++ s, rfl, plain_word rfl, by rintro _ ⟨⟩; decide, space_not_first (by decide +kernel) (by decide)⟩
      · exact ⟨py"kihirdetést", (py" követő") ++ s, rfl, plain_word rfl, by rintro _ ⟨⟩; decide, space_not_first (by decide +kernel) (by decide)⟩
    · rcases hk with rfl | rfl
      · exact ⟨py"a", (py" kihirdetését követő") ++ s, rfl, plain_word rfl, by rintro _ ⟨⟩; decide, space_not_first (by decide +kernel) (by decide)⟩
      · exact ⟨py"a", (py" kihirdetést követő") ++ s, rfl, plain_word rfl, by rintro _ ⟨⟩; decide, space_not_first (by decide +kernel) (by decide)⟩
    · rcases hk with rfl | rfl
      · exact ⟨py"e", (py" törvény kihirdetését követő") ++ s, rfl, plain_word rfl, by rintro _ ⟨⟩; decide, space_not_first (by decide +kernel) (by decide)⟩
      · exact ⟨py"e", (py" törvény kihirdetést követő") ++ s, rfl, plain_word rfl, by rintro _ ⟨⟩; decide, space_not_first (by decide +kernel) (by decide)⟩
  cases h with
  | date h ha hm he =>
    obtain ⟨h1, h2, h3, e, he, rfl⟩ := he
    rename_i x
    obtain ⟨c, t, hm, c1, c2, c3, c4⟩ := month_head h2 (' ' :: (x.day ++ (e ++ rest)))
    obtain ⟨y, u, hy⟩ := List.exists_cons_of_ne_nil h1.1
    have hd := h1.2 y (by rw [hy]; exact List.mem_cons_self ..)
    refine ⟨x.year, '.' :: ' ' :: (x.month ++ ' ' :: (x.day ++ (e ++ rest))), by simp, .dotted h1 ?_ ?_ ?_, ?_, ?_⟩
    · rw [first_space, hm, List.cons_append, first_cons c1]
      rintro _ ⟨⟩
      exact c2
    · rw [hm]
      exact space_not_first c1 c3
    · rw [dropWhile_space, hm, List.cons_append, dropWhile_cons_of c1, ← List.cons_append, ← hm]
      exact c4
    · rw [hy]
      rintro _ ⟨⟩
      have : ∀ c ∈ py"-–−", isAsciiDigit c = false := by decide
      intro hn
      rw [this _ hn] at hd
      cases hd
    · simp only [hy, List.cons_append]
      refine space_not_first (digit_not_space hd) ?_
      have : ∀ c ∈ py",;évi", isAsciiDigit c = false := by decide
      intro hn
      rw [this _ hn] at hd
      cases hd
  | nextDay h ha hm hu => rw [List.append_assoc]; exact after hu
  | days h ha hm hu hn => simp only [List.append_assoc]; exact after hu
  | dayInMonth h ha hm hu hv hx => simp only [List.append_assoc]; exact after hu

/-- The exception is read. -/
theorem exception_read {n : Nat} {rs : List ParsedRef} {x rest : Str} (h : ExceptionText n rs x) (hr : NotFirst (py"-–−") rest) :
    ∃ y, opt exceptFor ⟨n, x ++ rest⟩ = some (y, ⟨n + x.length, rest⟩) ∧ y.toList = rs := by
  rcases h with ⟨rfl, rfl⟩ | ⟨d, e, ps, u, f, k, rfl, hd, he, hu, hf, hk, rfl⟩
  · exact ⟨none, opt_none (bind_none (fails_dash hr n)), rfl⟩
  · refine ⟨some (ps, ↑(n + 5), ↑(n + 5 + u.length)), opt_some ?_, rfl⟩
    obtain ⟨dc, rfl, _⟩ := dash_cases hd
    have hfn : [py"foglalt", py"foglaltak", py"meghatározott"].all (fun u => isName u && u.head?.any fun c => !isSpace c) = true := by decide +kernel
    have hkn : [py"kivétellel", py"kivételével", py"kivételekkel"].all (fun u => isName u && u.head?.any fun c => !isSpace c) = true := by decide +kernel
    have hfp : PlainText f (' ' :: (k ++ ' ' :: (e ++ rest))) ∧ ∀ c ∈ f.head?, c ∉ py"-–−" := by
      simp only [List.mem_cons, List.not_mem_nil, or_false] at hf
      rcases hf with rfl | rfl | rfl <;> exact ⟨plain_word rfl, by rintro _ ⟨⟩; decide⟩
    have r1 : Reads dash [' ', dc] ((py" a") ++ ' ' :: (u ++ (' ' :: (f ++ (' ' :: (k ++ (' ' :: (e ++ rest)))))))) [dc] := (reads_dash hd _).space (rule_skip _)
    have r2 : Reads (token (py"a")) (py" a") (' ' :: (u ++ (' ' :: (f ++ (' ' :: (k ++ (' ' :: (e ++ rest)))))))) (py"a") := name_space (by decide +kernel) no_name_space
    have r3 : reference ⟨n + 4, ' ' :: (u ++ (' ' :: (f ++ (' ' :: (k ++ (' ' :: (e ++ rest)))))))⟩ =
        some ((ps, ↑(n + 5), ↑(n + 5 + u.length)), ⟨n + 5 + u.length, ' ' :: (f ++ (' ' :: (k ++ (' ' :: (e ++ rest)))))⟩) := by
      obtain ⟨c, t, hc, hs⟩ := (reference_start hu (' ' :: (f ++ (' ' :: (k ++ (' ' :: (e ++ rest))))))).head
      rw [← reference_skip, hc, space_skip hs, ← hc]
      exact reference_read hu (quiet_word hfp.1 hfp.2)
    have r4 : Reads (tokens [py"foglalt", py"foglaltak", py"meghatározott"]) (' ' :: f) (' ' :: (k ++ (' ' :: (e ++ rest)))) f := names_space hf hfn no_name_space
    have r5 : Reads (tokens [py"kivétellel", py"kivételével", py"kivételekkel"]) (' ' :: k) (' ' :: (e ++ rest)) k := names_space hk hkn no_name_space
    have r6 : Reads dash (' ' :: e) rest e := (reads_dash he rest).space (rule_skip _)
    have e0 : ' ' :: [dc] ++ (py" a ") ++ u ++ ' ' :: f ++ ' ' :: k ++ ' ' :: e ++ rest =
        [' ', dc] ++ ((py" a") ++ ' ' :: (u ++ (' ' :: (f ++ (' ' :: (k ++ (' ' :: (e ++ rest)))))))) := by simp
    have e1 : n + (' ' :: [dc] ++ (py" a ") ++ u ++ ' ' :: f ++ ' ' :: k ++ ' ' :: e).length =
        n + 5 + u.length + (' ' :: f).length + (' ' :: k).length + (' ' :: e).length := by simp; omega
    rw [e0, e1]
    have r1' : dash ⟨n, [' ', dc] ++ ((py" a") ++ ' ' :: (u ++ (' ' :: (f ++ (' ' :: (k ++ (' ' :: (e ++ rest))))))))⟩ =
      some ([dc], ⟨n + 2, (py" a") ++ ' ' :: (u ++ (' ' :: (f ++ (' ' :: (k ++ (' ' :: (e ++ rest)))))))⟩) := r1 n
    have r2' : token (py"a") ⟨n + 2, (py" a") ++ ' ' :: (u ++ (' ' :: (f ++ (' ' :: (k ++ (' ' :: (e ++ rest)))))))⟩ =
      some (py"a", ⟨n + 4, ' ' :: (u ++ (' ' :: (f ++ (' ' :: (k ++ (' ' :: (e ++ rest)))))))⟩) := r2 (n + 2)
    unfold exceptFor
    rw [bind_some r1', bind_some r2', bind_some r3]
    generalize n + 5 + u.length = M
    exact (bind_some (r4 M)).trans ((bind_some (r5 _)).trans (bind_some (r6 _)))

theorem repeal_reads {d : Option ParsedDate} {i : Str} (h : RepealText d i) : Reads (opt inlineRepeal) i (py".") d := by
  rcases h with ⟨rfl, rfl⟩ | ⟨x, e, v, a, rfl, rfl, he, hv, ha⟩
  · exact Fails.opt (Fails.rule (Fails.bind (fails_text rfl)))
  · have r5 : Reads (token (py"hatályát veszti")) (py" hatályát veszti") (py".") (py"hatályát veszti") :=
      (reads_text (by decide +kernel)).space (token_skip _)
    have r5' := r5.to (f := fun _ => pure x) (reads_nil _ _)
    have r4 : ∃ y, Reads (opt (token (py"a"))) a ((py" hatályát veszti") ++ py".") y := by
      simp only [List.mem_cons, List.not_mem_nil, or_false] at ha
      rcases ha with rfl | rfl
      · exact ⟨none, Fails.opt (fails_text rfl)⟩
      · exact ⟨_, Reads.opt (name_space (by decide +kernel) no_name_space)⟩
    obtain ⟨y, r4⟩ := r4
    have r3 : Reads date v (a ++ (py" hatályát veszti") ++ py".") x := date_reads hv _
    have r34 : Reads (do let d ← date; let _ ← opt (token (py"a")); let _ ← token (py"hatályát veszti"); pure d : Peg ParsedDate)
        (' ' :: v ++ (a ++ py" hatályát veszti")) (py".") x := Reads.bind (r3.space (rule_skip _)) (Reads.bind r4 r5')
    have hv' : ∃ c t, v = c :: t ∧ isAsciiDigit c = true := by
      obtain ⟨h1, _, _, z, _, rfl⟩ := hv
      obtain ⟨c, t, h⟩ := List.exists_cons_of_ne_nil h1.1
      exact ⟨c, _, by rw [h]; rfl, h1.2 c (by rw [h]; exact List.mem_cons_self ..)⟩
    have law : Reads (token (py"törvény")) (py" törvény") (' ' :: v ++ (a ++ py" hatályát veszti") ++ py".") (py"törvény") := name_space (by decide +kernel) no_name_space
    have r1 : ∀ s : Str, Reads (token (py", és")) (py", és") s (py", és") := fun s => reads_text (by decide +kernel)
    suffices h : Reads inlineRepeal ((py", és ") ++ e ++ v ++ a ++ py" hatályát veszti") (py".") x from h.opt
    simp only [List.mem_cons, List.not_mem_nil, or_false] at he
    rcases he with rfl | rfl | rfl
    · have r2 : Fails (do let _ ← tokens [py"e", py"ez a"]; token (py"törvény") : Peg Str) ((' ' :: v ++ (a ++ py" hatályát veszti")) ++ py".") := by
        obtain ⟨c, t, rfl, hc⟩ := hv'
        refine Fails.bind (fails_tokens fun u hu => ?_)
        have : u.head? = some 'e' := by
          simp only [List.mem_cons, List.not_mem_nil, or_false] at hu
          rcases hu with rfl | rfl <;> rfl
        refine fails_first this ?_
        exact space_not_first (digit_not_space hc) (by rintro hm; rw [List.mem_singleton] at hm; subst hm; cases hc)
      have e0 : (py", és ") ++ (py"") ++ v ++ a ++ (py" hatályát veszti") = (py", és") ++ ([] ++ (' ' :: v ++ (a ++ py" hatályát veszti"))) := by simp
      rw [e0]
      exact (Reads.bind (r1 _) (Reads.bind r2.opt r34)).rule (c := ',') rfl (by decide +kernel)
    · have r2 : Reads (tokens [py"e", py"ez a"]) (py" e") ((py" törvény") ++ (' ' :: v ++ (a ++ py" hatályát veszti") ++ py".")) (py"e") :=
        tokens_reads_space (w := py"e") (.left (reads_name (by decide +kernel) no_name_space))
      have e0 : (py", és ") ++ (py"e törvény ") ++ v ++ a ++ (py" hatályát veszti") =
          (py", és") ++ (((py" e") ++ (py" törvény")) ++ (' ' :: v ++ (a ++ py" hatályát veszti"))) := by simp
      rw [e0]
      exact (Reads.bind (r1 _) (Reads.bind (Reads.bind (f := fun _ => token (py"törvény")) r2 law).opt r34)).rule (c := ',') rfl (by decide +kernel)
    · have r2 : Reads (tokens [py"e", py"ez a"]) (py" ez a") ((py" törvény") ++ (' ' :: v ++ (a ++ py" hatályát veszti") ++ py".")) (py"ez a") :=
        tokens_reads_space (w := py"ez a") (.right (fails_longer (t := py"e") (c := 'z') (by decide +kernel) (by decide +kernel) (by decide +kernel))
          (.left (reads_text (by decide +kernel))))
      have e0 : (py", és ") ++ (py"ez a törvény ") ++ v ++ a ++ (py" hatályát veszti") =
          (py", és") ++ (((py" ez a") ++ (py" törvény")) ++ (' ' :: v ++ (a ++ py" hatályát veszti"))) := by simp
      rw [e0]
      exact (Reads.bind (r1 _) (Reads.bind (Reads.bind (f := fun _ => token (py"törvény")) r2 law).opt r34)).rule (c := ',') rfl (by decide +kernel)

/-! ## There are no quotations -/

/-- There is no quotation mark in it. -/
def NoMark (w : Str) : Prop := '„' ∉ w

theorem noMark_append {u v : Str} (hu : NoMark u) (hv : NoMark v) : NoMark (u ++ v) := by
  unfold NoMark at *
  rw [List.mem_append]
  exact fun h => h.elim hu hv

theorem noMark_cons {c : Char} {v : Str} (hv : NoMark v) (hc : c ≠ '„' := by decide) : NoMark (c :: v) := by
  unfold NoMark at *
  rw [List.mem_cons]
  exact fun h => h.elim (fun h => hc h.symm) hv

theorem noMark_class {P : Char → Prop} {w : Str} (h : ∀ c ∈ w, P c) (hn : ¬ P '„') : NoMark w := fun hm => hn (h _ hm)

theorem noMark_of {ws : List Str} {w : Str} (hw : w ∈ ws) (h : ∀ w ∈ ws, '„' ∉ w := by decide) : NoMark w := h w hw

theorem noMark_digits {d : Str} (h : Digits d) : NoMark d := noMark_class h.2 (by decide)

theorem noMark_lower {e : Str} (h : ∀ c ∈ e, hunLower c) : NoMark e := noMark_class h (by unfold hunLower; decide +kernel)

theorem noMark_letter {p : Char → Bool} {c : Char} (h : p c = true) (hn : p '„' = false := by decide) : NoMark [c] :=
  noMark_class (P := fun c => p c = true) (by simpa using h) (by simp [hn])

theorem noMark_inflected {t w : Str} (h : Inflected t w) (ht : NoMark t) : NoMark w := by
  obtain ⟨e, rfl, he⟩ := h
  exact noMark_append ht (noMark_lower he)

theorem noMark_id {k : PartKind} {id : Str} (h : Identifies k id) : NoMark id := by
  have nil : NoMark [] := by unfold NoMark; simp
  cases k with
  | article =>
    obtain ⟨b, n, l, rfl, hb, hn, hl⟩ := h
    refine noMark_append (noMark_append ?_ (noMark_digits hn)) ?_
    · rcases hb with rfl | ⟨d, hd, rfl⟩
      · exact nil
      · exact noMark_append (noMark_digits hd) (noMark_cons nil)
    · rcases hl with rfl | ⟨c, hc, rfl⟩
      · exact nil
      · exact noMark_cons (noMark_letter hc)
  | paragraph =>
    obtain ⟨n, l, rfl, hn, hl⟩ := h
    refine noMark_append (noMark_digits hn) ?_
    rcases hl with rfl | ⟨c, hc, rfl⟩
    · exact nil
    · exact noMark_letter hc
  | alphabeticPoint =>
    rcases h with rfl | rfl | ⟨c, hc, rfl⟩
    · unfold NoMark; decide
    · unfold NoMark; decide
    · exact noMark_letter hc
  | numericPoint =>
    obtain ⟨n, l, rfl, hn, hl⟩ := h
    refine noMark_append (noMark_digits hn) ?_
    rcases hl with rfl | ⟨c, hc, rfl | rfl⟩
    · exact nil
    · exact noMark_letter hc
    · exact noMark_cons (noMark_letter hc)
  | alphabeticSubpoint =>
    rcases h with ⟨c, hc, rfl⟩ | ⟨c, d, hc, hd, rfl⟩
    · exact noMark_letter hc
    · exact noMark_append (noMark_letter hc) (noMark_letter hd)
  | numericSubpoint => exact noMark_digits h

theorem noMark_dash {d : Str} (h : Dash d) : NoMark d := noMark_of h

theorem noMark_single {k : PartKind} {id w : Str} (h : SingleWritten k id w) : NoMark w := by
  have nil : NoMark [] := by unfold NoMark; simp
  obtain ⟨h1, h2⟩ := h
  have h1 := noMark_id h1
  clear ‹Identifies _ _›
  cases k <;> simp only at h2 <;> subst h2
  · exact noMark_append h1 (noMark_cons nil)
  · exact noMark_append (noMark_append (noMark_cons nil) h1) (noMark_cons nil)
  · exact noMark_append h1 (noMark_cons nil)
  · exact noMark_append h1 (noMark_cons nil)
  · exact noMark_append h1 (noMark_cons nil)
  · exact noMark_append h1 (noMark_cons nil)

theorem noMark_range {k : PartKind} {x y w : Str} (h : RangeText k x y w) : NoMark w := by
  have nil : NoMark [] := by unfold NoMark; simp
  obtain ⟨h1, h2, d, hd, h3⟩ := h
  replace h1 := noMark_id h1
  replace h2 := noMark_id h2
  have hd := noMark_dash hd
  have three : NoMark (x ++ d ++ y) := noMark_append (noMark_append h1 hd) h2
  cases k <;> simp only at h3
  · subst h3; exact noMark_append three (noMark_cons nil)
  · subst h3
    exact noMark_append (noMark_append (noMark_append (noMark_append (noMark_append (noMark_append (noMark_cons nil) h1) (noMark_cons nil)) hd) (noMark_cons nil)) h2) (noMark_cons nil)
  · obtain ⟨m, hm, rfl⟩ := h3
    have hm : NoMark m := by
      rcases hm with rfl | rfl
      · exact nil
      · exact noMark_cons nil
    exact noMark_append (noMark_append (noMark_append (noMark_append h1 hm) hd) h2) (noMark_cons nil)
  · subst h3; exact noMark_append three (noMark_cons nil)
  · subst h3
    exact noMark_append (noMark_append (noMark_append (noMark_append h1 (noMark_cons nil)) hd) h2) (noMark_cons nil)
  · subst h3; exact noMark_append three (noMark_cons nil)

theorem noMark_separator {g : Str} (h : SeparatorText g) : NoMark g := by
  obtain ⟨c, o, a, rfl, hc, ho, ha, _⟩ := h
  exact noMark_append (noMark_append (noMark_append (noMark_of hc) (noMark_of ho)) (noMark_of ha)) (noMark_of (ws := [py" "]) (by simp))

theorem noMark_item {k : PartKind} {n : Nat} {x : Item} {w : Str} (h : ItemText k n x w) : NoMark w := by
  obtain ⟨_, h⟩ := h
  cases x with
  | inl r => exact noMark_range h
  | inr r => exact noMark_single h

theorem noMark_items {k : PartKind} {n : Nat} {xs : List Item} {w : Str} (h : ItemsText k n xs w) : NoMark w := by
  induction h with
  | one h => exact noMark_item h
  | cons h hg _ ih => exact noMark_append (noMark_append (noMark_item h) (noMark_separator hg)) ih

theorem noMark_end {k : PartKind} {e : Str} (h : EndText k e) : NoMark e := by
  have nm : ∀ t ∈ [py"bekezdés", py"pont", py"alpont", py"§", py"§-"], NoMark t := by unfold NoMark; decide
  cases k with
  | article =>
    rcases h with rfl | ⟨e, rfl, _, he⟩
    · exact nm _ (by simp)
    · exact noMark_append (nm _ (by simp)) (noMark_lower he)
  | paragraph => exact noMark_inflected h (nm _ (by simp))
  | alphabeticPoint => exact noMark_inflected h (nm _ (by simp))
  | numericPoint => exact noMark_inflected h (nm _ (by simp))
  | alphabeticSubpoint => exact noMark_inflected h (nm _ (by simp))
  | numericSubpoint => exact noMark_inflected h (nm _ (by simp))

theorem noMark_part {n : Nat} {p : ParsedPart} {w : Str} (h : PartText n p w) : NoMark w := by
  obtain ⟨items, u, e, h1, h2, rfl, _⟩ := h
  exact noMark_append (noMark_items h1) (noMark_cons (noMark_end h2))

theorem noMark_reference {n : Nat} {ps : List ParsedPart} {w : Str} (h : ReferenceText n ps w) : NoMark w := by
  induction h with
  | one h => exact noMark_part h
  | cons h _ _ ih => exact noMark_append (noMark_part h) (noMark_cons ih)

theorem noMark_references {n : Nat} {rs : List ParsedRef} {w : Str} (h : ReferencesText n rs w) : NoMark w := by
  induction h with
  | one h => exact noMark_reference h
  | cons h hg _ ih => exact noMark_append (noMark_append (noMark_reference h) (noMark_separator hg)) ih

theorem noMark_date {d : ParsedDate} {w : Str} (h : DateText d w) : NoMark w := by
  obtain ⟨h1, h2, h3, e, he, rfl⟩ := h
  exact noMark_append (noMark_append (noMark_append (noMark_append (noMark_digits h1) (noMark_of (ws := [py". "]) (by simp))) (noMark_of h2))
    (noMark_cons (noMark_digits h3))) (noMark_of he)

theorem noMark_count {x y : Option Str} {v : Str} (h : CountWritten x y v) : NoMark v := by
  rcases h with ⟨_, t, _, h, rfl⟩ | ⟨_, n, _, h, rfl⟩
  · exact noMark_of h
  · exact noMark_append (noMark_digits h) (noMark_of (ws := [py"."]) (by simp))

theorem noMark_time {d : ParsedEnforcementDate} {t : Str} (h : TimeText d t) : NoMark t := by
  have after : ∀ {u}, AfterText u → NoMark u := by
    rintro u ⟨a, k, rfl, ha, hk⟩
    exact noMark_append (noMark_append (noMark_of ha) (noMark_of hk)) (noMark_of (ws := [py" követő"]) (by simp))
  cases h with
  | date h ha hm he => exact noMark_date he
  | nextDay h ha hm hu => exact noMark_append (after hu) (noMark_of (ws := [py" napon"]) (by simp))
  | days h ha hm hu hn => exact noMark_append (noMark_append (after hu) (noMark_cons (noMark_count hn))) (noMark_of (ws := [py" napon"]) (by simp))
  | dayInMonth h ha hm hu hv hx =>
    refine noMark_append (noMark_append (noMark_append (noMark_append (after hu) ?_) (noMark_of (ws := [py" hónap "]) (by simp))) (noMark_count hx))
      (noMark_of (ws := [py" napján"]) (by simp))
    rcases hv with ⟨_, rfl⟩ | ⟨t, _, ht, rfl⟩
    · unfold NoMark; simp
    · exact noMark_cons (noMark_of ht)

theorem noMark_exception {n : Nat} {rs : List ParsedRef} {x : Str} (h : ExceptionText n rs x) : NoMark x := by
  rcases h with ⟨rfl, rfl⟩ | ⟨d, e, ps, u, f, k, rfl, hd, he, hu, hf, hk, rfl⟩
  · unfold NoMark; simp
  · exact noMark_append (noMark_append (noMark_append (noMark_append (noMark_append (noMark_cons (noMark_dash hd)) (noMark_of (ws := [py" a "]) (by simp)))
      (noMark_reference hu)) (noMark_cons (noMark_of hf))) (noMark_cons (noMark_of hk))) (noMark_cons (noMark_dash he))

theorem noMark_inForce {n : Nat} {rs : List ParsedRef} {w : Str} (h : InForceText n rs w) : NoMark w := by
  rcases h with ⟨rfl, rfl⟩ | ⟨v, rfl, h⟩
  · unfold NoMark; simp
  · exact noMark_cons (noMark_references h)

theorem noMark_repeal {d : Option ParsedDate} {w : Str} (h : RepealText d w) : NoMark w := by
  rcases h with ⟨rfl, rfl⟩ | ⟨x, e, v, a, rfl, rfl, he, hv, ha⟩
  · unfold NoMark; simp
  · exact noMark_append (noMark_append (noMark_append (noMark_append (noMark_of (ws := [py", és "]) (by simp)) (noMark_of he)) (noMark_date hv))
      (noMark_of ha)) (noMark_of (ws := [py" hatályát veszti"]) (by simp))

/-- A node of an amendment of texts. -/
def OfTexts : GrammarNode → Prop
  | .textAmendment .. | .articleTitleAmendment .. => True
  | _ => False

theorem makes_texts : ∀ p ∈ [textAmendment, articleTitleAmendment], Makes OfTexts p := by
  simp only [List.mem_cons, List.not_mem_nil, or_false]
  rintro p (rfl | rfl)
  · exact makes_rule (makes_bind fun a => makes_bind fun _ => makes_bind fun _ => makes_bind fun _ => makes_pure trivial)
  · exact makes_rule (makes_bind fun a => makes_bind fun _ => makes_bind fun _ => makes_bind fun _ => makes_bind fun _ => makes_bind fun _ =>
      makes_pure trivial)

theorem texts_mark {s : Str} {n : GrammarNode} (hn : OfTexts n) (h : NodeWritten s n) : '„' ∈ s := by
  have quoted : ∀ {p}, ReplacementWritten s p → '„' ∈ s := by
    rintro p ⟨a, b, c, d, ⟨_, _, h1, inner, h2⟩, _⟩
    have : '„' ∈ slice s a b := by
      rw [h1, h2]
      simp [quotesText, quoteText]
    unfold slice at this
    exact List.mem_of_mem_drop (List.mem_of_mem_take this)
  cases n with
  | textAmendment act rs ps =>
    obtain ⟨_, _, _, h1, h2, _⟩ := h
    obtain ⟨p, l, rfl⟩ := List.exists_cons_of_ne_nil h1
    exact quoted (h2 p (List.mem_cons_self ..))
  | articleTitleAmendment =>
    obtain ⟨_, _, h, _⟩ := h
    exact quoted h
  | _ => exact hn.elim

/-- The sentence is not an amendment of texts. -/
theorem no_texts {s : Str} (h : NoMark s) : whole textAmendment ⟨0, s⟩ = none ∧ whole articleTitleAmendment ⟨0, s⟩ = none := by
  have no : ∀ p ∈ [textAmendment, articleTitleAmendment], Sentence s p → whole p ⟨0, s⟩ = none := by
    intro p hp hs
    cases hw : whole p ⟨0, s⟩ with
    | none => rfl
    | some x =>
      obtain ⟨n, h1, h2⟩ := whole_written (makes_texts p hp) hs hw
      exact absurd (texts_mark h1 h2) h
  exact ⟨no _ (by simp) sentence_textAmendment, no _ (by simp) sentence_articleTitleAmendment⟩

/-! ## The tree -/

theorem inForce_tree {o x r t i : Str} {d : ParsedEnforcementDate} (ho : o ∈ [py"E törvény", py"Ez a törvény", py"A", py"Az"])
    (hx : ExceptionText o.length d.exceptionReferences x) (hr : InForceText (o.length + x.length) d.references r) (ht : TimeText d t)
    (hi : RepealText d.inlineRepeal i) :
    parse (o ++ x ++ r ++ ' ' :: t ++ (py" lép hatályba") ++ i ++ py".") = some (.node (.enforcementDate d) []) := by
  have hm : NoMark (o ++ x ++ r ++ ' ' :: t ++ (py" lép hatályba") ++ i ++ py".") :=
    noMark_append (noMark_append (noMark_append (noMark_append (noMark_append (noMark_append (noMark_of ho) (noMark_exception hx)) (noMark_inForce hr))
      (noMark_cons (noMark_time ht))) (noMark_of (ws := [py" lép hatályba"]) (by simp))) (noMark_repeal hi)) (noMark_of (ws := [py"."]) (by simp))
  obtain ⟨n1, n2⟩ := no_texts hm
  have stop : ∃ u, o ++ x ++ r ++ ' ' :: t ++ (py" lép hatályba") ++ i ++ (py".") = u ++ py"." := ⟨_, rfl⟩
  obtain ⟨l, hl⟩ : ∃ l, l = py" lép hatályba" := ⟨_, rfl⟩
  rw [← hl] at n1 n2 stop ⊢
  simp only [List.append_assoc, List.cons_append] at n1 n2 stop ⊢
  obtain ⟨w, z, hw, p1, p2, p3⟩ := time_plain ht (l ++ (i ++ py"."))
  have hq : Quiet (' ' :: (t ++ (l ++ (i ++ py".")))) := by rw [hw]; exact quiet_word p1 p2
  have hnl : Fails listedReference (' ' :: (t ++ (l ++ (i ++ py".")))) := by rw [hw]; exact pauses_listed (pauses_word p1)
  -- what comes into force
  have h3 : many listedReference ⟨o.length + x.length, r ++ ' ' :: (t ++ (l ++ (i ++ py".")))⟩ =
      some (d.references, ⟨o.length + x.length + r.length, ' ' :: (t ++ (l ++ (i ++ py".")))⟩) := by
    rcases hr with ⟨e, rfl⟩ | ⟨v, rfl, hv⟩
    · rw [e]
      exact many_fails hnl _
    · have h := many_steps (references_before hv hq p3).1 (hnl _)
      rw [show o.length + x.length + (' ' :: v).length = o.length + x.length + 1 + v.length by simp; omega]
      exact h
  -- the beginning
  obtain ⟨s, hs, hd⟩ : ∃ s, x ++ (r ++ ' ' :: (t ++ (l ++ (i ++ py".")))) = ' ' :: s ∧ True := by
    rcases hx with ⟨_, rfl⟩ | ⟨_, _, _, _, _, _, _, _, _, _, _, _, rfl⟩
    · rcases hr with ⟨_, rfl⟩ | ⟨v, rfl, _⟩
      · exact ⟨_, rfl, trivial⟩
      · exact ⟨_, rfl, trivial⟩
    · exact ⟨_, rfl, trivial⟩
  have hdash : NotFirst (py"-–−") (r ++ ' ' :: (t ++ (l ++ (i ++ py".")))) := by
    rcases hr with ⟨_, rfl⟩ | ⟨v, rfl, hv⟩
    · rw [List.nil_append, hw]
      obtain ⟨c, u, rfl, hc⟩ := plain_not_space p1
      exact space_not_first hc (p2 c rfl)
    · obtain ⟨c, u, hc, hsp⟩ := (references_start hv (' ' :: (t ++ (l ++ (i ++ py"."))))).head
      obtain ⟨c', u', hc', hst⟩ := references_start hv (' ' :: (t ++ (l ++ (i ++ py"."))))
      rw [hc] at hc'
      cases hc'
      rw [List.cons_append, hc]
      refine space_not_first hsp fun hm => ?_
      have dashes : ∀ c ∈ py"-–−", isAsciiDigit c = false ∧ c ≠ '(' ∧ isLowerAz c = false := by decide +kernel
      obtain ⟨d1, d2, d3⟩ := dashes c hm
      rcases hst with h | h | ⟨h, _⟩
      · exact absurd (d1.symm.trans h) (by decide)
      · exact d2 h
      · exact absurd (d3.symm.trans h) (by decide)
  obtain ⟨y, h2, hy⟩ := exception_read hx hdash
  have h1 := opening_reads ho (s := s)
  rw [← hs] at h1
  obtain ⟨e, h4, e1, e2, e3⟩ := time_reads ht (rest := l ++ (i ++ py".")) (by subst hl; rfl)
  have h4 : Reads timeOf (' ' :: t) (l ++ (i ++ py".")) e := by
    refine h4.space fun j => ?_
    unfold timeOf date afterPublication dayInMonth
    have bs : ∀ {α β : Type} {p : Peg α} {f : α → Peg β}, (∀ j, p (At.skip j) = p j) → ∀ j, (p >>= f) (At.skip j) = (p >>= f) j := by
      intro α β p f hp j
      show (match p (At.skip j) with | none => none | some (a, k) => f a k) = _
      rw [hp j]
      rfl
    have os : ∀ {α : Type} {p q : Peg α}, (∀ j, p (At.skip j) = p j) → (∀ j, q (At.skip j) = q j) → ∀ j, Peg.or p q (At.skip j) = Peg.or p q j := by
      intro α p q hp hq j
      unfold Peg.or
      rw [hp j, hq j]
    exact os (bs (rule_skip _)) (os (bs (rule_skip _)) (bs (rule_skip _))) j
  have h5 : Reads (token (py"lép hatályba")) l (i ++ py".") (py"lép hatályba") := by
    subst hl
    exact (reads_text (by decide +kernel)).space fun _ => token_skip _ _
  have h6 := repeal_reads hi
  have h7 : Reads (token (py".")) (py".") [] (py".") := reads_text (rest := []) (by decide +kernel)
  have tree : enforcementDate ⟨0, o ++ (x ++ (r ++ ' ' :: (t ++ (l ++ (i ++ py".")))))⟩ =
      some (.node (.enforcementDate d) [], ⟨o.length + x.length + r.length + (t.length + 1) + l.length + i.length + 1, []⟩) := by
    obtain ⟨c, u, hc, hsp⟩ : ∃ c u, o ++ (x ++ (r ++ ' ' :: (t ++ (l ++ (i ++ py"."))))) = c :: u ∧ isSpace c = false := by
      simp only [List.mem_cons, List.not_mem_nil, or_false] at ho
      rcases ho with rfl | rfl | rfl | rfl
      · exact ⟨_, _, rfl, by decide +kernel⟩
      · exact ⟨_, _, rfl, by decide +kernel⟩
      · exact ⟨_, _, rfl, by decide +kernel⟩
      · exact ⟨_, _, rfl, by decide +kernel⟩
    have h1' := h1 0
    have h4' := h4 (o.length + x.length + r.length)
    have h5' := h5 (o.length + x.length + r.length + (' ' :: t).length)
    have h6' := h6 (o.length + x.length + r.length + (' ' :: t).length + l.length)
    have h7' := h7 (o.length + x.length + r.length + (' ' :: t).length + l.length + i.length)
    rw [Nat.zero_add] at h1'
    have e4 : d = { e with references := d.references, exceptionReferences := y.toList, inlineRepeal := d.inlineRepeal } := by
      rw [hy]
      cases d
      cases e
      cases e1
      cases e2
      cases e3
      rfl
    unfold enforcementDate
    rw [hc, rule_eq hsp, ← hc]
    show (opening >>= fun _ => opt exceptFor >>= fun x => many listedReference >>= fun rs => timeOf >>= fun d =>
      token (py"lép hatályba") >>= fun _ => opt inlineRepeal >>= fun r => token (py".") >>= fun _ =>
      pure (ParseTree.node (.enforcementDate { (d : ParsedEnforcementDate) with
        references := rs, exceptionReferences := x.toList, inlineRepeal := r }) [])) _ = _
    rw [List.cons_append] at h4'
    rw [bind_some h1', bind_some h2, bind_some h3, bind_some h4', bind_some h5', bind_some h6']
    refine (bind_some h7').trans ?_
    rw [← e4]
    rfl
  obtain ⟨c, u, hc, hsp⟩ : ∃ c u, o ++ (x ++ (r ++ ' ' :: (t ++ (l ++ (i ++ py"."))))) = c :: u ∧ isSpace c = false := by
    simp only [List.mem_cons, List.not_mem_nil, or_false] at ho
    rcases ho with rfl | rfl | rfl | rfl
    · exact ⟨_, _, rfl, by decide +kernel⟩
    · exact ⟨_, _, rfl, by decide +kernel⟩
    · exact ⟨_, _, rfl, by decide +kernel⟩
    · exact ⟨_, _, rfl, by decide +kernel⟩
  rw [hc] at n1 n2 stop tree ⊢
  refine parse_of hsp (k := ⟨o.length + x.length + r.length + (t.length + 1) + l.length + i.length + 1, []⟩) ?_
  rw [no_blocks stop, sentence_next n1, sentence_next n2, sentence_this (whole_read tree)]

end Verif.ActGrammar
