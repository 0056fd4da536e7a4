import Verif.Model.Cache
import Verif.Proofs.PyBasic

/-! # Lemmas about the cache -/

namespace Verif

/-! ## Names of files -/

theorem natStr_not_mem {c : Char} (h : isAsciiDigit c = false) (n : Nat) : c ∉ natStr n := by
  intro hm
  have := natStr_ascii n c hm
  rw [h] at this
  cases this

theorem intStr_injective {i j : Int} (h : intStr i = intStr j) : i = j := by
  have hminus : ∀ n : Nat, '-' ∉ natStr n := natStr_not_mem (by decide)
  unfold intStr at h
  by_cases hi : i < 0
  · by_cases hj : j < 0
    · rw [if_pos hi, if_pos hj] at h
      injection h with _ h
      have := natStr_injective h
      omega
    · rw [if_pos hi, if_neg hj] at h
      exact absurd (h ▸ List.mem_cons_self) (hminus _)
  · by_cases hj : j < 0
    · rw [if_neg hi, if_pos hj] at h
      exact absurd (h ▸ List.mem_cons_self) (hminus _)
    · rw [if_neg hi, if_neg hj] at h
      have := natStr_injective h
      omega

theorem intStr_no_slash (i : Int) : '/' ∉ intStr i := by
  have : ∀ n : Nat, '/' ∉ natStr n := natStr_not_mem (by decide)
  unfold intStr
  by_cases hi : i < 0
  · rw [if_pos hi]
    intro h
    rcases List.mem_cons.mp h with h | h
    · cases h
    · exact this _ h
  · rw [if_neg hi]
    exact this _

theorem append_sep_inj {a b c d : Str} {x : Char} (ha : x ∉ a) (hc : x ∉ c) (h : a ++ x :: b = c ++ x :: d) : a = c ∧ b = d := by
  induction a generalizing c with
  | nil =>
    cases c with
    | nil => exact ⟨rfl, by injection h⟩
    | cons y c =>
      injection h with h1 _
      subst h1
      exact absurd List.mem_cons_self hc
  | cons z a ih =>
    cases c with
    | nil =>
      injection h with h1 _
      subst h1
      exact absurd List.mem_cons_self ha
    | cons y c =>
      injection h with h1 h2
      subst h1
      obtain ⟨h3, h4⟩ := ih (fun hm => ha (List.mem_cons_of_mem _ hm)) (fun hm => hc (List.mem_cons_of_mem _ hm)) h2
      exact ⟨by rw [h3], h4⟩

theorem pdfPath_injective {i j : Issue} (h : pdfPath i = pdfPath j) : i = j := by
  unfold pdfPath at h
  rw [List.append_cancel_right_eq] at h
  simp only [List.append_assoc] at h
  rw [List.append_cancel_left_eq] at h
  obtain ⟨h1, h2⟩ := append_sep_inj (intStr_no_slash _) (intStr_no_slash _) h
  exact Prod.ext (intStr_injective h1) (intStr_injective h2)

theorem parsedPath_injective {i j : Issue} (h : parsedPath i = parsedPath j) : i = j :=
  pdfPath_injective (List.append_cancel_right h)

theorem pdfPath_ne_parsedPath (i j : Issue) : pdfPath i ≠ parsedPath j := by
  intro h
  have := congrArg List.getLast? h
  rw [parsedPath, List.getLast?_append, pdfPath, List.getLast?_append] at this
  cases this

/-! ## Consistent stores -/

variable {α : Type} {w : World α}

/-- A file has the contents it should have; if not `strict`, a file with lines may also be cut. -/
def FileOk (w : World α) (strict : Bool) (p : Str) (data : Bytes) : Prop :=
  ∀ i, (p = pdfPath i → data = w.download i) ∧
    (p = parsedPath i → ∃ t r, w.parse (w.download i) = .ok r ∧ data <+: w.encode t r ∧
      (strict = true → data = w.encode t r))

/-- All files except one are as they should be. -/
def ConsistentBut (w : World α) (strict : Bool) (q : Option Str) (s : Store) : Prop :=
  ∀ p data, q ≠ some p → s p = some data → FileOk w strict p data

theorem consistent_put {strict : Bool} {q : Str} {s : Store} (h : ConsistentBut w strict (some q) s) {data : Bytes}
    (hd : FileOk w strict q data) : ConsistentBut w strict none (s.put q data) := by
  intro p d _ hp
  unfold Store.put at hp
  by_cases hq : p = q
  · rw [if_pos hq] at hp
    injection hp with hp
    subst hp hq
    exact hd
  · rw [if_neg hq] at hp
    exact h p d (by simpa using fun h => hq h.symm) hp

theorem consistentBut_put {strict : Bool} {q : Str} {s : Store} (h : ConsistentBut w strict (some q) s) {data : Bytes} :
    ConsistentBut w strict (some q) (s.put q data) := by
  intro p d hne hp
  unfold Store.put at hp
  have hq : ¬ p = q := fun h => hne (by rw [h])
  rw [if_neg hq] at hp
  exact h p d hne hp

theorem ConsistentBut.weaken {strict : Bool} {s : Store} (h : ConsistentBut w strict none s) (q : Str) :
    ConsistentBut w strict (some q) s := fun p d _ hp => h p d (by simp) hp

theorem fileOk_pdf {strict : Bool} (i : Issue) : FileOk w strict (pdfPath i) (w.download i) :=
  fun j => ⟨fun h => by rw [pdfPath_injective h], fun h => absurd h (pdfPath_ne_parsedPath i j)⟩

theorem fileOk_parsed {strict : Bool} {i : Issue} {t : Nat} {r : α} (h : w.parse (w.download i) = .ok r) {data : Bytes}
    (hd : data <+: w.encode t r) (hs : strict = true → data = w.encode t r) : FileOk w strict (parsedPath i) data :=
  fun j => ⟨fun h => absurd h.symm (pdfPath_ne_parsedPath j i), fun hp => by
    have := parsedPath_injective hp
    subst this
    exact ⟨t, r, h, hd, hs⟩⟩

/-- What a process may give. -/
def ResultOk (w : World α) (strict : Bool) (i : Issue) (res : Res α) : Prop :=
  res = w.parse (w.download i) ∨ (strict = false ∧ ∃ e, res = .error e)

/-- What holds in each phase of a process. -/
def ProcOk (w : World α) (strict : Bool) (i : Issue) : Phase α × Store → Prop
  | (.start, s) => ConsistentBut w strict none s
  | (.writePdf n, s) => ConsistentBut w strict (some (pdfPath i)) s ∧ s (pdfPath i) = some ((w.download i).take n)
  | (.opened, s) => ConsistentBut w strict none s ∧ s (pdfPath i) = some (w.download i)
  | (.writeParsed t r n, s) => ConsistentBut w strict (some (parsedPath i)) s ∧ w.parse (w.download i) = .ok r ∧
      s (parsedPath i) = some ((w.encode t r).take n)
  | (.done res, s) => ConsistentBut w strict none s ∧ ResultOk w strict i res

theorem put_same (s : Store) (p : Str) (data : Bytes) : s.put p data p = some data := by
  unfold Store.put
  rw [if_pos rfl]

theorem consistent_of_value {strict : Bool} {q : Str} {s : Store} (h : ConsistentBut w strict (some q) s) {data : Bytes}
    (hv : s q = some data) (hd : FileOk w strict q data) : ConsistentBut w strict none s := by
  intro p d _ hp
  by_cases hq : p = q
  · subst hq
    rw [hv] at hp
    injection hp with hp
    subst hp
    exact hd
  · exact h p d (by simpa using fun h => hq h.symm) hp

theorem procOk_step {strict : Bool} {i : Issue} (hdec : ∀ b t r, w.parse b = .ok r → w.decode (w.encode t r) = .ok r)
    (hcut : strict = false → ∀ b t r data, w.parse b = .ok r → data <+: w.encode t r → data ≠ w.encode t r → ∃ e, w.decode data = .error e)
    {x y : Phase α × Store} (hx : ProcOk w strict i x) (h : Step w i x y) : ProcOk w strict i y := by
  cases h with
  | pdfThere h =>
    refine ⟨hx, ?_⟩
    rw [h]
    rw [((hx _ _ (by simp) h) i).1 rfl]
  | pdfOpen h => exact ⟨consistentBut_put (hx.weaken _), by rw [put_same, List.take_zero]⟩
  | pdfWrite h hm => exact ⟨consistentBut_put hx.1, put_same _ _ _⟩
  | pdfClose =>
    obtain ⟨h1, h2⟩ := hx
    rw [List.take_length] at h2
    exact ⟨consistent_of_value h1 h2 (fileOk_pdf i), h2⟩
  | @parsedThere s data h =>
    obtain ⟨h1, h2⟩ := hx
    refine ⟨h1, ?_⟩
    obtain ⟨t, r, hr, hpre, hs⟩ := ((h1 _ _ (by simp) h) i).2 rfl
    cases strict with
    | true =>
      left
      rw [hs rfl, hdec _ _ _ hr, hr]
    | false =>
      by_cases hd : data = w.encode t r
      · left
        rw [hd, hdec _ _ _ hr, hr]
      · exact .inr ⟨rfl, hcut rfl _ t r data hr hpre hd⟩
  | parseFails h hp hr =>
    obtain ⟨h1, h2⟩ := hx
    rw [h2] at hp
    injection hp with hp
    subst hp
    exact ⟨h1, .inl hr.symm⟩
  | parsedOpen t h hp hr =>
    obtain ⟨h1, h2⟩ := hx
    rw [h2] at hp
    injection hp with hp
    subst hp
    exact ⟨consistentBut_put (h1.weaken _), hr, by rw [put_same, List.take_zero]⟩
  | parsedWrite h hm => exact ⟨consistentBut_put hx.1, hx.2.1, put_same _ _ _⟩
  | parsedClose =>
    obtain ⟨h1, h2, h3⟩ := hx
    rw [List.take_length] at h3
    exact ⟨consistent_of_value h1 h3 (fileOk_parsed h2 (List.prefix_refl _) fun _ => rfl), .inl h2.symm⟩

theorem procOk_steps {strict : Bool} {i : Issue} (hdec : ∀ b t r, w.parse b = .ok r → w.decode (w.encode t r) = .ok r)
    (hcut : strict = false → ∀ b t r data, w.parse b = .ok r → data <+: w.encode t r → data ≠ w.encode t r → ∃ e, w.decode data = .error e)
    {x y : Phase α × Store} (hx : ProcOk w strict i x) (h : Steps w i x y) : ProcOk w strict i y := by
  induction h with
  | refl => exact hx
  | tail _ hs ih => exact procOk_step hdec hcut ih hs

theorem history_ok {strict : Bool} (hdec : ∀ b t r, w.parse b = .ok r → w.decode (w.encode t r) = .ok r)
    (hcut : strict = false → ∀ b t r data, w.parse b = .ok r → data <+: w.encode t r → data ≠ w.encode t r → ∃ e, w.decode data = .error e)
    {kill : Phase α → Prop} (hk : ∀ p, kill p → (∀ n, p ≠ .writePdf n) ∧ (strict = true → ¬ p.writing))
    {s s' : Store} {rs : List (Issue × Res α)} (h : History w kill s rs s') (hs : ConsistentBut w strict none s) :
    ConsistentBut w strict none s' ∧ ∀ x ∈ rs, ResultOk w strict x.1 x.2 := by
  induction h with
  | none => exact ⟨hs, by simp⟩
  | ended h _ ih =>
    have := procOk_steps hdec hcut (x := (.start, _)) hs h
    obtain ⟨h1, h2⟩ := ih this.1
    refine ⟨h1, ?_⟩
    intro x hx
    rcases List.mem_cons.mp hx with rfl | hx
    · exact this.2
    · exact h2 x hx
  | @killed s s' s'' issue p rs h hp _ ih =>
    have := procOk_steps hdec hcut (x := (.start, _)) hs h
    refine ih ?_
    cases p with
    | start => exact this
    | writePdf n => exact absurd rfl ((hk _ hp).1 n)
    | opened => exact this.1
    | writeParsed t r n =>
      obtain ⟨h1, h2, h3⟩ := this
      refine consistent_of_value h1 h3 (fileOk_parsed h2 (List.take_prefix _ _) ?_)
      intro hstrict
      exact absurd trivial ((hk _ hp).2 hstrict)
    | done res => exact this.1

theorem Steps.trans {i : Issue} {x y z : Phase α × Store} (h1 : Steps w i x y) (h2 : Steps w i y z) : Steps w i x z := by
  induction h2 with
  | refl => exact h1
  | tail _ hs ih => exact .tail ih hs

theorem Steps.one {i : Issue} {x y : Phase α × Store} (h : Step w i x y) : Steps w i x y := .tail (.refl _) h

/-- A process with the downloaded file can go on to its end. -/
theorem opened_ends {i : Issue} {s : Store} {data : Bytes} (h : s (pdfPath i) = some data) :
    ∃ r s', Steps w i (.opened, s) (.done r, s') := by
  cases hp : s (parsedPath i) with
  | some d => exact ⟨_, _, .one (.parsedThere hp)⟩
  | none =>
    cases hr : w.parse data with
    | error e => exact ⟨_, _, .one (.parseFails hp h hr)⟩
    | ok r =>
      have h1 : Step w i (.opened, s) (.writeParsed 0 r 0, s.put (parsedPath i) []) := .parsedOpen 0 hp h hr
      by_cases hl : (w.encode 0 r).length = 0
      · exact ⟨_, _, .tail (.one h1) (by have := Step.parsedClose (w := w) (issue := i) (s := s.put (parsedPath i) []) (t := 0) (r := r); rwa [hl] at this)⟩
      · exact ⟨_, _, .tail (.tail (.one h1) (.parsedWrite (by omega) (Nat.le_refl _))) .parsedClose⟩

/-- A process can always go on to its end. -/
theorem run_ends (i : Issue) (s : Store) : ∃ r s', Steps w i (.start, s) (.done r, s') := by
  cases hp : s (pdfPath i) with
  | some d =>
    obtain ⟨r, s', h⟩ := opened_ends (w := w) hp
    exact ⟨r, s', .trans (.one (.pdfThere hp)) h⟩
  | none =>
    have h1 : Step w i (.start, s) (.writePdf 0, s.put (pdfPath i) []) := .pdfOpen hp
    by_cases hl : (w.download i).length = 0
    · have h2 : Step w i (.writePdf 0, s.put (pdfPath i) []) (.opened, s.put (pdfPath i) []) := by
        have := Step.pdfClose (w := w) (issue := i) (s := s.put (pdfPath i) [])
        rwa [hl] at this
      obtain ⟨r, s', h⟩ := opened_ends (w := w) (put_same s (pdfPath i) [])
      exact ⟨r, s', .trans (.tail (.one h1) h2) h⟩
    · have h2 := Step.pdfWrite (w := w) (issue := i) (s := s.put (pdfPath i) []) (n := 0) (m := (w.download i).length) (by omega)
        (Nat.le_refl _)
      obtain ⟨r, s', h⟩ := opened_ends (w := w) (i := i) (put_same (s.put (pdfPath i) []) (pdfPath i) ((w.download i).take _))
      exact ⟨r, s', .trans (.tail (.tail (.one h1) h2) .pdfClose) h⟩

/-- If both files are there, the only result is what the second one holds, and nothing is written. -/
theorem cached_result {i : Issue} {s : Store} {pdf data : Bytes} (h1 : s (pdfPath i) = some pdf) (h2 : s (parsedPath i) = some data)
    {y : Phase α × Store} (h : Steps w i (.start, s) y) :
    y.2 = s ∧ (y.1 = .start ∨ y.1 = .opened ∨ y.1 = .done (w.decode data)) := by
  induction h with
  | refl => exact ⟨rfl, .inl rfl⟩
  | tail _ hs ih =>
    obtain ⟨g1, g2⟩ := ih
    cases hs with
    | pdfThere h =>
      exact ⟨g1, .inr (.inl rfl)⟩
    | pdfOpen h =>
      dsimp only at g1
      subst g1
      rw [h1] at h
      cases h
    | parsedThere h =>
      dsimp only at g1
      subst g1
      rw [h2] at h
      injection h with h
      subst h
      exact ⟨rfl, .inr (.inr rfl)⟩
    | parseFails h =>
      dsimp only at g1
      subst g1
      rw [h2] at h
      cases h
    | parsedOpen t h =>
      dsimp only at g1
      subst g1
      rw [h2] at h
      cases h
    | _ => rcases g2 with g2 | g2 | g2 <;> cases g2

end Verif
