import Verif.Spec.Workers
import Verif.Proofs.Cache

/-! # Lemmas about several processes with one cache -/

namespace Verif

variable {α : Type} {w : World α}

/-- What a file with the lines of an issue may hold. -/
def ParsedOk (w : World α) (strict : Bool) (i : Issue) (data : Bytes) : Prop :=
  ∃ t r, w.parse (w.download i) = .ok r ∧ data <+: w.encode t r ∧ (strict = true → data = w.encode t r)

/-- What the two files of an issue may hold while nobody writes them. -/
def FilesOk (w : World α) (strict : Bool) (i : Issue) (pdf parsed : Option Bytes) : Prop :=
  (∀ d, pdf = some d → d = w.download i) ∧ ∀ d, parsed = some d → ParsedOk w strict i d ∧ pdf = some (w.download i)

/-- What holds in each phase of a process that is alone with its issue. -/
def AloneOk (w : World α) (strict : Bool) (i : Issue) (pdf parsed : Option Bytes) : Phase α → Prop
  | .start => FilesOk w strict i pdf parsed
  | .writePdf n => n ≤ (w.download i).length ∧ pdf = some ((w.download i).take n) ∧ parsed = none
  | .opened => FilesOk w strict i pdf parsed ∧ pdf = some (w.download i)
  | .writeParsed t r n => n ≤ (w.encode t r).length ∧ pdf = some (w.download i) ∧ w.parse (w.download i) = .ok r ∧
      parsed = some ((w.encode t r).take n)
  | .done res => FilesOk w strict i pdf parsed ∧ ResultOk w strict i res

/-- A process that only reads. -/
def ReadsOk (w : World α) (strict : Bool) (i : Issue) (p : Phase α) : Prop :=
  p = .start ∨ p = .opened ∨ ∃ res, p = .done res ∧ ResultOk w strict i res

/-- What holds of the processes of an issue and its files. -/
def IssueOk (w : World α) (strict : Bool) (i : Issue) (ps : List (Phase α)) (pdf parsed : Option Bytes) : Prop :=
  (ps = [] ∧ FilesOk w strict i pdf parsed) ∨ (∃ p, ps = [p] ∧ AloneOk w strict i pdf parsed p) ∨
    (pdf = some (w.download i) ∧ (∃ d, parsed = some d ∧ ParsedOk w strict i d) ∧ ∀ p ∈ ps, ReadsOk w strict i p)

/-- The phases of the processes of an issue. -/
def phasesOf (ps : List (Issue × Phase α)) (i : Issue) : List (Phase α) := (ps.filter fun q => q.1 = i).map (·.2)

def MachineOk (w : World α) (strict : Bool) (m : Machine α) : Prop :=
  ∀ i, IssueOk w strict i (phasesOf m.running i) (m.store (pdfPath i)) (m.store (parsedPath i))

theorem phasesOf_append (ps qs : List (Issue × Phase α)) (i : Issue) : phasesOf (ps ++ qs) i = phasesOf ps i ++ phasesOf qs i := by
  unfold phasesOf
  rw [List.filter_append, List.map_append]

theorem phasesOf_same (ps : List (Issue × Phase α)) (i : Issue) (p : Phase α) : phasesOf ((i, p) :: ps) i = p :: phasesOf ps i := by
  unfold phasesOf
  rw [List.filter_cons_of_pos (by simp), List.map_cons]

theorem phasesOf_other (ps : List (Issue × Phase α)) {i j : Issue} (h : i ≠ j) (p : Phase α) :
    phasesOf ((i, p) :: ps) j = phasesOf ps j := by
  unfold phasesOf
  rw [List.filter_cons_of_neg (by simpa using h)]

theorem mem_phasesOf {ps : List (Issue × Phase α)} {i : Issue} {p : Phase α} : p ∈ phasesOf ps i ↔ (i, p) ∈ ps := by
  unfold phasesOf
  rw [List.mem_map]
  constructor
  · rintro ⟨⟨j, q⟩, hm, rfl⟩
    obtain ⟨hm, hj⟩ := List.mem_filter.mp hm
    have : j = i := by simpa using hj
    exact this ▸ hm
  · intro h
    exact ⟨(i, p), List.mem_filter.mpr ⟨h, by simp⟩, rfl⟩

theorem put_other {s : Store} {p q : Str} (h : q ≠ p) (d : Bytes) : s.put p d q = s q := by
  unfold Store.put
  rw [if_neg h]

/-- A process touches the files of its issue only. -/
theorem step_other {i j : Issue} (hij : i ≠ j) {p p' : Phase α} {s s' : Store} (h : Step w i (p, s) (p', s')) :
    s' (pdfPath j) = s (pdfPath j) ∧ s' (parsedPath j) = s (parsedPath j) := by
  have h1 : pdfPath j ≠ pdfPath i := fun h => hij (pdfPath_injective h).symm
  have h2 : parsedPath j ≠ parsedPath i := fun h => hij (parsedPath_injective h).symm
  have h3 : pdfPath j ≠ parsedPath i := pdfPath_ne_parsedPath j i
  have h4 : parsedPath j ≠ pdfPath i := (pdfPath_ne_parsedPath i j).symm
  cases h <;> first
    | exact ⟨rfl, rfl⟩
    | exact ⟨put_other h1 _, put_other h4 _⟩
    | exact ⟨put_other h3 _, put_other h2 _⟩

theorem parsedOk_read {strict : Bool} {i : Issue} (hdec : ∀ b t r, w.parse b = .ok r → w.decode (w.encode t r) = .ok r)
    (hcut : strict = false → ∀ b t r data, w.parse b = .ok r → data <+: w.encode t r → data ≠ w.encode t r → ∃ e, w.decode data = .error e)
    {data : Bytes} (h : ParsedOk w strict i data) : ResultOk w strict i (w.decode data) := by
  obtain ⟨t, r, hr, hpre, hs⟩ := h
  cases strict with
  | true =>
    left
    rw [hs rfl, hdec _ _ _ hr, hr]
  | false =>
    by_cases hd : data = w.encode t r
    · left
      rw [hd, hdec _ _ _ hr, hr]
    · exact .inr ⟨rfl, hcut rfl _ t r data hr hpre hd⟩

theorem alone_step {strict : Bool} {i : Issue} (hdec : ∀ b t r, w.parse b = .ok r → w.decode (w.encode t r) = .ok r)
    (hcut : strict = false → ∀ b t r data, w.parse b = .ok r → data <+: w.encode t r → data ≠ w.encode t r → ∃ e, w.decode data = .error e)
    {p p' : Phase α} {s s' : Store} (hx : AloneOk w strict i (s (pdfPath i)) (s (parsedPath i)) p)
    (h : Step w i (p, s) (p', s')) : AloneOk w strict i (s' (pdfPath i)) (s' (parsedPath i)) p' := by
  have h3 : pdfPath i ≠ parsedPath i := pdfPath_ne_parsedPath i i
  cases h with
  | pdfThere h =>
    refine ⟨hx, ?_⟩
    rw [h, hx.1 _ h]
  | pdfOpen h =>
    refine ⟨Nat.zero_le _, by rw [put_same, List.take_zero], ?_⟩
    rw [put_other h3.symm]
    cases hp : s (parsedPath i) with
    | none => rfl
    | some d =>
      have := (hx.2 d hp).2
      rw [h] at this
      cases this
  | pdfWrite h hm => exact ⟨hm, put_same _ _ _, by rw [put_other h3.symm]; exact hx.2.2⟩
  | pdfClose =>
    obtain ⟨-, h1, h2⟩ := hx
    rw [List.take_length] at h1
    rw [h1, h2]
    exact ⟨⟨fun d hd => by injection hd with hd; exact hd.symm, fun d hd => by cases hd⟩, rfl⟩
  | parsedThere h => exact ⟨hx.1, parsedOk_read hdec hcut (hx.1.2 _ h).1⟩
  | parseFails h hp hr =>
    refine ⟨hx.1, .inl ?_⟩
    rw [hx.2] at hp
    injection hp with hp
    rw [hp, hr]
  | parsedOpen t h hp hr =>
    refine ⟨Nat.zero_le _, ?_, ?_, by rw [put_same, List.take_zero]⟩
    · rw [put_other h3]
      exact hx.2
    · rw [hx.2] at hp
      injection hp with hp
      rw [hp, hr]
  | parsedWrite h hm => exact ⟨hm, by rw [put_other h3]; exact hx.2.1, hx.2.2.1, put_same _ _ _⟩
  | @parsedClose s t r =>
    obtain ⟨-, h1, h2, h4⟩ := hx
    rw [List.take_length] at h4
    refine ⟨⟨fun d hd => ?_, fun d hd => ⟨?_, h1⟩⟩, .inl h2.symm⟩
    · rw [h1] at hd
      injection hd with hd
      exact hd.symm
    · rw [h4] at hd
      injection hd with hd
      subst hd
      exact ⟨t, r, h2, List.prefix_refl _, fun _ => rfl⟩

theorem reads_step {strict : Bool} {i : Issue} (hdec : ∀ b t r, w.parse b = .ok r → w.decode (w.encode t r) = .ok r)
    (hcut : strict = false → ∀ b t r data, w.parse b = .ok r → data <+: w.encode t r → data ≠ w.encode t r → ∃ e, w.decode data = .error e)
    {p p' : Phase α} {s s' : Store} {d : Bytes} (hx : ReadsOk w strict i p) (hpdf : s (pdfPath i) = some (w.download i))
    (hparsed : s (parsedPath i) = some d) (hd : ParsedOk w strict i d)
    (h : Step w i (p, s) (p', s')) : ReadsOk w strict i p' ∧ s' = s := by
  cases h with
  | pdfThere h => exact ⟨.inr (.inl rfl), rfl⟩
  | pdfOpen h =>
    rw [hpdf] at h
    cases h
  | parsedThere h =>
    rw [hparsed] at h
    injection h with h
    subst h
    exact ⟨.inr (.inr ⟨_, rfl, parsedOk_read hdec hcut hd⟩), rfl⟩
  | parseFails h =>
    rw [hparsed] at h
    cases h
  | parsedOpen t h =>
    rw [hparsed] at h
    cases h
  | _ => rcases hx with hx | hx | ⟨_, hx, -⟩ <;> cases hx

theorem aloneOk_reads {strict : Bool} {i : Issue} {pdf parsed : Option Bytes} {p : Phase α}
    (h : AloneOk w strict i pdf parsed p) (hw : ¬ p.writing) : FilesOk w strict i pdf parsed ∧ ReadsOk w strict i p := by
  cases p with
  | start => exact ⟨h, .inl rfl⟩
  | opened => exact ⟨h.1, .inr (.inl rfl)⟩
  | done res => exact ⟨h.1, .inr (.inr ⟨res, rfl, h.2⟩)⟩
  | writePdf n => exact absurd trivial hw
  | writeParsed t r n => exact absurd trivial hw

theorem append_cons_single {β : Type} {l₁ l₂ : List β} {a b : β} (h : l₁ ++ a :: l₂ = [b]) : l₁ = [] ∧ a = b ∧ l₂ = [] := by
  cases l₁ with
  | nil =>
    injection h with h1 h2
    exact ⟨rfl, h1, h2⟩
  | cons x l₁ =>
    injection h with _ h
    exact absurd h (by simp)

theorem filesOk_there {strict : Bool} {i : Issue} {pdf parsed : Option Bytes}
    (h : pdf = some (w.download i)) {d : Bytes} (hp : parsed = some d) (hd : ParsedOk w strict i d) :
    FilesOk w strict i pdf parsed := by
  subst h hp
  refine ⟨fun d hd => by injection hd with hd; exact hd.symm, fun d' hd' => ?_⟩
  injection hd' with hd'
  subst hd'
  exact ⟨hd, rfl⟩

theorem runs_ok {strict : Bool} (hdec : ∀ b t r, w.parse b = .ok r → w.decode (w.encode t r) = .ok r)
    (hcut : strict = false → ∀ b t r data, w.parse b = .ok r → data <+: w.encode t r → data ≠ w.encode t r → ∃ e, w.decode data = .error e)
    {kill : Phase α → Prop} (hk : ∀ p, kill p → (∀ n, p ≠ .writePdf n) ∧ (strict = true → ¬ p.writing))
    {x m : Machine α} {rs : List (Issue × Res α)} (h : Runs w Spec.Undisturbed kill x rs m) (hx : MachineOk w strict x) :
    MachineOk w strict m ∧ ∀ y ∈ rs, ResultOk w strict y.1 y.2 := by
  induction h with
  | refl => exact ⟨hx, by simp⟩
  | @started rs ps s _ i hi ih =>
    obtain ⟨ih, hr⟩ := ih
    refine ⟨fun j => ?_, hr⟩
    have hj := ih j
    dsimp only at hj ⊢
    by_cases hij : i = j
    · subst hij
      rw [phasesOf_same]
      rcases hj with ⟨h1, h2⟩ | ⟨p, h1, h2⟩ | ⟨h1, h2, h3⟩
      · rw [h1]
        exact .inr (.inl ⟨_, rfl, h2⟩)
      · have hm : (i, p) ∈ ps := mem_phasesOf.mp (h1 ▸ List.mem_cons_self)
        rcases hi with hi | ⟨hi, hw⟩
        · exact absurd rfl (hi _ hm)
        · have hpath : (py"MK/") ++ intStr i.1 ++ (py"/") ++ intStr i.2 ++ (py".pdf.parsed_v5.gz") = parsedPath i := by
            unfold parsedPath pdfPath
            simp only [List.append_assoc]
            rfl
          rw [hpath] at hi
          dsimp only at hi
          cases hp : s (parsedPath i) with
          | none => exact absurd hp hi
          | some d =>
            rw [hp] at h2
            obtain ⟨h4, h5⟩ := aloneOk_reads h2 (hw _ hm rfl)
            refine .inr (.inr ⟨(h4.2 d rfl).2, ⟨d, rfl, (h4.2 d rfl).1⟩, ?_⟩)
            intro q hq
            rcases List.mem_cons.mp hq with rfl | hq
            · exact .inl rfl
            · rw [h1, List.mem_singleton] at hq
              exact hq ▸ h5
      · refine .inr (.inr ⟨h1, h2, ?_⟩)
        intro q hq
        rcases List.mem_cons.mp hq with rfl | hq
        · exact .inl rfl
        · exact h3 q hq
    · rw [phasesOf_other _ hij]
      exact hj
  | @stepped rs ps qs i p p' s s' _ hs ih =>
    obtain ⟨ih, hr⟩ := ih
    refine ⟨fun j => ?_, hr⟩
    have hj := ih j
    dsimp only at hj ⊢
    rw [phasesOf_append] at hj ⊢
    by_cases hij : i = j
    · subst hij
      rw [phasesOf_same] at hj ⊢
      rcases hj with ⟨h1, -⟩ | ⟨q, h1, h2⟩ | ⟨h1, ⟨d, h2, h3⟩, h4⟩
      · exact absurd h1 (by simp)
      · obtain ⟨g1, g2, g3⟩ := append_cons_single h1
        rw [g1, g3]
        subst g2
        exact .inr (.inl ⟨p', rfl, alone_step hdec hcut h2 hs⟩)
      · obtain ⟨g1, g2⟩ := reads_step hdec hcut (h4 p (by simp)) h1 h2 h3 hs
        subst g2
        refine .inr (.inr ⟨h1, ⟨d, h2, h3⟩, ?_⟩)
        intro q hq
        rcases List.mem_append.mp hq with hq | hq
        · exact h4 q (List.mem_append_left _ hq)
        · rcases List.mem_cons.mp hq with rfl | hq
          · exact g1
          · exact h4 q (List.mem_append_right _ (List.mem_cons_of_mem _ hq))
    · rw [phasesOf_other _ hij] at hj ⊢
      obtain ⟨g1, g2⟩ := step_other hij hs
      rw [g1, g2]
      exact hj
  | @ended rs ps qs i r s _ ih =>
    obtain ⟨ih, hr⟩ := ih
    have hi := ih i
    dsimp only at hi
    rw [phasesOf_append, phasesOf_same] at hi
    have hres : ResultOk w strict i r := by
      rcases hi with ⟨h1, -⟩ | ⟨q, h1, h2⟩ | ⟨-, -, h4⟩
      · exact absurd h1 (by simp)
      · obtain ⟨-, g2, -⟩ := append_cons_single h1
        subst g2
        exact h2.2
      · rcases h4 (.done r) (by simp) with h | h | ⟨res, h, h'⟩
        · cases h
        · cases h
        · injection h with h
          exact h ▸ h'
    refine ⟨fun j => ?_, ?_⟩
    · have hj := ih j
      dsimp only at hj ⊢
      rw [phasesOf_append] at hj ⊢
      by_cases hij : i = j
      · subst hij
        rcases hi with ⟨h1, -⟩ | ⟨q, h1, h2⟩ | ⟨h1, h2, h4⟩
        · exact absurd h1 (by simp)
        · obtain ⟨g1, g2, g3⟩ := append_cons_single h1
          rw [g1, g3]
          subst g2
          exact .inl ⟨rfl, h2.1⟩
        · refine .inr (.inr ⟨h1, h2, fun q hq => h4 q ?_⟩)
          rcases List.mem_append.mp hq with hq | hq
          · exact List.mem_append_left _ hq
          · exact List.mem_append_right _ (List.mem_cons_of_mem _ hq)
      · rw [phasesOf_other _ hij] at hj
        exact hj
    · intro y hy
      rcases List.mem_append.mp hy with hy | hy
      · exact hr y hy
      · rw [List.mem_singleton] at hy
        subst hy
        exact hres
  | @killed rs ps qs i p s _ hp ih =>
    obtain ⟨ih, hr⟩ := ih
    refine ⟨fun j => ?_, hr⟩
    have hj := ih j
    dsimp only at hj ⊢
    rw [phasesOf_append] at hj ⊢
    by_cases hij : i = j
    · subst hij
      rw [phasesOf_same] at hj
      rcases hj with ⟨h1, -⟩ | ⟨q, h1, h2⟩ | ⟨h1, h2, h4⟩
      · exact absurd h1 (by simp)
      · obtain ⟨g1, g2, g3⟩ := append_cons_single h1
        rw [g1, g3]
        subst g2
        refine .inl ⟨rfl, ?_⟩
        cases p with
        | start => exact h2
        | writePdf n => exact absurd rfl ((hk _ hp).1 n)
        | opened => exact h2.1
        | writeParsed t r n =>
          obtain ⟨-, k1, k2, k3⟩ := h2
          refine filesOk_there k1 k3 ⟨t, r, k2, List.take_prefix _ _, fun hstrict => ?_⟩
          exact absurd trivial ((hk _ hp).2 hstrict)
        | done res => exact h2.1
      · refine .inr (.inr ⟨h1, h2, fun q hq => h4 q ?_⟩)
        rcases List.mem_append.mp hq with hq | hq
        · exact List.mem_append_left _ hq
        · exact List.mem_append_right _ (List.mem_cons_of_mem _ hq)
    · rw [phasesOf_other _ hij] at hj
      exact hj

/-! ## Going on to the end -/

/-- What a process can do alone it can also do beside others. -/
theorem runs_steps {start : Machine α → Issue → Prop} {kill : Phase α → Prop} {x : Machine α} {rs : List (Issue × Res α)}
    {ps qs : List (Issue × Phase α)} {i : Issue} {y z : Phase α × Store} (h : Steps w i y z)
    (hr : Runs w start kill x rs ⟨ps ++ (i, y.1) :: qs, y.2⟩) : Runs w start kill x rs ⟨ps ++ (i, z.1) :: qs, z.2⟩ := by
  induction h with
  | refl => exact hr
  | tail _ hs ih => exact .stepped ih hs

theorem Runs.trans {start : Machine α → Issue → Prop} {kill : Phase α → Prop} {x y z : Machine α} {rs rs' : List (Issue × Res α)}
    (h1 : Runs w start kill x rs y) (h2 : Runs w start kill y rs' z) : Runs w start kill x (rs ++ rs') z := by
  induction h2 with
  | refl => rwa [List.append_nil]
  | started _ i hi ih => exact .started ih i hi
  | stepped _ hs ih => exact .stepped ih hs
  | ended _ ih =>
    rw [← List.append_assoc]
    exact .ended ih
  | killed _ hp ih => exact .killed ih hp

/-- The rest of the downloaded file is written. -/
theorem writePdf_goes_on {i : Issue} {s : Store} {n : Nat} (hn : n ≤ (w.download i).length)
    (h : s (pdfPath i) = some ((w.download i).take n)) :
    ∃ s', Steps w i (.writePdf n, s) (.opened, s') ∧ s' (pdfPath i) = some (w.download i) ∧ s' (parsedPath i) = s (parsedPath i) := by
  rcases Nat.lt_or_eq_of_le hn with hlt | heq
  · exact ⟨_, .tail (.one (.pdfWrite hlt (Nat.le_refl _))) .pdfClose, by rw [put_same, List.take_length],
      put_other (pdfPath_ne_parsedPath i i).symm _⟩
  · subst heq
    rw [List.take_length] at h
    exact ⟨s, .one .pdfClose, h, rfl⟩

/-- The rest of the file with lines is written. -/
theorem writeParsed_goes_on {i : Issue} {s : Store} {t : Nat} {r : α} {n : Nat} (hn : n ≤ (w.encode t r).length)
    (h : s (parsedPath i) = some ((w.encode t r).take n)) :
    ∃ s', Steps w i (.writeParsed t r n, s) (.done (.ok r), s') ∧ s' (parsedPath i) = some (w.encode t r) ∧
      s' (pdfPath i) = s (pdfPath i) := by
  rcases Nat.lt_or_eq_of_le hn with hlt | heq
  · exact ⟨_, .tail (.one (.parsedWrite hlt (Nat.le_refl _))) .parsedClose, by rw [put_same, List.take_length],
      put_other (pdfPath_ne_parsedPath i i) _⟩
  · subst heq
    rw [List.take_length] at h
    exact ⟨s, .one .parsedClose, h, rfl⟩

theorem issueOk_ends {strict : Bool} {i : Issue} {ps : List (Phase α)} {p : Phase α} {s : Store}
    (h : IssueOk w strict i (p :: ps) (s (pdfPath i)) (s (parsedPath i))) : ∃ r s', Steps w i (p, s) (.done r, s') := by
  rcases h with ⟨h1, -⟩ | ⟨q, h1, h2⟩ | ⟨h1, -, h4⟩
  · cases h1
  · injection h1 with h1 _
    subst h1
    cases p with
    | start => exact run_ends i s
    | writePdf n =>
      obtain ⟨s', g1, g2, -⟩ := writePdf_goes_on h2.1 h2.2.1
      obtain ⟨r, s'', g⟩ := opened_ends (w := w) g2
      exact ⟨r, s'', .trans g1 g⟩
    | opened => exact opened_ends h2.2
    | writeParsed t r n =>
      obtain ⟨s', g, -⟩ := writeParsed_goes_on (s := s) h2.1 h2.2.2.2
      exact ⟨_, s', g⟩
    | done res => exact ⟨res, s, .refl _⟩
  · rcases h4 p List.mem_cons_self with rfl | rfl | ⟨res, rfl, -⟩
    · exact run_ends i s
    · exact opened_ends h1
    · exact ⟨res, s, .refl _⟩

theorem machine_ends {strict : Bool} (hdec : ∀ b t r, w.parse b = .ok r → w.decode (w.encode t r) = .ok r)
    (hcut : strict = false → ∀ b t r data, w.parse b = .ok r → data <+: w.encode t r → data ≠ w.encode t r → ∃ e, w.decode data = .error e)
    (ps : List (Issue × Phase α)) {s : Store} (h : MachineOk w strict ⟨ps, s⟩) :
    ∃ rs s', Runs w Spec.Undisturbed (fun _ => False) ⟨ps, s⟩ rs ⟨[], s'⟩ ∧ rs.map (·.1) = ps.map (·.1) := by
  induction ps generalizing s with
  | nil => exact ⟨[], s, .refl _, rfl⟩
  | cons q ps ih =>
    obtain ⟨i, p⟩ := q
    have hi := h i
    dsimp only at hi
    rw [phasesOf_same] at hi
    obtain ⟨r, s', hs⟩ := issueOk_ends hi
    have h1 : Runs w Spec.Undisturbed (fun _ => False) ⟨(i, p) :: ps, s⟩ [(i, r)] ⟨ps, s'⟩ :=
      .ended (ps := []) (runs_steps (ps := []) hs (.refl _))
    obtain ⟨rs, s'', h2, h3⟩ := ih (runs_ok hdec hcut (fun _ hf => hf.elim) h1 h).1
    exact ⟨_, s'', h1.trans h2, by simp [h3]⟩

end Verif
