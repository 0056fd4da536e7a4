import Verif.Proofs.Workers
import Verif.Props.Cache

/-! # Several processes with one cache (C95) -/

namespace Verif.Props

variable {α : Type} {w : World α}

/-- Nothing runs and no file is there. -/
def emptyMachine : Machine α := ⟨[], emptyStore⟩

theorem emptyMachine_ok {strict : Bool} : MachineOk w strict emptyMachine := by
  intro i
  refine .inl ⟨rfl, ?_, ?_⟩
  · intro d h
    cases h
  · intro d h
    cases h

/-- C95. Whatever processes are started and however their steps are mixed, if a process is only started for an issue that no other
process reads at this time, or whose lines are in the cache and not being written, and if none is killed while it writes a file,
then every process gives what it would alone and without a cache. -/
theorem workers_transparent_partial (hdec : ∀ b t r, w.parse b = .ok r → w.decode (w.encode t r) = .ok r) {rs : List (Issue × Res α)} {m : Machine α}
    (h : Runs w Spec.Undisturbed (fun p => ¬ p.writing) emptyMachine rs m) :
    ∀ x ∈ rs, x.2 = w.parse (w.server (x.1.1 % 100, x.1.2)) := by
  intro x hx
  have := runs_ok (strict := true) hdec (by simp)
    (fun p hp => ⟨fun n he => by subst he; exact hp trivial, fun _ => hp⟩) h emptyMachine_ok
  rcases this.2 x hx with h | ⟨h, -⟩
  · exact h
  · cases h

/-- C95. If processes may also be killed while they write a file with lines, and such a file that is cut cannot be read, then each
process gives what it would alone and without a cache, or fails. -/
theorem workers_never_wrong_partial (hdec : ∀ b t r, w.parse b = .ok r → w.decode (w.encode t r) = .ok r)
    (hcut : ∀ b t r data, w.parse b = .ok r → data <+: w.encode t r → data ≠ w.encode t r → ∃ e, w.decode data = .error e)
    {rs : List (Issue × Res α)} {m : Machine α}
    (h : Runs w Spec.Undisturbed (fun p => ∀ n, p ≠ .writePdf n) emptyMachine rs m) :
    ∀ x ∈ rs, x.2 = w.parse (w.server (x.1.1 % 100, x.1.2)) ∨ ∃ e, x.2 = .error e := by
  intro x hx
  have := runs_ok (strict := false) hdec (fun _ => hcut) (fun p hp => ⟨hp, by simp⟩) h emptyMachine_ok
  rcases this.2 x hx with h | ⟨-, h⟩
  · exact .inl h
  · exact .inr h

/-- C95. All the processes that run can go on to their ends, each with a result: none waits for another. -/
theorem workers_end (hdec : ∀ b t r, w.parse b = .ok r → w.decode (w.encode t r) = .ok r) {rs : List (Issue × Res α)} {m : Machine α}
    (h : Runs w Spec.Undisturbed (fun p => ¬ p.writing) emptyMachine rs m) :
    ∃ rs' s, Runs w Spec.Undisturbed (fun _ => False) m rs' ⟨[], s⟩ ∧ rs'.map (·.1) = m.running.map (·.1) :=
  machine_ends (strict := true) hdec (by simp) m.running
    (runs_ok hdec (by simp) (fun p hp => ⟨fun n he => by subst he; exact hp trivial, fun _ => hp⟩) h emptyMachine_ok).1

/-- C95. The property fails when an issue is read twice at the same time, although nothing is killed, for every issue that can be
read, if the empty file cannot be read: the second process finds the file with the lines that the first one has just created, and
fails. -/
theorem same_issue_fails {i : Issue} {r : α} {e : Err} (hr : w.parse (w.server (i.1 % 100, i.2)) = .ok r)
    (he : w.decode [] = .error e) :
    ∃ m, Runs w (fun _ _ => True) (fun _ => False) emptyMachine [(i, .error e), (i, .ok r)] m := by
  have hpp : pdfPath i ≠ parsedPath i := pdfPath_ne_parsedPath i i
  obtain ⟨s0, a1, a2, a3⟩ := writePdf_goes_on (w := w) (i := i) (s := emptyStore.put (pdfPath i) []) (n := 0) (Nat.zero_le _)
    (by rw [put_same, List.take_zero])
  rw [put_other hpp.symm] at a3
  have g1 : (s0.put (parsedPath i) []) (pdfPath i) = some (w.download i) := by rw [put_other hpp, a2]
  have g2 : (s0.put (parsedPath i) []) (parsedPath i) = some [] := put_same _ _ _
  have first : Steps w i (.start, emptyStore) (.writeParsed 0 r 0, s0.put (parsedPath i) []) :=
    .tail (.trans (.one (.pdfOpen rfl)) a1) (.parsedOpen 0 a3 a2 hr)
  have second : Steps w i (.start, s0.put (parsedPath i) []) (.done (.error e), s0.put (parsedPath i) []) := by
    refine .tail (.one (.pdfThere g1)) ?_
    have := Step.parsedThere (w := w) (issue := i) g2
    rwa [he] at this
  obtain ⟨s', last, -, -⟩ := writeParsed_goes_on (w := w) (i := i) (s := s0.put (parsedPath i) []) (t := 0) (r := r) (n := 0)
    (Nat.zero_le _) (by rw [g2, List.take_zero])
  have h1 := runs_steps (start := fun _ _ => True) (kill := fun _ => False) (ps := [(i, .start)]) (qs := []) first
    (.started (.started (.refl emptyMachine) i trivial) i trivial)
  have h2 := Runs.ended (ps := []) (runs_steps (ps := []) second h1)
  have h3 := Runs.ended (ps := []) (qs := []) (runs_steps (ps := []) last h2)
  exact ⟨_, h3⟩

/-- C95. It also fails in a worse way, for every part of the downloaded file that can be read: the second process reads this part
while the first one is still writing, and both give its lines; and these are the lines of the issue from then on, also for any
number of processes alone. -/
theorem same_issue_wrong {i : Issue} {n : Nat} (hn : n < (w.download i).length) {r : α}
    (hdec : ∀ b t r, w.parse b = .ok r → w.decode (w.encode t r) = .ok r) (hr : w.parse ((w.server (i.1 % 100, i.2)).take n) = .ok r) :
    ∃ s, Runs w (fun _ _ => True) (fun _ => False) emptyMachine [(i, .ok r), (i, .ok r)] ⟨[], s⟩ ∧
      ∀ x, Steps w i (.start, s) x → x.2 = s ∧ ∀ res, x.1 = .done res → res = .ok r := by
  have hpp : pdfPath i ≠ parsedPath i := pdfPath_ne_parsedPath i i
  have first : ∃ s, Steps w i (.start, emptyStore) (.writePdf n, s) ∧ s (pdfPath i) = some ((w.download i).take n) ∧
      s (parsedPath i) = none := by
    have h1 : Step w i (.start, emptyStore) (.writePdf 0, emptyStore.put (pdfPath i) []) := .pdfOpen rfl
    by_cases h0 : n = 0
    · subst h0
      exact ⟨_, .one h1, put_same _ _ _, put_other hpp.symm _⟩
    · exact ⟨_, .tail (.one h1) (.pdfWrite (by omega) (Nat.le_of_lt hn)), put_same _ _ _,
        (put_other hpp.symm _).trans (put_other hpp.symm _)⟩
  obtain ⟨s1, a1, a2, a3⟩ := first
  obtain ⟨s2, b1, b2, b3⟩ := writeParsed_goes_on (w := w) (i := i) (s := s1.put (parsedPath i) []) (t := 0) (r := r) (n := 0)
    (Nat.zero_le _) (by rw [put_same, List.take_zero])
  rw [put_other hpp, a2] at b3
  have second : Steps w i (.start, s1) (.done (.ok r), s2) :=
    .trans (.tail (.one (.pdfThere a2)) (.parsedOpen 0 a3 a2 hr)) b1
  obtain ⟨s3, c1, c2, c3⟩ := writePdf_goes_on (w := w) (i := i) (Nat.le_of_lt hn) b3
  rw [b2] at c3
  have last : Steps w i (.writePdf n, s2) (.done (.ok r), s3) := by
    refine .tail c1 ?_
    have := Step.parsedThere (w := w) (issue := i) c3
    rwa [hdec _ _ _ hr] at this
  have h1 := runs_steps (start := fun _ _ => True) (kill := fun _ => False) (ps := [(i, .start)]) (qs := []) a1
    (.started (.started (.refl emptyMachine) i trivial) i trivial)
  have h2 := Runs.ended (ps := []) (runs_steps (ps := []) second h1)
  have h3 := Runs.ended (ps := []) (qs := []) (runs_steps (ps := []) last h2)
  refine ⟨s3, h3, ?_⟩
  intro x hx
  obtain ⟨k1, k2⟩ := cached_result c2 c3 hx
  refine ⟨k1, fun res h => ?_⟩
  rcases k2 with k | k | k
  · rw [k] at h
    cases h
  · rw [k] at h
    cases h
  · rw [k, hdec _ _ _ hr] at h
    injection h with h
    exact h.symm

/-- Two processes that read different issues, with mixed steps, in the small world. -/
example : ∃ m, Runs sampleWorld Spec.Undisturbed (fun p => ¬ p.writing) emptyMachine
    [((2013, 31), .ok [1, 2]), ((2013, 32), .ok [1, 2])] m := by
  have h0 : Runs sampleWorld Spec.Undisturbed (fun p => ¬ p.writing) emptyMachine []
      ⟨[((2013, 32), .start), ((2013, 31), .start)], emptyStore⟩ :=
    .started (.started (.refl _) (2013, 31) (.inl (by simp [emptyMachine]))) (2013, 32) (.inl (by simp))
  have h1 := Runs.stepped (ps := []) h0 (.pdfOpen rfl)
  have h2 := Runs.stepped (ps := [_]) h1 (.pdfOpen (by decide +kernel))
  have h3 := Runs.stepped (ps := [_]) h2 (.pdfWrite (m := 2) (by decide) (by decide))
  have h4 := Runs.stepped (ps := []) h3 (.pdfWrite (m := 2) (by decide) (by decide))
  have h5 := Runs.stepped (ps := []) h4 .pdfClose
  have h6 := Runs.stepped (ps := [_]) h5 .pdfClose
  have h7 := Runs.stepped (ps := [_]) h6 (.parsedOpen 0 (r := [1, 2]) (data := [1, 2]) (by decide +kernel) (by decide +kernel) rfl)
  have h8 := Runs.stepped (ps := []) h7 (.parsedOpen 0 (r := [1, 2]) (data := [1, 2]) (by decide +kernel) (by decide +kernel) rfl)
  have h9 := Runs.stepped (ps := []) h8 (.parsedWrite (m := 3) (by decide) (by decide))
  have h10 := Runs.stepped (ps := [_]) h9 (.parsedWrite (m := 3) (by decide) (by decide))
  have h11 := Runs.stepped (ps := [_]) h10 .parsedClose
  have h12 := Runs.stepped (ps := []) h11 .parsedClose
  exact ⟨_, .ended (ps := []) (.ended (ps := [_]) h12)⟩

/-- Two processes that read the same issue at the same time, after its lines have been written. -/
example : ∃ m, Runs sampleWorld Spec.Undisturbed (fun p => ¬ p.writing) emptyMachine
    [((2013, 31), .ok [1, 2]), ((2013, 31), .ok [1, 2]), ((2013, 31), .ok [1, 2])] m := by
  have h0 : Runs sampleWorld Spec.Undisturbed (fun p => ¬ p.writing) emptyMachine [] ⟨[((2013, 31), .start)], emptyStore⟩ :=
    .started (.refl _) (2013, 31) (.inl (by simp [emptyMachine]))
  have h1 := Runs.stepped (ps := []) h0 (.pdfOpen rfl)
  have h2 := Runs.stepped (ps := []) h1 (.pdfWrite (m := 2) (by decide) (by decide))
  have h3 := Runs.stepped (ps := []) h2 .pdfClose
  have h4 := Runs.stepped (ps := []) h3 (.parsedOpen 0 (r := [1, 2]) (data := [1, 2]) (by decide +kernel) (by decide +kernel) rfl)
  have h5 := Runs.stepped (ps := []) h4 (.parsedWrite (m := 3) (by decide) (by decide))
  have h6 := Runs.ended (ps := []) (Runs.stepped (ps := []) h5 .parsedClose)
  have h7 := Runs.started (Runs.started h6 (2013, 31) (.inl (by simp))) (2013, 31) (.inr ⟨by decide +kernel, by simp [Phase.writing]⟩)
  have h8 := Runs.stepped (ps := []) h7 (.pdfThere (data := [1, 2]) (by decide +kernel))
  have h9 := Runs.stepped (ps := [_]) h8 (.pdfThere (data := [1, 2]) (by decide +kernel))
  have h10 := Runs.stepped (ps := [_]) h9 (.parsedThere (data := [1, 2, 0]) (by decide +kernel))
  have h11 := Runs.stepped (ps := []) h10 (.parsedThere (data := [1, 2, 0]) (by decide +kernel))
  exact ⟨_, .ended (ps := []) (.ended (ps := [_]) h11)⟩

end Verif.Props
