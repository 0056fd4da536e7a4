import Verif.Proofs.Cache

/-! # The cache (C47) -/

namespace Verif.Props

variable {α : Type} {w : World α}

/-- No file is there. -/
def emptyStore : Store := fun _ => none

theorem emptyStore_consistent {strict : Bool} : ConsistentBut w strict none emptyStore := by
  intro p d _ h
  cases h

/-- C47. Whatever the history of processes, if none is killed while it writes a file, every process that ends gives what it would
without a cache: the lines of the downloaded file, or the exception. -/
theorem cache_transparent_partial (hdec : ∀ b t r, w.parse b = .ok r → w.decode (w.encode t r) = .ok r) {rs : List (Issue × Res α)} {s : Store}
    (h : History w (fun p => ¬ p.writing) emptyStore rs s) : ∀ x ∈ rs, x.2 = w.parse (w.server (x.1.1 % 100, x.1.2)) := by
  intro x hx
  have := history_ok (strict := true) hdec (by simp)
    (fun p hp => ⟨fun n he => by subst he; exact hp trivial, fun _ => hp⟩) h emptyStore_consistent
  rcases this.2 x hx with h | ⟨h, -⟩
  · exact h
  · cases h

/-- C47. If processes are not killed while they write a downloaded file, and a file with lines that is cut cannot be read, then no
process gives other lines than without a cache: it may only fail. -/
theorem cache_never_wrong_partial (hdec : ∀ b t r, w.parse b = .ok r → w.decode (w.encode t r) = .ok r)
    (hcut : ∀ b t r data, w.parse b = .ok r → data <+: w.encode t r → data ≠ w.encode t r → ∃ e, w.decode data = .error e)
    {rs : List (Issue × Res α)} {s : Store} (h : History w (fun p => ∀ n, p ≠ .writePdf n) emptyStore rs s) :
    ∀ x ∈ rs, x.2 = w.parse (w.server (x.1.1 % 100, x.1.2)) ∨ ∃ e, x.2 = .error e := by
  intro x hx
  have := history_ok (strict := false) hdec (fun _ => hcut) (fun p hp => ⟨hp, by simp⟩) h emptyStore_consistent
  rcases this.2 x hx with h | ⟨-, h⟩
  · exact .inl h
  · exact .inr h

/-- C47. After any history a process can always go on to its end, so that the theorems above speak of something. -/
theorem process_ends (i : Issue) (s : Store) : ∃ r s', Steps w i (.start, s) (.done r, s') := run_ends i s

/-- C47. The property fails for every issue that can be read, if the empty file cannot be read: a process killed right after it
has created the file with the lines leaves the file empty. After this every process fails, although without a cache it would
not. -/
theorem killed_while_writing {i : Issue} {r : α} {e : Err} (hr : w.parse (w.server (i.1 % 100, i.2)) = .ok r) (he : w.decode [] = .error e) :
    ∃ p s, Steps w i (.start, emptyStore) (p, s) ∧
      (∀ kill rs s', History w kill s rs s' → (∀ x ∈ rs, x.1 = i → x.2 = .error e) ∧
        s' (pdfPath i) = s (pdfPath i) ∧ s' (parsedPath i) = s (parsedPath i)) ∧
      History w (fun _ => True) s [(i, .error e)] s := by
  have hpp : pdfPath i ≠ parsedPath i := pdfPath_ne_parsedPath i i
  have key : ∃ s0 : Store, Steps w i (.start, emptyStore) (.opened, s0) ∧ s0 (pdfPath i) = some (w.download i) ∧
      s0 (parsedPath i) = none := by
    have h1 : Step w i (.start, emptyStore) (.writePdf 0, emptyStore.put (pdfPath i) []) := .pdfOpen rfl
    by_cases hl : (w.download i).length = 0
    · refine ⟨emptyStore.put (pdfPath i) [], .tail (.one h1) ?_, ?_, ?_⟩
      · have := Step.pdfClose (w := w) (issue := i) (s := emptyStore.put (pdfPath i) [])
        rwa [hl] at this
      · rw [put_same, List.length_eq_zero_iff.mp hl]
      · unfold Store.put
        rw [if_neg hpp.symm]
        rfl
    · refine ⟨_, .tail (.tail (.one h1) (.pdfWrite (by omega) (Nat.le_refl _))) .pdfClose, ?_, ?_⟩
      · rw [put_same, List.take_length]
      · unfold Store.put
        rw [if_neg hpp.symm, if_neg hpp.symm]
        rfl
  obtain ⟨s0, hs0, h1, h2⟩ := key
  have g1 : (s0.put (parsedPath i) []) (pdfPath i) = some (w.download i) := by
    unfold Store.put
    rw [if_neg hpp, h1]
  have g2 : (s0.put (parsedPath i) []) (parsedPath i) = some [] := put_same _ _ _
  refine ⟨.writeParsed 0 r 0, s0.put (parsedPath i) [], .tail hs0 (.parsedOpen 0 h2 h1 hr), ?_, ?_⟩
  · intro kill rs s' hist
    have : ∀ (s s' : Store), History w kill s rs s' → s (pdfPath i) = some (w.download i) → s (parsedPath i) = some [] →
        (∀ x ∈ rs, x.1 = i → x.2 = .error e) ∧ s' (pdfPath i) = s (pdfPath i) ∧ s' (parsedPath i) = s (parsedPath i) := by
      clear hist
      intro s s' hst
      have kept : ∀ (j : Issue) (x y : Phase α × Store), Steps w j x y → x.1 = .start → x.2 (pdfPath i) = some (w.download i) →
          x.2 (parsedPath i) = some [] → y.2 (pdfPath i) = x.2 (pdfPath i) ∧ y.2 (parsedPath i) = x.2 (parsedPath i) ∧
            (j = i → ∀ r, y.1 = .done r → r = .error e) := by
        intro j x y hsteps hx h1 h2
        obtain ⟨px, sx⟩ := x
        dsimp only at hx h1 h2
        subst hx
        by_cases hj : j = i
        · subst hj
          obtain ⟨k1, k2⟩ := cached_result h1 h2 hsteps
          rw [k1]
          refine ⟨rfl, rfl, ?_⟩
          intro _ r hr
          rcases k2 with k | k | k
          · rw [k] at hr
            cases hr
          · rw [k] at hr
            cases hr
          · rw [k, he] at hr
            injection hr with hr
            exact hr.symm
        · have other : ∀ (s : Store) (d : Bytes), s.put (pdfPath j) d (pdfPath i) = s (pdfPath i) ∧
              s.put (pdfPath j) d (parsedPath i) = s (parsedPath i) ∧ s.put (parsedPath j) d (pdfPath i) = s (pdfPath i) ∧
              s.put (parsedPath j) d (parsedPath i) = s (parsedPath i) := by
            intro s d
            unfold Store.put
            refine ⟨if_neg fun h => hj (pdfPath_injective h).symm, if_neg fun h => pdfPath_ne_parsedPath _ _ h.symm,
              if_neg (pdfPath_ne_parsedPath _ _), if_neg fun h => hj (parsedPath_injective h).symm⟩
          have : y.2 (pdfPath i) = sx (pdfPath i) ∧ y.2 (parsedPath i) = sx (parsedPath i) := by
            induction hsteps with
            | refl => exact ⟨rfl, rfl⟩
            | tail _ hs ih =>
              cases hs with
              | pdfOpen h => exact ⟨(other _ _).1.trans ih.1, (other _ _).2.1.trans ih.2⟩
              | pdfWrite h hm => exact ⟨(other _ _).1.trans ih.1, (other _ _).2.1.trans ih.2⟩
              | parsedOpen t h hp hr => exact ⟨(other _ _).2.2.1.trans ih.1, (other _ _).2.2.2.trans ih.2⟩
              | parsedWrite h hm => exact ⟨(other _ _).2.2.1.trans ih.1, (other _ _).2.2.2.trans ih.2⟩
              | _ => exact ih
          exact ⟨this.1, this.2, fun h => absurd h hj⟩
      induction hst with
      | none => exact fun _ _ => ⟨by simp, rfl, rfl⟩
      | ended hsteps _ ih =>
        intro h1 h2
        obtain ⟨k1, k2, k3⟩ := kept _ _ _ hsteps rfl h1 h2
        dsimp only at k1 k2
        obtain ⟨m1, m2, m3⟩ := ih (k1.trans h1) (k2.trans h2)
        refine ⟨?_, m2.trans k1, m3.trans k2⟩
        intro x hx hxi
        rcases List.mem_cons.mp hx with rfl | hx
        · exact k3 hxi _ rfl
        · exact m1 x hx hxi
      | killed hsteps _ _ ih =>
        intro h1 h2
        obtain ⟨k1, k2, -⟩ := kept _ _ _ hsteps rfl h1 h2
        dsimp only at k1 k2
        obtain ⟨m1, m2, m3⟩ := ih (k1.trans h1) (k2.trans h2)
        exact ⟨m1, m2.trans k1, m3.trans k2⟩
    exact this _ _ hist g1 g2
  · refine .ended (.tail (.one (.pdfThere g1)) ?_) (.none _)
    have := Step.parsedThere (w := w) (issue := i) g2
    rwa [he] at this

/-- C47. The property also fails when a process is killed while it writes the downloaded file: the next one reads the lines of the
part that was written, and these are the lines of the issue from then on. -/
theorem killed_while_downloading {i : Issue} {n : Nat} (hn : n < (w.download i).length) (t : Nat) {r : α}
    (hdec : ∀ b t r, w.parse b = .ok r → w.decode (w.encode t r) = .ok r) (hr : w.parse ((w.download i).take n) = .ok r) :
    ∃ p s, Steps w i (.start, emptyStore) (p, s) ∧ ∃ s', History w (fun _ => False) s [(i, .ok r)] s' ∧
      ∀ x, Steps w i (.start, s') x → x.2 = s' ∧ ∀ res, x.1 = .done res → res = .ok r := by
  have hpp : pdfPath i ≠ parsedPath i := pdfPath_ne_parsedPath i i
  have h1 : Step w i (.start, emptyStore) (.writePdf 0, emptyStore.put (pdfPath i) []) := .pdfOpen rfl
  have key : ∃ s : Store, Steps w i (.start, emptyStore) (.writePdf n, s) ∧ s (pdfPath i) = some ((w.download i).take n) ∧
      s (parsedPath i) = none := by
    by_cases h0 : n = 0
    · subst h0
      refine ⟨_, .one h1, put_same _ _ _, ?_⟩
      unfold Store.put
      rw [if_neg hpp.symm]
      rfl
    · refine ⟨_, .tail (.one h1) (.pdfWrite (by omega) (Nat.le_of_lt hn)), put_same _ _ _, ?_⟩
      unfold Store.put
      rw [if_neg hpp.symm, if_neg hpp.symm]
      rfl
  obtain ⟨s, hs, hp, hq⟩ := key
  have key2 : ∃ s' : Store, Steps w i (.start, s) (.done (.ok r), s') ∧ s' (pdfPath i) = some ((w.download i).take n) ∧
      s' (parsedPath i) = some (w.encode t r) := by
    have h2 : Steps w i (.start, s) (.writeParsed t r 0, s.put (parsedPath i) []) :=
      .tail (.one (.pdfThere hp)) (.parsedOpen t hq hp hr)
    by_cases hl : (w.encode t r).length = 0
    · refine ⟨s.put (parsedPath i) [], .tail h2 ?_, ?_, ?_⟩
      · have := Step.parsedClose (w := w) (issue := i) (s := s.put (parsedPath i) []) (t := t) (r := r)
        rwa [hl] at this
      · unfold Store.put
        rw [if_neg hpp, hp]
      · rw [put_same, List.length_eq_zero_iff.mp hl]
    · refine ⟨_, .tail (.tail h2 (.parsedWrite (by omega) (Nat.le_refl _))) .parsedClose, ?_, ?_⟩
      · unfold Store.put
        rw [if_neg hpp, if_neg hpp, hp]
      · rw [put_same, List.take_length]
  obtain ⟨s', hs', hp', hq'⟩ := key2
  refine ⟨_, s, hs, s', .ended hs' (.none _), ?_⟩
  intro x hx
  obtain ⟨k1, k2⟩ := cached_result hp' hq' hx
  refine ⟨k1, fun res h => ?_⟩
  rcases k2 with k | k | k
  · rw [k] at h
    cases h
  · rw [k] at h
    cases h
  · rw [k, hdec _ _ _ hr] at h
    injection h with h
    exact h.symm

/-- A small world: a file of lines is the lines with an end mark. -/
def sampleWorld : World Bytes where
  server _ := [1, 2]
  parse data := .ok data
  encode _ r := r ++ [0]
  decode data := if data.getLast? = some 0 then .ok data.dropLast else .error .eofError

example : (∀ t r, sampleWorld.decode (sampleWorld.encode t r) = .ok r) ∧
    (sampleWorld.parse ((sampleWorld.download (2013, 31)).take 1) = .ok [1]) ∧ sampleWorld.decode [] = .error .eofError ∧
    sampleWorld.parse (sampleWorld.download (2013, 31)) = .ok [1, 2] := by
  refine ⟨fun t r => ?_, rfl, rfl, rfl⟩
  simp [sampleWorld]

end Verif.Props
