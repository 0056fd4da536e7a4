import Verif.Proofs.Extraction

/-! # Parallel extraction (C43) -/

namespace Verif.Props

variable {α κ : Type} [DecidableEq κ] {x : Extraction α κ} {objects : List α}

/-- C43. If extraction with one worker ends with some results, every way in which it can end with several workers gives the same
results in some order, and no exception. -/
theorem parallel_results {workers : Nat} {ys : List α} (h : x.Extracts objects 1 ⟨ys, none⟩) {g : Gen α}
    (hg : x.Extracts objects workers g) : g.stop = none ∧ g.yields.Perm ys := by
  have hs : x.Ends objects ⟨ys, none⟩ := by
    unfold Extraction.Extracts at h
    rwa [if_neg (by omega)] at h
  unfold Extraction.Extracts at hg
  by_cases hc : workers > 1 ∧ objects.length > 1
  · rw [if_pos hc] at hg
    obtain ⟨n, s, hr, hf, rfl⟩ := hg
    obtain ⟨zs, hz, hp⟩ := each_of_ends hs
    rcases pool_result hr hf with ⟨h1, zs', h2, h3⟩ | ⟨e, h1, o, ho, ys', h2⟩
    · rw [← hz.unique h2] at h3
      exact ⟨h1, h3.trans hp⟩
    · obtain ⟨ws, h3⟩ := hz.mem o ho
      have := ends_unique h2 h3
      cases this
  · rw [if_neg hc] at hg
    have := ends_unique hg hs
    subst this
    exact ⟨rfl, .refl _⟩

/-- C43. If extraction with one worker ends with some results, extraction with several workers can always go on until its end,
and its end is reached after at most two steps for each object, whatever the schedule. -/
theorem parallel_ends {workers : Nat} {ys : List α} (h : x.Extracts objects 1 ⟨ys, none⟩) :
    (∃ g, x.Extracts objects workers g) ∧
    ∀ w n s, 0 < w → PoolRun x w n ⟨objects, [], [], none⟩ s →
      n ≤ 2 * objects.length ∧ (s.finished ∨ ∃ t, PoolStep x w s t) := by
  have hs : x.Ends objects ⟨ys, none⟩ := by
    unfold Extraction.Extracts at h
    rwa [if_neg (by omega)] at h
  obtain ⟨zs, hz, -⟩ := each_of_ends hs
  refine ⟨?_, ?_⟩
  · unfold Extraction.Extracts
    by_cases hc : workers > 1 ∧ objects.length > 1
    · obtain ⟨n, t, h1, h2⟩ := pool_finishes (w := min workers objects.length) (by omega) hz.ends _ _ (Nat.le_refl _)
        (pool_start objects)
      exact ⟨⟨t.out, t.failed⟩, by rw [if_pos hc]; exact ⟨n, t, h1, h2, rfl⟩⟩
    · exact ⟨_, by rw [if_neg hc]; exact hs⟩
  · intro w n s hw hr
    have := poolRun_work hr
    refine ⟨by simp [PoolState.work] at this; omega, ?_⟩
    by_cases hf : s.finished
    · exact .inl hf
    · exact .inr (pool_progress hw hz.ends (poolRun_inv hr (pool_start objects)) hf)

/-- C43. If some execution with several workers ends with results, so does the one with one worker, with the same results in
some order. -/
theorem sequential_results {workers : Nat} {zs : List α} (h : x.Extracts objects workers ⟨zs, none⟩) :
    ∃ ys, x.Extracts objects 1 ⟨ys, none⟩ ∧ zs.Perm ys := by
  have key : ∀ {ys : List α}, x.Ends objects ⟨ys, none⟩ → x.Extracts objects 1 ⟨ys, none⟩ := by
    intro ys hy
    unfold Extraction.Extracts
    rwa [if_neg (by omega)]
  unfold Extraction.Extracts at h
  by_cases hc : workers > 1 ∧ objects.length > 1
  · rw [if_pos hc] at h
    obtain ⟨n, s, hr, hf, he⟩ := h
    rcases pool_result hr hf with ⟨h1, zs', h2, h3⟩ | ⟨e, h1, -⟩
    · obtain ⟨ys, h4, h5⟩ := ends_of_each h2
      have hz : zs = s.out := congrArg Gen.yields he
      rw [hz]
      exact ⟨ys, key h4, h3.trans h5⟩
    · rw [h1] at he; cases he
  · rw [if_neg hc] at h
    exact ⟨zs, key h, .refl _⟩

/-- C43. If extraction with one worker ends with an exception, so does every execution with several workers that ends. -/
theorem parallel_exception {workers : Nat} {ys : List α} {e : Err} (h : x.Extracts objects 1 ⟨ys, some e⟩) {g : Gen α}
    (hg : x.Extracts objects workers g) : g.stop ≠ none := by
  intro hn
  obtain ⟨zs, s⟩ := g
  cases hn
  obtain ⟨ws, h1, -⟩ := sequential_results hg
  unfold Extraction.Extracts at h h1
  rw [if_neg (by omega)] at h h1
  have := ends_unique h h1
  cases this

/-- Numbers; one above 9 is made of its two halves, and the halves below 10 are the results. -/
def halving : Extraction Nat Bool where
  classOf n := decide (n < 10)
  extractors c := if c then none else some [fun n => ⟨[n / 2, n - n / 2], none⟩]
  resultClasses := [true]

example : halving.Extracts [12, 3, 25] 1 ⟨[7, 6, 6, 6, 3, 6, 6], none⟩ := ⟨20, rfl⟩

/-- Another order, with two workers. -/
example : halving.Extracts [12, 3, 25] 2 ⟨[3, 7, 6, 6, 6, 6, 6], none⟩ := by
  unfold Extraction.Extracts
  rw [if_pos (by decide)]
  refine ⟨6, ⟨[], [], _, none⟩, ?_, .inr ⟨rfl, rfl⟩, rfl⟩
  refine .step (.start (by decide)) (.step (.start (by decide)) ?_)
  refine .step (.finish (n := 20) (o := 3) (r₁ := [12]) (r₂ := []) (ys := [3]) rfl) ?_
  refine .step (.start (by decide)) ?_
  refine .step (.finish (n := 20) (o := 25) (r₁ := [12]) (r₂ := []) (ys := [7, 6, 6, 6]) rfl) ?_
  exact .step (.finish (n := 20) (o := 12) (r₁ := []) (r₂ := []) (ys := [6, 6]) rfl) (.refl _)

end Verif.Props
