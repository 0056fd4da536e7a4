import Verif.Py.Dict

/-! # Lemmas about dictionaries and sorting -/

namespace Verif

namespace Dict
variable {κ α : Type} [DecidableEq κ]

theorem get?_cons (e : κ × α) (d : Dict κ α) (k : κ) : get? (e :: d) k = if e.1 = k then some e.2 else get? d k := by
  unfold get?
  rw [List.find?_cons]
  by_cases h : e.1 = k <;> simp [h]

theorem get?_set (d : Dict κ α) (k k' : κ) (v : α) : (d.set k v).get? k' = if k' = k then some v else d.get? k' := by
  induction d with
  | nil =>
    rw [set, get?_cons]
    simp only [eq_comm]
  | cons e d ih =>
    rw [set]
    by_cases h : e.1 = k
    · rw [if_pos h, get?_cons, get?_cons]
      by_cases h' : k' = k
      · simp [h']
      · have h1 : ¬ k = k' := fun h => h' h.symm
        have h2 : ¬ e.1 = k' := fun he => h1 (h.symm.trans he)
        simp [h', h1, h2]
    · rw [if_neg h, get?_cons, ih, get?_cons]
      by_cases h' : e.1 = k'
      · have : ¬ k' = k := fun hk => h (h'.trans hk)
        simp [h', this]
      · simp [h']

theorem set_set (d : Dict κ α) (k : κ) (v w : α) : (d.set k v).set k w = d.set k w := by
  induction d with
  | nil => simp [set]
  | cons e d ih =>
    by_cases h : e.1 = k
    · simp [set, h]
    · simp [set, h, ih]

theorem mem_keys_iff (d : Dict κ α) (k : κ) : k ∈ d.keys ↔ ∃ v, d.get? k = some v := by
  induction d with
  | nil => simp [keys, get?]
  | cons e d ih =>
    rw [get?_cons]
    unfold keys at ih ⊢
    rw [List.map_cons, List.mem_cons, ih]
    by_cases h : e.1 = k
    · simp [h]
    · have : ¬ k = e.1 := fun hk => h hk.symm
      simp [h, this]

theorem keys_set (d : Dict κ α) (k : κ) (v : α) : (d.set k v).keys = if k ∈ d.keys then d.keys else d.keys ++ [k] := by
  induction d with
  | nil => simp [set, keys]
  | cons e d ih =>
    unfold keys at ih ⊢
    rw [set]
    by_cases h : e.1 = k
    · simp [h]
    · rw [if_neg h, List.map_cons, ih]
      have : ¬ k = e.1 := fun hk => h hk.symm
      by_cases hm : k ∈ d.map (·.1)
      · rw [if_pos hm, if_pos (by simp [hm]), List.map_cons]
      · rw [if_neg hm, if_neg (by rw [List.map_cons, List.mem_cons]; exact fun h => h.elim this hm)]
        simp

theorem nodup_set {d : Dict κ α} (h : d.keys.Nodup) (k : κ) (v : α) : (d.set k v).keys.Nodup := by
  rw [keys_set]
  by_cases hm : k ∈ d.keys
  · rwa [if_pos hm]
  · rw [if_neg hm, List.nodup_append]
    refine ⟨h, by simp, ?_⟩
    rintro a ha b hb rfl
    rw [List.mem_singleton.mp hb] at ha
    exact hm ha

theorem get?_del (d : Dict κ α) (k k' : κ) : (d.del k).get? k' = if k' = k then none else d.get? k' := by
  unfold del
  induction d with
  | nil => simp [get?]
  | cons e d ih =>
    by_cases h : e.1 = k
    · rw [List.filter_cons_of_neg (by simpa using h), ih, get?_cons]
      by_cases h' : k' = k
      · simp [h']
      · have : ¬ e.1 = k' := fun hk => h' (hk.symm.trans h)
        simp [h', this]
    · rw [List.filter_cons_of_pos (by simpa using h), get?_cons, ih, get?_cons]
      by_cases h' : e.1 = k'
      · have : ¬ k' = k := fun hk => h (h'.trans hk)
        simp [h', this]
      · simp [h']

theorem nodup_del {d : Dict κ α} (h : d.keys.Nodup) (k : κ) : (d.del k).keys.Nodup := by
  unfold keys del
  exact (List.Sublist.map _ List.filter_sublist).nodup h

theorem nodup_update {d : Dict κ α} (h : d.keys.Nodup) (e : Dict κ α) : (d.update e).keys.Nodup := by
  unfold update
  induction e generalizing d with
  | nil => exact h
  | cons x e ih => exact ih (nodup_set h _ _)

theorem get?_update {e : Dict κ α} (he : e.keys.Nodup) (d : Dict κ α) (k : κ) :
    (d.update e).get? k = (e.get? k).or (d.get? k) := by
  unfold update
  induction e generalizing d with
  | nil => simp [get?]
  | cons x e ih =>
    unfold keys at he
    rw [List.map_cons, List.nodup_cons] at he
    rw [List.foldl_cons, ih he.2, get?_set, get?_cons]
    by_cases h : x.1 = k
    · have hn : get? e k = none := by
        cases hg : get? e k with
        | none => rfl
        | some v => exact absurd ((mem_keys_iff e k).mpr ⟨v, hg⟩) (h ▸ he.1)
      rw [hn]
      simp [h]
    · have : ¬ k = x.1 := fun hk => h hk.symm
      simp [h, this]

end Dict

theorem mem_insertRat (x y : Rat) (l : List Rat) : y ∈ insertRat x l ↔ y = x ∨ y ∈ l := by
  induction l with
  | nil => simp [insertRat]
  | cons z l ih =>
    rw [insertRat]
    by_cases h : x ≤ z
    · simp [h]
    · rw [if_neg h, List.mem_cons, ih, List.mem_cons]
      grind

theorem mem_sortRat (y : Rat) (l : List Rat) : y ∈ sortRat l ↔ y ∈ l := by
  induction l with
  | nil => simp [sortRat]
  | cons x l ih => rw [sortRat, mem_insertRat, ih, List.mem_cons]

theorem insertRat_sorted {x : Rat} {l : List Rat} (hx : x ∉ l) (h : l.Pairwise (· < ·)) : (insertRat x l).Pairwise (· < ·) := by
  induction l with
  | nil => simp [insertRat]
  | cons z l ih =>
    rw [insertRat]
    rw [List.mem_cons, not_or] at hx
    by_cases hz : x ≤ z
    · rw [if_pos hz]
      have hlt : x < z := by grind
      refine List.pairwise_cons.mpr ⟨?_, h⟩
      intro y hy
      rcases List.mem_cons.mp hy with rfl | hy
      · exact hlt
      · have := List.rel_of_pairwise_cons h hy
        grind
    · rw [if_neg hz]
      refine List.pairwise_cons.mpr ⟨?_, ih hx.2 h.tail⟩
      intro y hy
      rcases (mem_insertRat x y l).mp hy with rfl | hy
      · grind
      · exact List.rel_of_pairwise_cons h hy

theorem sortRat_sorted {l : List Rat} (h : l.Nodup) : (sortRat l).Pairwise (· < ·) := by
  induction l with
  | nil => exact .nil
  | cons x l ih =>
    rw [List.nodup_cons] at h
    exact insertRat_sorted (by rw [mem_sortRat]; exact h.1) (ih h.2)

end Verif
