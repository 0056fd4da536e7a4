import Verif.Model.Numerals
import Verif.Spec.Numerals

/-! # Lemmas about Hungarian ordinals: the table is finite and checked entirely -/

namespace Verif

theorem dictGet_some {α β : Type} [BEq α] [LawfulBEq α] {stores : List (α × β)} {k : α} {v : β}
    (h : dictGet stores k = some v) : (k, v) ∈ stores := by
  unfold dictGet at h
  rw [Option.map_eq_some_iff] at h
  obtain ⟨kv, hf, rfl⟩ := h
  have hm := List.mem_of_find?_eq_some hf
  have hk : kv.1 == k := by simpa using List.find?_some hf
  have : kv.1 = k := by simpa using hk
  subst this
  simpa using hm

theorem dictGet_isSome {α β : Type} [BEq α] [LawfulBEq α] {stores : List (α × β)} {k : α} {v : β}
    (h : (k, v) ∈ stores) : (dictGet stores k).isSome := by
  unfold dictGet
  rw [Option.isSome_map, List.find?_isSome]
  exact ⟨(k, v), by simpa using h, by simp⟩

/-- The pairs stored are exactly the ordinals, each with its position. -/
theorem ordinalPairs_checked :
    (∀ p ∈ ordinalPairs, 1 ≤ p.1 ∧ p.1 ≤ 100 ∧ Spec.ordinals[p.1 - 1]? = some p.2) ∧
    (∀ n, n < 100 → ∀ w, Spec.ordinals[n]? = some w → (n + 1, w) ∈ ordinalPairs) := by
  decide +kernel

theorem ordinals_length : Spec.ordinals.length = 100 := by decide

theorem ordinals_nodup : Spec.ordinals.Nodup := by decide +kernel

theorem ordinals_inj {i j : Nat} {w : Str} (hi : Spec.ordinals[i]? = some w) (hj : Spec.ordinals[j]? = some w) :
    i = j := by
  obtain ⟨h1, e1⟩ := List.getElem?_eq_some_iff.mp hi
  obtain ⟨h2, e2⟩ := List.getElem?_eq_some_iff.mp hj
  exact (List.getElem_inj (h₀ := h1) (h₁ := h2) ordinals_nodup).mp (e1.trans e2.symm)

theorem intToTextHun_ok (i : Int) (w : Str) :
    intToTextHun i = .ok w ↔ 1 ≤ i ∧ Spec.ordinals[(i - 1).toNat]? = some w := by
  unfold intToTextHun
  constructor
  · intro h
    split at h
    · rename_i s hs
      have hm := dictGet_some hs
      rw [List.mem_map] at hm
      obtain ⟨p, hp, hpe⟩ := hm
      have := ordinalPairs_checked.1 p hp
      have h1 : (p.1 : Int) = i := by simpa using congrArg Prod.fst hpe
      have h2 : p.2 = s := by simpa using congrArg Prod.snd hpe
      have h3 : s = w := by simpa using h
      refine ⟨by omega, ?_⟩
      rw [show (i - 1).toNat = p.1 - 1 by omega, this.2.2, h2, h3]
    · simp at h
  · rintro ⟨h1, h2⟩
    have hlt : (i - 1).toNat < 100 := by
      have := (List.getElem?_eq_some_iff.mp h2).1
      rwa [ordinals_length] at this
    have hm := ordinalPairs_checked.2 _ hlt w h2
    have hm' : (i, w) ∈ ordinalPairs.map fun p => ((p.1 : Int), p.2) := by
      rw [List.mem_map]
      exact ⟨_, hm, by simp; omega⟩
    have hs := dictGet_isSome hm'
    obtain ⟨v, hv⟩ := Option.isSome_iff_exists.mp hs
    rw [hv]
    have hmv := dictGet_some hv
    rw [List.mem_map] at hmv
    obtain ⟨p, hp, hpe⟩ := hmv
    have hc := ordinalPairs_checked.1 p hp
    have e1 : (p.1 : Int) = i := by simpa using congrArg Prod.fst hpe
    have e2 : p.2 = v := by simpa using congrArg Prod.snd hpe
    rw [show (i - 1).toNat = p.1 - 1 by omega, hc.2.2, e2] at h2
    simpa using h2

theorem textToIntHun_ok (s : Str) (n : Nat) :
    textToIntHun s = .ok n ↔ 1 ≤ n ∧ Spec.ordinals[n - 1]? = some (lower s) := by
  unfold textToIntHun
  constructor
  · intro h
    split at h
    · rename_i m hm
      have := dictGet_some hm
      rw [List.mem_map] at this
      obtain ⟨p, hp, hpe⟩ := this
      have hc := ordinalPairs_checked.1 p hp
      have h1 : p.2 = lower s := by simpa using congrArg Prod.fst hpe
      have h2 : p.1 = m := by simpa using congrArg Prod.snd hpe
      have h3 : m = n := by simpa using h
      subst h3 h2
      rw [← h1]
      exact ⟨hc.1, hc.2.2⟩
    · simp at h
  · rintro ⟨h1, h2⟩
    have hlt : n - 1 < 100 := by
      have := (List.getElem?_eq_some_iff.mp h2).1
      rwa [ordinals_length] at this
    have hm := ordinalPairs_checked.2 _ hlt _ h2
    have hm' : (lower s, n) ∈ ordinalPairs.map fun p => (p.2, p.1) := by
      rw [List.mem_map]
      exact ⟨_, hm, by simp; omega⟩
    have hs := dictGet_isSome hm'
    obtain ⟨v, hv⟩ := Option.isSome_iff_exists.mp hs
    rw [hv]
    have hmv := dictGet_some hv
    rw [List.mem_map] at hmv
    obtain ⟨p, hp, hpe⟩ := hmv
    have hc := ordinalPairs_checked.1 p hp
    have e1 : p.2 = lower s := by simpa using congrArg Prod.fst hpe
    have e2 : p.1 = v := by simpa using congrArg Prod.snd hpe
    rw [e1] at hc
    have := ordinals_inj hc.2.2 h2
    simp only [Except.ok.injEq]
    omega

end Verif
