import Verif.Spec.Pdf
import Verif.Spec.Parser
import Verif.Proofs.Dict
import Verif.Proofs.Line
import Verif.Proofs.HeaderLines

/-! # Lemmas about text boxes -/

namespace Verif
open Spec

/-- The box at a place. -/
def boxAt (d : BoxDict) (y x : Rat) : Option TextBox := (d.get? y).bind (·.get? x)

theorem boxAt_some {d : BoxDict} {y x : Rat} {b : TextBox} :
    boxAt d y x = some b ↔ ∃ row, d.get? y = some row ∧ row.get? x = some b := by
  unfold boxAt
  rw [Option.bind_eq_some_iff]

/-! ## The first loop -/

/-- What has been put into the dictionary. -/
structure Inserted (d : BoxDict) (seen : List TextBox) : Prop where
  keys : d.keys.Nodup
  rowKeys : ∀ y row, d.get? y = some row → (Dict.keys row).Nodup
  here : ∀ y x b, boxAt d y x = some b → b.x = x ∧ b.y = y ∧ b ∈ seen
  there : ∀ y row, d.get? y = some row → ∃ x b, row.get? x = some b
  same : ∀ b ∈ seen, ∃ a, boxAt d b.y b.x = some a ∧ a.content = b.content

theorem insertBox_eq (d : BoxDict) (tb : TextBox) : insertBox d tb =
    match boxAt d tb.y tb.x with
    | some old => if tb.content ≠ old.content then .error .valueError else .ok d
    | none => .ok (d.set tb.y (((d.get? tb.y).getD []).set tb.x tb)) := by
  unfold insertBox boxAt
  cases h : d.get? tb.y with
  | none =>
    have h0 : Dict.get? ([] : Dict Rat TextBox) tb.x = none := rfl
    simp [Dict.get?_set, Dict.set_set, h0]
  | some row =>
    simp only [Option.isNone_some, Bool.false_eq_true, if_false, h, Option.getD_some, Option.bind_some]
    cases row.get? tb.x <;> rfl

theorem insertBox_inserted {d d' : BoxDict} {seen : List TextBox} {tb : TextBox} (hd : Inserted d seen)
    (h : insertBox d tb = .ok d') : Inserted d' (seen ++ [tb]) := by
  rw [insertBox_eq] at h
  cases hb : boxAt d tb.y tb.x with
  | some old =>
    simp only [hb] at h
    by_cases hc : tb.content ≠ old.content
    · rw [if_pos hc] at h
      cases h
    · rw [if_neg hc] at h
      injection h with h
      subst h
      refine ⟨hd.keys, hd.rowKeys, ?_, hd.there, ?_⟩
      · intro y x b hyx
        have := hd.here y x b hyx
        exact ⟨this.1, this.2.1, List.mem_append_left _ this.2.2⟩
      · intro b hm
        rcases List.mem_append.mp hm with hm | hm
        · exact hd.same b hm
        · rw [List.mem_singleton.mp hm]
          exact ⟨old, hb, (Decidable.not_not.mp hc).symm⟩
  | none =>
    simp only [hb] at h
    injection h with h
    subst h
    have hat : ∀ y x, boxAt (d.set tb.y (((d.get? tb.y).getD []).set tb.x tb)) y x =
        if y = tb.y ∧ x = tb.x then some tb else boxAt d y x := by
      intro y x
      unfold boxAt
      rw [Dict.get?_set]
      by_cases hy : y = tb.y
      · rw [if_pos hy, Option.bind_some, Dict.get?_set]
        by_cases hx : x = tb.x
        · simp [hy, hx]
        · rw [if_neg hx, if_neg (fun h => hx h.2), hy]
          cases d.get? tb.y with
          | none => rfl
          | some row => rfl
      · rw [if_neg hy, if_neg (fun h => hy h.1)]
    refine ⟨Dict.nodup_set hd.keys _ _, ?_, ?_, ?_, ?_⟩
    · intro y row hr
      rw [Dict.get?_set] at hr
      by_cases hy : y = tb.y
      · rw [if_pos hy] at hr
        injection hr with hr
        subst hr
        refine Dict.nodup_set ?_ _ _
        cases hg : d.get? tb.y with
        | none => exact List.nodup_nil
        | some row => exact hd.rowKeys _ _ hg
      · rw [if_neg hy] at hr
        exact hd.rowKeys _ _ hr
    · intro y x b hyx
      rw [hat] at hyx
      by_cases hc : y = tb.y ∧ x = tb.x
      · rw [if_pos hc] at hyx
        injection hyx with hyx
        subst hyx
        exact ⟨hc.2.symm, hc.1.symm, by simp⟩
      · rw [if_neg hc] at hyx
        have := hd.here y x b hyx
        exact ⟨this.1, this.2.1, List.mem_append_left _ this.2.2⟩
    · intro y row hr
      rw [Dict.get?_set] at hr
      by_cases hy : y = tb.y
      · rw [if_pos hy] at hr
        injection hr with hr
        subst hr
        exact ⟨tb.x, tb, by rw [Dict.get?_set, if_pos rfl]⟩
      · rw [if_neg hy] at hr
        exact hd.there _ _ hr
    · intro b hm
      rw [hat]
      by_cases hc : b.y = tb.y ∧ b.x = tb.x
      · rw [if_pos hc]
        rcases List.mem_append.mp hm with hm | hm
        · obtain ⟨a, ha, -⟩ := hd.same b hm
          rw [hc.1, hc.2, hb] at ha
          cases ha
        · rw [List.mem_singleton.mp hm]
          exact ⟨tb, rfl, rfl⟩
      · rw [if_neg hc]
        rcases List.mem_append.mp hm with hm | hm
        · exact hd.same b hm
        · rw [List.mem_singleton.mp hm] at hc
          exact absurd ⟨rfl, rfl⟩ hc

theorem insertBoxes_inserted : ∀ (tbs : List TextBox) {d d' : BoxDict} {seen : List TextBox}, Inserted d seen →
    insertBoxes d tbs = .ok d' → Inserted d' (seen ++ tbs)
  | [], d, d', seen, hd, h => by
    injection h with h
    subst h
    simpa using hd
  | tb :: tbs, d, d', seen, hd, h => by
    obtain ⟨d1, h1, h2⟩ := resBind_ok (show (insertBox d tb >>= fun d => insertBoxes d tbs) = .ok d' from h)
    have := insertBoxes_inserted tbs (insertBox_inserted hd h1) h2
    simpa using this

theorem inserted_nil : Inserted [] [] :=
  ⟨List.nodup_nil, fun _ _ h => (by cases h), fun _ _ _ h => (by cases h), fun _ _ h => (by cases h), by simp⟩

theorem insertBoxes_error : ∀ (tbs : List TextBox) {d : BoxDict} {e : Err}, insertBoxes d tbs = .error e → e = .valueError
  | [], d, e, h => by cases h
  | tb :: tbs, d, e, h => by
    rw [insertBoxes, insertBox_eq] at h
    cases hb : boxAt d tb.y tb.x with
    | none =>
      simp only [hb] at h
      exact insertBoxes_error tbs h
    | some old =>
      simp only [hb] at h
      by_cases hc : tb.content ≠ old.content
      · rw [if_pos hc] at h
        injection h with h
        exact h.symm
      · rw [if_neg hc] at h
        exact insertBoxes_error tbs h

/-- The first loop ends well if boxes at the same place have the same text. -/
theorem insertBoxes_ok : ∀ (tbs : List TextBox) {d : BoxDict} {seen : List TextBox}, Inserted d seen →
    (∀ a ∈ seen ++ tbs, ∀ b ∈ seen ++ tbs, a.x = b.x → a.y = b.y → a.content = b.content) → ∃ d', insertBoxes d tbs = .ok d'
  | [], d, seen, _, _ => ⟨d, rfl⟩
  | tb :: tbs, d, seen, hd, h => by
    have : ∃ d1, insertBox d tb = .ok d1 := by
      rw [insertBox_eq]
      cases hb : boxAt d tb.y tb.x with
      | none => exact ⟨_, rfl⟩
      | some old =>
        obtain ⟨hx, hy, hm⟩ := hd.here _ _ _ hb
        have hc := h tb (by simp) old (List.mem_append_left _ hm) hx.symm hy.symm
        exact ⟨d, if_neg (by simpa using hc)⟩
    obtain ⟨d1, h1⟩ := this
    obtain ⟨d', h'⟩ := insertBoxes_ok tbs (insertBox_inserted hd h1) (by simpa using h)
    exact ⟨d', by rw [insertBoxes, h1]; exact h'⟩

/-! ## The second loop -/

/-- What holds while rows are merged: `ys` are the heights to come, `last` is the height to which others are added. -/
structure Merging (boxes : List TextBox) (d : BoxDict) (last : Option Rat) (ys : List Rat) : Prop where
  keys : d.keys.Nodup
  rowKeys : ∀ y row, d.get? y = some row → (Dict.keys row).Nodup
  here : ∀ y x b, boxAt d y x = some b → b.x = x ∧ y ≤ b.y ∧ b.y < y + 1/5 ∧ b ∈ boxes
  exact_ : ∀ y ∈ ys, ∀ x b, boxAt d y x = some b → b.y = y
  all : ∀ b ∈ boxes, ∃ y, boxAt d y b.x = some b
  lowest : ∀ y ∈ d.keys, ∃ x b, boxAt d y x = some b ∧ b.y = y
  sorted : ys.Pairwise (· < ·)
  sub : ∀ y ∈ ys, y ∈ d.keys
  above : ∀ y ∈ d.keys, y ∉ ys → ∃ l, last = some l ∧ y ≤ l
  lastKey : ∀ l, last = some l → l ∈ d.keys ∧ ∀ y ∈ ys, l < y
  apart : ∀ y ∈ d.keys, ∀ z ∈ d.keys, y ∉ ys → z ∉ ys → y < z → y + 1/5 ≤ z

theorem merging_skip {boxes : List TextBox} {d : BoxDict} {last : Option Rat} {y : Rat} {ys : List Rat}
    (h : Merging boxes d last (y :: ys)) (hl : ∀ l, last = some l → l + 1/5 ≤ y) : Merging boxes d (some y) ys := by
  have hlt : ∀ z ∈ ys, y < z := fun z hz => List.rel_of_pairwise_cons h.sorted hz
  refine ⟨h.keys, h.rowKeys, h.here, fun z hz => h.exact_ z (List.mem_cons_of_mem _ hz), h.all, h.lowest, h.sorted.tail,
    fun z hz => h.sub z (List.mem_cons_of_mem _ hz), ?_, ?_, ?_⟩
  · intro z hz hn
    refine ⟨y, rfl, ?_⟩
    by_cases hzy : z = y
    · grind
    · obtain ⟨l, hl', hle⟩ := h.above z hz (by simp [hzy, hn])
      have := (h.lastKey l hl').2 y List.mem_cons_self
      grind
  · rintro l hl'
    injection hl' with hl'
    subst hl'
    exact ⟨h.sub y List.mem_cons_self, hlt⟩
  · intro a ha b hb hna hnb hab
    by_cases hay : a = y
    · subst hay
      obtain ⟨l, hl', hle⟩ := h.above b hb (by simp [hnb]; grind)
      have := (h.lastKey l hl').2 a List.mem_cons_self
      grind
    · by_cases hby : b = y
      · subst hby
        obtain ⟨l, hl', hle⟩ := h.above a ha (by simp [hna, hay])
        have := hl l hl'
        grind
      · exact h.apart a ha b hb (by simp [hna, hay]) (by simp [hnb, hby]) hab

theorem merging_merge {boxes : List TextBox} (hc : NoClash boxes) {d : BoxDict} {l y : Rat} {ys : List Rat}
    (h : Merging boxes d (some l) (y :: ys)) (hl : y - l < 1/5) :
    Merging boxes ((d.set l (((d.get? l).getD []).update ((d.get? y).getD []))).del y) (some l) ys := by
  have hly : l < y := (h.lastKey l rfl).2 y List.mem_cons_self
  have hlt : ∀ z ∈ ys, y < z := fun z hz => List.rel_of_pairwise_cons h.sorted hz
  have hyn : y ∉ ys := fun hm => by have := hlt y hm; grind
  obtain ⟨rowl, hrl⟩ := (Dict.mem_keys_iff d l).mp (h.lastKey l rfl).1
  obtain ⟨rowy, hry⟩ := (Dict.mem_keys_iff d y).mp (h.sub y List.mem_cons_self)
  simp only [hrl, hry, Option.getD_some]
  have hget : ∀ z, Dict.get? ((d.set l (rowl.update rowy)).del y) z =
      if z = y then none else if z = l then some (rowl.update rowy) else d.get? z := by
    intro z
    rw [Dict.get?_del, Dict.get?_set]
  have hat : ∀ z x, boxAt ((d.set l (rowl.update rowy)).del y) z x =
      if z = y then none else if z = l then (boxAt d y x).or (boxAt d l x) else boxAt d z x := by
    intro z x
    unfold boxAt
    rw [hget]
    by_cases h1 : z = y
    · simp [h1]
    · rw [if_neg h1, if_neg h1]
      by_cases h2 : z = l
      · rw [if_pos h2, if_pos h2, Option.bind_some, Dict.get?_update (h.rowKeys y rowy hry), hrl, hry]
        rfl
      · rw [if_neg h2, if_neg h2]
  have hkeys : ∀ z, z ∈ Dict.keys ((d.set l (rowl.update rowy)).del y) ↔ z ≠ y ∧ z ∈ d.keys := by
    intro z
    rw [Dict.mem_keys_iff, Dict.mem_keys_iff, hget]
    by_cases h1 : z = y
    · simp [h1]
    · rw [if_neg h1]
      by_cases h2 : z = l
      · subst h2
        simp [h1, hrl]
      · simp [h1, h2]
  have hherel : ∀ x b, (boxAt d y x).or (boxAt d l x) = some b → b.x = x ∧ l ≤ b.y ∧ b.y < l + 1/5 ∧ b ∈ boxes := by
    intro x b hb
    rw [Option.or_eq_some_iff] at hb
    rcases hb with hb | ⟨-, hb⟩
    · obtain ⟨h1, -, -, h4⟩ := h.here _ _ _ hb
      have := h.exact_ y List.mem_cons_self _ _ hb
      refine ⟨h1, ?_, ?_, h4⟩ <;> grind
    · exact h.here _ _ _ hb
  refine ⟨Dict.nodup_del (Dict.nodup_set h.keys _ _) _, ?_, ?_, ?_, ?_, ?_, h.sorted.tail, ?_, ?_, ?_, ?_⟩
  · intro z row hr
    rw [hget] at hr
    by_cases h1 : z = y
    · simp [h1] at hr
    · rw [if_neg h1] at hr
      by_cases h2 : z = l
      · rw [if_pos h2] at hr
        injection hr with hr
        subst hr
        exact Dict.nodup_update (h.rowKeys l rowl hrl) _
      · rw [if_neg h2] at hr
        exact h.rowKeys _ _ hr
  · intro z x b hb
    rw [hat] at hb
    by_cases h1 : z = y
    · simp [h1] at hb
    · rw [if_neg h1] at hb
      by_cases h2 : z = l
      · rw [if_pos h2] at hb
        rw [h2]
        exact hherel x b hb
      · rw [if_neg h2] at hb
        exact h.here _ _ _ hb
  · intro z hz x b hb
    rw [hat] at hb
    have h1 : z ≠ y := fun he => hyn (he ▸ hz)
    have h2 : z ≠ l := fun he => by have := hlt z hz; grind
    rw [if_neg h1, if_neg h2] at hb
    exact h.exact_ z (List.mem_cons_of_mem _ hz) x b hb
  · intro b hb
    obtain ⟨z, hz⟩ := h.all b hb
    by_cases h1 : z = y
    · refine ⟨l, ?_⟩
      rw [hat, if_neg (by grind), if_pos rfl, ← h1, hz]
      rfl
    · by_cases h2 : z = l
      · refine ⟨l, ?_⟩
        rw [hat, if_neg (by grind), if_pos rfl, ← h2, hz]
        cases hy : boxAt d y b.x with
        | none => rfl
        | some b' =>
          obtain ⟨g1, -, -, g4⟩ := h.here _ _ _ hy
          have g5 := h.exact_ y List.mem_cons_self _ _ hy
          obtain ⟨-, k2, k3, -⟩ := h.here _ _ _ hz
          have := hc b' g4 b hb g1 (by grind) (by grind)
          rw [this]
          rfl
      · refine ⟨z, ?_⟩
        rw [hat, if_neg h1, if_neg h2, hz]
  · intro z hz
    obtain ⟨h1, hz⟩ := (hkeys z).mp hz
    obtain ⟨x, b, hb, hby⟩ := h.lowest z hz
    by_cases h2 : z = l
    · subst h2
      obtain ⟨g1, -, -, g4⟩ := h.here _ _ _ hb
      cases hy : boxAt d y x with
      | none => exact ⟨x, b, by rw [hat, if_neg h1, if_pos rfl, hy]; exact hb, hby⟩
      | some b' =>
        obtain ⟨k1, -, -, k4⟩ := h.here _ _ _ hy
        have k5 := h.exact_ y List.mem_cons_self _ _ hy
        have := hc b' k4 b g4 (by rw [k1, g1]) (by grind) (by grind)
        subst this
        grind
    · exact ⟨x, b, by rw [hat, if_neg h1, if_neg h2]; exact hb, hby⟩
  · intro z hz
    exact (hkeys z).mpr ⟨fun he => hyn (he ▸ hz), h.sub z (List.mem_cons_of_mem _ hz)⟩
  · intro z hz hn
    obtain ⟨h1, hz⟩ := (hkeys z).mp hz
    exact h.above z hz (by simp [h1, hn])
  · intro l' hl'
    injection hl' with hl'
    subst hl'
    exact ⟨(hkeys _).mpr ⟨by grind, (h.lastKey _ rfl).1⟩, fun z hz => (h.lastKey _ rfl).2 z (List.mem_cons_of_mem _ hz)⟩
  · intro a ha b hb hna hnb hab
    obtain ⟨h1, ha⟩ := (hkeys a).mp ha
    obtain ⟨h2, hb⟩ := (hkeys b).mp hb
    exact h.apart a ha b hb (by simp [h1, hna]) (by simp [h2, hnb]) hab

theorem mergeRows_merging {boxes : List TextBox} (hc : NoClash boxes) : ∀ (ys : List Rat) {d : BoxDict} {last : Option Rat},
    Merging boxes d last ys → ∃ last', Merging boxes (mergeRows last ys d) last' []
  | [], d, last, h => by
    cases last <;> exact ⟨_, h⟩
  | y :: ys, d, none, h => mergeRows_merging hc ys (merging_skip h (by simp))
  | y :: ys, d, some l, h => by
    have hly : l < y := (h.lastKey l rfl).2 y List.mem_cons_self
    rw [mergeRows]
    by_cases hm : y - l < 1/5 ∧ l - y < 1/5
    · rw [if_pos hm]
      exact mergeRows_merging hc ys (merging_merge hc h hm.1)
    · rw [if_neg hm]
      exact mergeRows_merging hc ys (merging_skip h (by rintro l' hl'; injection hl' with hl'; subst hl'; grind))

theorem merging_start {boxes : List TextBox} (hc : NoClash boxes) {d : BoxDict} (h : Inserted d boxes) :
    Merging boxes d none (sortRat d.keys) := by
  refine ⟨h.keys, h.rowKeys, ?_, ?_, ?_, ?_, sortRat_sorted h.keys, ?_, ?_, by simp, ?_⟩
  · intro y x b hb
    obtain ⟨h1, h2, h3⟩ := h.here _ _ _ hb
    refine ⟨h1, ?_, ?_, h3⟩ <;> grind
  · intro y _ x b hb
    exact (h.here _ _ _ hb).2.1
  · intro b hb
    obtain ⟨a, ha, -⟩ := h.same b hb
    obtain ⟨h1, h2, h3⟩ := h.here _ _ _ ha
    have := hc a h3 b hb h1 (by grind) (by grind)
    subst this
    exact ⟨_, ha⟩
  · intro y hy
    obtain ⟨row, hr⟩ := (Dict.mem_keys_iff d y).mp hy
    obtain ⟨x, b, hb⟩ := h.there y row hr
    have : boxAt d y x = some b := boxAt_some.mpr ⟨row, hr, hb⟩
    exact ⟨x, b, this, (h.here _ _ _ this).2.1⟩
  · intro y hy
    exact (mem_sortRat y _).mp hy
  · intro y hy hn
    exact absurd ((mem_sortRat y _).mpr hy) hn
  · intro y hy z _ hn
    exact absurd ((mem_sortRat y _).mpr hy) hn

/-! ## Rows -/

/-- The rows of a dictionary from top to bottom. -/
def dictRows (d : BoxDict) : List (Rat × List TextBox) :=
  (sortRat d.keys).reverse.map fun y => (y, rowBoxes ((d.get? y).getD []))

theorem mem_rowBoxes {row : Dict Rat TextBox} {b : TextBox} : b ∈ rowBoxes row ↔ ∃ x, row.get? x = some b := by
  unfold rowBoxes
  rw [List.mem_filterMap]
  constructor
  · rintro ⟨x, -, h⟩
    exact ⟨x, h⟩
  · rintro ⟨x, h⟩
    exact ⟨x, (mem_sortRat _ _).mpr ((Dict.mem_keys_iff row x).mpr ⟨b, h⟩), h⟩

theorem rowBoxes_sorted {row : Dict Rat TextBox} (h : (Dict.keys row).Nodup) (hx : ∀ x b, row.get? x = some b → b.x = x) :
    (rowBoxes row).Pairwise (·.x < ·.x) := by
  unfold rowBoxes
  refine List.Pairwise.filterMap _ ?_ (sortRat_sorted h)
  intro a a' haa b hb b' hb'
  rw [hx a b hb, hx a' b' hb']
  exact haa

theorem rows_of_merging {boxes : List TextBox} {d : BoxDict} {last : Option Rat} (h : Merging boxes d last []) :
    IsRows boxes (dictRows d) := by
  have hmem : ∀ y, y ∈ (sortRat d.keys).reverse ↔ y ∈ d.keys := by
    intro y
    rw [List.mem_reverse, mem_sortRat]
  refine ⟨?_, ?_, ?_⟩
  · intro r hr
    obtain ⟨y, hy, rfl⟩ := List.mem_map.mp hr
    rw [hmem] at hy
    obtain ⟨row, hrow⟩ := (Dict.mem_keys_iff d y).mp hy
    have hat : ∀ x b, row.get? x = some b → boxAt d y x = some b := fun x b hb => boxAt_some.mpr ⟨row, hrow, hb⟩
    simp only [hrow, Option.getD_some]
    refine ⟨rowBoxes_sorted (h.rowKeys y row hrow) fun x b hb => (h.here y x b (hat x b hb)).1, ?_, ?_⟩
    · intro b hb
      obtain ⟨x, hx⟩ := mem_rowBoxes.mp hb
      have := h.here y x b (hat x b hx)
      exact ⟨this.2.1, this.2.2.1⟩
    · obtain ⟨x, b, hb, hby⟩ := h.lowest y hy
      obtain ⟨row', hr', hx⟩ := boxAt_some.mp hb
      rw [hrow] at hr'
      injection hr' with hr'
      subst hr'
      exact ⟨b, mem_rowBoxes.mpr ⟨x, hx⟩, hby⟩
  · unfold dictRows
    rw [List.pairwise_map, List.pairwise_reverse]
    refine List.Pairwise.imp_of_mem ?_ (sortRat_sorted h.keys)
    intro a b ha hb hab
    exact h.apart a ((mem_sortRat _ _).mp ha) b ((mem_sortRat _ _).mp hb) (by simp) (by simp) hab
  · intro b
    constructor
    · intro hb
      obtain ⟨y, hy⟩ := h.all b hb
      obtain ⟨row, hr, hx⟩ := boxAt_some.mp hy
      refine ⟨(y, rowBoxes row), List.mem_map.mpr ⟨y, (hmem y).mpr ((Dict.mem_keys_iff d y).mpr ⟨row, hr⟩), by simp [hr]⟩, ?_⟩
      exact mem_rowBoxes.mpr ⟨_, hx⟩
    · rintro ⟨r, hr, hb⟩
      obtain ⟨y, hy, rfl⟩ := List.mem_map.mp hr
      obtain ⟨row, hrow⟩ := (Dict.mem_keys_iff d y).mp ((hmem y).mp hy)
      simp only [hrow, Option.getD_some] at hb
      obtain ⟨x, hx⟩ := mem_rowBoxes.mp hb
      exact (h.here y x b (boxAt_some.mpr ⟨row, hrow, hx⟩)).2.2.2

theorem sortTextboxes_rows {boxes : List TextBox} (hc : NoClash boxes) :
    ∃ d, sortTextboxesIntoDicts boxes = .ok d ∧ IsRows boxes (dictRows d) := by
  have hcont : ∀ a ∈ [] ++ boxes, ∀ b ∈ [] ++ boxes, a.x = b.x → a.y = b.y → a.content = b.content := by
    intro a ha b hb hx hy
    rw [hc a ha b hb hx (by grind) (by grind)]
  obtain ⟨d, hd⟩ := insertBoxes_ok boxes inserted_nil hcont
  have hi := insertBoxes_inserted boxes inserted_nil hd
  rw [List.nil_append] at hi
  obtain ⟨last, hm⟩ := mergeRows_merging hc _ (merging_start hc hi)
  refine ⟨_, ?_, rows_of_merging hm⟩
  unfold sortTextboxesIntoDicts
  rw [hd]
  rfl

/-! ## There is only one way to form rows -/

theorem rows_unique_up : ∀ {rows rows' : List (Rat × List TextBox)},
    (∀ r ∈ rows, IsRow r.1 r.2) → (∀ r ∈ rows', IsRow r.1 r.2) →
    rows.Pairwise (fun lower upper => lower.1 + 1/5 ≤ upper.1) → rows'.Pairwise (fun lower upper => lower.1 + 1/5 ≤ upper.1) →
    (∀ b, (∃ r ∈ rows, b ∈ r.2) ↔ ∃ r ∈ rows', b ∈ r.2) → rows = rows'
  | [], [], _, _, _, _, _ => rfl
  | [], r :: rows, _, h2, _, _, h => by
    obtain ⟨b, hb, -⟩ := (h2 r List.mem_cons_self).lowest
    obtain ⟨_, h, _⟩ := (h b).mpr ⟨r, List.mem_cons_self, hb⟩
    cases h
  | r :: rows, [], h1, _, _, _, h => by
    obtain ⟨b, hb, -⟩ := (h1 r List.mem_cons_self).lowest
    obtain ⟨_, h, _⟩ := (h b).mp ⟨r, List.mem_cons_self, hb⟩
    cases h
  | (y, g) :: rows, (y', g') :: rows', h1, h2, h3, h4, h => by
    have low : ∀ {y g} {rows : List (Rat × List TextBox)}, (∀ r ∈ (y, g) :: rows, IsRow r.1 r.2) →
        ((y, g) :: rows).Pairwise (fun lower upper => lower.1 + 1/5 ≤ upper.1) → ∀ b, (∃ r ∈ (y, g) :: rows, b ∈ r.2) →
        y ≤ b.y ∧ (b.y < y + 1/5 ↔ b ∈ g) ∧ ((∃ r ∈ rows, b ∈ r.2) → y + 1/5 ≤ b.y) := by
      intro y g rows h1 h3 b hb
      have hg : ∀ b ∈ g, y ≤ b.y ∧ b.y < y + 1/5 := (h1 _ List.mem_cons_self).band
      have hr : ∀ b, (∃ r ∈ rows, b ∈ r.2) → y + 1/5 ≤ b.y := by
        rintro b ⟨r, hr, hbr⟩
        have k1 := (h1 r (List.mem_cons_of_mem _ hr)).band b hbr
        have k2 := List.rel_of_pairwise_cons h3 hr
        grind
      refine ⟨?_, ?_, hr b⟩
      · obtain ⟨r, hrm, hbr⟩ := hb
        rcases List.mem_cons.mp hrm with rfl | hrm
        · exact (hg b hbr).1
        · have := hr b ⟨r, hrm, hbr⟩
          grind
      · constructor
        · intro hlt
          obtain ⟨r, hrm, hbr⟩ := hb
          rcases List.mem_cons.mp hrm with rfl | hrm
          · exact hbr
          · have := hr b ⟨r, hrm, hbr⟩
            grind
        · exact fun hbg => (hg b hbg).2
    have hy : y = y' := by
      obtain ⟨b, hb, hby⟩ := (h1 _ List.mem_cons_self).lowest
      obtain ⟨b', hb', hby'⟩ := (h2 _ List.mem_cons_self).lowest
      have k1 := (low h2 h4 b ((h b).mp ⟨_, List.mem_cons_self, hb⟩)).1
      have k2 := (low h1 h3 b' ((h b').mpr ⟨_, List.mem_cons_self, hb'⟩)).1
      dsimp only at hby hby'
      grind
    subst hy
    have hg : ∀ b, b ∈ g ↔ b ∈ g' := by
      intro b
      constructor
      · intro hb
        have hm : ∃ r ∈ (y, g) :: rows, b ∈ r.2 := ⟨_, List.mem_cons_self, hb⟩
        exact (low h2 h4 b ((h b).mp hm)).2.1.mp ((low h1 h3 b hm).2.1.mpr hb)
      · intro hb
        have hm : ∃ r ∈ (y, g') :: rows', b ∈ r.2 := ⟨_, List.mem_cons_self, hb⟩
        exact (low h1 h3 b ((h b).mpr hm)).2.1.mp ((low h2 h4 b hm).2.1.mpr hb)
    have nodup : ∀ {l : List TextBox}, l.Pairwise (·.x < ·.x) → l.Nodup := by
      intro l hl
      refine List.Pairwise.imp ?_ hl
      rintro a b hab rfl
      grind
    have hgg : g = g' := by
      have s1 := (h1 _ List.mem_cons_self).sorted
      have s2 := (h2 _ List.mem_cons_self).sorted
      refine List.Perm.eq_of_pairwise (le := fun a b : TextBox => a.x < b.x) ?_ s1 s2
        ((List.perm_ext_iff_of_nodup (nodup s1) (nodup s2)).mpr hg)
      intro a b _ _ hab hba
      grind
    subst hgg
    have := rows_unique_up (rows := rows) (rows' := rows') (fun r hr => h1 r (List.mem_cons_of_mem _ hr))
      (fun r hr => h2 r (List.mem_cons_of_mem _ hr)) h3.tail h4.tail (by
        intro b
        constructor
        · rintro ⟨r, hr, hb⟩
          obtain ⟨r', hr', hb'⟩ := (h b).mp ⟨r, List.mem_cons_of_mem _ hr, hb⟩
          rcases List.mem_cons.mp hr' with rfl | hr'
          · have k := (low h1 h3 b ⟨r, List.mem_cons_of_mem _ hr, hb⟩)
            have := k.2.2 ⟨r, hr, hb⟩
            have := k.2.1.mpr hb'
            grind
          · exact ⟨r', hr', hb'⟩
        · rintro ⟨r, hr, hb⟩
          obtain ⟨r', hr', hb'⟩ := (h b).mpr ⟨r, List.mem_cons_of_mem _ hr, hb⟩
          rcases List.mem_cons.mp hr' with rfl | hr'
          · have k := (low h2 h4 b ⟨r, List.mem_cons_of_mem _ hr, hb⟩)
            have := k.2.2 ⟨r, hr, hb⟩
            have := k.2.1.mpr hb'
            grind
          · exact ⟨r', hr', hb'⟩)
    rw [this]

theorem rows_unique {boxes boxes' : List TextBox} {rows rows' : List (Rat × List TextBox)} (hb : ∀ b, b ∈ boxes ↔ b ∈ boxes')
    (h : IsRows boxes rows) (h' : IsRows boxes' rows') : rows = rows' := by
  have : rows.reverse = rows'.reverse := by
    refine rows_unique_up ?_ ?_ ?_ ?_ ?_
    · intro r hr
      exact h.row r (List.mem_reverse.mp hr)
    · intro r hr
      exact h'.row r (List.mem_reverse.mp hr)
    · rw [List.pairwise_reverse]
      exact h.down
    · rw [List.pairwise_reverse]
      exact h'.down
    · intro b
      simp only [List.mem_reverse]
      rw [← h.all, ← h'.all, hb]
  have := congrArg List.reverse this
  simpa using this

/-! ## Lines -/

/-- The pieces of text after a box. -/
def typesetAfter (a : TextBox) : List TextBox → List Placed
  | [] => []
  | b :: rest => (if SpaceBetween a b then [(edge a, [' '], false)] else []) ++ (b.x, b.content, b.bold) :: typesetAfter b rest

theorem typeset_cons (a : TextBox) (rest : List TextBox) : typeset (a :: rest) = (a.x, a.content, a.bold) :: typesetAfter a rest := by
  induction rest generalizing a with
  | nil => rfl
  | cons b rest ih => rw [typeset, typesetAfter, ih, List.cons_append]

theorem place_concat {ps : List Part} {prev : Rat} (h : (ps.map (·.dx)).sum = prev) (x : Rat) (s : Str) (b : Bool) :
    place 0 (ps ++ [⟨x - prev, s, b⟩]) = place 0 ps ++ [(x, s, b)] ∧ ((ps ++ [Part.mk (x - prev) s b]).map (·.dx)).sum = x := by
  rw [Line.place_append, h]
  constructor
  · simp only [place]
    rw [show (0 : Rat) + prev + (x - prev) = x by grind]
  · rw [List.map_append, List.sum_append, h]
    simp
    grind

theorem lineLoop_after (rightmost : Rat) : ∀ (boxes : List TextBox) (a : TextBox) (s : LineState) (front : List Part) (p : Part),
    (∀ b ∈ a :: boxes, b.content ≠ []) → s.parts = front ++ [p] → p.content = a.content → s.threshold = some (edge a) →
    s.prevX = a.x → (s.parts.map (·.dx)).sum = s.prevX → s.marginRight = rightmost - (a.x - a.width) →
    ∃ line, lineLoop rightmost s boxes = .ok line ∧ place 0 line.parts = place 0 s.parts ++ typesetAfter a boxes ∧
      line.marginRight = rightmost - (((a :: boxes).getLastD a).x - ((a :: boxes).getLastD a).width) ∧
      ∃ q, line.parts.getLast? = some q ∧ q.content = ((a :: boxes).getLastD a).content
  | [], a, s, front, p, _, hp, hpc, _, _, _, hm => ⟨_, rfl, by simp [typesetAfter], hm, p, by simp [hp], hpc⟩
  | b :: boxes, a, s, front, p, hc, hp, hpc, ht, hx, hsum, hm => by
    have hlast : (a :: b :: boxes).getLastD a = (b :: boxes).getLastD b := by
      simp [List.getLast?_cons]
    have hadd : ∃ s', addSpace s b = .ok s' ∧ place 0 s'.parts = place 0 s.parts ++
        (if SpaceBetween a b then [(edge a, [' '], false)] else []) ∧ (s'.parts.map (·.dx)).sum = s'.prevX := by
      obtain ⟨c, hl⟩ : ∃ c, a.content.getLast? = some c := ⟨_, List.getLast?_eq_some_getLast (hc a List.mem_cons_self)⟩
      unfold addSpace SpaceBetween
      simp only [ht, hp, List.getLast?_concat, hpc, hl]
      by_cases h1 : b.x > edge a ∨ b.content = ['„']
      · rw [if_pos h1]
        by_cases h2 : c = ' '
        · refine ⟨s, by simp [h2], ?_, hsum⟩
          rw [if_neg (fun h => h.2 (by rw [h2]))]
          simp [hp]
        · rw [if_pos h2, if_pos ⟨h1, by simpa using h2⟩]
          refine ⟨_, rfl, ?_⟩
          have := place_concat (ps := front ++ [p]) (prev := s.prevX) (by rw [← hp]; exact hsum) (edge a) [' '] false
          exact this
      · rw [if_neg h1, if_neg (fun h => h1 h.1)]
        exact ⟨s, rfl, by simp [hp], hsum⟩
    obtain ⟨s', hs', hplace, hsum'⟩ := hadd
    have hpc' := place_concat hsum' b.x b.content b.bold
    obtain ⟨line, h1, h2, h3, h4⟩ := lineLoop_after rightmost boxes b
      ⟨s'.parts ++ [⟨b.x - s'.prevX, b.content, b.bold⟩], some (edge b), b.x, rightmost - (b.x - b.width)⟩ s'.parts _
      (fun x hx => hc x (List.mem_cons_of_mem _ hx)) rfl rfl rfl rfl hpc'.2 rfl
    refine ⟨line, ?_, ?_, ?_, ?_⟩
    · rw [lineLoop, hs']
      exact h1
    · rw [h2, hpc'.1, hplace, typesetAfter]
      simp
    · rw [hlast]
      exact h3
    · rw [hlast]
      exact h4

theorem lineLoop_typeset (rightmost : Rat) {boxes : List TextBox} (hc : ∀ b ∈ boxes, b.content ≠ []) :
    ∃ line, lineLoop rightmost {} boxes = .ok line ∧ place 0 line.parts = typeset boxes ∧
      (∀ p, line.parts.getLast? = some p → ∃ b ∈ boxes, p.content = b.content) := by
  cases boxes with
  | nil => exact ⟨_, rfl, rfl, by simp⟩
  | cons a boxes =>
    have hp := place_concat (ps := []) (prev := 0) (by simp) a.x a.content a.bold
    obtain ⟨line, h1, h2, -, q, hq, hqc⟩ := lineLoop_after rightmost boxes a
      ⟨[] ++ [⟨a.x - 0, a.content, a.bold⟩], some (edge a), a.x, rightmost - (a.x - a.width)⟩ [] _ hc rfl rfl rfl rfl hp.2 rfl
    refine ⟨line, h1, ?_, ?_⟩
    · rw [h2, hp.1, typeset_cons]
      rfl
    · intro p hp
      rw [hq] at hp
      injection hp with hp
      subst hp
      refine ⟨_, ?_, hqc⟩
      rw [List.getLastD_eq_getLast?, List.getLast?_eq_some_getLast (by simp)]
      exact List.getLast_mem _

/-! ## Pages -/

/-- The lines of rows. -/
def rowLines (rightmost : Rat) : List (Rat × List TextBox) → Res (List (Rat × Line))
  | [] => .ok []
  | r :: rs => do
    let line ← lineLoop rightmost {} r.2
    let lines ← rowLines rightmost rs
    .ok ((r.1, line) :: lines)

/-- The blank line above a line. -/
def blanksBelow (prevY : Rat) : List (Rat × Line) → List Line
  | [] => []
  | a :: rest => (if prevY ≠ 0 ∧ prevY - a.1 > 18 then [emptyLine] else []) ++ a.2 :: blanksBelow a.1 rest

theorem withBlanks_eq (lines : List (Rat × Line)) : withBlanks lines = blanksBelow 0 lines := by
  cases lines with
  | nil => rfl
  | cons a rest =>
    have : ∀ (rest : List (Rat × Line)) (a : Rat × Line), withBlanks (a :: rest) = a.2 :: blanksBelow a.1 rest := by
      intro rest
      induction rest with
      | nil => intro a; rfl
      | cons b rest ih => intro a; rw [withBlanks, ih, blanksBelow, List.cons_append]
    rw [this, blanksBelow]
    simp

theorem rowLines_ok (rightmost : Rat) : ∀ (rows : List (Rat × List TextBox)), (∀ r ∈ rows, ∀ b ∈ r.2, b.content ≠ []) →
    ∃ lines, rowLines rightmost rows = .ok lines ∧ lines.map (·.1) = rows.map (·.1) ∧
      lines.map (fun l => place 0 l.2.parts) = rows.map (fun r => typeset r.2) ∧
      ∀ l ∈ lines, ∀ p, l.2.parts.getLast? = some p → ∃ r ∈ rows, ∃ b ∈ r.2, p.content = b.content
  | [], _ => ⟨[], rfl, rfl, rfl, by simp⟩
  | r :: rows, h => by
    obtain ⟨line, h1, h2, h3⟩ := lineLoop_typeset rightmost (h r List.mem_cons_self)
    obtain ⟨lines, g1, g2, g3, g4⟩ := rowLines_ok rightmost rows fun x hx => h x (List.mem_cons_of_mem _ hx)
    refine ⟨(r.1, line) :: lines, by rw [rowLines, h1, g1]; rfl, by simp [g2], by simp [g3, h2], ?_⟩
    intro l hl p hp
    rcases List.mem_cons.mp hl with rfl | hl
    · exact ⟨r, List.mem_cons_self, h3 p hp⟩
    · obtain ⟨r', hr', hb⟩ := g4 l hl p hp
      exact ⟨r', List.mem_cons_of_mem _ hr', hb⟩

theorem pageLoop_eq (rightmost : Rat) (d : BoxDict) : ∀ (ys : List Rat) (prevY : Rat), pageLoop rightmost d prevY ys =
    (rowLines rightmost (ys.map fun y => (y, rowBoxes ((d.get? y).getD [])))).map (blanksBelow prevY)
  | [], _ => rfl
  | y :: ys, prevY => by
    rw [pageLoop, List.map_cons, rowLines, convertTextboxDictToLine, pageLoop_eq rightmost d ys y]
    cases lineLoop rightmost {} (rowBoxes ((d.get? y).getD [])) with
    | error e => rfl
    | ok line =>
      cases rowLines rightmost (ys.map fun y => (y, rowBoxes ((d.get? y).getD []))) with
      | error e => rfl
      | ok lines => rfl

/-- The result is determined by the rows and the right border. -/
theorem extractSinglePage_eq {boxes : List TextBox} {d : BoxDict} (h : sortTextboxesIntoDicts boxes = .ok d) {r : Rat}
    (hr : rightmostOnPage boxes = .ok r) : extractSinglePage boxes = (rowLines r (dictRows d)).map withBlanks := by
  unfold extractSinglePage
  rw [h, hr]
  show pageLoop r d 0 (sortRat d.keys).reverse = _
  rw [pageLoop_eq]
  unfold dictRows
  congr 1
  funext lines
  exact (withBlanks_eq lines).symm

/-- The right border is the greatest one. -/
theorem rightmost_spec {boxes : List TextBox} {r : Rat} (h : rightmostOnPage boxes = .ok r) :
    (∃ b ∈ boxes, r = b.width + b.x) ∧ ∀ b ∈ boxes, b.width + b.x ≤ r := by
  cases boxes with
  | nil => cases h
  | cons tb tbs =>
    injection h with h
    have : ∀ (tbs : List TextBox) (m : Rat), let r := tbs.foldl (fun m t => if m < t.width + t.x then t.width + t.x else m) m
        (r = m ∨ ∃ b ∈ tbs, r = b.width + b.x) ∧ m ≤ r ∧ ∀ b ∈ tbs, b.width + b.x ≤ r := by
      intro tbs
      induction tbs with
      | nil => intro m; exact ⟨.inl rfl, by dsimp; grind, by simp⟩
      | cons t tbs ih =>
        intro m
        rw [List.foldl_cons]
        by_cases hm : m < t.width + t.x
        · rw [if_pos hm]
          obtain ⟨h1, h2, h3⟩ := ih (t.width + t.x)
          refine ⟨.inr ?_, by grind, ?_⟩
          · rcases h1 with h1 | ⟨b, hb, h1⟩
            · exact ⟨t, List.mem_cons_self, h1⟩
            · exact ⟨b, List.mem_cons_of_mem _ hb, h1⟩
          · intro b hb
            rcases List.mem_cons.mp hb with rfl | hb
            · exact h2
            · exact h3 b hb
        · rw [if_neg hm]
          obtain ⟨h1, h2, h3⟩ := ih m
          refine ⟨?_, h2, ?_⟩
          · rcases h1 with h1 | ⟨b, hb, h1⟩
            · exact .inl h1
            · exact .inr ⟨b, List.mem_cons_of_mem _ hb, h1⟩
          · intro b hb
            rcases List.mem_cons.mp hb with rfl | hb
            · grind
            · exact h3 b hb
    obtain ⟨h1, h2, h3⟩ := this tbs (tb.width + tb.x)
    rw [h] at h1 h2 h3
    refine ⟨?_, ?_⟩
    · rcases h1 with h1 | ⟨b, hb, h1⟩
      · exact ⟨tb, List.mem_cons_self, h1⟩
      · exact ⟨b, List.mem_cons_of_mem _ hb, h1⟩
    · intro b hb
      rcases List.mem_cons.mp hb with rfl | hb
      · exact h2
      · exact h3 b hb

theorem rightmost_ok {boxes : List TextBox} (h : boxes ≠ []) : ∃ r, rightmostOnPage boxes = .ok r := by
  cases boxes with
  | nil => exact absurd rfl h
  | cons => exact ⟨_, rfl⟩

end Verif
