import Verif.Spec.Collector
import Verif.Proofs.HeaderLines

/-! # Lemmas about collecting reference lists -/

namespace Verif

open Verif.Spec

/-! ## Grouping -/

/-- Some consecutive items are merged. -/
inductive Grouped : List RefItem → List RefItem → Prop
  | nil : Grouped [] []
  | single (x) {xs gs} (h : Grouped xs gs) : Grouped (x :: xs) (x :: gs)
  | pair {x y a b xs gs} (hx : x.data = .one a) (hy : y.data = .one b) (hk : x.kind = y.kind)
      (hn : x.kind.isNext a b = .ok true) (h : Grouped xs gs) :
      Grouped (x :: y :: xs) ({ x with data := .range a b, endPos := y.endPos } :: gs)

theorem Grouped.append {xs gs ys hs : List RefItem} (h : Grouped xs gs) (h' : Grouped ys hs) :
    Grouped (xs ++ ys) (gs ++ hs) := by
  induction h with
  | nil => exact h'
  | single x _ ih => exact .single x ih
  | pair hx hy hk hn _ ih => exact .pair hx hy hk hn ih

/-- The item as it is in a list. -/
def RefItem.value (x : RefItem) : LevelValue := ⟨some x.data, x.startPos, x.endPos⟩

/-- The values at a level. -/
def valuesAt (gs : List RefItem) (l : RefLevel) : List LevelValue := (gs.filter fun g => itemLevel g = l).map RefItem.value

/-- The list of a level. -/
def listAt (gs : List RefItem) (l : RefLevel) : List LevelValue :=
  if valuesAt gs l = [] then [⟨none, 0, 0⟩] else valuesAt gs l

theorem listAt_snoc (gs : List RefItem) (d : RefItem) :
    addValue (listAt gs (itemLevel d)) d.value = .ok (listAt (gs ++ [d]) (itemLevel d)) := by
  have h : valuesAt (gs ++ [d]) (itemLevel d) = valuesAt gs (itemLevel d) ++ [d.value] := by simp [valuesAt]
  unfold listAt
  rw [h, if_neg (by simp : ¬ valuesAt gs (itemLevel d) ++ [d.value] = [])]
  cases hv : valuesAt gs (itemLevel d) with
  | nil => simp [addValue]
  | cons v vs =>
    have : v.data.isNone = false := by
      have hm : v ∈ valuesAt gs (itemLevel d) := by rw [hv]; exact List.mem_cons_self ..
      obtain ⟨g, -, rfl⟩ := List.mem_map.mp hm
      rfl
    simp [addValue, this]

theorem listAt_other (gs : List RefItem) (d : RefItem) {l : RefLevel} (h : l ≠ itemLevel d) :
    listAt (gs ++ [d]) l = listAt gs l := by
  have : valuesAt (gs ++ [d]) l = valuesAt gs l := by
    simp only [valuesAt, List.filter_append, List.map_append]
    rw [List.filter_cons_of_neg (by simpa using fun hh : itemLevel d = l => h hh.symm)]
    simp
  simp only [listAt, this]

/-- What has been collected so far. -/
def Collected (c : Collector) (items : List RefItem) : Prop :=
  ∃ gs, (∀ l, c.lists l = listAt gs l) ∧
    ((c.deferred = none ∧ Grouped items gs) ∨ ∃ d xs, c.deferred = some d ∧ items = xs ++ [d] ∧ Grouped xs gs)

theorem level_eq (k : PartKind) : k.level = kindLevel k := by cases k <;> rfl

theorem commit_spec {c : Collector} {gs : List RefItem} (hl : ∀ l, c.lists l = listAt gs l) {d : RefItem}
    (hd : c.deferred = some d) :
    ∃ c', c.commit = .ok c' ∧ c'.act = c.act ∧ c'.deferred = none ∧ ∀ l, c'.lists l = listAt (gs ++ [d]) l := by
  unfold Collector.commit
  have hv := listAt_snoc gs d
  rw [← hl] at hv
  simp only [hd, level_eq]
  rw [show addValue (c.lists (kindLevel d.kind)) ⟨some d.data, d.startPos, d.endPos⟩ = _ from hv]
  refine ⟨_, rfl, rfl, rfl, fun l => ?_⟩
  simp only
  by_cases h : l = kindLevel d.kind
  · rw [if_pos h, h]; rfl
  · rw [if_neg h, hl, listAt_other gs d h]

theorem commit_none {c : Collector} (hd : c.deferred = none) : c.commit = .ok c := by
  unfold Collector.commit; rw [hd]

theorem merged_some {c : Collector} {x m : RefItem} (h : c.merged x = .ok (some m)) :
    ∃ d a b, c.deferred = some d ∧ d.kind = x.kind ∧ d.data = .one a ∧ x.data = .one b ∧
      d.kind.isNext a b = .ok true ∧ m = { d with data := .range a b, endPos := x.endPos } := by
  unfold Collector.merged at h
  cases hd : c.deferred with
  | none => simp [hd] at h
  | some d =>
    simp only [hd] at h
    by_cases hk : d.kind ≠ x.kind
    · rw [if_pos hk] at h; cases h
    · rw [if_neg hk] at h
      have hk : d.kind = x.kind := Decidable.not_not.mp hk
      cases hda : d.data with
      | range a b => simp [hda] at h
      | one a =>
        cases hxa : x.data with
        | range a b => simp [hda, hxa] at h
        | one b =>
          simp only [hda, hxa] at h
          obtain ⟨v, hv, h⟩ := resBind_ok h
          cases v with
          | false => cases h
          | true =>
            simp only [if_true] at h
            cases h
            exact ⟨d, a, b, rfl, hk, hda, rfl, by rw [hk]; exact hv, rfl⟩

theorem add_spec {c c' : Collector} {items : List RefItem} {x : RefItem} (h : Collected c items)
    (ha : c.add x = .ok c') : Collected c' (items ++ [x]) ∧ c'.act = c.act := by
  unfold Collector.add at ha
  obtain ⟨m, hm, ha⟩ := resBind_ok ha
  obtain ⟨gs, hl, hg⟩ := h
  cases m with
  | some m =>
    obtain ⟨d, a, b, hd, hk, hda, hxb, hn, rfl⟩ := merged_some hm
    rcases hg with ⟨hd', -⟩ | ⟨d', xs, hd', rfl, hg⟩
    · rw [hd] at hd'; cases hd'
    · rw [hd] at hd'
      cases hd'
      obtain ⟨c1, h1, h2, h3, h4⟩ := commit_spec (c := { c with deferred := some { d with data := .range a b, endPos := x.endPos } }) hl rfl
      simp only at ha
      rw [h1] at ha
      cases ha
      refine ⟨⟨_, h4, .inl ⟨h3, ?_⟩⟩, h2⟩
      rw [List.append_assoc]
      exact hg.append (.pair hda hxb hk hn .nil)
  | none =>
    obtain ⟨c1, h1, ha⟩ := resBind_ok ha
    cases ha
    rcases hg with ⟨hd, hg⟩ | ⟨d, xs, hd, rfl, hg⟩
    · rw [commit_none hd] at h1
      cases h1
      exact ⟨⟨gs, hl, .inr ⟨x, items, rfl, rfl, hg⟩⟩, rfl⟩
    · obtain ⟨c2, h1', h2, h3, h4⟩ := commit_spec hl hd
      rw [h1'] at h1
      cases h1
      exact ⟨⟨_, h4, .inr ⟨x, xs ++ [d], rfl, rfl, hg.append (.single d .nil)⟩⟩, h2⟩

theorem addAll_spec {items : List RefItem} : ∀ {c c' : Collector} {before : List RefItem}, Collected c before →
    c.addAll items = .ok c' → Collected c' (before ++ items) ∧ c'.act = c.act := by
  induction items with
  | nil => intro c c' before h ha; cases ha; exact ⟨by simpa using h, rfl⟩
  | cons x xs ih =>
    intro c c' before h ha
    obtain ⟨c1, h1, ha⟩ := resBind_ok (show (c.add x >>= fun c1 => c1.addAll xs) = .ok c' from ha)
    obtain ⟨k1, k2⟩ := add_spec h h1
    obtain ⟨k3, k4⟩ := ih k1 ha
    exact ⟨by simpa using k3, k4.trans k2⟩

/-- After the last item has been committed, the lists are those of the groups. -/
theorem collected {act : Option Str} {items : List RefItem} {c : Collector}
    (h : ({ act := act } : Collector).addAll items = .ok c) :
    ∃ c' gs, c.commit = .ok c' ∧ c'.act = act ∧ Grouped items gs ∧ ∀ l, c'.lists l = listAt gs l := by
  obtain ⟨⟨gs, hl, hg⟩, ha⟩ := addAll_spec (before := []) ⟨[], fun l => rfl, .inl ⟨rfl, .nil⟩⟩ h
  rcases hg with ⟨hd, hg⟩ | ⟨d, xs, hd, he, hg⟩
  · exact ⟨c, gs, commit_none hd, ha, by simpa using hg, hl⟩
  · obtain ⟨c2, h1, h2, h3, h4⟩ := commit_spec hl hd
    refine ⟨c2, _, h1, h2.trans ha, ?_, h4⟩
    simp only [List.nil_append] at he
    rw [he]
    exact hg.append (.single d .nil)

/-! ## Sorting -/

theorem insertValue_perm (v : LevelValue) (l : List LevelValue) : (insertValue v l).Perm (v :: l) := by
  induction l with
  | nil => exact .refl _
  | cons w ws ih =>
    unfold insertValue
    split
    · exact .refl _
    · exact (List.Perm.cons w ih).trans (.swap v w ws)

theorem sortValues_perm (l : List LevelValue) : (sortValues l).Perm l := by
  induction l with
  | nil => exact .refl _
  | cons v vs ih => exact (insertValue_perm v _).trans (.cons v ih)

theorem insertValue_sorted (v : LevelValue) {l : List LevelValue} (h : l.Pairwise fun x y => x.startPos ≤ y.startPos) :
    (insertValue v l).Pairwise fun x y => x.startPos ≤ y.startPos := by
  induction l with
  | nil => simp [insertValue]
  | cons w ws ih =>
    obtain ⟨h1, h2⟩ := List.pairwise_cons.mp h
    unfold insertValue
    split
    · rename_i hv
      refine List.pairwise_cons.mpr ⟨fun y hy => ?_, h⟩
      rcases List.mem_cons.mp hy with rfl | hy
      · exact hv
      · have := h1 y hy; omega
    · rename_i hv
      refine List.pairwise_cons.mpr ⟨fun y hy => ?_, ih h2⟩
      rcases List.mem_cons.mp ((insertValue_perm v ws).mem_iff.mp hy) with rfl | hy
      · omega
      · exact h1 y hy

theorem sortValues_sorted (l : List LevelValue) : (sortValues l).Pairwise fun x y => x.startPos ≤ y.startPos := by
  induction l with
  | nil => exact .nil
  | cons v vs ih => exact insertValue_sorted v ih

/-! ## Iterating -/

theorem component_set (l m : RefLevel) (r : Reference) (x : Option Ident) :
    component (l.set r x) m = if m = l then x else component r m := by
  cases l <;> cases m <;> rfl

theorem act_set (l : RefLevel) (r : Reference) (x : Option Ident) : (l.set r x).act = r.act := by cases l <;> rfl

/-- The references of all but the last value. -/
def leading (l : RefLevel) (args : Reference) (o : Option Int) : List LevelValue → List OutgoingReference
  | [] => []
  | v :: vs => ⟨o.getD v.startPos, v.endPos, l.set args v.data⟩ ::
      vs.map fun w => ⟨w.startPos, w.endPos, l.set args w.data⟩

theorem iterValues_eq (l : RefLevel) (args : Reference) (last : LevelValue) : ∀ (vs : List LevelValue) (o : Option Int),
    iterValues l args o (vs ++ [last]) = (leading l args o vs, if vs = [] then o else none, some last) := by
  intro vs
  induction vs with
  | nil => intro o; rfl
  | cons v vs ih =>
    intro o
    obtain ⟨w, ws, hw⟩ : ∃ w ws, vs ++ [last] = w :: ws := by cases vs <;> exact ⟨_, _, rfl⟩
    rw [List.cons_append, hw, iterValues, ← hw, ih none]
    cases vs with
    | nil => rfl
    | cons a as => simp [leading]

theorem iterLevels_cons {c : Collector} {stop : Int} {l : RefLevel} {ls : List RefLevel} {o : Int} {args : Reference}
    {out : List OutgoingReference} {vs : List LevelValue} {last : LevelValue}
    (hs : sortValues (c.lists l) = vs ++ [last]) (h : c.iterLevels stop (l :: ls) (some o) args = .ok out) :
    ∃ rest, out = leading l args (some o) vs ++ rest ∧
      c.iterLevels stop ls (some (if vs = [] then o else last.startPos)) (l.set args last.data) = .ok rest := by
  unfold Collector.iterLevels at h
  have hx : iterLevel l args (some o) (c.lists l) =
        (leading l args (some o) vs, if vs = [] then some o else none, some last) := by
    rw [← iterValues_eq, ← hs]
    cases c.lists l with
    | nil => rfl
    | cons v ws => cases ws <;> rfl
  simp only [hx] at h
  obtain ⟨rest, hr, h⟩ := resBind_ok h
  cases h
  refine ⟨rest, rfl, ?_⟩
  rw [← hr]
  by_cases hv : vs = [] <;> simp [hv]

/-- The last value at a level. -/
def lastData (gs : List RefItem) (l : RefLevel) : Option Ident := ((sortValues (valuesAt gs l)).getLast?).bind (·.data)

/-- The values can be read without ambiguity. -/
structure PlainValues (gs : List RefItem) (ls : List RefLevel) (o stop : Int) : Prop where
  inside : ∀ l ∈ ls, ∀ v ∈ valuesAt gs l, o ≤ v.startPos ∧ v.startPos < v.endPos ∧ v.endPos ≤ stop
  levels : ∀ l ∈ ls, ∀ m ∈ ls, Above l m → ∀ v ∈ valuesAt gs l, ∀ w ∈ valuesAt gs m, v.endPos ≤ w.startPos
  apart : ∀ l ∈ ls, (valuesAt gs l).Pairwise fun v w => v.endPos ≤ w.startPos ∨ w.endPos ≤ v.startPos

/-- What is known about the references of the remaining levels. -/
structure Iterated (gs : List RefItem) (ls : List RefLevel) (o stop : Int) (args : Reference)
    (out : List OutgoingReference) : Prop where
  order : out.Pairwise fun x y => x.endPos ≤ y.startPos
  inside : ∀ r ∈ out, o ≤ r.startPos ∧ r.startPos < r.endPos ∧ r.endPos ≤ stop ∧ r.reference.act = args.act
  above : ∀ r ∈ out, ∀ m, m ∉ ls → component r.reference m = component args m
  complete : ∀ l ∈ ls, ∀ v ∈ valuesAt gs l, ∃ r ∈ out, component r.reference l = v.data ∧ r.startPos ≤ v.startPos ∧
    v.endPos ≤ r.endPos ∧ ∀ m ∈ ls, Above m l → component r.reference m = lastData gs m
  sound : ∀ r ∈ out,
    (r.startPos = o ∧ r.endPos = stop ∧ ∀ l ∈ ls, valuesAt gs l = [] ∧ component r.reference l = none) ∨
    ∃ l ∈ ls, ∃ v ∈ valuesAt gs l, component r.reference l = v.data ∧ r.startPos ≤ v.startPos ∧ v.endPos ≤ r.endPos ∧
      (∀ m ∈ ls, Above m l → component r.reference m = lastData gs m) ∧
      ∀ m ∈ ls, Above l m → component r.reference m = none
  first : ∃ r ∈ out, r.startPos = o ∧ (r.endPos = stop ∨ ∃ l ∈ ls, ∃ v ∈ valuesAt gs l, r.endPos = v.endPos)

theorem above_irrefl (l : RefLevel) : ¬ Above l l := Nat.lt_irrefl _

theorem above_asymm {l m : RefLevel} (h : Above l m) : ¬ Above m l := Nat.lt_asymm h

theorem pairwise_of_perm {α : Type} {R : α → α → Prop} (hs : ∀ a b, R a b → R b a) {l m : List α} (h : l.Perm m)
    (hl : l.Pairwise R) : m.Pairwise R :=
  h.pairwise hl (fun {a b} => hs a b)

theorem iter_spec {c : Collector} {gs : List RefItem} (hl : ∀ l, c.lists l = listAt gs l) (stop : Int) :
    ∀ (ls : List RefLevel) (o : Int) (args : Reference) (out : List OutgoingReference), ls.Pairwise Above →
    PlainValues gs ls o stop → o < stop → (∀ m ∈ ls, component args m = none) →
    c.iterLevels stop ls (some o) args = .ok out → Iterated gs ls o stop args out := by
  intro ls
  induction ls with
  | nil =>
    intro o args out _ _ ho _ h
    unfold Collector.iterLevels at h
    cases h
    refine ⟨by simp, ?_, ?_, by simp, ?_, ⟨_, List.mem_cons_self .., rfl, .inl rfl⟩⟩
    · intro r hr
      obtain rfl := List.mem_singleton.mp hr
      exact ⟨Int.le_refl _, ho, Int.le_refl _, rfl⟩
    · intro r hr m _
      obtain rfl := List.mem_singleton.mp hr
      rfl
    · intro r hr
      obtain rfl := List.mem_singleton.mp hr
      exact .inl ⟨rfl, rfl, by simp⟩
  | cons l ls ih =>
    intro o args out hp hv ho hargs h
    obtain ⟨hpl, hp⟩ := List.pairwise_cons.mp hp
    have hnot : l ∉ ls := fun hm => above_irrefl l (hpl l hm)
    have hargs' : ∀ x, ∀ m ∈ ls, component (l.set args x) m = none := by
      intro x m hm
      rw [component_set, if_neg (by rintro rfl; exact hnot hm)]
      exact hargs m (List.mem_cons_of_mem _ hm)
    by_cases he : valuesAt gs l = []
    · have hs : sortValues (c.lists l) = [] ++ [⟨none, 0, 0⟩] := by rw [hl, listAt, if_pos he]; rfl
      obtain ⟨rest, hout, hiter⟩ := iterLevels_cons hs h
      have hout : out = rest := hout
      subst hout
      simp only [if_true] at hiter
      have ih := ih o (l.set args none) out hp
        ⟨fun l hl => hv.inside l (List.mem_cons_of_mem _ hl),
          fun l hl m hm => hv.levels l (List.mem_cons_of_mem _ hl) m (List.mem_cons_of_mem _ hm),
          fun l hl => hv.apart l (List.mem_cons_of_mem _ hl)⟩ ho (hargs' none) hiter
      have hlast : lastData gs l = none := by simp [lastData, he, sortValues]
      have hcl : ∀ r ∈ out, component r.reference l = none := by
        intro r hr
        rw [ih.above r hr l hnot, component_set, if_pos rfl]
      refine ⟨ih.order, ?_, ?_, ?_, ?_, ?_⟩
      · intro r hr
        have := ih.inside r hr
        rw [act_set] at this
        exact this
      · intro r hr m hm
        have h1 : m ≠ l := fun h => hm (by rw [h]; exact List.mem_cons_self ..)
        rw [ih.above r hr m fun h => hm (List.mem_cons_of_mem _ h), component_set, if_neg h1]
      · intro k hk v hvk
        rcases List.mem_cons.mp hk with rfl | hk
        · rw [he] at hvk; cases hvk
        · obtain ⟨r, hr, h1, h2, h3, h4⟩ := ih.complete k hk v hvk
          refine ⟨r, hr, h1, h2, h3, fun m hm ha => ?_⟩
          rcases List.mem_cons.mp hm with rfl | hm
          · rw [hlast, hcl r hr]
          · exact h4 m hm ha
      · intro r hr
        rcases ih.sound r hr with ⟨h1, h2, h3⟩ | ⟨k, hk, v, hvk, h1, h2, h3, h4, h5⟩
        · refine .inl ⟨h1, h2, fun m hm => ?_⟩
          rcases List.mem_cons.mp hm with rfl | hm
          · exact ⟨he, hcl r hr⟩
          · exact h3 m hm
        · refine .inr ⟨k, List.mem_cons_of_mem _ hk, v, hvk, h1, h2, h3, fun m hm ha => ?_, fun m hm ha => ?_⟩
          · rcases List.mem_cons.mp hm with rfl | hm
            · rw [hlast, hcl r hr]
            · exact h4 m hm ha
          · rcases List.mem_cons.mp hm with rfl | hm
            · exact absurd ha (above_asymm (hpl k hk))
            · exact h5 m hm ha
      · obtain ⟨r, hr, h1, h2⟩ := ih.first
        exact ⟨r, hr, h1, h2.imp id fun ⟨k, hk, v, hv, h⟩ => ⟨k, List.mem_cons_of_mem _ hk, v, hv, h⟩⟩
    · have hperm := sortValues_perm (valuesAt gs l)
      have hne : sortValues (valuesAt gs l) ≠ [] := by
        intro h0
        rw [h0] at hperm
        exact he (List.Perm.nil_eq hperm).symm
      obtain ⟨vs, last, hs⟩ : ∃ vs last, sortValues (valuesAt gs l) = vs ++ [last] :=
        ⟨_, _, (List.dropLast_concat_getLast hne).symm⟩
      have hs' : sortValues (c.lists l) = vs ++ [last] := by rw [hl, listAt, if_neg he, hs]
      obtain ⟨rest, rfl, hiter⟩ := iterLevels_cons hs' h
      have hmem : ∀ v, v ∈ valuesAt gs l ↔ v ∈ vs ∨ v = last := by
        intro v
        rw [← hperm.mem_iff, hs]
        simp
      have hin : ∀ v ∈ valuesAt gs l, o ≤ v.startPos ∧ v.startPos < v.endPos ∧ v.endPos ≤ stop :=
        hv.inside l (List.mem_cons_self ..)
      have hord : (vs ++ [last]).Pairwise fun v w => v.endPos ≤ w.startPos := by
        have h1 := sortValues_sorted (valuesAt gs l)
        have h2 := pairwise_of_perm (fun _ _ h => h.symm) hperm.symm (hv.apart l (List.mem_cons_self ..))
        rw [hs] at h1 h2
        have h3 := List.pairwise_and_iff.mpr ⟨h1, h2⟩
        refine List.Pairwise.imp_of_mem ?_ h3
        intro a b ha hb ⟨hab, hd⟩
        have ha := hin a ((hmem a).mpr (by simpa using ha))
        have hb := hin b ((hmem b).mpr (by simpa using hb))
        omega
      obtain ⟨hord1, -, hord2⟩ := List.pairwise_append.mp hord
      have hlastin := hin last ((hmem last).mpr (.inr rfl))
      have hlow : ∀ m ∈ ls, ∀ w ∈ valuesAt gs m, last.endPos ≤ w.startPos := fun m hm w hw =>
        hv.levels l (List.mem_cons_self ..) m (List.mem_cons_of_mem _ hm) (hpl m hm) last ((hmem last).mpr (.inr rfl)) w hw
      have ho' : (if vs = [] then o else last.startPos) ≤ last.startPos := by split <;> omega
      have hoo : o ≤ if vs = [] then o else last.startPos := by split <;> omega
      have ih := ih (if vs = [] then o else last.startPos) (l.set args last.data) rest hp
        ⟨fun k hk w hw => by
            have h1 := hlow k hk w hw
            have h2 := hv.inside k (List.mem_cons_of_mem _ hk) w hw
            exact ⟨by omega, h2.2⟩,
          fun l hl m hm => hv.levels l (List.mem_cons_of_mem _ hl) m (List.mem_cons_of_mem _ hm),
          fun l hl => hv.apart l (List.mem_cons_of_mem _ hl)⟩ (by omega) (hargs' _) hiter
      have hlast : lastData gs l = last.data := by simp [lastData, hs]
      have hcl : ∀ r ∈ rest, component r.reference l = last.data := by
        intro r hr
        rw [ih.above r hr l hnot, component_set, if_pos rfl]
      -- the references before the last value
      have hlead : ∀ r ∈ leading l args (some o) vs, vs ≠ [] ∧ ∃ v ∈ vs, r.endPos = v.endPos ∧
          (r.startPos = v.startPos ∨ r.startPos = o) ∧ r.reference = l.set args v.data := by
        intro r hr
        cases vs with
        | nil => cases hr
        | cons v ws =>
          rcases List.mem_cons.mp hr with rfl | hr
          · exact ⟨by simp, v, List.mem_cons_self .., rfl, .inr rfl, rfl⟩
          · obtain ⟨w, hw, rfl⟩ := List.mem_map.mp hr
            exact ⟨by simp, w, List.mem_cons_of_mem _ hw, rfl, .inl rfl, rfl⟩
      have hleadc : ∀ v ∈ vs, ∃ r ∈ leading l args (some o) vs, r.endPos = v.endPos ∧ r.startPos ≤ v.startPos ∧
          r.reference = l.set args v.data := by
        intro v hvm
        cases vs with
        | nil => cases hvm
        | cons w ws =>
          rcases List.mem_cons.mp hvm with rfl | hvm
          · exact ⟨_, List.mem_cons_self .., rfl, (hin v ((hmem v).mpr (.inl (List.mem_cons_self ..)))).1, rfl⟩
          · exact ⟨_, List.mem_cons_of_mem _ (List.mem_map_of_mem hvm), rfl, Int.le_refl _, rfl⟩
      have hleado : (leading l args (some o) vs).Pairwise fun x y => x.endPos ≤ y.startPos := by
        cases vs with
        | nil => exact .nil
        | cons v ws =>
          obtain ⟨h1, h2⟩ := List.pairwise_cons.mp hord1
          refine List.pairwise_cons.mpr ⟨?_, ?_⟩
          · intro r hr
            obtain ⟨w, hw, rfl⟩ := List.mem_map.mp hr
            exact h1 w hw
          · exact List.pairwise_map.mpr h2
      refine ⟨?_, ?_, ?_, ?_, ?_, ?_⟩
      · refine List.pairwise_append.mpr ⟨hleado, ih.order, fun x hx y hy => ?_⟩
        obtain ⟨hne, v, hvm, h1, -⟩ := hlead x hx
        have h2 := hord2 v hvm last (List.mem_singleton.mpr rfl)
        have h3 := (ih.inside y hy).1
        rw [if_neg hne] at h3
        omega
      · intro r hr
        rcases List.mem_append.mp hr with hr | hr
        · obtain ⟨hne, v, hvm, h1, h2, h3⟩ := hlead r hr
          have := hin v ((hmem v).mpr (.inl hvm))
          refine ⟨by omega, by omega, by omega, ?_⟩
          rw [h3, act_set]
        · have := ih.inside r hr
          rw [act_set] at this
          exact ⟨by omega, this.2⟩
      · intro r hr m hm
        have h1 : m ≠ l := fun h => hm (by rw [h]; exact List.mem_cons_self ..)
        rcases List.mem_append.mp hr with hr | hr
        · obtain ⟨-, v, -, -, -, h3⟩ := hlead r hr
          rw [h3, component_set, if_neg h1]
        · rw [ih.above r hr m fun h => hm (List.mem_cons_of_mem _ h), component_set, if_neg h1]
      · intro k hk v hvk
        rcases List.mem_cons.mp hk with rfl | hk
        · have hnone : ∀ m ∈ k :: ls, ¬ Above m k := by
            intro m hm
            rcases List.mem_cons.mp hm with rfl | hm
            · exact above_irrefl _
            · exact above_asymm (hpl m hm)
          rcases (hmem v).mp hvk with hvm | rfl
          · obtain ⟨r, hr, h1, h2, h3⟩ := hleadc v hvm
            refine ⟨r, List.mem_append_left _ hr, by rw [h3, component_set, if_pos rfl], h2, by omega, ?_⟩
            exact fun m hm ha => absurd ha (hnone m hm)
          · obtain ⟨r, hr, h1, h2⟩ := ih.first
            refine ⟨r, List.mem_append_right _ hr, hcl r hr, by omega, ?_, fun m hm ha => absurd ha (hnone m hm)⟩
            rcases h2 with h2 | ⟨k', hk', w, hw, h2⟩
            · omega
            · have := hlow k' hk' w hw
              have := hv.inside k' (List.mem_cons_of_mem _ hk') w hw
              omega
        · obtain ⟨r, hr, h1, h2, h3, h4⟩ := ih.complete k hk v hvk
          refine ⟨r, List.mem_append_right _ hr, h1, h2, h3, fun m hm ha => ?_⟩
          rcases List.mem_cons.mp hm with rfl | hm
          · rw [hlast, hcl r hr]
          · exact h4 m hm ha
      · intro r hr0
        rcases List.mem_append.mp hr0 with hr | hr
        · obtain ⟨-, v, hvm, h1, h2, h3⟩ := hlead r hr
          have hvi := hin v ((hmem v).mpr (.inl hvm))
          refine .inr ⟨l, List.mem_cons_self .., v, (hmem v).mpr (.inl hvm), by rw [h3, component_set, if_pos rfl],
            by omega, by omega, fun m hm ha => ?_, fun m hm ha => ?_⟩
          · rcases List.mem_cons.mp hm with rfl | hm
            · exact absurd ha (above_irrefl _)
            · exact absurd ha (above_asymm (hpl m hm))
          · rcases List.mem_cons.mp hm with rfl | hm
            · exact absurd ha (above_irrefl _)
            · rw [h3]; exact hargs' _ m hm
        · rcases ih.sound r hr with ⟨h1, h2, h3⟩ | ⟨k, hk, v, hvk, h1, h2, h3, h4, h5⟩
          · refine .inr ⟨l, List.mem_cons_self .., last, (hmem last).mpr (.inr rfl), hcl r hr, by omega, by omega,
              fun m hm ha => ?_, fun m hm ha => ?_⟩
            · rcases List.mem_cons.mp hm with rfl | hm
              · exact absurd ha (above_irrefl _)
              · exact absurd ha (above_asymm (hpl m hm))
            · rcases List.mem_cons.mp hm with rfl | hm
              · exact absurd ha (above_irrefl _)
              · exact (h3 m hm).2
          · refine .inr ⟨k, List.mem_cons_of_mem _ hk, v, hvk, h1, h2, h3, fun m hm ha => ?_, fun m hm ha => ?_⟩
            · rcases List.mem_cons.mp hm with rfl | hm
              · rw [hlast, hcl r hr]
              · exact h4 m hm ha
            · rcases List.mem_cons.mp hm with rfl | hm
              · exact absurd ha (above_asymm (hpl k hk))
              · exact h5 m hm ha
      · cases hvs : vs with
        | nil =>
          obtain ⟨r, hr, h1, h2⟩ := ih.first
          rw [if_pos hvs] at h1
          exact ⟨r, by simpa [leading] using hr, h1, h2.imp id fun ⟨k, hk, v, hv, h⟩ => ⟨k, List.mem_cons_of_mem _ hk, v, hv, h⟩⟩
        | cons v ws =>
          exact ⟨_, List.mem_append_left _ (List.mem_cons_self ..), rfl,
            .inr ⟨l, List.mem_cons_self .., v, (hmem v).mpr (.inl (by rw [hvs]; exact List.mem_cons_self ..)), rfl⟩⟩

theorem lastData_spec {gs : List RefItem} {ls : List RefLevel} {o stop : Int} (hv : PlainValues gs ls o stop)
    {l : RefLevel} (hl : l ∈ ls) (he : valuesAt gs l ≠ []) :
    ∃ last ∈ valuesAt gs l, lastData gs l = last.data ∧ ∀ v ∈ valuesAt gs l, v = last ∨ v.endPos ≤ last.startPos := by
  have hperm := sortValues_perm (valuesAt gs l)
  have hne : sortValues (valuesAt gs l) ≠ [] := by
    intro h0
    rw [h0] at hperm
    exact he (List.Perm.nil_eq hperm).symm
  obtain ⟨vs, last, hs⟩ : ∃ vs last, sortValues (valuesAt gs l) = vs ++ [last] :=
    ⟨_, _, (List.dropLast_concat_getLast hne).symm⟩
  have hmem : ∀ v, v ∈ valuesAt gs l ↔ v ∈ vs ∨ v = last := by
    intro v
    rw [← hperm.mem_iff, hs]
    simp
  refine ⟨last, (hmem last).mpr (.inr rfl), by simp [lastData, hs], fun v hvm => ?_⟩
  rcases (hmem v).mp hvm with h | h
  · right
    have h1 := sortValues_sorted (valuesAt gs l)
    have h2 := pairwise_of_perm (fun _ _ h => h.symm) hperm.symm (hv.apart l hl)
    rw [hs] at h1 h2
    have h3 := (List.pairwise_append.mp h1).2.2 v h last (List.mem_singleton.mpr rfl)
    have h4 := (List.pairwise_append.mp h2).2.2 v h last (List.mem_singleton.mpr rfl)
    have h5 := hv.inside l hl v hvm
    have h6 := hv.inside l hl last ((hmem last).mpr (.inr rfl))
    omega
  · exact .inl h

/-! ## The groups of a plain list -/

/-- A group is an item or made of two items. -/
def GroupOf (items : List RefItem) (g : RefItem) : Prop :=
  g ∈ items ∨ ∃ p x y q a b, items = p ++ x :: y :: q ∧ x.data = .one a ∧ y.data = .one b ∧ Neighbours x y ∧
    g = { x with data := .range a b, endPos := y.endPos }

theorem GroupOf.before {items : List RefItem} {g : RefItem} (h : GroupOf items g) (p : List RefItem) :
    GroupOf (p ++ items) g := by
  rcases h with h | ⟨p', x, y, q, a, b, rfl, h⟩
  · exact .inl (List.mem_append_right _ h)
  · exact .inr ⟨p ++ p', x, y, q, a, b, by simp, h⟩

theorem Grouped.groups {items gs : List RefItem} (h : Grouped items gs) : ∀ g ∈ gs, GroupOf items g := by
  induction h with
  | nil => simp
  | single x _ ih =>
    intro g hg
    rcases List.mem_cons.mp hg with rfl | hg
    · exact .inl (List.mem_cons_self ..)
    · exact (ih g hg).before [x]
  | @pair x y a b xs gs hx hy hk hn _ ih =>
    intro g hg
    rcases List.mem_cons.mp hg with rfl | hg
    · exact .inr ⟨[], x, y, xs, a, b, rfl, hx, hy, ⟨hk, a, b, hx, hy, hn⟩, rfl⟩
    · exact (ih g hg).before [x, y]

theorem Grouped.members {items gs : List RefItem} (h : Grouped items gs) : ∀ x ∈ items, x ∈ gs ∨
    ∃ g ∈ gs, ∃ p y z q a b, items = p ++ y :: z :: q ∧ y.data = .one a ∧ z.data = .one b ∧ Neighbours y z ∧
      g = { y with data := .range a b, endPos := z.endPos } ∧ (x = y ∨ x = z) := by
  induction h with
  | nil => simp
  | single x _ ih =>
    intro w hw
    rcases List.mem_cons.mp hw with rfl | hw
    · exact .inl (List.mem_cons_self ..)
    · rcases ih w hw with h | ⟨g, hg, p, y, z, q, a, b, rfl, h⟩
      · exact .inl (List.mem_cons_of_mem _ h)
      · exact .inr ⟨g, List.mem_cons_of_mem _ hg, x :: p, y, z, q, a, b, rfl, h⟩
  | @pair x y a b xs gs hx hy hk hn _ ih =>
    intro w hw
    have hw : (w = x ∨ w = y) ∨ w ∈ xs := by simpa [or_assoc] using hw
    rcases hw with hw | hw
    · exact .inr ⟨_, List.mem_cons_self .., [], x, y, xs, a, b, rfl, hx, hy, ⟨hk, a, b, hx, hy, hn⟩, rfl, hw⟩
    · rcases ih w hw with h | ⟨g, hg, p, y', z, q, a, b, rfl, h⟩
      · exact .inl (List.mem_cons_of_mem _ h)
      · exact .inr ⟨g, List.mem_cons_of_mem _ hg, x :: y :: p, y', z, q, a, b, rfl, h⟩

theorem Grouped.apart {items gs : List RefItem} (h : Grouped items gs) : ∀ {p : List RefItem} {start stop : Int},
    PlainList (p ++ items) start stop →
    gs.Pairwise fun g h => itemLevel g = itemLevel h → g.endPos ≤ h.startPos ∨ h.endPos ≤ g.startPos := by
  induction h with
  | nil => intros; exact .nil
  | @single x xs gs hg ih =>
    intro p start stop hp
    refine List.pairwise_cons.mpr ⟨fun g hgm hl => ?_, ih (p := p ++ [x]) (by simpa using hp)⟩
    rcases hg.groups g hgm with hm | ⟨p', y, z, q, a, b, rfl, hy, hz, hn, rfl⟩
    · have := (List.pairwise_append.mp hp.apart).2.1
      exact (List.pairwise_cons.mp this).1 g hm hl
    · have := (hp.runs (p ++ x :: p') y z q (by simp) hn).2 x (by simp) hl
      simpa using this
  | @pair x y a b xs gs hx hy hk hn hg ih =>
    intro p start stop hp
    refine List.pairwise_cons.mpr ⟨fun g hgm hl => ?_, ih (p := p ++ [x, y]) (by simpa using hp)⟩
    have hr := hp.runs p x y xs rfl ⟨hk, a, b, hx, hy, hn⟩
    have hxl := hp.inside x (by simp)
    rcases hg.groups g hgm with hm | ⟨p', z, w, q, a', b', rfl, hz, hw, hn', rfl⟩
    · have := hr.2 g (List.mem_append_right _ hm) hl.symm
      simp only
      omega
    · have hl' : itemLevel z = itemLevel x := hl.symm
      have h1 := hp.runs (p ++ x :: y :: p') z w q (by simp) hn'
      have h2 := h1.2 x (by simp) hl'.symm
      have h3 := hr.2 z (by simp) hl'
      have h4 := hp.inside z (by simp)
      simp only
      omega

theorem mem_valuesAt {gs : List RefItem} {l : RefLevel} {v : LevelValue} :
    v ∈ valuesAt gs l ↔ ∃ g ∈ gs, itemLevel g = l ∧ v = g.value := by
  simp [valuesAt, and_assoc, eq_comm]

/-- Where the start and the end of a group are from. -/
theorem GroupOf.bounds {items : List RefItem} {g : RefItem} {start stop : Int} (hp : PlainList items start stop)
    (h : GroupOf items g) : ∃ x ∈ items, ∃ y ∈ items, itemLevel x = itemLevel g ∧ itemLevel y = itemLevel g ∧
      g.startPos = x.startPos ∧ g.endPos = y.endPos ∧ x.endPos ≤ y.endPos ∧ Names items g.data x ∧
      (x = y ∨ x.endPos ≤ y.startPos) := by
  rcases h with h | ⟨p, x, y, q, a, b, rfl, hx, hy, hn, rfl⟩
  · exact ⟨g, h, g, h, rfl, rfl, rfl, rfl, Int.le_refl _, .inl rfl, .inl rfl⟩
  · have h1 := (hp.runs p x y q rfl hn).1
    have h2 := hp.inside y (by simp)
    refine ⟨x, by simp, y, by simp, rfl, ?_, rfl, rfl, by omega, .inr ⟨y, by simp, a, b, rfl, .inl ⟨hn, hx, hy⟩⟩, .inr h1⟩
    show kindLevel y.kind = kindLevel x.kind
    rw [hn.1]

theorem plainValues {items gs : List RefItem} {start stop : Int} (hp : PlainList items start stop) (hg : Grouped items gs)
    (ls : List RefLevel) : PlainValues gs ls start stop := by
  refine ⟨?_, ?_, ?_⟩
  · intro l _ v hv
    obtain ⟨g, hgm, rfl, rfl⟩ := mem_valuesAt.mp hv
    obtain ⟨x, hx, y, hy, -, -, h1, h2, h3, -⟩ := (hg.groups g hgm).bounds hp
    have := hp.inside x hx
    have := hp.inside y hy
    simp only [RefItem.value]
    omega
  · intro l _ m _ hlm v hv w hw
    obtain ⟨g, hgm, rfl, rfl⟩ := mem_valuesAt.mp hv
    obtain ⟨g', hgm', rfl, rfl⟩ := mem_valuesAt.mp hw
    obtain ⟨x, hx, y, hy, -, hyl, -, h2, -⟩ := (hg.groups g hgm).bounds hp
    obtain ⟨x', hx', y', hy', hxl, -, h1, -⟩ := (hg.groups g' hgm').bounds hp
    have := hp.levels y hy x' hx' (by rw [hyl, hxl]; exact hlm)
    simp only [RefItem.value]
    omega
  · intro l _
    have h := hg.apart (p := []) hp
    unfold valuesAt
    refine List.pairwise_map.mpr ?_
    have h' := h.filter (fun g => itemLevel g = l)
    refine h'.imp_of_mem ?_
    intro a b ha hb hab
    have ha := (List.mem_filter.mp ha).2
    have hb := (List.mem_filter.mp hb).2
    simp only [decide_eq_true_eq] at ha hb
    exact hab (ha.trans hb.symm)

/-- The group of an item. -/
theorem group_of {items gs : List RefItem} {start stop : Int} (hp : PlainList items start stop) (hg : Grouped items gs)
    {x : RefItem} (hx : x ∈ items) : ∃ g ∈ gs, itemLevel g = itemLevel x ∧ g.startPos ≤ x.startPos ∧ x.endPos ≤ g.endPos ∧
      Names items g.data x := by
  rcases hg.members x hx with h | ⟨g, hgm, p, y, z, q, a, b, rfl, hy, hz, hn, rfl, hxy⟩
  · exact ⟨x, h, rfl, Int.le_refl _, Int.le_refl _, .inl rfl⟩
  · have h1 := (hp.runs p y z q rfl hn).1
    have h2 := hp.inside y (by simp)
    have h3 := hp.inside z (by simp)
    refine ⟨_, hgm, ?_, ?_, ?_, ?_⟩
    · rcases hxy with rfl | rfl
      · rfl
      · show kindLevel y.kind = kindLevel x.kind
        rw [hn.1]
    · rcases hxy with rfl | rfl
      · exact Int.le_refl _
      · simp only; omega
    · rcases hxy with rfl | rfl
      · simp only; omega
      · exact Int.le_refl _
    · rcases hxy with rfl | rfl
      · exact .inr ⟨z, by simp, a, b, rfl, .inl ⟨hn, hy, hz⟩⟩
      · exact .inr ⟨y, by simp, a, b, rfl, .inr ⟨hn, hy, hz⟩⟩

theorem lastData_none {items gs : List RefItem} (hg : Grouped items gs) {l : RefLevel}
    (h : ∀ x ∈ items, itemLevel x ≠ l) : lastData gs l = none := by
  have : valuesAt gs l = [] := by
    refine List.eq_nil_iff_forall_not_mem.mpr fun v hv => ?_
    obtain ⟨g, hgm, hl, rfl⟩ := mem_valuesAt.mp hv
    rcases hg.groups g hgm with hm | ⟨p, x, y, q, a, b, rfl, -, -, -, rfl⟩
    · exact h g hm hl
    · exact h x (by simp) hl
  simp [lastData, this, sortValues]

theorem lastData_last {items gs : List RefItem} {start stop : Int} (hp : PlainList items start stop)
    (hg : Grouped items gs) {x : RefItem} (hx : LastAt items x) :
    ∃ p, lastData gs (itemLevel x) = some p ∧ Names items p x := by
  obtain ⟨g, hgm, hl, h1, h2, h3⟩ := group_of hp hg hx.1
  have hv : g.value ∈ valuesAt gs (itemLevel x) := mem_valuesAt.mpr ⟨g, hgm, hl, rfl⟩
  obtain ⟨last, hlm, hd, hlast⟩ := lastData_spec (plainValues hp hg [itemLevel x]) (List.mem_cons_self ..)
    (List.ne_nil_of_mem hv)
  rcases hlast _ hv with h | h
  · exact ⟨g.data, by rw [hd, ← h]; rfl, h3⟩
  · exfalso
    obtain ⟨g', hgm', hl', rfl⟩ := mem_valuesAt.mp hlm
    obtain ⟨y, hy, -, -, hyl, -, h4, -⟩ := (hg.groups g' hgm').bounds hp
    have h5 := hx.2 y hy (hyl.trans hl')
    have h6 := hp.inside x hx.1
    simp only [RefItem.value] at h
    omega

theorem underLast {items gs : List RefItem} {start stop : Int} (hp : PlainList items start stop)
    (hg : Grouped items gs) {r : Reference} {l : RefLevel} (h : ∀ m, Above m l → component r m = lastData gs m) :
    UnderLast items r l := by
  intro m hm
  refine ⟨fun hx => by rw [h m hm, lastData_none hg hx], ?_⟩
  rintro x hx rfl
  rw [h _ hm]
  exact lastData_last hp hg hx

theorem convertSingle_spec {act : Option Str} {parts : List ParsedPart} {start stop : Int} {out : List OutgoingReference}
    (h : convertSingle act parts start stop = .ok out) (hp : PlainList (parts.flatMap ParsedPart.items) start stop)
    (hs : start < stop) : ∃ gs, Grouped (parts.flatMap ParsedPart.items) gs ∧
      Iterated gs [.articles, .paragraphs, .points, .subpoints] start stop { act := act } out := by
  obtain ⟨c, hc, h⟩ := resBind_ok (show (({ act := act } : Collector).addAll (parts.flatMap ParsedPart.items) >>=
    fun c => c.iter (some start) stop) = .ok out from h)
  obtain ⟨c', gs, h1, h2, h3, h4⟩ := collected hc
  refine ⟨gs, h3, ?_⟩
  unfold Collector.iter at h
  rw [h1] at h
  have h : c'.iterLevels stop [.articles, .paragraphs, .points, .subpoints] (some start) { act := c'.act } = .ok out := h
  rw [h2] at h
  refine iter_spec h4 stop _ _ _ _ ?_ (plainValues hp h3 _) hs ?_ h
  · simp [Above, depth]
  · intro m _; cases m <;> rfl

/-! ## When nothing is raised -/

theorem commit_act_total (c : Collector) (hl : ∃ gs, ∀ l, c.lists l = listAt gs l) : ∃ c', c.commit = .ok c' := by
  obtain ⟨gs, hl⟩ := hl
  cases hd : c.deferred with
  | none => exact ⟨c, commit_none hd⟩
  | some d =>
    obtain ⟨c', h, -⟩ := commit_spec hl hd
    exact ⟨c', h⟩

theorem addAll_total_from {all : List RefItem}
    (hn : all.Pairwise fun x y => ∀ a b, x.kind = y.kind → x.data = .one a → y.data = .one b → ∃ v, x.kind.isNext a b = .ok v) :
    ∀ (items before : List RefItem) (c : Collector), all = before ++ items → Collected c before →
      ∃ c', c.addAll items = .ok c' := by
  intro items
  induction items with
  | nil => intro before c _ _; exact ⟨c, rfl⟩
  | cons x xs ih =>
    intro before c hall hc
    have hm : ∃ m, c.merged x = .ok m := by
      unfold Collector.merged
      cases hd : c.deferred with
      | none => exact ⟨_, rfl⟩
      | some d =>
        simp only
        by_cases hk : d.kind ≠ x.kind
        · rw [if_pos hk]; exact ⟨_, rfl⟩
        · rw [if_neg hk]
          have hk : d.kind = x.kind := Decidable.not_not.mp hk
          cases hda : d.data with
          | range a b => exact ⟨_, rfl⟩
          | one a =>
            cases hxb : x.data with
            | range a b => exact ⟨_, rfl⟩
            | one b =>
              have hdm : d ∈ before := by
                obtain ⟨gs, -, ⟨h, -⟩ | ⟨d', ys, h, rfl, -⟩⟩ := hc
                · rw [hd] at h; cases h
                · rw [hd] at h; cases h; simp
              rw [hall, List.pairwise_append] at hn
              obtain ⟨v, hv⟩ := hn.2.2 d hdm x (List.mem_cons_self ..) a b hk hda hxb
              rw [hk] at hv
              simp only [hv]
              cases v <;> exact ⟨_, rfl⟩
    obtain ⟨m, hm⟩ := hm
    have ha : ∃ c', c.add x = .ok c' := by
      unfold Collector.add
      rw [hm]
      cases m with
      | some d =>
        obtain ⟨gs, hl, -⟩ := hc
        exact commit_act_total { c with deferred := some d } ⟨gs, hl⟩
      | none =>
        obtain ⟨gs, hl, -⟩ := hc
        obtain ⟨c', h⟩ := commit_act_total c ⟨gs, hl⟩
        exact ⟨{ c' with deferred := some x }, by simp only [Bind.bind, Except.bind, h]⟩
    obtain ⟨c1, ha⟩ := ha
    obtain ⟨c2, h2⟩ := ih (before ++ [x]) c1 (by simp [hall]) (add_spec hc ha).1
    refine ⟨c2, ?_⟩
    show (c.add x >>= fun c1 => c1.addAll xs) = _
    rw [ha]
    exact h2

theorem addAll_total {act : Option Str} {items : List RefItem}
    (hn : items.Pairwise fun x y => ∀ a b, x.kind = y.kind → x.data = .one a → y.data = .one b → ∃ v, x.kind.isNext a b = .ok v) : ∃ c, ({ act := act } : Collector).addAll items = .ok c :=
  addAll_total_from hn items [] _ rfl ⟨[], fun _ => rfl, .inl ⟨rfl, .nil⟩⟩

theorem iterLevels_total {c : Collector} {gs : List RefItem} (hl : ∀ l, c.lists l = listAt gs l) (stop : Int) :
    ∀ (ls : List RefLevel) (o : Int) (args : Reference), ∃ out, c.iterLevels stop ls (some o) args = .ok out := by
  intro ls
  induction ls with
  | nil => intro o args; exact ⟨_, rfl⟩
  | cons l ls ih =>
    intro o args
    have hne : sortValues (c.lists l) ≠ [] := by
      intro h0
      have hp := sortValues_perm (c.lists l)
      rw [h0] at hp
      have h1 := (List.Perm.nil_eq hp).symm
      rw [hl, listAt] at h1
      split at h1
      · cases h1
      · contradiction
    obtain ⟨vs, last, hs⟩ : ∃ vs last, sortValues (c.lists l) = vs ++ [last] :=
      ⟨_, _, (List.dropLast_concat_getLast hne).symm⟩
    have hx : iterLevel l args (some o) (c.lists l) =
          (leading l args (some o) vs, if vs = [] then some o else none, some last) := by
      rw [← iterValues_eq, ← hs]
      cases c.lists l with
      | nil => rfl
      | cons v ws => cases ws <;> rfl
    unfold Collector.iterLevels
    simp only [hx]
    by_cases hv : vs = []
    · simp only [hv, if_true]
      obtain ⟨out, h⟩ := ih o (l.set args last.data)
      rw [h]; exact ⟨_, rfl⟩
    · simp only [hv, if_false]
      obtain ⟨out, h⟩ := ih last.startPos (l.set args last.data)
      rw [h]; exact ⟨_, rfl⟩

theorem mem_levels (l : RefLevel) : l ∈ [RefLevel.articles, .paragraphs, .points, .subpoints] := by cases l <;> simp

end Verif
