import Verif.Proofs.Collector
import Verif.Proofs.NextInList
import Verif.Proofs.Sentences

/-! # Collecting reference lists (C37) -/

namespace Verif.Props

open Verif.Spec

/-- "1., 3–5. § (2) és (4) bekezdése" -/
def listedParts : List ParsedPart :=
  [⟨.article, [(py"1", 0, 2)], [((py"3", py"5"), 4, 8)]⟩, ⟨.paragraph, [(py"2", 11, 14), (py"4", 18, 21)], []⟩]

/-- The items of a list are in text order, and higher levels come first. -/
def ListedInOrder (items : List RefItem) (start stop : Int) : Prop :=
  (∀ x ∈ items, start ≤ x.startPos ∧ x.startPos < x.endPos ∧ x.endPos ≤ stop) ∧
  items.Pairwise fun x y => x.endPos ≤ y.startPos ∧ ¬ Above (itemLevel y) (itemLevel x)

theorem ListedInOrder.plain {items : List RefItem} {start stop : Int} (h : ListedInOrder items start stop) :
    PlainList items start stop := by
  obtain ⟨hin, hp⟩ := h
  have hall : ∀ {l : List RefItem}, (l.Pairwise fun x y => x.endPos ≤ y.startPos ∧ ¬ Above (itemLevel y) (itemLevel x)) →
      ∀ x ∈ l, ∀ y ∈ l, Above (itemLevel x) (itemLevel y) → x.endPos ≤ y.startPos := by
    intro l hl
    induction hl with
    | nil => simp
    | @cons a l ha _ ih =>
      intro x hx y hy hxy
      rcases List.mem_cons.mp hx with rfl | hx' <;> rcases List.mem_cons.mp hy with rfl | hy'
      · exact absurd hxy (Nat.lt_irrefl _)
      · exact (ha y hy').1
      · exact absurd hxy (ha x hx').2
      · exact ih x hx' y hy' hxy
  refine ⟨hin, hall hp, hp.imp fun h _ => .inl h.1, ?_⟩
  rintro p x y q rfl -
  obtain ⟨-, h1, h2⟩ := List.pairwise_append.mp hp
  obtain ⟨h3, h4⟩ := List.pairwise_cons.mp h1
  obtain ⟨h5, -⟩ := List.pairwise_cons.mp h4
  refine ⟨(h3 y (List.mem_cons_self ..)).1, fun z hz _ => ?_⟩
  rcases List.mem_append.mp hz with hz | hz
  · exact .inl (h2 z hz x (List.mem_cons_self ..)).1
  · exact .inr (h5 z hz).1

instance (items : List RefItem) (start stop : Int) : Decidable (ListedInOrder items start stop) := by
  unfold ListedInOrder Above; infer_instance

/-- C37. The references of a list that can be read without ambiguity are in text order, do not overlap, are within the place of
the whole list, and keep the act. -/
theorem references_in_order_partial {act : Option Str} {parts : List ParsedPart} {start stop : Int}
    {out : List OutgoingReference} (h : convertSingle act parts start stop = .ok out)
    (hp : PlainList (parts.flatMap ParsedPart.items) start stop) (hs : start < stop) :
    (out.Pairwise fun x y => x.endPos ≤ y.startPos) ∧
    ∀ r ∈ out, start ≤ r.startPos ∧ r.startPos < r.endPos ∧ r.endPos ≤ stop ∧ r.reference.act = act := by
  obtain ⟨gs, -, hi⟩ := convertSingle_spec h hp hs
  exact ⟨hi.order, hi.inside⟩

/-- C37. Every item of such a list is named at its level by a reference that is at its place and under the last items of the
levels above. -/
theorem items_covered_partial {act : Option Str} {parts : List ParsedPart} {start stop : Int}
    {out : List OutgoingReference} (h : convertSingle act parts start stop = .ok out)
    (hp : PlainList (parts.flatMap ParsedPart.items) start stop) (hs : start < stop) {x : RefItem}
    (hx : x ∈ parts.flatMap ParsedPart.items) :
    ∃ r ∈ out, (∃ p, component r.reference (itemLevel x) = some p ∧ Names (parts.flatMap ParsedPart.items) p x) ∧
      Within x r ∧ UnderLast (parts.flatMap ParsedPart.items) r.reference (itemLevel x) := by
  obtain ⟨gs, hg, hi⟩ := convertSingle_spec h hp hs
  obtain ⟨g, hgm, hl, h1, h2, h3⟩ := group_of hp hg hx
  obtain ⟨r, hr, k1, k2, k3, k4⟩ := hi.complete (itemLevel x) (mem_levels _) g.value (mem_valuesAt.mpr ⟨g, hgm, hl, rfl⟩)
  refine ⟨r, hr, ⟨g.data, k1, h3⟩, ⟨Int.le_trans k2 h1, Int.le_trans h2 k3⟩, ?_⟩
  exact underLast hp hg fun m hm => k4 m (mem_levels m) hm

/-- C37. Every reference of such a list names an item, nothing below it and the last items above it, unless the list is empty:
then it names nothing and is at the place of the whole. -/
theorem references_listed_partial {act : Option Str} {parts : List ParsedPart} {start stop : Int}
    {out : List OutgoingReference} (h : convertSingle act parts start stop = .ok out)
    (hp : PlainList (parts.flatMap ParsedPart.items) start stop) (hs : start < stop) {r : OutgoingReference} (hr : r ∈ out) :
    (parts.flatMap ParsedPart.items = [] ∧ r = ⟨start, stop, { act := act }⟩) ∨
    ∃ x ∈ parts.flatMap ParsedPart.items,
      (∃ p, component r.reference (itemLevel x) = some p ∧ Names (parts.flatMap ParsedPart.items) p x) ∧ Within x r ∧
      UnderLast (parts.flatMap ParsedPart.items) r.reference (itemLevel x) ∧
      ∀ m, Above (itemLevel x) m → component r.reference m = none := by
  obtain ⟨gs, hg, hi⟩ := convertSingle_spec h hp hs
  rcases hi.sound r hr with ⟨h1, h2, h3⟩ | ⟨l, -, v, hv, h1, h2, h3, h4, h5⟩
  · left
    have hc : ∀ l, component r.reference l = none := fun l => (h3 l (mem_levels l)).2
    have ha := (hi.inside r hr).2.2.2
    refine ⟨List.eq_nil_iff_forall_not_mem.mpr fun x hx => ?_, ?_⟩
    · obtain ⟨g, hgm, hl, -⟩ := group_of hp hg hx
      have := (h3 (itemLevel x) (mem_levels _)).1
      rw [List.eq_nil_iff_forall_not_mem] at this
      exact this g.value (mem_valuesAt.mpr ⟨g, hgm, hl, rfl⟩)
    · obtain ⟨s, e, ⟨a, b, c, d, f⟩⟩ := r
      cases h1; cases h2; cases ha
      cases hc .articles; cases hc .paragraphs; cases hc .points; cases hc .subpoints
      rfl
  · right
    obtain ⟨g, hgm, hl, rfl⟩ := mem_valuesAt.mp hv
    obtain ⟨x, hx, y, hy, hxl, -, k1, k2, k3, k4, -⟩ := (hg.groups g hgm).bounds hp
    subst hl
    refine ⟨x, hx, ⟨g.data, by rw [hxl]; exact h1, k4⟩, ⟨?_, ?_⟩, ?_, ?_⟩
    · simp only [RefItem.value] at h2; omega
    · simp only [RefItem.value] at h3; omega
    · rw [hxl]; exact underLast hp hg fun m hm => h4 m (mem_levels m) hm
    · rw [hxl]; exact fun m hm => h5 m (mem_levels m) hm

example : ListedInOrder (listedParts.flatMap ParsedPart.items) 0 32 ∧
    convertSingle (some (py"Tv.")) listedParts 0 32 = .ok [
      ⟨0, 2, { act := some (py"Tv."), article := some (.one (py"1")) }⟩,
      ⟨4, 14, { act := some (py"Tv."), article := some (.range (py"3") (py"5")), paragraph := some (.one (py"2")) }⟩,
      ⟨18, 32, { act := some (py"Tv."), article := some (.range (py"3") (py"5")), paragraph := some (.one (py"4")) }⟩] := by
  decide +kernel

/-- C37. Single items follow each other if they are of the same kind and the second comes right after the first in numbering. -/
theorem neighbours_numbered {x y : RefItem} {a b : Str} (hx : x.data = .one a) (hy : y.data = .one b) (ha : Identifies x.kind a)
    (hb : Identifies y.kind b) : Neighbours x y ↔ x.kind = y.kind ∧ NextInList x.kind a b := by
  constructor
  · rintro ⟨h1, a', b', h2, h3, h4⟩
    cases hx.symm.trans h2
    cases hy.symm.trans h3
    exact ⟨h1, (isNext_iff ha (h1 ▸ hb)).1 h4⟩
  · rintro ⟨h1, h2⟩
    exact ⟨h1, a, b, hx, hy, (isNext_iff ha (h1 ▸ hb)).2 h2⟩

example : Neighbours ⟨.alphabeticPoint, .one (py"n"), 0, 2⟩ ⟨.alphabeticPoint, .one (py"ny"), 5, 8⟩ ∧
    Identifies .alphabeticPoint (py"n") ∧ Identifies .alphabeticPoint (py"ny") :=
  ⟨⟨rfl, py"n", py"ny", rfl, rfl, by decide +kernel⟩, .inr (.inr ⟨'n', by decide, rfl⟩), .inl rfl⟩

/-- C37. Numbered subpoints are never merged to a range. -/
theorem subpoints_apart {x y : RefItem} (hx : x.kind = .numericSubpoint) : ¬ Neighbours x y := by
  rintro ⟨-, a, b, -, -, h⟩
  rw [hx] at h
  cases h

/-- C37. Lists whose items are written one after the other, with higher levels first, are such lists. -/
theorem listed_in_order {items : List RefItem} {start stop : Int} (h : ListedInOrder items start stop) :
    PlainList items start stop := h.plain

example : ListedInOrder [⟨.article, .one (py"1"), 0, 2⟩, ⟨.article, .range (py"2") (py"5"), 3, 6⟩,
    ⟨.alphabeticPoint, .one (py"a"), 7, 9⟩] 0 20 := by decide +kernel

/-- C37. Collecting a list of identifiers succeeds, unless a subpoint of two letters is followed by one with its first letter alone. -/
theorem collecting_succeeds {act : Option Str} {parts : List ParsedPart} {start stop : Int}
    (h : ∀ x ∈ parts.flatMap ParsedPart.items, ∀ a, x.data = .one a → Identifies x.kind a)
    (hs : (parts.flatMap ParsedPart.items).Pairwise fun x y => x.kind = .alphabeticSubpoint → y.kind = .alphabeticSubpoint →
      ∀ c d, x.data = .one [c, d] → y.data ≠ .one [c]) :
    ∃ out, convertSingle act parts start stop = .ok out := by
  refine convertSingle_total (hs.imp_of_mem fun {x y} hx hy hxy a b hk ha hb => ?_)
  refine isNext_total (h x hx a ha) (hk ▸ h y hy b hb) fun hl c d _ _ he hb' => ?_
  subst he hb'
  exact hxy hl (hk ▸ hl) c d ha hb

/-- C37. Then it fails: the second letter is looked for where there is none. -/
theorem short_subpoint_fails : Identifies .alphabeticSubpoint (py"ab") ∧ Identifies .alphabeticSubpoint (py"a") ∧
    convertSingle none [⟨.alphabeticSubpoint, [(py"ab", 0, 3), (py"a", 7, 9)], []⟩] 0 20 = .error .indexError :=
  ⟨.inr ⟨'a', 'b', by decide, by decide, rfl⟩, .inl ⟨'a', by decide, rfl⟩, by decide +kernel⟩

example : (∀ x ∈ listedParts.flatMap ParsedPart.items, ∀ a, x.data = .one a → Identifies x.kind a) ∧
    (listedParts.flatMap ParsedPart.items).Pairwise fun x y => x.kind = .alphabeticSubpoint → y.kind = .alphabeticSubpoint →
      ∀ c d, x.data = .one [c, d] → y.data ≠ .one [c] := by
  constructor
  · intro x hx a ha
    have hd : ∀ c : Char, isAsciiDigit c = true → Digits [c] := fun c hc => ⟨by simp, by simpa using hc⟩
    simp only [listedParts, List.flatMap_cons, List.flatMap_nil, ParsedPart.items, List.map_cons, List.map_nil, List.append_nil,
      List.cons_append, List.nil_append, List.mem_cons, List.not_mem_nil, or_false] at hx
    rcases hx with rfl | rfl | rfl | rfl <;> cases ha
    · exact ⟨[], py"1", [], rfl, .inl rfl, hd _ (by decide), .inl rfl⟩
    · exact ⟨py"2", [], rfl, hd _ (by decide), .inl rfl⟩
    · exact ⟨py"4", [], rfl, hd _ (by decide), .inl rfl⟩
  · have h : (listedParts.flatMap ParsedPart.items).Pairwise fun x _ => x.kind ≠ .alphabeticSubpoint := by decide +kernel
    exact h.imp fun h hk => absurd hk h

/-- C37. In "1., 1/A–1/C. és 2. §" the single items are added before the range, so the first and the last are merged to a range,
and the references overlap. -/
theorem references_overlap :
    convertSingle none [⟨.article, [(py"1", 0, 2), (py"2", 16, 18)], [((py"1/A", py"1/C"), 4, 12)]⟩] 0 20 =
      .ok [⟨0, 18, { article := some (.range (py"1") (py"2")) }⟩, ⟨4, 20, { article := some (.range (py"1/A") (py"1/C")) }⟩] := by
  decide +kernel

end Verif.Props
