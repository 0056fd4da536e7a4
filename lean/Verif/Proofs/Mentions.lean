import Verif.Proofs.Ordinary
import Verif.Props.Collector

/-! # The references that are reported for a mention -/

namespace Verif

open Spec Props ActGrammar

/-! ## Recognising plain text -/

/-- After this nothing can go on with references. -/
theorem closes_before {s : Str} (hp : Pauses s) (h : ∀ c ∈ (squeeze s).head?, c ∉ py",;évi") : Closes s := by
  refine ⟨hp, ?_⟩
  rintro g u rfl ⟨c, o, a, hg, hc, ho, ha, hn⟩
  exfalso
  rw [squeeze_append, hg] at h
  simp only [List.mem_cons, List.not_mem_nil, or_false] at hc ho
  rcases hc with rfl | rfl | rfl
  · rcases ho with rfl | rfl | rfl | rfl | rfl
    · exact hn rfl rfl
    all_goals exact h _ rfl (by decide +kernel)
  all_goals exact h _ rfl (by decide +kernel)

theorem plain_mark {c : Char} {rest : Str} (h : ((! isLowerHun c && ! isUpperHun c) && (! isAsciiDigit c) && (! isSpace c) && ! (py"-(„").contains c) = true) :
    PlainText [c] rest := by
  simp only [Bool.and_eq_true, Bool.not_eq_true'] at h
  refine .mark ?_ h.1.1.2 h.1.2 ?_
  · rw [hunLetter_iff]
    simp [h.1.1.1.1, h.1.1.1.2]
  · intro hm
    rw [List.contains_iff_mem.mpr hm] at h
    cases h.2

theorem plain_word {w rest : Str} (h : (! w.isEmpty && w.all (fun c => isLowerHun c || isUpperHun c) &&
    (rest.head?.all fun c => ! isLowerHun c && ! isUpperHun c && c != '-') &&
    (decide (2 < w.length) || ((rest.dropWhile isSpace).head?.all fun c => ! (py")-–−").contains c)) &&
    (w.head?.all isLowerHun || [py".", py" tv.", py" vhr."].all fun e => ! e.isPrefixOf rest)) = true) : PlainText w rest := by
  simp only [Bool.and_eq_true, Bool.not_eq_true', Bool.or_eq_true, decide_eq_true_eq, List.all_eq_true, Option.all_eq_true] at h
  obtain ⟨⟨⟨⟨h1, h2⟩, h3⟩, h4⟩, h5⟩ := h
  have hl : ∀ c ∈ w, hunLetter c := fun c hc => hunLetter_iff.mpr (by simpa using h2 c hc)
  refine .word ?_ (fun c hc => .inl (hl c hc)) (fun c hc => letter_ne (hl c (List.mem_of_mem_take hc))) ?_ ?_ ?_
  · rintro rfl; cases h1
  · intro c hc
    have := h3 c hc
    rw [hunLetter_iff]
    simpa using this
  · intro hw c hc hm
    rcases h4 with h4 | h4
    · omega
    · have := h4 c hc
      rw [List.contains_iff_mem.mpr hm] at this
      cases this
  · rcases h5 with h5 | h5
    · exact .inl fun c hc => isLowerHun_iff.mp (h5 c hc)
    · refine .inr fun e he hp => ?_
      have := h5 e he
      rw [List.isPrefixOf_iff_prefix.mpr hp] at this
      cases this

/-! ## Single things -/

/-- The items are on levels that may be under each other. -/
inductive Chained : List RefItem → Prop
  | one {x} : Chained [x]
  | cons {x y l} (h : Under x.kind y.kind) (hl : Chained (y :: l)) : Chained (x :: y :: l)

theorem chain_collects (act : Option Str) (start stop : Int) {l : List RefItem} (h : Chained l) :
    ∃ ref : Reference, (do let c ← ({ act := act } : Collector).addAll l; c.iter (some start) stop) = .ok [⟨start, stop, ref⟩] ∧
      ref.act = act ∧ (∀ x ∈ l, component ref (itemLevel x) = some x.data) ∧ ∀ k, (∀ x ∈ l, itemLevel x ≠ k) → component ref k = none := by
  have absent : ∀ {l : List RefItem} {r : Reference}, (∀ k, component r k = none ∨ ∃ x ∈ l, itemLevel x = k) →
      ∀ k, (∀ x ∈ l, itemLevel x ≠ k) → component r k = none := by
    intro l r hr k hk
    rcases hr k with h | ⟨x, hx, h⟩
    · exact h
    · exact absurd h (hk x hx)
  cases h with
  | @one x =>
    obtain ⟨k, d, i, j⟩ := x
    cases k <;>
      exact ⟨_, rfl, rfl, by simp [itemLevel, kindLevel, component, RefLevel.set],
        absent fun k => by cases k <;> simp [itemLevel, kindLevel, component, RefLevel.set]⟩
  | @cons x y l h hl =>
    obtain ⟨k, d, i, j⟩ := x
    obtain ⟨k', d', i', j'⟩ := y
    cases hl with
    | one =>
      cases k <;> simp only [Under] at h <;> (try contradiction) <;> (try rcases h with rfl | rfl | rfl) <;> (try rcases h with rfl | rfl) <;>
        exact ⟨_, rfl, rfl, by simp [itemLevel, kindLevel, component, RefLevel.set],
          absent fun k => by cases k <;> simp [itemLevel, kindLevel, component, RefLevel.set]⟩
    | @cons _ z l h' hl =>
      obtain ⟨k'', d'', i'', j''⟩ := z
      cases hl with
      | one =>
        cases k <;> simp only [Under] at h <;> (try contradiction) <;> (try rcases h with rfl | rfl | rfl) <;> (try rcases h with rfl | rfl) <;>
          simp only [Under] at h' <;> (try contradiction) <;> (try rcases h' with rfl | rfl) <;>
          exact ⟨_, rfl, rfl, by simp [itemLevel, kindLevel, component, RefLevel.set],
            absent fun k => by cases k <;> simp [itemLevel, kindLevel, component, RefLevel.set]⟩
      | @cons _ w l h'' hl =>
        obtain ⟨k''', d''', i''', j'''⟩ := w
        cases hl with
        | one =>
          cases k <;> simp only [Under] at h <;> (try contradiction) <;> (try rcases h with rfl | rfl | rfl) <;> (try rcases h with rfl | rfl) <;>
            simp only [Under] at h' <;> (try contradiction) <;> (try rcases h' with rfl | rfl) <;>
            simp only [Under] at h'' <;> (try contradiction) <;> (try rcases h'' with rfl | rfl) <;>
            exact ⟨_, rfl, rfl, by simp [itemLevel, kindLevel, component, RefLevel.set],
              absent fun k => by cases k <;> simp [itemLevel, kindLevel, component, RefLevel.set]⟩
        | @cons _ v l h3 hl =>
          exfalso
          cases k <;> simp only [Under] at h <;> (try contradiction) <;> (try rcases h with rfl | rfl | rfl) <;> (try rcases h with rfl | rfl) <;>
            simp only [Under] at h' <;> (try contradiction) <;> (try rcases h' with rfl | rfl) <;>
            simp only [Under] at h'' <;> (try contradiction) <;> (try rcases h'' with rfl | rfl) <;>
            exact h3

theorem only_items {p : ParsedPart} {x : Ident} (h : OnlyItem p x) : ∃ i j, p.items = [⟨p.kind, x, i, j⟩] := by
  obtain ⟨id, ⟨i, j⟩, h1, h2, rfl⟩ | ⟨a, b, ⟨i, j⟩, h1, h2, rfl⟩ := h <;> exact ⟨i, j, by simp [ParsedPart.items, h1, h2]⟩

theorem reference_chain {n : Nat} {ps : List ParsedPart} {w : Str} (h : ReferenceText n ps w) (ho : ∀ p ∈ ps, ∃ x, OnlyItem p x) :
    Chained (ps.flatMap ParsedPart.items) := by
  induction h with
  | @one n p w h =>
    obtain ⟨x, hx⟩ := ho p (List.mem_cons_self ..)
    obtain ⟨i, j, e⟩ := only_items hx
    simp only [List.flatMap_cons, e, List.flatMap_nil, List.append_nil]
    exact .one
  | @cons n p w q ps v h hu hs ih =>
    have ih := ih fun p hp => ho p (List.mem_cons_of_mem _ hp)
    obtain ⟨x, hx⟩ := ho p (List.mem_cons_self ..)
    obtain ⟨i, j, e⟩ := only_items hx
    obtain ⟨y, hy⟩ := ho q (List.mem_cons_of_mem _ (List.mem_cons_self ..))
    obtain ⟨i', j', e'⟩ := only_items hy
    simp only [List.flatMap_cons, e, e', List.singleton_append] at ih ⊢
    exact .cons hu ih

theorem chain_pointed {ps : List ParsedPart} (hc : Chained (ps.flatMap ParsedPart.items)) (ho : ∀ p ∈ ps, ∃ x, OnlyItem p x)
    (act : Option Str) (start stop : Int) : ∃ x, convertSingle act ps start stop = .ok [x] ∧ Pointed act (ps, start, stop) x := by
  have hi : ∀ p ∈ ps, ∃ x, OnlyItem p x ∧ ∃ i ∈ ps.flatMap ParsedPart.items, i.kind = p.kind ∧ i.data = x := by
    intro p hp
    obtain ⟨x, hx⟩ := ho p hp
    obtain ⟨i, j, e⟩ := only_items hx
    exact ⟨x, hx, ⟨p.kind, x, i, j⟩, List.mem_flatMap.mpr ⟨p, hp, by simp [e]⟩, rfl, rfl⟩
  obtain ⟨ref, h1, h2, h3, h4⟩ := chain_collects act start stop hc
  refine ⟨_, h1, rfl, rfl, h2, fun p hp => ?_, fun l hl => h4 l fun x hx => ?_⟩
  · obtain ⟨x, hx, i, him, hk, hd⟩ := hi p hp
    refine ⟨x, hx, ?_⟩
    have := h3 i him
    unfold itemLevel at this
    rw [hk, hd] at this
    exact this
  · obtain ⟨p, hp, hx⟩ := List.mem_flatMap.mp hx
    have : x.kind = p.kind := by
      unfold ParsedPart.items at hx
      rcases List.mem_append.mp hx with hx | hx <;> obtain ⟨y, -, rfl⟩ := List.mem_map.mp hx <;> rfl
    unfold itemLevel
    rw [this]
    exact hl p hp

theorem reference_pointed {n : Nat} {ps : List ParsedPart} {w : Str} (h : ReferenceText n ps w) (ho : ∀ p ∈ ps, ∃ x, OnlyItem p x)
    (act : Option Str) (start stop : Int) : ∃ x, convertSingle act ps start stop = .ok [x] ∧ Pointed act (ps, start, stop) x :=
  chain_pointed (reference_chain h ho) ho act start stop

/-! ## The references of ordinary sentences -/

theorem references_text {n : Nat} {rs : List ParsedRef} {v : Str} (h : ReferencesText n rs v) : ∀ r ∈ rs, ∃ m w, ReferenceText m r.1 w ∧
    r.2.1 = ↑m ∧ r.2.2 = ↑(m + w.length) := by
  induction h with
  | @one n ps w h => simp only [List.mem_singleton]; rintro _ rfl; exact ⟨n, w, h, rfl, rfl⟩
  | @cons n ps w g rs v h _ _ ih =>
    intro r hr
    rcases List.mem_cons.mp hr with rfl | hr
    · exact ⟨n, w, h, rfl, rfl⟩
    · exact ih r hr

theorem ordinary_text {n : Nat} {s : Str} {ms : List Mention} (h : Ordinary n s ms) : ∀ m ∈ ms, ∀ r ∈ m.2, ∃ k w, ReferenceText k r.1 w ∧
    r.2.1 = ↑k ∧ r.2.2 = ↑(k + w.length) := by
  induction h with
  | done => simp
  | space _ _ ih => exact ih
  | plain _ _ ih => exact ih
  | @reference n ps w s ms hw _ _ _ _ ih =>
    intro m hm r hr
    rcases List.mem_cons.mp hm with rfl | hm
    · cases List.mem_singleton.mp hr
      exact ⟨n, w, hw, rfl, rfl⟩
    · exact ih m hm r hr
  | act _ _ _ ih =>
    intro m hm r hr
    rcases List.mem_cons.mp hm with rfl | hm
    · simp at hr
    · exact ih m hm r hr
  | actWith _ hv _ _ _ _ ih =>
    intro m hm r hr
    rcases List.mem_cons.mp hm with rfl | hm
    · exact references_text hv r hr
    · exact ih m hm r hr

theorem pointed_listed {act : Option Str} {rs : List ParsedRef} {xss : List (List OutgoingReference)} (h : Both (Listed act) rs xss)
    (hr : ∀ r ∈ rs, ∃ x, convertSingle act r.1 r.2.1 r.2.2 = .ok [x] ∧ Pointed act r x) : Both (Pointed act) rs xss.flatten := by
  induction h with
  | nil => exact .nil
  | @cons r xs rs xss h _ ih =>
    obtain ⟨x, h1, h2⟩ := hr r (List.mem_cons_self ..)
    unfold Listed at h
    rw [h1] at h
    cases h
    exact .cons h2 (ih fun r hr' => hr r (List.mem_cons_of_mem _ hr'))

theorem mentions_once {ms : List Mention} {xss : List (List OutgoingReference)} (h : Both Mentioned ms xss)
    (hr : ∀ m ∈ ms, ∀ r ∈ m.2, ∀ act, ∃ x, convertSingle act r.1 r.2.1 r.2.2 = .ok [x] ∧ Pointed act r x) : Both MentionedOnce ms xss := by
  induction h with
  | nil => exact .nil
  | @cons m xs ms xss h _ ih =>
    refine .cons ?_ (ih fun m hm => hr m (List.mem_cons_of_mem _ hm))
    have hr := hr m (List.mem_cons_self ..)
    cases h with
    | here h => exact .here (pointed_listed h fun r h => hr r h _)
    | ofAct ha hi h => exact .ofAct ha hi (pointed_listed h fun r h => hr r h _)

/-! ## Lists in order -/

theorem item_place {k : PartKind} {n : Nat} {x : Item} {w : Str} (h : ItemText k n x w) : 0 < w.length := by
  obtain ⟨-, h⟩ := h
  cases x with
  | inl r =>
    obtain ⟨-, -, d, -, h⟩ := h
    cases k <;> simp only at h
    case alphabeticPoint => obtain ⟨m, -, rfl⟩ := h; simp; omega
    all_goals subst h; simp <;> omega
  | inr r =>
    obtain ⟨-, h⟩ := h
    cases k <;> simp only at h <;> subst h <;> simp

/-- The items are within these places and one after the other. -/
def ItemsBetween (lo hi : Int) (xs : List Item) : Prop :=
  (∀ x ∈ xs, lo ≤ x.place.1 ∧ x.place.1 < x.place.2 ∧ x.place.2 ≤ hi) ∧ xs.Pairwise fun x y => x.place.2 ≤ y.place.1

theorem items_between {k : PartKind} {n : Nat} {xs : List Item} {w : Str} (h : ItemsText k n xs w) : ItemsBetween ↑n ↑(n + w.length) xs := by
  induction h with
  | @one n x w h =>
    have hl := item_place h
    refine ⟨?_, List.pairwise_singleton _ _⟩
    simp only [List.mem_singleton]
    rintro _ rfl
    rw [h.1]
    simp only
    omega
  | @cons n x w g xs v h hg hs ih =>
    have hl := item_place h
    obtain ⟨i1, i2⟩ := ih
    have hp := h.1
    have hlen : (w ++ g ++ v).length = w.length + g.length + v.length := by simp; omega
    refine ⟨?_, List.pairwise_cons.mpr ⟨?_, i2⟩⟩
    · intro y hy
      rcases List.mem_cons.mp hy with rfl | hy
      · rw [hp, hlen]; simp only; omega
      · have := i1 y hy
        rw [hlen]
        omega
    · intro y hy
      have := i1 y hy
      rw [hp]
      simp only
      omega

/-- The items of a part are within these places and one after the other. -/
def RefItemsBetween (lo hi : Int) (xs : List RefItem) : Prop :=
  (∀ x ∈ xs, lo ≤ x.startPos ∧ x.startPos < x.endPos ∧ x.endPos ≤ hi) ∧ xs.Pairwise fun x y => x.endPos ≤ y.startPos

theorem pairwise_filterMap {α β : Type} {R : α → α → Prop} {S : β → β → Prop} {f : α → Option β} {l : List α} (h : l.Pairwise R)
    (hf : ∀ a b x y, f a = some x → f b = some y → R a b → S x y) : (l.filterMap f).Pairwise S := by
  induction h with
  | nil => exact .nil
  | @cons a l ha _ ih =>
    rw [List.filterMap_cons]
    cases hfa : f a with
    | none => exact ih
    | some x =>
      refine List.pairwise_cons.mpr ⟨fun y hy => ?_, ih⟩
      obtain ⟨b, hb, hfb⟩ := List.mem_filterMap.mp hy
      exact hf a b x y hfa hfb (ha b hb)

theorem part_between {n : Nat} {p : ParsedPart} {w : Str} (h : PartText n p w) (hl : RangesLast p) :
    RefItemsBetween ↑n ↑(n + w.length) p.items ∧ ∀ x ∈ p.items, x.kind = p.kind := by
  obtain ⟨items, u, e, h1, -, rfl, hs, hr⟩ := h
  obtain ⟨b1, b2⟩ := items_between h1
  have hlen : (u ++ ' ' :: e).length = u.length + e.length + 1 := by simp; omega
  have hsin : ∀ x ∈ p.singles, (Sum.inr x : Item) ∈ items := by
    intro x hx
    rw [hs] at hx
    obtain ⟨a, ha, hf⟩ := List.mem_filterMap.mp hx
    cases a with
    | inl r => cases hf
    | inr r => cases hf; exact ha
  have hrin : ∀ x ∈ p.ranges, (Sum.inl x : Item) ∈ items := by
    intro x hx
    rw [hr] at hx
    obtain ⟨a, ha, hf⟩ := List.mem_filterMap.mp hx
    cases a with
    | inr r => cases hf
    | inl r => cases hf; exact ha
  refine ⟨⟨?_, ?_⟩, ?_⟩
  · intro x hx
    unfold ParsedPart.items at hx
    rcases List.mem_append.mp hx with hx | hx <;> obtain ⟨y, hy, rfl⟩ := List.mem_map.mp hx
    · have := b1 _ (hsin y hy)
      simp only [Item.place] at this ⊢
      omega
    · have := b1 _ (hrin y hy)
      simp only [Item.place] at this ⊢
      omega
  · unfold ParsedPart.items
    refine List.pairwise_append.mpr ⟨?_, ?_, ?_⟩
    · rw [hs]
      refine List.pairwise_map.mpr (pairwise_filterMap b2 ?_)
      intro a b x y ha hb hab
      cases a <;> cases b <;> cases ha <;> cases hb
      exact hab
    · rw [hr]
      refine List.pairwise_map.mpr (pairwise_filterMap b2 ?_)
      intro a b x y ha hb hab
      cases a <;> cases b <;> cases ha <;> cases hb
      exact hab
    · intro x hx y hy
      obtain ⟨x', hx', rfl⟩ := List.mem_map.mp hx
      obtain ⟨y', hy', rfl⟩ := List.mem_map.mp hy
      exact hl x' hx' y' hy'
  · intro x hx
    unfold ParsedPart.items at hx
    rcases List.mem_append.mp hx with hx | hx <;> obtain ⟨y, -, rfl⟩ := List.mem_map.mp hx <;> rfl

theorem under_depth {k k' : PartKind} (h : Under k k') : depth (kindLevel k) < depth (kindLevel k') := by
  cases k <;> simp only [Under] at h <;> (try contradiction) <;> (try rcases h with rfl | rfl | rfl) <;> (try rcases h with rfl | rfl) <;> decide

theorem reference_depth {n : Nat} {p : ParsedPart} {ps : List ParsedPart} {w : Str} (h : ReferenceText n (p :: ps) w) :
    ∀ q ∈ ps, depth (kindLevel p.kind) < depth (kindLevel q.kind) := by
  generalize he : p :: ps = l at h
  induction h generalizing p ps with
  | one => cases he; simp
  | cons h hu hs ih =>
    cases he
    intro r hr
    rcases List.mem_cons.mp hr with rfl | hr
    · exact under_depth hu
    · exact Nat.lt_trans (under_depth hu) (ih rfl r hr)

theorem reference_listed {n : Nat} {ps : List ParsedPart} {w : Str} (h : ReferenceText n ps w) (hl : ∀ p ∈ ps, RangesLast p) :
    ListedInOrder (ps.flatMap ParsedPart.items) ↑n ↑(n + w.length) ∧ 0 < w.length := by
  have pos : ∀ {n p w}, PartText n p w → 0 < w.length := by
    rintro n p w ⟨_, _, _, _, _, rfl, _⟩
    simp only [List.length_append, List.length_cons]
    omega
  have hdepth : ∀ {a b : RefLevel}, depth a ≤ depth b → ¬ Above b a := fun h h' => by unfold Above at h'; omega
  induction h with
  | @one n p w h =>
    obtain ⟨⟨b1, b2⟩, b3⟩ := part_between h (hl p (List.mem_cons_self ..))
    simp only [List.flatMap_cons, List.flatMap_nil, List.append_nil]
    refine ⟨⟨b1, List.Pairwise.imp_of_mem ?_ b2⟩, pos h⟩
    intro x y hx hy hxy
    refine ⟨hxy, hdepth ?_⟩
    unfold itemLevel
    rw [b3 x hx, b3 y hy]
    exact Nat.le_refl _
  | @cons n p w q ps v h hu hs ih =>
    have hd := reference_depth (.cons h hu hs)
    obtain ⟨⟨b1, b2⟩, b3⟩ := part_between h (hl p (List.mem_cons_self ..))
    obtain ⟨⟨i1, i2⟩, i3⟩ := ih fun p hp => hl p (List.mem_cons_of_mem _ hp)
    have hlen : (w ++ ' ' :: v).length = w.length + v.length + 1 := by simp; omega
    rw [List.flatMap_cons]
    refine ⟨⟨?_, List.pairwise_append.mpr ⟨?_, i2, ?_⟩⟩, by omega⟩
    · intro x hx
      rcases List.mem_append.mp hx with hx | hx
      · have := b1 x hx; omega
      · have := i1 x hx; omega
    · refine List.Pairwise.imp_of_mem ?_ b2
      intro x y hx hy hxy
      refine ⟨hxy, hdepth ?_⟩
      unfold itemLevel
      rw [b3 x hx, b3 y hy]
      exact Nat.le_refl _
    · intro x hx y hy
      have h1 := b1 x hx
      have h2 := i1 y hy
      refine ⟨by omega, hdepth ?_⟩
      obtain ⟨r, hr, hy⟩ := List.mem_flatMap.mp hy
      have hk : y.kind = r.kind := by
        unfold ParsedPart.items at hy
        rcases List.mem_append.mp hy with hy | hy <;> obtain ⟨z, -, rfl⟩ := List.mem_map.mp hy <;> rfl
      unfold itemLevel
      rw [b3 x hx, hk]
      exact Nat.le_of_lt (hd r hr)

/-- References within these places, one after the other. -/
def RefsBetween (lo hi : Int) (xs : List OutgoingReference) : Prop :=
  (∀ x ∈ xs, lo ≤ x.startPos ∧ x.startPos < x.endPos ∧ x.endPos ≤ hi) ∧ xs.Pairwise fun x y => x.endPos ≤ y.startPos

theorem references_append {a b c d : Int} {xs ys : List OutgoingReference} (h1 : RefsBetween a b xs) (h2 : RefsBetween c d ys) (hab : a ≤ b)
    (hbc : b ≤ c) (hcd : c ≤ d) : RefsBetween a d (xs ++ ys) := by
  refine ⟨fun x hx => ?_, List.pairwise_append.mpr ⟨h1.2, h2.2, fun x hx y hy => ?_⟩⟩
  · rcases List.mem_append.mp hx with hx | hx
    · have := h1.1 x hx; omega
    · have := h2.1 x hx; omega
  · have := h1.1 x hx
    have := h2.1 y hy
    omega

theorem between_nil (a b : Int) : RefsBetween a b [] := ⟨by simp, .nil⟩

theorem listed_between {act : Option Str} {n : Nat} {ps : List ParsedPart} {w : Str} {xs : List OutgoingReference} (h : ReferenceText n ps w)
    (hl : ∀ p ∈ ps, RangesLast p) (hx : Listed act (ps, ↑n, ↑(n + w.length)) xs) : RefsBetween ↑n ↑(n + w.length) xs := by
  obtain ⟨h1, h2⟩ := reference_listed h hl
  obtain ⟨h3, h4⟩ := references_in_order_partial hx h1.plain (by simp only; omega)
  exact ⟨fun x hx => ⟨(h4 x hx).1, (h4 x hx).2.1, (h4 x hx).2.2.1⟩, h3⟩

theorem all_between {act : Option Str} {n : Nat} {rs : List ParsedRef} {v : Str} (h : ReferencesText n rs v) :
    ∀ {xss}, (∀ r ∈ rs, ∀ p ∈ r.1, RangesLast p) → Both (Listed act) rs xss → RefsBetween ↑n ↑(n + v.length) xss.flatten := by
  induction h with
  | @one n ps w h =>
    intro xss hl hx
    cases hx with
    | cons h1 h2 =>
      cases h2
      simpa using listed_between h (hl _ (List.mem_cons_self ..)) h1
  | @cons n ps w g rs v h _ _ ih =>
    intro xss hl hx
    cases hx with
    | cons h1 h2 =>
      have hlen : (w ++ g ++ v).length = w.length + g.length + v.length := by simp; omega
      rw [List.flatten_cons, hlen]
      have i1 := listed_between h (hl _ (List.mem_cons_self ..)) h1
      have i2 := ih (fun r hr => hl r (List.mem_cons_of_mem _ hr)) h2
      have := references_append i1 i2 (by omega) (by omega) (by omega)
      have e : n + (w.length + g.length + v.length) = n + w.length + g.length + v.length := by omega
      rw [e]
      exact this

theorem mention_between {n : Nat} {a : ParsedActRef} {w rest : Str} {x : OutgoingReference} (h : ActText n a w rest) (hx : ActMention a x) :
    RefsBetween ↑n ↑(n + w.length) [x] := by
  have key : (↑n : Int) ≤ x.startPos ∧ x.startPos < x.endPos ∧ x.endPos ≤ ↑(n + w.length) := by
    obtain ⟨id, -, -, h⟩ := hx
    have hnum : ∀ {y m v : Str}, ActNumber y m v → 0 < v.length := by
      rintro y m v ⟨e, -, -, -, rfl⟩
      simp
      omega
    cases ‹ActText n a w rest› with
    | short hw =>
      obtain ⟨c, e, rfl, -⟩ := hw
      rcases h with ⟨s, h⟩ | ⟨h, -⟩
      · simp only [Option.some.injEq, Prod.mk.injEq] at h
        obtain ⟨-, h1, h2⟩ := h
        rw [← h1, ← h2]
        simp only [List.cons_append, List.length_cons]
        omega
      · cases h
    | long hw =>
      obtain ⟨c, e, z, rfl, -⟩ := hw
      rcases h with ⟨s, h⟩ | ⟨h, -⟩
      · simp only [Option.some.injEq, Prod.mk.injEq] at h
        obtain ⟨-, h1, h2⟩ := h
        rw [← h1, ← h2]
        simp only [List.cons_append, List.length_cons]
        omega
      · cases h
    | number hw =>
      have := hnum hw
      rcases h with ⟨s, h⟩ | ⟨-, m, h⟩
      · cases h
      · simp only [Option.some.injEq, Prod.mk.injEq] at h
        obtain ⟨-, h1, h2⟩ := h
        rw [← h1, ← h2]
        omega
    | defined hw _ _ _ | described hw _ _ =>
      have := hnum hw
      rcases h with ⟨s, h⟩ | ⟨-, m, h⟩
      · cases h
      · simp only [Option.some.injEq, Prod.mk.injEq] at h
        obtain ⟨-, h1, h2⟩ := h
        rw [← h1, ← h2]
        simp only [List.length_append]
        omega
  refine ⟨?_, List.pairwise_singleton _ _⟩
  simp only [List.mem_singleton]
  rintro _ rfl
  exact key

theorem ordinary_between {n : Nat} {s : Str} {ms : List Mention} (h : Ordinary n s ms) : ∀ {xss},
    (∀ m ∈ ms, ∀ r ∈ m.2, ∀ p ∈ r.1, RangesLast p) → Both Mentioned ms xss → RefsBetween ↑n ↑(n + s.length) xss.flatten := by
  induction h with
  | done =>
    intro xss _ hx
    cases hx
    exact between_nil _ _
  | @space n c s ms _ _ ih =>
    intro xss hl hx
    have i := ih hl hx
    have := references_append (between_nil n n) i (by omega) (by omega) (by omega)
    have e : n + (c :: s).length = n + 1 + s.length := by simp; omega
    rw [e]
    exact this
  | @plain n w s ms _ _ ih =>
    intro xss hl hx
    have i := ih hl hx
    have := references_append (between_nil n n) i (by omega) (by omega) (by omega)
    have e : n + (w ++ s).length = n + w.length + s.length := by simp; omega
    rw [e]
    exact this
  | @reference n ps w s ms hw _ _ _ _ ih =>
    intro xss hl hx
    cases hx with
    | @cons _ b _ _ h1 h2 =>
      have i := ih (fun m hm => hl m (List.mem_cons_of_mem _ hm)) h2
      have i' : RefsBetween ↑n ↑(n + w.length) b := by
        cases h1 with
        | here h1 => exact all_between (.one hw) (hl _ (List.mem_cons_self ..)) h1
      have e : n + (w ++ s).length = n + w.length + s.length := by simp; omega
      rw [e, List.flatten_cons]
      exact references_append i' i (by omega) (by omega) (by omega)
  | @act n a w s ms hw _ _ ih =>
    intro xss hl hx
    cases hx with
    | @cons _ b _ _ h1 h2 =>
      have i := ih (fun m hm => hl m (List.mem_cons_of_mem _ hm)) h2
      have i' : RefsBetween ↑n ↑(n + w.length) b := by
        cases h1 with
        | ofAct ha _ h1 => cases h1; exact mention_between hw ha
      have e : n + (w ++ s).length = n + w.length + s.length := by simp; omega
      rw [e, List.flatten_cons]
      exact references_append i' i (by omega) (by omega) (by omega)
  | @actWith n a w rs v s ms hw hv _ _ _ _ ih =>
    intro xss hl hx
    cases hx with
    | @cons _ b _ _ h1 h2 =>
      have i := ih (fun m hm => hl m (List.mem_cons_of_mem _ hm)) h2
      have i' : RefsBetween ↑n ↑(n + w.length + 1 + v.length) b := by
        cases h1 with
        | ofAct ha _ h1 =>
          exact references_append (mention_between hw ha) (all_between hv (hl _ (List.mem_cons_self ..)) h1) (by omega) (by omega) (by omega)
      have e : n + (w ++ ' ' :: v ++ s).length = n + w.length + 1 + v.length + s.length := by simp; omega
      rw [e, List.flatten_cons]
      exact references_append i' i (by omega) (by omega) (by omega)

theorem both_mem {α β : Type} {R : α → β → Prop} {as : List α} {bs : List β} (h : Both R as bs) : ∀ a ∈ as, ∃ b ∈ bs, R a b := by
  induction h with
  | nil => simp
  | cons h _ ih =>
    intro a ha
    rcases List.mem_cons.mp ha with rfl | ha
    · exact ⟨_, List.mem_cons_self .., h⟩
    · obtain ⟨b, hb, hr⟩ := ih a ha
      exact ⟨b, List.mem_cons_of_mem _ hb, hr⟩

end Verif
