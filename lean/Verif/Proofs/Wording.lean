import Verif.Proofs.ActGrammar
import Verif.Proofs.Grammar
import Verif.Proofs.NextInList

/-! # References that are written are at their places -/

namespace Verif

open Verif.Spec

theorem items_placed {s : Str} {k : PartKind} {items : List Item} {a b : Nat} (h : ItemsWritten s k items a b) :
    (∀ x ∈ items, (a : Int) ≤ x.place.1 ∧ x.place.1 < x.place.2 ∧ x.place.2 ≤ b) ∧ items.Pairwise fun x y => x.place.2 ≤ y.place.1 := by
  induction h with
  | nil => exact ⟨by simp, .nil⟩
  | cons hx hp ha _ hd _ h ih =>
    obtain ⟨a', b', e, hlt, _⟩ := hx
    have hle := ActGrammar.items_le h
    rw [hp, Prod.mk.injEq] at e
    refine ⟨?_, List.pairwise_cons.mpr ⟨?_, ih.2⟩⟩
    · intro y hy
      rcases List.mem_cons.mp hy with rfl | hy
      · rw [hp]
        simp only
        omega
      · have := ih.1 y hy
        omega
    · intro y hy
      have := ih.1 y hy
      rw [hp]
      simp only
      omega

theorem part_items_placed {s : Str} {p : ParsedPart} {a c : Nat} (h : PartWritten s p a c) :
    (∀ x ∈ p.items, x.kind = p.kind ∧ (a : Int) ≤ x.startPos ∧ x.startPos < x.endPos ∧ x.endPos ≤ c) ∧
      p.singles.Pairwise fun x y => x.2.2 ≤ y.2.1 := by
  obtain ⟨items, b, _, h1, h2, h3, h4, _⟩ := h
  obtain ⟨h5, h6⟩ := items_placed h3
  constructor
  · intro x hx
    unfold ParsedPart.items at hx
    rcases List.mem_append.mp hx with hx | hx
    · obtain ⟨y, hy, rfl⟩ := List.mem_map.mp hx
      rw [h1] at hy
      obtain ⟨z, hz, he⟩ := List.mem_filterMap.mp hy
      cases z with
      | inl z => cases he
      | inr z =>
        cases he
        have := h5 _ hz
        simp only [Item.place] at this
        refine ⟨rfl, ?_⟩
        simp only
        omega
    · obtain ⟨y, hy, rfl⟩ := List.mem_map.mp hx
      rw [h2] at hy
      obtain ⟨z, hz, he⟩ := List.mem_filterMap.mp hy
      cases z with
      | inr z => cases he
      | inl z =>
        cases he
        have := h5 _ hz
        simp only [Item.place] at this
        refine ⟨rfl, ?_⟩
        simp only
        omega
  · rw [h1, List.pairwise_filterMap]
    refine h6.imp ?_
    intro x y hxy u hu v hv
    cases x with
    | inl x => cases hu
    | inr x =>
      cases y with
      | inl y => cases hv
      | inr y =>
        cases hu
        cases hv
        exact hxy

theorem above_depth {x y : PartKind} : Above (kindLevel x) (kindLevel y) ↔ PartKind.depth x < PartKind.depth y := by
  unfold Above
  cases x <;> cases y <;> decide

theorem parts_placed {s : Str} {gap : Str → Prop} {ps : List ParsedPart} {a b : Nat} (h : PartsWritten s gap ps a b) :
    (∀ x ∈ ps.flatMap ParsedPart.items, (a : Int) ≤ x.startPos ∧ x.startPos < x.endPos ∧ x.endPos ≤ b) ∧
      ((ps.map fun p => PartKind.depth p.kind).Pairwise (· < ·) → ∀ x ∈ ps.flatMap ParsedPart.items, ∀ y ∈ ps.flatMap ParsedPart.items,
        Above (itemLevel x) (itemLevel y) → x.endPos ≤ y.startPos) ∧
      ∀ p ∈ ps, p.singles.Pairwise fun x y => x.2.2 ≤ y.2.1 := by
  induction h with
  | nil => simp
  | cons ha _ hp h ih =>
    rename_i p ps a b c d _
    obtain ⟨h1, h2⟩ := part_items_placed hp
    have hbc := (ActGrammar.part_told hp).1
    have hcd := ActGrammar.parts_le h
    have kinds : ∀ {x : RefItem}, x ∈ ps.flatMap ParsedPart.items → ∃ q ∈ ps, x.kind = q.kind := by
      intro x hx
      obtain ⟨q, hq, hx⟩ := List.mem_flatMap.mp hx
      refine ⟨q, hq, ?_⟩
      unfold ParsedPart.items at hx
      rcases List.mem_append.mp hx with hx | hx <;> obtain ⟨y, _, rfl⟩ := List.mem_map.mp hx <;> rfl
    refine ⟨?_, ?_, ?_⟩
    · intro x hx
      rw [List.flatMap_cons, List.mem_append] at hx
      rcases hx with hx | hx
      · have := (h1 x hx).2
        omega
      · have := ih.1 x hx
        omega
    · intro hd x hx y hy hxy
      rw [List.map_cons, List.pairwise_cons] at hd
      rw [List.flatMap_cons, List.mem_append] at hx hy
      unfold itemLevel at hxy
      rw [above_depth] at hxy
      rcases hx with hx | hx <;> rcases hy with hy | hy
      · rw [(h1 x hx).1, (h1 y hy).1] at hxy
        omega
      · have := (h1 x hx).2
        have := ih.1 y hy
        omega
      · obtain ⟨q, hq, hxq⟩ := kinds hx
        have := hd.1 _ (List.mem_map_of_mem (f := fun p : ParsedPart => PartKind.depth p.kind) hq)
        rw [hxq, (h1 y hy).1] at hxy
        omega
      · refine ih.2.1 hd.2 x hx y hy ?_
        unfold itemLevel
        rwa [above_depth]
    · intro q hq
      rcases List.mem_cons.mp hq with rfl | hq
      · exact h2
      · exact ih.2.2 q hq

theorem ref_placed {s : Str} {gap : Str → Prop} {r : ParsedRef} (h : RefWritten s gap r) : RefPlaced s.length r := by
  obtain ⟨a, b, c, h1, h2, h3, h4, h5, _, h6⟩ := h
  obtain ⟨p1, p2, p3⟩ := parts_placed h5
  have hab := ActGrammar.parts_le h5
  refine ⟨?_, ?_, p2 h6, ?_, p3⟩
  · rw [h1]
    unfold Place
    simp only
    omega
  · intro x hx
    have := p1 x hx
    rw [h1]
    simp only
    omega
  · rw [List.pairwise_map] at h6
    refine h6.imp ?_
    intro p q hpq he
    rw [he] at hpq
    omega

theorem node_placed {s : Str} {n : GrammarNode} (h : NodeWritten s n) : NodePlaced s.length n := by
  have act : ∀ {a : ParsedActRef}, ActWritten s a → (∀ x p, a.actId = some (x, p) → Place s.length p) ∧
      ∀ x p, a.abbreviation = some (x, p) → Place s.length p := by
    intro a ha
    rcases ha with ⟨y, n, e, i, j, h1, h2, h3, h4, _⟩ | ⟨t, i, j, h1, _, h2, h3, h4, _⟩
    · constructor
      · intro x p hx
        rw [h1] at hx
        cases hx
        unfold Place
        simp only
        omega
      · intro x p hx
        rw [h2] at hx
        cases hx
    · constructor
      · intro x p hx
        rw [h1] at hx
        cases hx
      · intro x p hx
        rw [h2] at hx
        cases hx
        unfold Place
        simp only
        omega
  refine ⟨?_, ?_, ?_⟩
  · intro a ha
    cases n with
    | compoundReference b rs => exact act (h.1 a (by simpa [nodeActs] using ha))
    | enforcementDate d => simp [nodeActs] at ha
    | other => simp [nodeActs] at ha
    | actReference b =>
      simp only [nodeActs, List.mem_singleton] at ha
      subst ha
      exact act h
    | _ =>
      simp only [nodeActs, List.mem_singleton] at ha
      subst ha
      exact act h.1
  · intro r hr
    cases n with
    | compoundReference b rs => exact ref_placed (h.2 r hr)
    | blockAmendment b am ins =>
      rcases List.mem_append.mp hr with hr | hr
      · exact ref_placed (h.2.1 r (by simpa using hr))
      · exact ref_placed (h.2.2.1 r (by simpa using hr))
    | blockAmendmentWithSubtitle b st am ins =>
      rcases List.mem_append.mp hr with hr | hr
      · exact ref_placed (h.2.2.1 r (by simpa using hr))
      · exact ref_placed (h.2.2.2.1 r (by simpa using hr))
    | enforcementDate d =>
      rcases List.mem_append.mp hr with hr | hr
      · exact ref_placed (h.1 r hr)
      · exact ref_placed (h.2.1 r hr)
    | textAmendment b rs ps => exact ref_placed (h.2.2.1 r hr)
    | simpleRepeal b rs ts => exact ref_placed (h.2.2.1 r hr)
    | _ => simp [nodeRefs] at hr
  · intro a article o r he
    subst he
    obtain ⟨_, ⟨i, j, g, h1, h2, h3, _⟩, _⟩ := h
    rw [h1]
    unfold Place
    simp only [Int.ofNat_eq_natCast]
    omega

/-- What the grammar reads is at places of the sentence. -/
theorem parse_placed {s : Str} {t : ParseTree} (h : ActGrammar.parse s = some t) : ∀ n ∈ treeNodes t, NodePlaced s.length n :=
  fun n hn => node_placed (ActGrammar.parse_written h n hn)

/-! ## What references name is written -/

theorem iterLevels_components {c : Collector} {gs : List RefItem} (hl : ∀ l, c.lists l = listAt gs l) (stop : Int) :
    ∀ (ls : List RefLevel) (o : Int) (args : Reference) (out : List OutgoingReference),
      (∀ l p, component args l = some p → ∃ g ∈ gs, itemLevel g = l ∧ g.data = p) →
      c.iterLevels stop ls (some o) args = .ok out → ∀ x ∈ out, ∀ l p, component x.reference l = some p →
        ∃ g ∈ gs, itemLevel g = l ∧ g.data = p := by
  intro ls
  induction ls with
  | nil =>
    intro o args out ha h x hx l p hp
    cases h
    rw [List.mem_singleton] at hx
    subst hx
    exact ha l p hp
  | cons l ls ih =>
    intro o args out ha h x hx
    have hne : sortValues (c.lists l) ≠ [] := by
      intro h0
      have h1 := sortValues_perm (c.lists l)
      rw [h0, hl] at h1
      have h2 := List.Perm.nil_eq h1
      unfold listAt at h2
      split at h2
      · cases h2
      · rename_i hv
        exact hv h2.symm
    obtain ⟨vs, last, hs⟩ : ∃ vs last, sortValues (c.lists l) = vs ++ [last] :=
      ⟨_, _, (List.dropLast_concat_getLast hne).symm⟩
    have hmem : ∀ v ∈ vs ++ [last], ∀ p, v.data = some p → ∃ g ∈ gs, itemLevel g = l ∧ g.data = p := by
      intro v hv p hp
      rw [← hs] at hv
      have h1 := (sortValues_perm (c.lists l)).mem_iff.mp hv
      rw [hl] at h1
      unfold listAt at h1
      split at h1
      · rw [List.mem_singleton] at h1
        rw [h1] at hp
        cases hp
      · obtain ⟨g, hg, hgl, rfl⟩ := mem_valuesAt.mp h1
        exact ⟨g, hg, hgl, by injection hp⟩
    have hset : ∀ v ∈ vs ++ [last], ∀ m p, component (l.set args v.data) m = some p → ∃ g ∈ gs, itemLevel g = m ∧ g.data = p := by
      intro v hv m p hp
      rw [component_set] at hp
      split at hp
      · rename_i hm
        subst hm
        exact hmem v hv p hp
      · exact ha m p hp
    obtain ⟨rest, rfl, hrest⟩ := iterLevels_cons hs h
    rcases List.mem_append.mp hx with hx | hx
    · cases vs with
      | nil => simp [leading] at hx
      | cons v vs =>
        rcases List.mem_cons.mp hx with rfl | hx
        · exact hset v (by simp)
        · obtain ⟨w, hw, rfl⟩ := List.mem_map.mp hx
          exact hset w (by simp [hw])
    · exact ih _ _ _ (hset last (by simp)) hrest x hx

theorem items_written {s : Str} {k : PartKind} {items : List Item} {a b : Nat} (h : ItemsWritten s k items a b) :
    ∀ y ∈ items, ItemWritten s k y := by
  induction h with
  | nil => simp
  | cons hx _ _ _ _ _ _ ih =>
    intro y hy
    rcases List.mem_cons.mp hy with rfl | hy
    · exact hx
    · exact ih y hy

theorem itemsWritten_le {s : Str} {k : PartKind} {items : List Item} {a b : Nat} (h : ItemsWritten s k items a b) : a ≤ b := by
  induction h with
  | nil => exact Nat.le_refl _
  | cons hx hp ha _ hd _ _ ih =>
    obtain ⟨i, j, h1, h2, _⟩ := hx
    rw [h1] at hp
    have e1 := congrArg Prod.fst hp
    have e2 := congrArg Prod.snd hp
    simp only at e1 e2
    omega

/-- Items end where their list ends at the latest. -/
theorem items_end_le {s : Str} {k : PartKind} {items : List Item} {a b : Nat} (h : ItemsWritten s k items a b) :
    ∀ y ∈ items, y.place.2 ≤ b := by
  induction h with
  | nil => simp
  | cons _ hp _ _ hd _ h ih =>
    intro y hy
    rcases List.mem_cons.mp hy with rfl | hy
    · have := itemsWritten_le h
      rw [hp]
      simp only
      omega
    · exact ih y hy

/-- All items of the lists are written, and the ends of the lists after them. -/
theorem parts_items_written {s : Str} {gap : Str → Prop} {ps : List ParsedPart} {a b : Nat} (h : PartsWritten s gap ps a b) :
    ∀ x ∈ ps.flatMap ParsedPart.items, ∃ i j m n : Nat, x.startPos = i ∧ x.endPos = j ∧ (j ≤ m ∧ ListEnd x.kind (told s m n)) ∧
      match x.data with
      | .one id => SingleWritten x.kind id (told s i j)
      | .range u v => RangeWritten x.kind u v (told s i j) := by
  induction h with
  | nil => simp
  | cons _ _ hp _ ih =>
    rename_i p ps _ _ _ _ _
    intro x hx
    rw [List.flatMap_cons, List.mem_append] at hx
    rcases hx with hx | hx
    · obtain ⟨items, m, _, h1, h2, h3, _, _, he'⟩ := hp
      have key := items_written h3
      have ends := items_end_le h3
      unfold ParsedPart.items at hx
      rcases List.mem_append.mp hx with hx | hx
      · obtain ⟨y, hy, rfl⟩ := List.mem_map.mp hx
        rw [h1] at hy
        obtain ⟨z, hz, he⟩ := List.mem_filterMap.mp hy
        cases z with
        | inl z => cases he
        | inr z =>
          cases he
          obtain ⟨i, j, hp, _, _, h⟩ := key _ hz
          have hle := ends _ hz
          rw [hp] at hle
          exact ⟨i, j, m, _, congrArg (·.1) hp, congrArg (·.2) hp, ⟨Int.ofNat_le.mp hle, he'⟩, h⟩
      · obtain ⟨y, hy, rfl⟩ := List.mem_map.mp hx
        rw [h2] at hy
        obtain ⟨z, hz, he⟩ := List.mem_filterMap.mp hy
        cases z with
        | inr z => cases he
        | inl z =>
          cases he
          obtain ⟨i, j, hp, _, _, h⟩ := key _ hz
          have hle := ends _ hz
          rw [hp] at hle
          exact ⟨i, j, m, _, congrArg (·.1) hp, congrArg (·.2) hp, ⟨Int.ofNat_le.mp hle, he'⟩, h⟩
    · exact ih x hx

theorem listed_written {s : Str} {gap : Str → Prop} {act : Option Str} {r : ParsedRef} {out : List OutgoingReference}
    (hw : RefWritten s gap r) (ha : ∀ a, act = some a → ActNameWritten s a) (h : Listed act r out) :
    ∀ x ∈ out, ReferenceWritten s x.reference := by
  intro x hx
  refine ⟨?_, ?_⟩
  · intro a h1
    exact ha a (by rw [← h1]; exact (convertSingle_act h x hx).symm)
  · obtain ⟨c, gs, h1, h2, h3⟩ := convertSingle_iter h
    obtain ⟨_, _, _, _, _, _, _, h5, _, _⟩ := hw
    have key := parts_items_written h5
    intro l p hp
    obtain ⟨g, hg, rfl, rfl⟩ := iterLevels_components h1 _ _ _ _ _ (by intro l p h; cases l <;> cases h) h3 x hx l p hp
    rcases h2.groups g hg with h | ⟨q, x, y, q', a, b, he, h6, h7, h8, rfl⟩
    · obtain ⟨i, j, m, n, _, _, ⟨hm, hl⟩, h⟩ := key g h
      cases hd : g.data with
      | one id =>
        rw [hd] at h
        exact ⟨_, i, j, m, n, rfl, h, hm, hl⟩
      | range u v =>
        rw [hd] at h
        exact ⟨_, m, n, rfl, hl, .inl ⟨i, j, hm, h⟩⟩
    · obtain ⟨i, j, _, _, _, _, _, hx'⟩ := key x (by rw [he]; simp)
      obtain ⟨i', j', m, n, _, _, ⟨hm, hl⟩, hy'⟩ := key y (by rw [he]; simp)
      rw [h6] at hx'
      rw [h7] at hy'
      obtain ⟨hk, a', b', ha', hb', hn⟩ := h8
      rw [h6] at ha'
      rw [h7] at hb'
      cases ha'
      cases hb'
      rw [← hk] at hl hy'
      exact ⟨_, m, n, rfl, hl, .inr ⟨(isNext_iff hx'.1 hy'.1).1 hn, i, j, i', j', hm, hx', hy'⟩⟩

theorem completes_written {s : Str} {context r c : Reference} (h : Completes context r c) (hc : ReferenceWritten s context)
    (hr : ReferenceWritten s r) : ReferenceWritten s c := by
  obtain ⟨p, t, h1, h2, _, h3⟩ := h
  have hlen : p.length ≤ 5 := by
    have := congrArg List.length h1
    simp [Reference.components] at this
    omega
  have key : ∀ i : Nat, c.components[i]? = context.components[i]? ∨ c.components[i]? = r.components[i]? := by
    intro i
    rw [h3, h1]
    by_cases hi : i < p.length
    · left
      rw [List.getElem?_append_left (by simp [Reference.components]; omega), List.getElem?_take_of_lt hi]
    · right
      rw [List.getElem?_append_right (by simp [Reference.components]; omega), List.getElem?_append_right (by omega)]
      congr 1
      simp [Reference.components]
      omega
  refine ⟨?_, ?_⟩
  · intro a ha
    rcases key 0 with h | h
    · refine hc.act a ?_
      simp only [Reference.components, List.getElem?_cons_zero, Option.some.injEq, ha, Option.map_some] at h
      cases hx : context.act with
      | none => rw [hx] at h; cases h
      | some b => rw [hx] at h; cases h; rfl
    · refine hr.act a ?_
      simp only [Reference.components, List.getElem?_cons_zero, Option.some.injEq, ha, Option.map_some] at h
      cases hx : r.act with
      | none => rw [hx] at h; cases h
      | some b => rw [hx] at h; cases h; rfl
  · intro l q hq
    have idx : ∀ x : Reference, x.components[depth l + 1]? = some (component x l) := by
      intro x
      cases l <;> rfl
    rcases key (depth l + 1) with h | h
    · rw [idx, idx, Option.some.injEq] at h
      exact hc.components l q (by rw [← h, hq])
    · rw [idx, idx, Option.some.injEq] at h
      exact hr.components l q (by rw [← h, hq])

theorem continued_written {s : Str} {context : Reference} {xs ys : List OutgoingReference} (h : Continued context xs ys)
    (hc : ReferenceWritten s context) (hx : ∀ x ∈ xs, ReferenceWritten s x.reference) : ∀ y ∈ ys, ReferenceWritten s y.reference := by
  induction h with
  | nil => simp
  | cons h _ ih =>
    have h1 := completes_written h hc (hx _ (List.mem_cons_self ..))
    intro y hy
    rcases List.mem_cons.mp hy with rfl | hy
    · exact h1
    · exact ih h1 (fun x h => hx x (List.mem_cons_of_mem _ h)) y hy

theorem all_listed_written {s : Str} {gap : Str → Prop} {act : Option Str} {rs : List ParsedRef} {xss : List (List OutgoingReference)}
    (h : Both (Listed act) rs xss) (ha : ∀ a, act = some a → ActNameWritten s a) (hp : ∀ r ∈ rs, RefWritten s gap r) :
    ∀ x ∈ xss.flatten, ReferenceWritten s x.reference := by
  intro x hx
  obtain ⟨xs, hxs, hx⟩ := List.mem_flatten.mp hx
  obtain ⟨r, hr, h⟩ := h.mem_right hxs
  exact listed_written (hp r hr) ha h x hx

theorem context_written {s : Str} {gap : Str → Prop} {context : Reference} {rs : List ParsedRef} {ys : List OutgoingReference}
    (h : ListedInContext context rs ys) (hc : ReferenceWritten s context) (hp : ∀ r ∈ rs, RefWritten s gap r) :
    ∀ x ∈ ys, ReferenceWritten s x.reference := by
  obtain ⟨xss, h1, h2⟩ := h
  exact continued_written h2 hc (all_listed_written h1 (by simp) hp)

theorem one_written {s : Str} {gap : Str → Prop} {act : Str} {r : Option ParsedRef} {y : OutgoingReference} (h : OneListed act r (some y))
    (ha : ActNameWritten s act) (hp : ∀ p ∈ r, RefWritten s gap p) : ReferenceWritten s y.reference := by
  rcases h with ⟨-, h⟩ | ⟨p, xs, rfl, h1, ⟨z, rfl, h2⟩ | ⟨-, h2⟩⟩
  · cases h
  · cases h2
    exact listed_written (hp p rfl) (by simpa using ha) h1 y (List.mem_cons_self ..)
  · cases h2

theorem actName_written {s : Str} {a : ParsedActRef} {id : Str} (hw : ActWritten s a) (h : ActName a id) : ActNameWritten s id := by
  rcases hw with ⟨y, n, e, i, j, h1, h2, h3, h4, h5, h6, h7, h8, _⟩ | ⟨t, i, j, h1, _, h2, h3, h4, h5, h6⟩
  · cases h with
    | number h =>
      rw [h1] at h
      cases h
      exact .inl ⟨_, _, e, i, j, by simp, h5, h6, h7, h8⟩
    | abbreviation h =>
      rw [h1] at h
      cases h
  · cases h with
    | number h =>
      rw [h1] at h
      cases h
    | abbreviation _ h =>
      rw [h2] at h
      cases h
      exact .inr ⟨h5, i, j, h6⟩

theorem act_written {s : Str} {id : Str} (h : ActNameWritten s id) : ReferenceWritten s { act := some id } :=
  ⟨by intro a ha; cases ha; exact h, by intro l p hp; cases l <;> cases hp⟩

theorem mention_written {s : Str} {a : ParsedActRef} (hw : ActWritten s a) {x : OutgoingReference} (h : ActMention a x) :
    ReferenceWritten s x.reference := by
  obtain ⟨id, h1, h2, _⟩ := h
  rw [h2]
  exact act_written (actName_written hw h1)

theorem empty_written {s : Str} : ReferenceWritten s {} := ⟨(by intro a ha; cases ha), (by intro l p hp; cases l <;> cases hp)⟩

theorem filter_split {p : Char → Bool} : ∀ {l u v : Str}, l.filter p = u ++ v → ∃ n ≤ l.length, (l.take n).filter p = u
  | [], u, v, h => ⟨0, Nat.le_refl _, by
      simp only [List.filter_nil] at h
      rw [List.nil_eq_append_iff] at h
      simp [h.1]⟩
  | c :: l, u, v, h => by
    by_cases hu : u = []
    · exact ⟨0, Nat.zero_le _, by simp [hu]⟩
    · rw [List.filter_cons] at h
      by_cases hc : p c = true
      · rw [if_pos hc] at h
        cases u with
        | nil => exact absurd rfl hu
        | cons x u =>
          rw [List.cons_append, List.cons.injEq] at h
          obtain ⟨n, h1, h2⟩ := filter_split h.2
          exact ⟨n + 1, by simpa using h1, by rw [List.take_succ_cons, List.filter_cons, if_pos hc, h2, h.1]⟩
      · rw [if_neg hc] at h
        obtain ⟨n, h1, h2⟩ := filter_split h
        exact ⟨n + 1, by simpa using h1, by rw [List.take_succ_cons, List.filter_cons, if_neg hc, h2]⟩

/-- What is written at the beginning of a place. -/
theorem told_split {s u v : Str} {a b : Nat} (h : told s a b = u ++ v) : ∃ m, told s a m = u ∧ told s m b = v := by
  unfold told squeeze at h
  obtain ⟨n, h1, h2⟩ := filter_split h
  refine ⟨a + n, ?_, ?_⟩
  rotate_left
  · have h3 := List.take_append_drop n (slice s a b)
    rw [← h3, List.filter_append, h2] at h
    have h4 := List.append_cancel_left h
    unfold told squeeze
    rw [← h4]
    congr 1
    unfold slice
    rw [List.drop_take, List.drop_drop]
    congr 1
    omega
  unfold told squeeze
  rw [← h2]
  congr 1
  unfold slice
  rw [List.take_take]
  congr 1
  unfold slice at h1
  simp at h1
  omega

/-- What the references of a node name is written. -/
theorem told_written {s : Str} {n : GrammarNode} {told : Told} (hw : NodeWritten s n) (h : Tells n told) :
    ∀ x ∈ told.1, ReferenceWritten s x.reference := by
  have cons : ∀ {y : OutgoingReference} {xs : List OutgoingReference}, ReferenceWritten s y.reference →
      (∀ x ∈ xs, ReferenceWritten s x.reference) → ∀ x ∈ y :: xs, ReferenceWritten s x.reference := by
    intro y xs hy hxs x hx
    rcases List.mem_cons.mp hx with rfl | hx
    · exact hy
    · exact hxs x hx
  have nil : ∀ x ∈ ([] : List OutgoingReference), ReferenceWritten s x.reference := by simp
  cases h with
  | compound h => exact all_listed_written h (by simp) hw.2
  | compoundOfAct ha hi h =>
    exact cons (mention_written (hw.1 _ rfl) ha) (all_listed_written h (by simpa using actName_written (hw.1 _ rfl) hi) hw.2)
  | defined | act | withSubtitle | onlySubtitle | structuralAmended | structuralInserted | other => exact nil
  | amended ha hi hm hn =>
    exact cons (mention_written hw.1 ha) (cons (one_written hm (actName_written hw.1 hi) hw.2.1) nil)
  | inserted ha hi hm hn =>
    exact cons (mention_written hw.1 ha) (cons (one_written hn (actName_written hw.1 hi) hw.2.2.1) nil)
  | both ha hi hm hn hc hp =>
    have hy := one_written hm (actName_written hw.1 hi) hw.2.1
    have hz := one_written hn (actName_written hw.1 hi) hw.2.2.1
    refine cons (mention_written hw.1 ha) (cons hy (cons (completes_written hc hy ?_) nil))
    refine ⟨(by intro a ha; cases ha), fun l p hp => hz.components l p ?_⟩
    cases l <;> exact hp
  | neither ha hi hm hn => exact cons (mention_written hw.1 ha) nil
  | allInForce he ht hr hx => exact context_written hx empty_written hw.2.1
  | inForce he ht hr h hx =>
    intro x hm
    rcases List.mem_append.mp hm with hm | hm
    · exact context_written h empty_written hw.1 x hm
    · exact context_written hx empty_written hw.2.1 x hm
  | replaced ha hi h hd =>
    exact cons (mention_written hw.1 ha) (context_written h (act_written (actName_written hw.1 hi)) hw.2.2.1)
  | repealed ha hi h =>
    exact cons (mention_written hw.1 ha) (context_written h (act_written (actName_written hw.1 hi)) hw.2.2.1)
  | textsRepealed ha hi h he hd =>
    exact cons (mention_written hw.1 ha) (context_written h (act_written (actName_written hw.1 hi)) hw.2.2.1)
  | structureRepealed ha hi h => exact cons (mention_written hw.1 ha) nil
  | title ha hi ho hr =>
    refine cons (mention_written hw.1 ha) (cons ?_ nil)
    obtain ⟨_, ⟨i, j, g, _, h2, h3, h4, h5, h6⟩, _⟩ := hw
    refine ⟨by intro a ha; cases ha; exact actName_written (by assumption) hi, ?_⟩
    intro l p hp
    cases l <;> cases hp
    rw [List.append_assoc] at h6
    obtain ⟨m, hm, hn⟩ := told_split (u := _ ++ py".") (by rw [h6, List.append_assoc])
    exact ⟨.article, i, m, m, j, rfl, ⟨h4, hm⟩, Nat.le_refl _, by rw [hn]; exact h5⟩

/-! ## What semantic data says is written -/

theorem quotesText_append (xs ys : List QuoteTree) : quotesText (xs ++ ys) = quotesText xs ++ quotesText ys := by
  induction xs with
  | nil => rfl
  | cons x xs ih => rw [List.cons_append, quotesText, quotesText, ih, List.append_assoc]

theorem quoted_at {s t : Str} {q : List QuoteTree} {a b : Nat} (hw : QuoteWritten s q a b) (h : Quoted q t) : QuotedAt s t a b := by
  obtain ⟨inner, rfl, h1⟩ := h
  obtain ⟨h2, h3, h4, _⟩ := hw
  refine ⟨h2, h3, quotesText inner, ?_, h1⟩
  rw [h4, List.cons_append, quotesText, quotesText_append]
  simp [quotesText, quoteText]

theorem replaces_of {s o r : Str} {p : List QuoteTree × List QuoteTree} (hw : ReplacementWritten s p) (ho : Quoted p.1 o) (hr : Quoted p.2 r) :
    Replaces s o r := by
  obtain ⟨a, b, c, d, h1, h2, h3⟩ := hw
  exact ⟨a, b, c, d, quoted_at h1 ho, quoted_at h2 hr, h3⟩

theorem time_written {s : Str} {d : ParsedEnforcementDate} {time : EnforcementTime} {repeal : Option Date}
    (hw : NodeWritten s (.enforcementDate d)) (ht : TimeNamed d time)
    (hr : d.inlineRepeal = none ∧ repeal = none ∨ ∃ p x, d.inlineRepeal = some p ∧ DateNamed p x ∧ repeal = some x) :
    BeginsWith s [py"Etörvény", py"Ezatörvény", py"A"] ∧ EndsWithTime s time repeal := by
  obtain ⟨_, _, h1, w, h2, h3⟩ := hw
  refine ⟨h1, d, w, ht, h2, ?_⟩
  rcases h3 with ⟨h3, h4⟩ | ⟨r, e, t, v, h3, h4, h5, h6, h7⟩
  · rcases hr with ⟨_, rfl⟩ | ⟨p, x, h, _, _⟩
    · exact .inl ⟨rfl, h4⟩
    · rw [h3] at h
      cases h
  · rcases hr with ⟨h, _⟩ | ⟨p, x, h, h8, rfl⟩
    · rw [h3] at h
      cases h
    · rw [h3] at h
      cases h
      exact .inr ⟨x, r, e, t, v, rfl, h8, h4, h5, h6, h7⟩

theorem data_written {s : Str} {n : GrammarNode} {told : Told} (hw : NodeWritten s n) (h : Tells n told) :
    ∀ d ∈ told.2.2, DataWritten s d := by
  have one : ∀ {d : SemanticData}, DataWritten s d → ∀ x ∈ [d], DataWritten s x := by
    intro d hd x hx
    rw [List.mem_singleton] at hx
    rwa [hx]
  have nil : ∀ x ∈ ([] : List SemanticData), DataWritten s x := by simp
  have hpos : ∀ {e : Str}, e ∈ amendmentEnds ∨ e ∈ subtitleEnds ∨ e ∈ structureEnds ∨ e ∈ insertionEnds →
      e ∈ amendmentEnds ++ subtitleEnds ++ structureEnds ++ insertionEnds := by
    intro e h
    simp only [List.mem_append]
    rcases h with h | h | h | h <;> simp [h]
  cases h with
  | compound | compoundOfAct | defined | act | neither | other => exact nil
  | amended ha hi hm hn =>
    refine one ?_
    rcases hw.2.2.2 with ⟨_, _, h⟩ | ⟨_, h⟩
    · exact ActGrammar.endsIn_mono (fun e he => hpos (.inl he)) h
    · exact ActGrammar.endsIn_mono (fun e he => hpos (.inr (.inr (.inr he)))) h
  | both ha hi hm hn hc hp =>
    refine one ?_
    rcases hw.2.2.2 with ⟨_, _, h⟩ | ⟨_, h⟩
    · exact ActGrammar.endsIn_mono (fun e he => hpos (.inl he)) h
    · exact ActGrammar.endsIn_mono (fun e he => hpos (.inr (.inr (.inr he)))) h
  | inserted ha hi hm hn =>
    refine one ?_
    rcases hw.2.2.2 with ⟨_, h0, _⟩ | ⟨_, h⟩
    · subst h0
      rcases hn with ⟨_, h⟩ | ⟨_, _, h, _⟩ <;> cases h
    · exact h
  | withSubtitle hi h hy =>
    refine one ?_
    rcases hw.2.2.2.2 with ⟨_, h0, h1⟩ | ⟨h0, _, h1⟩
    · rcases h with ⟨_, _, rfl⟩ | ⟨_, h, _⟩
      · refine ActGrammar.endsIn_mono (fun e he => hpos ?_) h1
        rcases List.mem_append.mp he with he | he
        · exact .inl he
        · exact .inr (.inl he)
      · subst h0
        rcases h with ⟨_, h⟩ | ⟨_, _, h, _⟩ <;> cases h
    · rcases h with ⟨h, _⟩ | ⟨_, _, rfl⟩
      · subst h0
        rcases h with ⟨_, h⟩ | ⟨_, _, h, _⟩ <;> cases h
      · exact h1
  | onlySubtitle hi h hy hs =>
    refine one ?_
    rcases hw.2.2.2.2 with ⟨_, h0, h1⟩ | ⟨h0, _, h1⟩
    · rcases h with ⟨_, _, rfl⟩ | ⟨_, h, _⟩
      · refine ActGrammar.endsIn_mono (fun e he => hpos ?_) h1
        rcases List.mem_append.mp he with he | he
        · exact .inl he
        · exact .inr (.inl he)
      · subst h0
        rcases h with ⟨_, h⟩ | ⟨_, _, h, _⟩ <;> cases h
    · rcases h with ⟨h, _⟩ | ⟨_, _, rfl⟩
      · subst h0
        rcases h with ⟨_, h⟩ | ⟨_, _, h, _⟩ <;> cases h
      · exact h1
  | structuralAmended hi h =>
    refine one ?_
    rcases hw.2.2.2 with ⟨_, _, h1⟩ | ⟨h0, _⟩
    · refine ActGrammar.endsIn_mono (fun e he => hpos ?_) h1
      rcases List.mem_append.mp he with he | he
      · exact .inl he
      · exact .inr (.inr (.inl he))
    · cases h0
  | structuralInserted hi h =>
    refine one ?_
    rcases hw.2.2.2 with ⟨h0, _⟩ | ⟨_, _, h1⟩
    · exact absurd rfl h0
    · exact h1
  | allInForce he ht hr hx => exact one (time_written hw ht hr)
  | inForce he ht hr h hx =>
    intro d hd
    obtain ⟨x, _, rfl⟩ := List.mem_map.mp hd
    exact time_written hw ht hr
  | replaced ha hi h hd =>
    intro d hm
    obtain ⟨ds, hds, hm⟩ := List.mem_flatten.mp hm
    obtain ⟨x, _, hb⟩ := hd.mem_right hds
    obtain ⟨p, hp, o, r, ho, hr, rfl⟩ := hb.mem_right hm
    exact ⟨replaces_of (hw.2.2.2.2.1 p hp) ho hr, hw.2.2.2.2.2⟩
  | title ha hi ho hr => exact one ⟨replaces_of hw.2.2.1 ho hr, hw.2.2.2⟩
  | repealed ha hi h =>
    intro d hd
    obtain ⟨x, _, rfl⟩ := List.mem_map.mp hd
    exact ⟨hw.2.2.2.2.1, hw.2.2.2.2.2, by simp⟩
  | textsRepealed ha hi h he hd =>
    intro d hm
    obtain ⟨ds, hds, hm⟩ := List.mem_flatten.mp hm
    obtain ⟨x, _, hb⟩ := hd.mem_right hds
    obtain ⟨q, hq, t, ht, rfl⟩ := hb.mem_right hm
    refine ⟨hw.2.2.2.2.1, hw.2.2.2.2.2, ?_⟩
    intro y hy
    cases hy
    obtain ⟨a, b, h1⟩ := hw.2.2.2.1 q hq
    exact ⟨a, b, quoted_at h1 ht⟩
  | structureRepealed ha hi h => exact one ⟨hw.2.2.1, hw.2.2.2, by simp⟩

theorem abbreviations_written {s : Str} {n : GrammarNode} {told : Told} (hw : NodeWritten s n) (h : Tells n told) :
    ∀ a ∈ told.2.1, AbbreviationWritten s a := by
  have nil : ∀ x ∈ ([] : List ActIdAbbreviation), AbbreviationWritten s x := by simp
  cases h with
  | defined h hi =>
    intro a ha
    rw [List.mem_singleton] at ha
    subst ha
    rcases hw with ⟨y, n, e, i, j, h1, h2, h3, h4, h5, h6, h7, h8, h9⟩ | ⟨t, i, j, _, h2, _⟩
    · obtain ⟨g1, z, l, w, g2, g3, g4, g5, g6, g7, g8⟩ := h9 _ h
      cases hi with
      | number hn =>
        rw [h1] at hn
        cases hn
        exact ⟨g1, _, _, e, _, w, i, j, z, l, by simp, h5, h6, h7, h3, g2, h8, g6, rfl, g5, g3, g4, g7, g8⟩
      | abbreviation hn =>
        rw [h1] at hn
        cases hn
    · rw [h2] at h
      cases h
  | _ => exact nil

end Verif
