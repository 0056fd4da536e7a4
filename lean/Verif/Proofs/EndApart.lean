import Verif.Proofs.Wording
import Verif.Spec.Understood

/-! # No two references of a sentence end at the same place -/

namespace Verif

open Verif.Spec

/-! ## One reference list -/

theorem Grouped.ends {xs gs : List RefItem} (h : Grouped xs gs) : (gs.map (·.endPos)).Sublist (xs.map (·.endPos)) := by
  induction h with
  | nil => exact .slnil
  | single x _ ih => exact ih.cons₂ _
  | pair _ _ _ _ _ ih => exact (ih.cons₂ _).cons _

/-- The places where the items end, each after the one before. -/
theorem items_ends {s : Str} {k : PartKind} {xs : List Item} {a b : Nat} (h : ItemsWritten s k xs a b) :
    (xs.map fun x => x.place.2).Pairwise (· < ·) ∧ ∀ e ∈ xs.map (fun x => x.place.2), (a : Int) < e ∧ e ≤ b := by
  induction h with
  | nil => simp
  | @cons x xs a b c d e hx hp ha _ hd _ h ih =>
    obtain ⟨a', b', e', hlt, hle, _⟩ := hx
    rw [hp, Prod.mk.injEq] at e'
    have := ActGrammar.items_le h
    have hx : x.place.2 = (c : Int) := by rw [hp]
    rw [List.map_cons, List.pairwise_cons]
    refine ⟨⟨fun y hy => ?_, ih.1⟩, fun y hy => ?_⟩
    · have := ih.2 y hy
      omega
    · rcases List.mem_cons.1 hy with rfl | hy
      · omega
      · have := ih.2 y hy
        omega

theorem items_perm (xs : List Item) : ((xs.filterMap Sum.getRight?).map (fun x => x.2.2) ++ (xs.filterMap Sum.getLeft?).map fun x => x.2.2).Perm
    (xs.map fun x => x.place.2) := by
  induction xs with
  | nil => exact .refl _
  | cons x xs ih =>
    cases x with
    | inl x =>
      simp only [List.filterMap_cons, Sum.getRight?_inl, Sum.getLeft?_inl, List.map_cons, Item.place]
      exact (List.perm_middle).trans (ih.cons _)
    | inr x =>
      simp only [List.filterMap_cons, Sum.getRight?_inr, Sum.getLeft?_inr, List.map_cons, Item.place, List.cons_append]
      exact ih.cons _

theorem part_ends {s : Str} {p : ParsedPart} {a b : Nat} (h : PartWritten s p a b) :
    (p.items.map (·.endPos)).Nodup ∧ ∀ e ∈ p.items.map (·.endPos), (a : Int) < e ∧ e < b := by
  obtain ⟨xs, m, _, h1, h2, h3, h4, _⟩ := h
  have hp : (p.items.map (·.endPos)).Perm (xs.map fun x => x.place.2) := by
    have := items_perm xs
    rw [← h1, ← h2] at this
    simpa [ParsedPart.items, Function.comp_def] using this
  obtain ⟨h5, h6⟩ := items_ends h3
  refine ⟨hp.nodup_iff.2 (h5.imp fun h => by omega), fun e he => ?_⟩
  have := h6 e (hp.mem_iff.1 he)
  omega

theorem parts_ends {s : Str} {gap : Str → Prop} {ps : List ParsedPart} {a b : Nat} (h : PartsWritten s gap ps a b) :
    ((ps.flatMap ParsedPart.items).map (·.endPos)).Nodup ∧
      ∀ e ∈ (ps.flatMap ParsedPart.items).map (·.endPos), (a : Int) < e ∧ e < b := by
  induction h with
  | nil => simp
  | @cons p ps a b c d ha _ hp h ih =>
    obtain ⟨h1, h2⟩ := part_ends hp
    have := (ActGrammar.part_told hp).1
    have := ActGrammar.parts_le h
    rw [List.flatMap_cons, List.map_append]
    refine ⟨List.nodup_append.2 ⟨h1, ih.1, fun x hx y hy e => ?_⟩, fun e he => ?_⟩
    · have := h2 x hx
      have := ih.2 y hy
      omega
    · rcases List.mem_append.1 he with he | he
      · have := h2 e he
        omega
      · have := ih.2 e he
        omega

/-- All but the last reference end where a value ends. -/
theorem iterLevels_ends {c : Collector} {gs : List RefItem} (hl : ∀ l, c.lists l = listAt gs l) (hg : (gs.map (·.endPos)).Nodup) (stop : Int) :
    ∀ (ls : List RefLevel) (o : Int) (args : Reference) (out : List OutgoingReference), ls.Nodup →
    c.iterLevels stop ls (some o) args = .ok out →
    ∃ es, out.map (·.endPos) = es ++ [stop] ∧ es.Nodup ∧ ∀ e ∈ es, ∃ g ∈ gs, itemLevel g ∈ ls ∧ g.endPos = e := by
  have hinj : ∀ g ∈ gs, ∀ g' ∈ gs, g.endPos = g'.endPos → g = g' := by
    clear hl
    induction gs with
    | nil => nofun
    | cons x xs ih =>
      rw [List.map_cons, List.nodup_cons] at hg
      have hne : ∀ g ∈ xs, g.endPos ≠ x.endPos := fun g hm e => hg.1 (e ▸ List.mem_map_of_mem hm)
      intro g h1 g' h2 e
      rcases List.mem_cons.1 h1 with e1 | h3 <;> rcases List.mem_cons.1 h2 with e2 | h4
      · rw [e1, e2]
      · exact absurd (e1 ▸ e.symm) (hne g' h4)
      · exact absurd (e2 ▸ e) (hne g h3)
      · exact ih hg.2 g h3 g' h4 e
  intro ls
  induction ls with
  | nil =>
    intro o args out _ h
    unfold Collector.iterLevels at h
    cases h
    exact ⟨[], rfl, .nil, nofun⟩
  | cons l ls ih =>
    intro o args out hn h
    obtain ⟨hn1, hn2⟩ := List.nodup_cons.1 hn
    by_cases he : valuesAt gs l = []
    · have hs : sortValues (c.lists l) = [] ++ [⟨none, 0, 0⟩] := by rw [hl, listAt, if_pos he]; rfl
      obtain ⟨rest, hout, hiter⟩ := iterLevels_cons hs h
      have hout : out = rest := hout
      subst hout
      obtain ⟨es, h1, h2, h3⟩ := ih _ _ _ hn2 hiter
      refine ⟨es, h1, h2, fun e he => ?_⟩
      obtain ⟨g, h4, h5, h6⟩ := h3 e he
      exact ⟨g, h4, List.mem_cons_of_mem _ h5, h6⟩
    · have hla : c.lists l = valuesAt gs l := by rw [hl, listAt, if_neg he]
      have hperm := sortValues_perm (valuesAt gs l)
      have hne : sortValues (valuesAt gs l) ≠ [] := by
        intro h0
        have := hperm.length_eq
        rw [h0] at this
        exact he (List.eq_nil_of_length_eq_zero this.symm)
      obtain ⟨vs, last, hs⟩ : ∃ vs last, sortValues (valuesAt gs l) = vs ++ [last] :=
        ⟨_, _, (List.dropLast_concat_getLast hne).symm⟩
      have hsub : ∀ v ∈ vs, v ∈ valuesAt gs l := fun v hv => hperm.mem_iff.1 (hs ▸ List.mem_append_left _ hv)
      have hnd : (vs.map (·.endPos)).Nodup := by
        have h1 : ((valuesAt gs l).map (·.endPos)).Nodup := by
          rw [valuesAt, List.map_map]
          exact hg.sublist (List.filter_sublist.map _)
        have h2 := (hperm.map (·.endPos)).nodup_iff.2 h1
        rw [hs, List.map_append] at h2
        exact (List.nodup_append.1 h2).1
      rw [← hla] at hs
      obtain ⟨rest, rfl, hiter⟩ := iterLevels_cons hs h
      have hlead : (leading l args (some o) vs).map (·.endPos) = vs.map (·.endPos) := by
        cases vs with
        | nil => rfl
        | cons v vs => simp [leading, Function.comp_def]
      obtain ⟨es, h1, h2, h3⟩ := ih _ _ _ hn2 hiter
      have hval : ∀ e ∈ vs.map (·.endPos), ∃ g ∈ gs, itemLevel g = l ∧ g.endPos = e := by
        intro e he
        obtain ⟨v, hv, rfl⟩ := List.mem_map.1 he
        obtain ⟨g, hgm, hgl, rfl⟩ := mem_valuesAt.1 (hsub v hv)
        exact ⟨g, hgm, hgl, rfl⟩
      refine ⟨vs.map (·.endPos) ++ es, by rw [List.map_append, hlead, h1, List.append_assoc], ?_, fun e he => ?_⟩
      · refine List.nodup_append.2 ⟨hnd, h2, fun x hx y hy e => ?_⟩
        obtain ⟨g, g1, g2, g3⟩ := hval x hx
        obtain ⟨g', g1', g2', g3'⟩ := h3 y hy
        obtain rfl := hinj g g1 g' g1' (by rw [g3, g3', e])
        exact hn1 (g2 ▸ g2')
      · rcases List.mem_append.1 he with he | he
        · obtain ⟨g, g1, g2, g3⟩ := hval e he
          exact ⟨g, g1, by rw [g2]; exact List.mem_cons_self .., g3⟩
        · obtain ⟨g, g1, g2, g3⟩ := h3 e he
          exact ⟨g, g1, List.mem_cons_of_mem _ g2, g3⟩

/-- References that end between two places, each at another one. -/
def Ends (a b : Int) (xs : List OutgoingReference) : Prop :=
  (xs.map (·.endPos)).Nodup ∧ ∀ x ∈ xs, a < x.endPos ∧ x.endPos ≤ b

theorem Ends.append {a b c d : Int} {xs ys : List OutgoingReference} (hx : Ends a b xs) (hy : Ends c d ys) (hbc : b ≤ c) (hab : a ≤ b) (hcd : c ≤ d) :
    Ends a d (xs ++ ys) := by
  refine ⟨?_, fun x hm => ?_⟩
  · rw [List.map_append]
    refine List.nodup_append.2 ⟨hx.1, hy.1, fun e he f hf ef => ?_⟩
    obtain ⟨x, hxm, rfl⟩ := List.mem_map.1 he
    obtain ⟨y, hym, rfl⟩ := List.mem_map.1 hf
    have := hx.2 x hxm
    have := hy.2 y hym
    omega
  · rcases List.mem_append.1 hm with hm | hm
    · have := hx.2 x hm
      omega
    · have := hy.2 x hm
      omega

theorem Ends.comm {a b : Int} {xs ys : List OutgoingReference} (h : Ends a b (xs ++ ys)) : Ends a b (ys ++ xs) := by
  refine ⟨?_, fun x hm => h.2 x ?_⟩
  · rw [List.map_append]
    have := h.1
    rw [List.map_append] at this
    exact (List.perm_append_comm.nodup_iff).1 this
  · exact (List.perm_append_comm.mem_iff).1 hm

theorem ends_one {x : OutgoingReference} (h : x.startPos < x.endPos) : Ends x.startPos x.endPos [x] :=
  ⟨by simp, fun y hy => by obtain rfl := List.mem_singleton.1 hy; exact ⟨h, Int.le_refl _⟩⟩

theorem convertSingle_ends {s : Str} {gap : Str → Prop} {act : Option Str} {r : ParsedRef} {out : List OutgoingReference} (hr : RefWritten s gap r)
    (h : convertSingle act r.1 r.2.1 r.2.2 = .ok out) : Ends r.2.1 r.2.2 out := by
  obtain ⟨a, b, c, hp, hac, hbc, _, hw, _⟩ := hr
  obtain ⟨h1, h2⟩ := parts_ends hw
  obtain ⟨col, gs, g1, g2, g3⟩ := convertSingle_iter h
  have hsub := g2.ends
  obtain ⟨es, e1, e2, e3⟩ := iterLevels_ends g1 (h1.sublist hsub) _ _ _ _ _ (by decide) g3
  have hes : ∀ e ∈ es, (a : Int) < e ∧ e < b := by
    intro e he
    obtain ⟨g, hg, _, rfl⟩ := e3 e he
    exact h2 _ (hsub.subset (List.mem_map_of_mem hg))
  rw [hp]
  refine ⟨?_, fun x hx => ?_⟩
  · rw [e1, hp]
    refine List.nodup_append.2 ⟨e2, by simp, fun e he f hf => ?_⟩
    rw [List.mem_singleton] at hf
    have := hes e he
    simp only at hf
    omega
  · have hm : x.endPos ∈ es ++ [r.2.2] := e1 ▸ List.mem_map_of_mem hx
    rw [hp] at hm
    rcases List.mem_append.1 hm with hm | hm
    · have := hes _ hm
      simp only
      omega
    · rw [List.mem_singleton] at hm
      simp only at hm ⊢
      omega

/-! ## Several of them -/

/-- Places one after the other. -/
inductive Spread : Int → List (Int × Int) → Int → Prop
  | nil {a b} (h : a ≤ b) : Spread a [] b
  | cons {a b p ps} (h : a ≤ p.1) (hp : p.1 < p.2) (hs : Spread p.2 ps b) : Spread a (p :: ps) b

theorem Spread.le {a b : Int} {ps : List (Int × Int)} (h : Spread a ps b) : a ≤ b := by
  induction h with
  | nil h => exact h
  | cons h hp _ ih => omega

theorem Spread.mono {a b a' b' : Int} {ps : List (Int × Int)} (h : Spread a ps b) (ha : a' ≤ a) (hb : b ≤ b') : Spread a' ps b' := by
  induction h generalizing a' with
  | nil h => exact .nil (by omega)
  | cons h hp _ ih => exact .cons (by omega) hp (ih (Int.le_refl _) hb)

theorem Spread.append {a b c : Int} {ps qs : List (Int × Int)} (h : Spread a ps b) (h' : Spread b qs c) : Spread a (ps ++ qs) c := by
  induction h with
  | nil h => exact h'.mono h (Int.le_refl _)
  | cons h hp _ ih => exact .cons h hp (ih h')

theorem Spread.split {a c : Int} {ps qs : List (Int × Int)} (h : Spread a (ps ++ qs) c) : ∃ b, Spread a ps b ∧ Spread b qs c := by
  induction ps generalizing a with
  | nil => exact ⟨a, .nil (Int.le_refl _), h⟩
  | cons p ps ih =>
    cases h with
    | cons h hp hs =>
      obtain ⟨b, h1, h2⟩ := ih hs
      exact ⟨b, .cons h hp h1, h2⟩

theorem convertEach_ends {s : Str} {gap : Str → Prop} {act : Option Str} : ∀ {rs : List ParsedRef} {out : List OutgoingReference} {a b : Int},
    (∀ r ∈ rs, RefWritten s gap r) → Spread a (rs.map (·.2)) b → convertEach act rs = .ok out → Ends a b out := by
  intro rs
  induction rs with
  | nil =>
    intro out a b _ _ h
    cases h
    exact ⟨by simp, nofun⟩
  | cons r rs ih =>
    intro out a b hw hs h
    unfold convertEach at h
    obtain ⟨xs, h1, h⟩ := resBind_ok h
    obtain ⟨ys, h2, h⟩ := resBind_ok h
    cases h
    cases hs with
    | cons h hp hs =>
      have h : a ≤ r.2.1 := h
      have hp : r.2.1 < r.2.2 := hp
      have hx := convertSingle_ends (hw r (List.mem_cons_self ..)) h1
      have hy := ih (fun r hr => hw r (List.mem_cons_of_mem _ hr)) hs h2
      have := hx.append hy (Int.le_refl _) (by omega) hs.le
      exact ⟨this.1, fun x hm => by have := this.2 x hm; omega⟩

theorem relativize_ends : ∀ (xs : List OutgoingReference) (last : Reference),
    (relativize last xs).1.map (·.endPos) = xs.map (·.endPos) := by
  intro xs
  induction xs with
  | nil => intro _; rfl
  | cons x xs ih => intro last; simp [relativize, ih]

theorem Ends.of_map {a b : Int} {xs ys : List OutgoingReference} (h : Ends a b xs) (he : ys.map (·.endPos) = xs.map (·.endPos)) : Ends a b ys := by
  refine ⟨he ▸ h.1, fun y hy => ?_⟩
  have : y.endPos ∈ xs.map (·.endPos) := he ▸ List.mem_map_of_mem hy
  obtain ⟨x, hx, e⟩ := List.mem_map.1 this
  exact e ▸ h.2 x hx

theorem convertMultiple_ends {s : Str} {gap : Str → Prop} : ∀ {rs : List ParsedRef} {last : Reference} {out : List OutgoingReference} {a b : Int},
    (∀ r ∈ rs, RefWritten s gap r) → Spread a (rs.map (·.2)) b → convertMultiple last rs = .ok out → Ends a b out := by
  intro rs
  induction rs with
  | nil =>
    intro last out a b _ _ h
    cases h
    exact ⟨by simp, nofun⟩
  | cons r rs ih =>
    intro last out a b hw hs h
    unfold convertMultiple at h
    obtain ⟨xs, h1, h⟩ := resBind_ok h
    obtain ⟨ys, h2, h⟩ := resBind_ok h
    cases h
    cases hs with
    | cons h hp hs =>
      have h : a ≤ r.2.1 := h
      have hp : r.2.1 < r.2.2 := hp
      have hx := (convertSingle_ends (hw r (List.mem_cons_self ..)) h1).of_map (relativize_ends xs last)
      have hy := ih (fun r hr => hw r (List.mem_cons_of_mem _ hr)) hs h2
      have := hx.append hy (Int.le_refl _) (by omega) hs.le
      exact ⟨this.1, fun x hm => by have := this.2 x hm; omega⟩

/-! ## Nodes -/

/-- Where an act is named. -/
def actPlace (a : ParsedActRef) : Int × Int :=
  match a.abbreviation, a.actId with
  | some (_, p), _ => p
  | none, some (_, p) => p
  | none, none => (0, 0)

theorem outgoing_place {a : ParsedActRef} {x : OutgoingReference} (h : a.outgoing = .ok x) : (x.startPos, x.endPos) = actPlace a := by
  unfold ParsedActRef.outgoing at h
  obtain ⟨id, _, h⟩ := resBind_ok h
  obtain ⟨p, h1, h⟩ := resBind_ok h
  cases h
  unfold ParsedActRef.pos at h1
  unfold actPlace
  split at h1 <;> cases h1 <;> simp_all

/-- The places of a node that references are made of, in the order of the text. -/
def nodePlaces : GrammarNode → List (Int × Int)
  | .compoundReference act references => act.toList.map actPlace ++ references.map (·.2)
  | .blockAmendment act amended inserted => actPlace act :: (amended.toList.map (·.2) ++ inserted.toList.map (·.2))
  | .enforcementDate d => d.exceptionReferences.map (·.2) ++ d.references.map (·.2)
  | .textAmendment act references _ => actPlace act :: references.map (·.2)
  | .articleTitleAmendment act article _ _ => [actPlace act, article.2]
  | .simpleRepeal act references _ => actPlace act :: references.map (·.2)
  | .structuralRepeal act _ => [actPlace act]
  | _ => []

/-- The references that a node gives. -/
def refsOf (xs : List ConversionResult) : List OutgoingReference := (analysisOf xs).references

theorem refsOf_append (xs ys : List ConversionResult) : refsOf (xs ++ ys) = refsOf xs ++ refsOf ys := by
  simp [refsOf, analysisOf, List.filterMap_append]

theorem refsOf_references (xs : List OutgoingReference) : refsOf (xs.map .reference) = xs := by
  simp [refsOf, analysisOf, List.filterMap_map, Function.comp_def]

theorem refsOf_semantic (xs : List SemanticData) : refsOf (xs.map .semantic) = [] := by
  simp [refsOf, analysisOf, List.filterMap_map, Function.comp_def]

theorem refsOf_abbreviations (xs : List ActIdAbbreviation) : refsOf (xs.map .abbreviation) = [] := by
  simp [refsOf, analysisOf, List.filterMap_map, Function.comp_def]

theorem endsIn_cons {a b : Int} {x : OutgoingReference} {xs : List OutgoingReference} (ha : a ≤ x.startPos) (hx : x.startPos < x.endPos)
    (h : Ends x.endPos b xs) (hb : x.endPos ≤ b) : Ends a b (x :: xs) := by
  have := (ends_one hx).append h (Int.le_refl _) (by omega) hb
  exact ⟨this.1, fun y hy => by have := this.2 y hy; omega⟩

theorem ends_act {a b : Int} {act : ParsedActRef} {x : OutgoingReference} {xs : List OutgoingReference} {ps : List (Int × Int)}
    (ho : act.outgoing = .ok x) (hs : Spread a (actPlace act :: ps) b) (h : Spread x.endPos ps b → Ends x.endPos b xs) : Ends a b (x :: xs) := by
  have hp := outgoing_place ho
  cases hs with
  | cons h1 h2 h3 =>
    rw [← hp] at h1 h2 h3
    exact endsIn_cons h1 h2 (h h3) h3.le

theorem potential_ends {s : Str} {gap : Str → Prop} {act : Str} {o : Option ParsedRef} {x : Option OutgoingReference}
    (hw : ∀ r ∈ o, RefWritten s gap r) (h : convertPotentialInText act o = .ok x) {a b : Int} (hs : Spread a (o.toList.map (·.2)) b) :
    Ends a b x.toList := by
  cases o with
  | none =>
    cases h
    exact ⟨by simp, nofun⟩
  | some r =>
    obtain ⟨parts, start, stop⟩ := r
    unfold convertPotentialInText convertPotential at h
    obtain ⟨xs, h1, h⟩ := resBind_ok h
    have hx := convertSingle_ends (r := (parts, start, stop)) (hw _ rfl) h1
    cases hs with
    | cons h1 h2 h3 =>
      have := h3.le
      simp only at *
      split at h <;> cases h
      · exact ⟨hx.1, fun y hy => by have := hx.2 y hy; omega⟩
      · exact ⟨by simp, nofun⟩

theorem convertNode_ends {s : Str} {n : GrammarNode} {xs : List ConversionResult} {a b : Int} (hw : NodeWritten s n)
    (hs : Spread a (nodePlaces n) b) (h : convertNode n = .ok xs) : Ends a b (refsOf xs) := by
  have none_ends : Ends a b [] := ⟨by simp, nofun⟩
  cases n with
  | compoundReference act references =>
    obtain ⟨rs, h1, h⟩ := resBind_ok h
    cases h
    rw [refsOf_references]
    cases act with
    | none => exact convertEach_ends hw.2 hs h1
    | some act =>
      obtain ⟨id, _, h1⟩ := resBind_ok h1
      obtain ⟨x, hx, h1⟩ := resBind_ok h1
      obtain ⟨ys, hy, h1⟩ := resBind_ok h1
      cases h1
      exact ends_act hx hs fun hs => convertEach_ends hw.2 hs hy
  | actReference act =>
    obtain ⟨rs, h1, h⟩ := resBind_ok h
    cases h
    rw [refsOf_abbreviations]
    exact none_ends
  | blockAmendment act amended inserted =>
    obtain ⟨rs, h1, h⟩ := resBind_ok h
    obtain ⟨ds, h2, h⟩ := resBind_ok h
    cases h
    rw [refsOf_append, refsOf_references, refsOf_semantic, List.append_nil]
    obtain ⟨id, _, h1⟩ := resBind_ok h1
    obtain ⟨x, hx, h1⟩ := resBind_ok h1
    obtain ⟨am, ham, h1⟩ := resBind_ok h1
    obtain ⟨ins, hins, h1⟩ := resBind_ok h1
    have key : ∀ {c : Int}, Spread c (amended.toList.map (·.2) ++ inserted.toList.map (·.2)) b → Ends c b (am.toList ++ ins.toList) := by
      intro c hc
      obtain ⟨d, k1, k2⟩ := hc.split
      exact (potential_ends hw.2.1 ham k1).append (potential_ends hw.2.2.1 hins k2) (Int.le_refl _) k1.le k2.le
    cases am <;> cases ins <;> cases h1 <;> refine ends_act hx hs fun hs => ?_
    · exact key hs
    · exact key hs
    · exact key hs
    · exact (key hs).of_map rfl
  | blockAmendmentWithSubtitle act structural amended inserted =>
    obtain ⟨rs, h1, h⟩ := resBind_ok h
    cases h
    rw [refsOf_semantic]
    exact none_ends
  | blockAmendmentStructural act amended inserted =>
    obtain ⟨rs, h1, h⟩ := resBind_ok h
    cases h
    rw [refsOf_semantic]
    exact none_ends
  | enforcementDate d =>
    obtain ⟨ds, h1, h⟩ := resBind_ok h
    obtain ⟨rs, h2, h⟩ := resBind_ok h
    cases h
    rw [refsOf_append, refsOf_references, refsOf_semantic, List.nil_append]
    obtain ⟨xs, h3, h2⟩ := resBind_ok h2
    obtain ⟨ys, h4, h2⟩ := resBind_ok h2
    cases h2
    obtain ⟨m, k1, k2⟩ := hs.split
    exact ((convertMultiple_ends hw.2.1 k1 h4).append (convertMultiple_ends hw.1 k2 h3) (Int.le_refl _) k1.le k2.le).comm
  | textAmendment act references parts =>
    obtain ⟨ds, h1, h⟩ := resBind_ok h
    obtain ⟨rs, h2, h⟩ := resBind_ok h
    cases h
    rw [refsOf_append, refsOf_references, refsOf_semantic, List.nil_append]
    obtain ⟨id, _, h2⟩ := resBind_ok h2
    obtain ⟨x, hx, h2⟩ := resBind_ok h2
    obtain ⟨ys, hy, h2⟩ := resBind_ok h2
    cases h2
    exact ends_act hx hs fun hs => convertMultiple_ends hw.2.2.1 hs hy
  | articleTitleAmendment act article original replacement =>
    obtain ⟨ds, h1, h⟩ := resBind_ok h
    obtain ⟨rs, h2, h⟩ := resBind_ok h
    cases h
    rw [refsOf_append, refsOf_references, refsOf_semantic, List.nil_append]
    obtain ⟨id, _, h2⟩ := resBind_ok h2
    obtain ⟨x, hx, h2⟩ := resBind_ok h2
    cases h2
    refine ends_act hx hs fun hs => ?_
    cases hs with
    | cons k1 k2 k3 => exact endsIn_cons k1 k2 ⟨by simp, nofun⟩ k3.le
  | simpleRepeal act references texts =>
    obtain ⟨ds, h1, h⟩ := resBind_ok h
    obtain ⟨rs, h2, h⟩ := resBind_ok h
    cases h
    rw [refsOf_append, refsOf_references, refsOf_semantic, List.nil_append]
    obtain ⟨id, _, h2⟩ := resBind_ok h2
    obtain ⟨x, hx, h2⟩ := resBind_ok h2
    obtain ⟨ys, hy, h2⟩ := resBind_ok h2
    cases h2
    exact ends_act hx hs fun hs => convertMultiple_ends hw.2.2.1 hs hy
  | structuralRepeal act structural =>
    obtain ⟨ds, h1, h⟩ := resBind_ok h
    obtain ⟨x, hx, h⟩ := resBind_ok h
    cases h
    rw [refsOf_append, refsOf_semantic, List.nil_append, show [ConversionResult.reference x] = [x].map .reference from rfl, refsOf_references]
    exact ends_act hx hs fun _ => ⟨by simp, nofun⟩
  | other =>
    cases h
    exact none_ends

/-! ## The grammar -/

namespace ActGrammar

open Peg

/-- The places of all nodes of a tree. -/
def treePlaces (t : ParseTree) : List (Int × Int) := (treeNodes t).flatMap nodePlaces

theorem scans_and {α : Type} {s : Str} {p : Peg α} {P Q : α → Nat → Nat → Prop} (hp : Scans s p P) (hq : Scans s p Q) :
    Scans s p fun a i j => P a i j ∧ Q a i j := by
  intro i a j hi h
  obtain ⟨h1, h2, h3⟩ := hp i a j hi h
  exact ⟨h1, h2, h3, (hq i a j hi h).2.2⟩

/-- One place between two others. -/
theorem spread_one {i j n m : Nat} {p : Int × Int} (hp : p = (↑n, ↑m)) (h1 : i ≤ n) (h2 : n < m) (h3 : m ≤ j) : Spread i [p] j := by
  subst hp
  exact .cons (by simp only; omega) (by simp only; omega) (.nil (by simp only; omega))

theorem spread_widen {i j i' j' : Nat} {ps : List (Int × Int)} (h : Spread i ps j) (h1 : i' ≤ i) (h2 : j ≤ j') : Spread i' ps j' :=
  h.mono (by omega) (by omega)

/-- A reference to an act, in its place. -/
abbrev ActAt (a : ParsedActRef) (i j : Nat) : Prop := Spread i [actPlace a] j

theorem actAt_actReference {s : Str} : Scans s actReference ActAt := by
  unfold actReference
  have h1 : Scans s (do let a ← abbreviation; pure { abbreviation := some a } : Peg ParsedActRef) ActAt := by
    refine (reads_bind reads_abbreviation fun a => reads_pure _).mono ?_
    rintro a i j _ hj ⟨x, m, h1, h2, ⟨n, h3, h4, h5, h6, h7, h8⟩, rfl, rfl⟩
    exact spread_one (p := x.2) h5 h3 h6 (Nat.le_refl _)
  refine (reads_rule (reads_or' h1 ((reads_bind reads_actId fun a => reads_bind (Goes.opt (Goes.or
    (Goes.bind (.of reads_fromNowOn) fun _ => goes_pure _) (Goes.bind goes_fromNowOnLong fun _ => goes_pure _))) fun f => reads_pure _).mono
    (Q := ActAt) ?_))).mono ?_
  · rintro a i j _ hj ⟨x, m, h1, h2, ⟨n, h3, h4, h5, h6, h7, h8, e, h9, h10⟩, f, l, h11, h12, h13, rfl, rfl⟩
    exact spread_one (p := x.2) h5 h3 h6 h11
  · rintro a i j _ _ ⟨n, h1, _, _, h2⟩
    exact spread_widen h2 h1 (Nat.le_refl _)

/-- A reference list in its place. -/
abbrev RefAt (r : ParsedRef) (i j : Nat) : Prop := Spread i [r.2] j

theorem refAt_reference {s : Str} : Scans s reference RefAt := by
  refine reads_reference.mono ?_
  rintro r i j _ _ ⟨n, h1, _, h2, h3, _⟩
  exact spread_one h2 h1 h3 (Nat.le_refl _)

theorem refAt_located {s : Str} {p : Peg (List ParsedPart)} {gap : Str → Prop}
    (h : Scans s (located p) fun r i j => i < j ∧ RefWritten s gap r) (hp : Goes s p) : Scans s (located p) RefAt := by
  refine (scans_and h (reads_located hp)).mono ?_
  rintro r i j _ _ ⟨⟨_, a, b, c, h1, h2, _⟩, n, h3, h4, h5, h6, _⟩
  have e : ((a : Int), (c : Int)) = (↑n, ↑j) := by rw [← h1, ← h6]
  rw [Prod.mk.injEq] at e
  exact spread_one h6 h3 (by omega) (Nat.le_refl _)

theorem goes_anyPoint {s : Str} : Goes s anyPoint := .of reads_anyPoint
theorem goes_articleAndParagraph {s : Str} : Goes s articleAndParagraph := .of reads_articleAndParagraph

theorem refAt_insertionReference {s : Str} : Scans s insertionReference RefAt := by
  refine refAt_located reads_insertionReference ?_
  exact Goes.or (Goes.bind (.of tells_insertionToken) fun _ => goes_articleAndParagraph)
    (Goes.or (Goes.bind (.of (reads_insertedInto _ (by decide +kernel) reads_article)) fun _ => Goes.bind (.of tells_insertionToken) fun _ =>
        Goes.bind (.of reads_paragraphReference) fun _ => goes_pure _)
      (Goes.or (Goes.bind (.of (reads_insertedInto _ (by decide +kernel) reads_articleAndParagraph)) fun _ =>
          Goes.bind (.of tells_insertionToken) fun _ => Goes.bind goes_anyPoint fun _ => goes_pure _)
        (Goes.bind (.of tells_articles) fun _ => Goes.bind goes_articleAndParagraph fun _ => Goes.bind goes_anyPoint fun _ =>
          Goes.bind (.of tells_insertionToken) fun _ => Goes.bind (.of reads_anySubpoint) fun _ => goes_pure _)))

theorem refAt_listed {s : Str} : Scans s listedReference RefAt := by
  unfold listedReference item
  refine (reads_bind refAt_reference fun r => reads_bind tells_separated fun _ => reads_pure r).mono ?_
  rintro r i j _ _ ⟨r', m, h1, h2, h3, _, l, h6, h7, _, rfl, rfl⟩
  exact spread_widen h3 (Nat.le_refl _) h6

theorem spread_chain {rs : List ParsedRef} {i j : Nat} (h : Chain RefAt rs i j) : Spread i (rs.map (·.2)) j := by
  induction h with
  | nil => exact .nil (Int.le_refl _)
  | cons h _ _ _ ih => exact h.append ih

/-- What the references of a sentence are made of is in its place. -/
def Spreads (s : Str) (p : Peg ParseTree) : Prop := Scans s p fun t i j => Spread i (treePlaces t) j

theorem spreads_rule {s : Str} {p : Peg ParseTree} (h : Spreads s p) : Spreads s (rule p) := by
  refine (reads_rule h).mono ?_
  rintro t i j _ _ ⟨n, h1, h2, h3, h4⟩
  exact spread_widen h4 h1 (Nat.le_refl _)

theorem treePlaces_withAct (a : ParsedActRef) (n : GrammarNode) : treePlaces (withAct a n) = nodePlaces n := by
  simp [treePlaces, withAct, treeNodes, treesNodes, nodePlaces]

theorem actAt_amended {s : Str} : Scans s amendedAct ActAt := by
  unfold amendedAct
  refine (reads_bind (Goes.of (reads_pattern _)) fun _ => reads_bind goes_actTitle fun _ => actAt_actReference).mono ?_
  rintro a i j _ _ ⟨_, _, _, _, _, _, _, _, _, _, h⟩
  exact spread_widen h (by omega) (Nat.le_refl _)

theorem actAt_repealed {s : Str} : Scans s repealedAct ActAt := by
  unfold repealedAct
  refine (reads_bind (Goes.of (tells_tokens _)) fun _ => reads_bind (Goes.of tells_az) fun _ =>
    reads_bind goes_actTitle fun _ => actAt_actReference).mono ?_
  rintro a i j _ hj ⟨_, _, _, _, _, _, _, _, _, _, _, _, _, _, _, h⟩
  exact spread_widen h (by omega) (Nat.le_refl _)

theorem spreads_blockAmendment {s : Str} : Spreads s blockAmendment := by
  unfold blockAmendment
  refine spreads_rule ((reads_bind actAt_amended fun a => reads_bind (Goes.of (reads_opt reads_structuralPosition)) fun _ =>
    (?_ : Scans s _ fun t i j => ∀ k : Nat, k ≤ i → ∀ h : Nat, ActAt a h k → Spread h (treePlaces t) j)).mono ?_)
  · refine reads_or' ((reads_bind refAt_reference fun r => reads_bind (Goes.of tells_amendmentEnd) fun _ => reads_pure _).mono ?_)
      (reads_or' ((reads_bind refAt_insertionReference fun r => reads_bind (Goes.of tells_insertionEnd) fun _ => reads_pure _).mono ?_)
      ((reads_bind refAt_reference fun r => reads_bind (Goes.of tells_amendmentSuffix) fun _ => reads_bind (Goes.opt (goes_token _)) fun _ =>
        reads_bind (Goes.of (tells_tokens _)) fun _ => reads_bind refAt_insertionReference fun i => reads_bind (Goes.of tells_insertionEnd) fun _ =>
        reads_pure _).mono ?_))
    · rintro t i j _ hj ⟨r, m, _, _, h1, _, l, h2, _, h3, rfl, rfl⟩ k hk h ha
      rw [treePlaces_withAct]
      exact ha.append (spread_widen h1 hk h2)
    · rintro t i j _ hj ⟨r, m, _, _, h1, _, l, h2, _, h3, rfl, rfl⟩ k hk h ha
      rw [treePlaces_withAct]
      exact ha.append (spread_widen h1 hk h2)
    · rintro t i j _ hj ⟨r, m, _, _, h1, _, _, _, _, _, _, _, _, _, _, _, _, _, _, _, x, m', _, _, h4, _, l, h2, _, h3, rfl, rfl⟩ k hk h ha
      rw [treePlaces_withAct]
      exact ha.append ((spread_widen h1 hk (Nat.le_refl _)).append (spread_widen h4 (by omega) h2))
  · rintro t i j _ hj ⟨a, m, _, _, h1, _, l, h3, _, _, h2⟩
    exact h2 m h3 i h1

/-- No references are made of these nodes. -/
theorem spreads_nothing {s : Str} {p : Peg ParseTree} (h : Scans s p fun t _ _ => treePlaces t = []) : Spreads s p :=
  h.mono fun t i j h1 _ h2 => by rw [h2]; exact .nil (by omega)

theorem spreads_blockAmendmentWithSubtitle {s : Str} : Spreads s blockAmendmentWithSubtitle := by
  unfold blockAmendmentWithSubtitle
  refine spreads_rule (spreads_nothing ((reads_bind (Goes.of reads_amendedAct) fun a => reads_bind (Goes.of (reads_opt reads_structuralPosition)) fun o =>
    (?_ : Scans s _ fun t i j => treePlaces t = [])).mono ?_))
  · refine reads_or' ((reads_bind (Goes.of reads_referenceWithSubtitle) fun r => reads_bind (Goes.of tells_amendmentEnd) fun _ => reads_pure _).mono ?_)
      (reads_or' ((reads_bind (Goes.of reads_referenceWithSubtitle) fun r => reads_bind (Goes.of tells_subtitleEnd) fun _ => reads_pure _).mono ?_)
      ((reads_bind (Goes.of tells_insertionToken) fun _ => reads_bind (Goes.of reads_referenceWithSubtitle) fun i =>
        reads_bind (Goes.of tells_insertionEnd) fun _ => reads_pure _).mono ?_))
    · rintro t i j _ hj ⟨r, m, _, _, h1, _, l, h2, _, h3, rfl, rfl⟩
      rw [treePlaces_withAct]
      rfl
    · rintro t i j _ hj ⟨r, m, _, _, h1, _, l, h2, _, h3, rfl, rfl⟩
      rw [treePlaces_withAct]
      rfl
    · rintro t i j _ hj ⟨_, _, _, _, _, r, m, _, _, h1, _, l, h2, _, h3, rfl, rfl⟩
      rw [treePlaces_withAct]
      rfl
  · rintro t i j _ hj ⟨a, m, _, _, h1, o, l, _, _, h3, h2⟩
    exact h2

theorem spreads_blockAmendmentStructural {s : Str} : Spreads s blockAmendmentStructural := by
  unfold blockAmendmentStructural
  refine spreads_rule (spreads_nothing ((reads_bind (Goes.of reads_amendedAct) fun a =>
    (?_ : Scans s _ fun t i j => treePlaces t = [])).mono ?_))
  · refine reads_or' ((reads_bind (Goes.of tells_anyStructuralReference) fun r => reads_bind (Goes.of tells_amendmentEnd) fun _ => reads_pure _).mono ?_)
      (reads_or' ((reads_bind (Goes.of tells_anyStructuralReference) fun r => reads_bind (Goes.of tells_structureEnd) fun _ => reads_pure _).mono ?_)
      (reads_or' ((reads_bind (Goes.of tells_insertionToken) fun _ => reads_bind (Goes.of tells_anyStructuralReference) fun r =>
        reads_bind (Goes.of tells_insertionEnd) fun _ => reads_pure _).mono ?_)
      ((reads_bind (Goes.of tells_titleInsertionWithBook) fun r => reads_bind (Goes.of tells_insertionEnd) fun _ => reads_pure _).mono ?_)))
    · rintro t i j _ hj ⟨r, m, _, _, h1, _, l, h2, _, h3, rfl, rfl⟩
      rw [treePlaces_withAct]
      rfl
    · rintro t i j _ hj ⟨r, m, _, _, h1, _, l, h2, _, h3, rfl, rfl⟩
      rw [treePlaces_withAct]
      rfl
    · rintro t i j _ hj ⟨_, _, _, _, _, r, m, _, _, h1, _, l, h2, _, h3, rfl, rfl⟩
      rw [treePlaces_withAct]
      rfl
    · rintro t i j _ hj ⟨r, m, _, _, h1, _, l, h2, _, h3, rfl, rfl⟩
      rw [treePlaces_withAct]
      rfl
  · rintro t i j _ hj ⟨a, m, _, _, h1, h2⟩
    exact h2

theorem refAt_exceptFor {s : Str} : Scans s exceptFor RefAt := by
  unfold exceptFor
  refine (reads_bind (Goes.of tells_dash) fun _ => reads_bind (goes_token _) fun _ => reads_bind refAt_reference fun r =>
    reads_bind (Goes.of (tells_tokens _)) fun _ => reads_bind (Goes.of (tells_tokens _)) fun _ => reads_bind (Goes.of tells_dash) fun _ =>
    reads_pure _).mono ?_
  rintro r i j _ _ ⟨_, _, _, _, _, _, _, _, _, _, r', _, _, _, h, _, _, _, _, _, _, _, _, _, _, _, _, _, _, _, rfl, rfl⟩
  exact spread_widen h (by omega) (by omega)

theorem spreads_enforcementDate {s : Str} : Spreads s enforcementDate := by
  unfold enforcementDate
  refine spreads_rule ((reads_bind (Goes.or (Goes.bind (.of (tells_tokens _)) fun _ => Goes.bind (goes_token _) fun _ => goes_pure _)
    (Goes.bind (.of (reads_pattern _)) fun _ => goes_pure _)) fun _ => reads_bind (reads_opt refAt_exceptFor) fun x =>
    reads_bind (reads_many refAt_listed) fun rs => reads_bind (Goes.or (Goes.bind (.of tells_date) fun _ => goes_pure _)
      (Goes.or (Goes.bind (.of (tells_afterPublication (d := {}) rfl rfl)) fun _ => goes_pure _)
        (Goes.bind (.of (tells_dayInMonth (d := {}) rfl rfl)) fun _ => goes_pure _))) fun d => reads_bind (goes_token _) fun _ =>
    reads_bind (Goes.opt (.of tells_inlineRepeal)) fun r => reads_bind (goes_token _) fun _ => reads_pure _).mono ?_)
  rintro t i j _ hj ⟨_, m1, a1, a2, _, x, m2, b1, b2, b3, rs, m3, c1, c2, c3, d, m4, d1, d2, d3, _, m5, e1, e2, e3, r, m6, f1, f2,
    f3, _, m7, g1, g2, g3, rfl, rfl⟩
  have hx : Spread i (x.toList.map (·.2)) m2 := by
    rcases b3 with ⟨rfl, _⟩ | ⟨z, rfl, b3⟩
    · exact .nil (by omega)
    · exact spread_widen b3 a1 (Nat.le_refl _)
  have := hx.append (spread_widen (spread_chain c3) (Nat.le_refl _) (by omega : m3 ≤ m7))
  simpa [treePlaces, treeNodes, treesNodes, nodePlaces] using this

theorem spreads_textAmendment {s : Str} : Spreads s textAmendment := by
  unfold textAmendment
  refine spreads_rule ((reads_bind actAt_amended fun a => reads_bind (reads_many1 refAt_listed) fun rs =>
    reads_bind (Goes.many1 (.of (reads_item' reads_textAmendmentPart))) fun ps => reads_bind (Goes.of tells_takesEffect) fun _ => reads_pure _).mono ?_)
  rintro t i j _ hj ⟨a, m1, _, _, h1, rs, m2, _, _, ⟨h2, h3⟩, ps, m3, _, _, _, _, m4, h6, h7, h8, rfl, rfl⟩
  rw [treePlaces_withAct]
  exact h1.append (spread_widen (spread_chain h3) (Nat.le_refl _) (by omega))

theorem placed_singleArticleReference {s : Str} : Scans s singleArticleReference fun r i j => Spread i [r.2] j := by
  have h : Goes s (do
      let pieces ← articleIdPieces
      let _ ← token (py".")
      let _ ← articleSuffix
      pure pieces : Peg (List Str)) :=
    Goes.bind (.of tells_articleIdPieces) fun _ => Goes.bind (goes_token _) fun _ => Goes.bind (.of tells_articleSuffix) fun _ => goes_pure _
  refine (scans_and reads_singleArticleReference (show Scans s singleArticleReference _ from reads_located h)).mono ?_
  rintro r i j _ _ ⟨⟨a, b, _, h1, h2, _⟩, n, h3, h4, h5, h6, _⟩
  have e : ((a : Int), (b : Int)) = (↑n, ↑j) := by rw [← h6]; exact h1.symm
  rw [Prod.mk.injEq] at e
  exact spread_one h6 h3 (by omega) (Nat.le_refl _)

theorem spreads_articleTitleAmendment {s : Str} : Spreads s articleTitleAmendment := by
  unfold articleTitleAmendment
  refine spreads_rule ((reads_bind actAt_amended fun a => reads_bind placed_singleArticleReference fun r =>
    reads_bind (Goes.rule (.of (reads_pattern _))) fun _ => reads_bind (Goes.of reads_replacement) fun p => reads_bind (Goes.of (tells_tokens _)) fun _ =>
    reads_bind (Goes.of tells_takesEffect) fun _ => reads_pure _).mono ?_)
  rintro t i j _ hj ⟨a, _, _, _, h1, r, _, _, _, h2, _, _, _, _, _, p, _, _, _, h3, _, _, _, _, _, _, _, h4, _, h5, rfl, rfl⟩
  rw [treePlaces_withAct]
  exact h1.append (spread_widen h2 (Nat.le_refl _) (by omega))

theorem spreads_repeal {s : Str} : Spreads s repeal := by
  unfold repeal
  refine spreads_rule ((reads_bind actAt_repealed fun a => reads_bind (reads_many1 refAt_listed) fun rs =>
    reads_bind (Goes.many (.of (reads_item' reads_repealedText))) fun ps => reads_bind (goes_token _) fun _ => reads_pure _).mono ?_)
  rintro t i j _ hj ⟨a, m1, _, _, h1, rs, m2, _, _, ⟨h2, h3⟩, ps, m3, _, _, h5, _, m4, h6, h7, h8, rfl, rfl⟩
  rw [treePlaces_withAct]
  exact h1.append (spread_widen (spread_chain h3) (Nat.le_refl _) (by omega))

theorem spreads_structuralRepeal {s : Str} : Spreads s structuralRepeal := by
  unfold structuralRepeal
  refine spreads_rule ((reads_bind actAt_repealed fun a => reads_bind (Goes.of reads_structuralPosition) fun r =>
    reads_bind (Goes.opt (.of tells_subtitleToken)) fun _ => reads_bind (goes_token _) fun _ => reads_pure _).mono ?_)
  rintro t i j _ hj ⟨a, m1, _, _, h1, r, m2, _, _, _, _, m3, _, _, _, _, m4, h6, h7, h8, rfl, rfl⟩
  rw [treePlaces_withAct]
  exact spread_widen h1 (Nat.le_refl _) (by omega)

theorem spreads_compoundReference {s : Str} : Spreads s compoundReference := by
  unfold compoundReference
  refine spreads_rule (reads_or' ((reads_bind actAt_actReference fun a => reads_bind (reads_many refAt_listed) fun rs =>
    reads_pure _).mono ?_) ((reads_bind refAt_reference fun r => reads_pure _).mono ?_))
  · rintro t i j _ _ ⟨a, _, _, _, h1, rs, _, _, _, h2, rfl, rfl⟩
    have := h1.append (spread_chain h2)
    simpa [treePlaces, treeNodes, treesNodes, nodePlaces] using this
  · rintro t i j _ _ ⟨r, _, _, _, h, rfl, rfl⟩
    simpa [treePlaces, treeNodes, treesNodes, nodePlaces] using h

theorem spreads_anySimpleExpression {s : Str} : Spreads s anySimpleExpression := by
  unfold anySimpleExpression
  have other : ∀ {α : Type} {p : Peg α}, Goes s p → Spreads s (do let _ ← p; pure (ParseTree.node .other []) : Peg ParseTree) := by
    intro α p hp
    refine spreads_nothing ((reads_bind hp fun _ => reads_pure _).mono ?_)
    rintro t i j _ _ ⟨_, _, _, _, _, rfl, _⟩
    rfl
  exact spreads_rule (reads_or' (other (.of reads_quote)) (reads_or' spreads_compoundReference (reads_or' (other (.of reads_abbreviation))
    (other (.of tells_anyToken)))))

theorem spread_trees {ts : List ParseTree} {i j : Nat} (h : Chain (fun t i j => Spread i (treePlaces t) j) ts i j) :
    Spread i ((treesNodes ts).flatMap nodePlaces) j := by
  induction h with
  | nil => exact .nil (Int.le_refl _)
  | cons h _ _ _ ih =>
    rw [treesNodes, List.flatMap_append]
    exact h.append ih

theorem spreads_whole {s : Str} {p : Peg ParseTree} (h : Spreads s p) : Spreads s (whole p) := by
  unfold whole
  refine (reads_bind h fun t => reads_bind (Goes.of reads_eof) fun _ => reads_pure t).mono ?_
  rintro t i j _ _ ⟨t', m, _, _, h1, _, l, h2, _, _, rfl, rfl⟩
  exact spread_widen h1 (Nat.le_refl _) h2

theorem spreads_all {s : Str} (ps : List (Peg ParseTree)) (h : ∀ p ∈ ps, Spreads s p) : Spreads s (sentence ps) := by
  induction ps with
  | nil =>
    refine spreads_whole ((reads_bind (reads_many1 spreads_anySimpleExpression) fun ts => reads_pure _).mono ?_)
    rintro t i j _ _ ⟨ts, _, _, _, ⟨_, h1⟩, rfl, rfl⟩
    have := spread_trees h1
    simpa [treePlaces, treeNodes, nodePlaces] using this
  | cons p ps ih =>
    exact reads_or' (spreads_whole (h p (List.mem_cons_self ..))) (ih fun q hq => h q (List.mem_cons_of_mem _ hq))

/-- What the references of a sentence are made of is in the sentence, one after the other. -/
theorem parse_spread {s : Str} {t : ParseTree} (h : parse s = some t) : Spread 0 (treePlaces t) s.length := by
  unfold parse at h
  obtain ⟨x, hx, rfl⟩ := Option.map_eq_some_iff.mp h
  have hs : Spreads s startDefault := by
    refine spreads_rule (spreads_all specialSentences ?_)
    simp only [specialSentences, List.mem_cons, List.not_mem_nil, or_false]
    rintro p (rfl | rfl | rfl | rfl | rfl | rfl | rfl | rfl)
    · exact spreads_blockAmendment
    · exact spreads_blockAmendmentWithSubtitle
    · exact spreads_blockAmendmentStructural
    · exact spreads_textAmendment
    · exact spreads_articleTitleAmendment
    · exact spreads_enforcementDate
    · exact spreads_repeal
    · exact spreads_structuralRepeal
  obtain ⟨h1, _, h2⟩ := hs ⟨0, s⟩ x.1 x.2 ⟨Nat.zero_le _, rfl⟩ hx
  exact spread_widen h2 (Nat.le_refl _) h1.le

end ActGrammar

/-! ## Whole sentences -/

mutual
theorem convertTree_ends {s : Str} : ∀ (t : ParseTree) {rs : List ConversionResult} {a b : Int}, (∀ n ∈ treeNodes t, NodeWritten s n) →
    Spread a ((treeNodes t).flatMap nodePlaces) b → convertTree t = .ok rs → Ends a b (refsOf rs)
  | .node n cs, rs, a, b, hw, hs, h => by
    unfold convertTree at h
    obtain ⟨xs, hx, h⟩ := resBind_ok h
    obtain ⟨ys, hy, h⟩ := resBind_ok h
    cases h
    rw [treeNodes, List.flatMap_append] at hs
    obtain ⟨m, k1, k2⟩ := hs.split
    rw [refsOf_append]
    refine (convertTrees_ends cs (fun n hn => hw n ?_) k1 hx).append (convertNode_ends (hw n ?_) (by simpa using k2) hy) (Int.le_refl _) k1.le k2.le
    · rw [treeNodes]
      exact List.mem_append_left _ hn
    · rw [treeNodes]
      simp

theorem convertTrees_ends {s : Str} : ∀ (cs : List ParseTree) {rs : List ConversionResult} {a b : Int}, (∀ n ∈ treesNodes cs, NodeWritten s n) →
    Spread a ((treesNodes cs).flatMap nodePlaces) b → convertTrees cs = .ok rs → Ends a b (refsOf rs)
  | [], rs, a, b, hw, hs, h => by
    unfold convertTrees at h
    cases h
    exact ⟨by simp [refsOf, analysisOf], nofun⟩
  | c :: cs, rs, a, b, hw, hs, h => by
    unfold convertTrees at h
    obtain ⟨xs, hx, h⟩ := resBind_ok h
    obtain ⟨ys, hy, h⟩ := resBind_ok h
    cases h
    rw [treesNodes, List.flatMap_append] at hs
    obtain ⟨m, k1, k2⟩ := hs.split
    rw [refsOf_append]
    refine (convertTree_ends c (fun n hn => hw n ?_) k1 hx).append (convertTrees_ends cs (fun n hn => hw n ?_) k2 hy) (Int.le_refl _) k1.le k2.le
    · rw [treesNodes]
      exact List.mem_append_left _ hn
    · rw [treesNodes]
      exact List.mem_append_right _ hn
end

/-- The references of a sentence end at different places in it. -/
theorem analysis_ends {s : Str} {r : Analysis} (h : grammaticalAnalyzer ActGrammar.parse s = .ok r) : Ends 0 s.length r.references := by
  unfold grammaticalAnalyzer at h
  cases ht : ActGrammar.parse s with
  | none => rw [ht] at h; cases h
  | some t =>
    rw [ht] at h
    simp only at h
    cases hc : convertTree t with
    | error e => rw [hc] at h; cases h
    | ok xs =>
      rw [hc] at h
      cases h
      exact convertTree_ends t (ActGrammar.parse_written ht) (ActGrammar.parse_spread ht) hc

theorem analysis_endApart {s : Str} {r : Analysis} (h : grammaticalAnalyzer ActGrammar.parse s = .ok r) : EndApart r :=
  List.pairwise_map.1 (analysis_ends h).1

end Verif
