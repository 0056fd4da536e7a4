import Verif.Spec.Structure
import Verif.Spec.References
import Verif.Proofs.Reference
import Verif.Props.References
import Verif.Props.Identifiers

/-! # Lemmas on trees, lookup and mapping -/

namespace Verif

open Reference

mutual
theorem Node.ind {P : Node → Prop} (sae : ∀ k d cs, (∀ c ∈ cs, P c) → P (.sae k d cs))
    (article : ∀ i t cs, (∀ c ∈ cs, P c) → P (.article i t cs)) (quoted : ∀ l, P (.quoted l))
    (structural : ∀ e, P (.structural e)) : ∀ n, P n
  | .sae k d cs => sae k d cs (Node.indL sae article quoted structural cs)
  | .article i t cs => article i t cs (Node.indL sae article quoted structural cs)
  | .quoted l => quoted l
  | .structural e => structural e

theorem Node.indL {P : Node → Prop} (sae : ∀ k d cs, (∀ c ∈ cs, P c) → P (.sae k d cs))
    (article : ∀ i t cs, (∀ c ∈ cs, P c) → P (.article i t cs)) (quoted : ∀ l, P (.quoted l))
    (structural : ∀ e, P (.structural e)) : ∀ cs : List Node, ∀ c ∈ cs, P c
  | [], _, h => by cases h
  | d :: ds, c, h => by
    rcases List.mem_cons.1 h with h | h
    · exact h ▸ Node.ind sae article quoted structural d
    · exact Node.indL sae article quoted structural ds c h
end

/-! ## Constructors -/

theorem mkSae_ok {k : SaeKind} {d : SaeData} {children : Option (List Node)} {n : Node}
    (h : mkSae k d children = .ok n) :
    n = .sae k d (children.getD []) ∧ validText d children = true ∧ validChildren k children = true ∧
    (∃ t, childrenType k children = .ok t) := by
  unfold mkSae at h
  cases ht : childrenType k children with
  | error e => simp [ht, bind, Except.bind] at h
  | ok t =>
    simp only [ht, bind, Except.bind] at h
    cases h1 : validText d children with
    | false => simp [h1] at h
    | true =>
      cases h2 : validChildren k children with
      | false => simp [h1, h2] at h
      | true =>
        simp only [h1, h2, Bool.not_true, Bool.false_eq_true, if_false, Except.ok.injEq] at h
        exact ⟨h.symm, rfl, rfl, t, rfl⟩

theorem childrenType_ok {k : SaeKind} {cs : List Node} {t : Option NodeType}
    (h : childrenType k (some cs) = .ok t) (hk : k ≠ .blockAmendmentContainer) :
    ∀ c ∈ cs, ∀ e ∈ cs, c.type = e.type := by
  cases cs with
  | nil => simp [childrenType] at h
  | cons a as =>
    simp only [childrenType] at h
    by_cases hall : (as.all fun d => d.type == a.type) = true
    · have : ∀ c ∈ a :: as, c.type = a.type := by
        intro c hc
        rcases List.mem_cons.1 hc with rfl | hc
        · rfl
        · exact eq_of_beq (List.all_eq_true.1 hall c hc)
      intro c hc e he
      rw [this c hc, this e he]
    · rw [if_neg hall, if_neg (by simp [SaeKind.allowsDifferentChildren, hk])] at h
      cases h

theorem mayContain_of_allowed {k : SaeKind} {t : NodeType} (h : k.allowedChildren.contains t = true) :
    Spec.MayContain k t := by
  cases k <;> simp only [SaeKind.allowedChildren, List.contains_nil, Bool.false_eq_true, List.contains_cons,
    Bool.or_eq_true, beq_iff_eq, or_false] at h
  · subst h; constructor
  · rcases h with rfl | rfl <;> constructor
  · rcases h with rfl | rfl | rfl | rfl | rfl | rfl | rfl | rfl | rfl | rfl | rfl <;> constructor <;> simp
  · rcases h with rfl | rfl | rfl | rfl <;> constructor

theorem built_sae {k : SaeKind} {d : SaeData} {cs : List Node} (h : Spec.Built (.sae k d cs)) :
    (∀ c ∈ cs, Spec.Built c) ∧ Spec.WellFormed (.sae k d cs) := by
  cases h with
  | article children parts typed made =>
    unfold mkArticle at made
    split at made
    · cases made
    · cases made
  | sae children parts made =>
    obtain ⟨e, h1, h2, t, h3⟩ := mkSae_ok made
    injection e with e1 e2 e3
    subst e1 e2 e3
    cases children with
    | none => exact ⟨by simp, by intro ht; cases htx : d.text <;> simp_all [validText], by simp, by simp⟩
    | some cs =>
      refine ⟨parts cs rfl, ?_, ?_, ?_⟩
      · intro ht
        cases htx : d.text <;> simp_all [validText]
      · intro c hc
        exact mayContain_of_allowed (List.all_eq_true.1 h2 c hc)
      · intro hk
        exact childrenType_ok h3 hk

theorem built_article {i : Str} {t : Option Str} {cs : List Node} (h : Spec.Built (.article i t cs)) :
    (∀ c ∈ cs, Spec.Built c) ∧ (∀ c ∈ cs, c.type = .sae .paragraph) ∧ Spec.WellFormed (.article i t cs) := by
  cases h with
  | sae children parts made =>
    obtain ⟨e, -⟩ := mkSae_ok made
    cases e
  | article children parts typed made =>
    unfold mkArticle at made
    split at made
    · cases made
    · rename_i hn
      injection made with made
      injection made with e1 e2 e3
      subst e1 e2 e3
      refine ⟨parts, typed, ?_⟩
      intro c hc hid
      have h1 : children.any (fun c => c.identifier.isNone) = true := List.any_eq_true.2 ⟨c, hc, by simp [hid]⟩
      simp only [h1, Bool.true_and, decide_eq_true_eq, Decidable.not_not] at hn
      match children, hn, hc with
      | [x], _, hc => rw [List.mem_singleton.1 hc]

/-- The parts of what is built are built. -/
theorem built_inside {m n : Node} (h : Spec.Inside m n) : Spec.Built n → Spec.Built m := by
  induction h with
  | self => exact id
  | @deeper c y hc _ ih =>
    intro hb
    apply ih
    cases y with
    | sae k d cs => exact (built_sae hb).1 c hc
    | article i t cs => exact (built_article hb).1 c hc
    | quoted => cases hc
    | structural => cases hc

mutual
/-- A test for `Built`, for use in examples. -/
def builtTest : Node → Bool
  | .sae k d cs => decide (mkSae k d (optChildren cs) = .ok (.sae k d cs)) && builtTestL cs
  | .article i t cs => decide (mkArticle i t cs = .ok (.article i t cs)) &&
      cs.all (fun c => decide (c.type = .sae .paragraph)) && builtTestL cs
  | _ => true

def builtTestL : List Node → Bool
  | [] => true
  | c :: cs => builtTest c && builtTestL cs
end

theorem builtTestL_iff : ∀ cs : List Node, builtTestL cs = true ↔ ∀ c ∈ cs, builtTest c = true
  | [] => by simp [builtTestL]
  | c :: cs => by simp [builtTestL, builtTestL_iff cs]

theorem built_of_test (n : Node) : builtTest n = true → Spec.Built n := by
  induction n using Node.ind with
  | sae k d cs ih =>
    intro h
    simp only [builtTest, Bool.and_eq_true, decide_eq_true_eq, builtTestL_iff] at h
    refine .sae (optChildren cs) ?_ h.1
    intro es he c hc
    have : es = cs := by
      unfold optChildren at he
      split at he
      · cases he
      · exact (Option.some.inj he).symm
    subst this
    exact ih c hc (h.2 c hc)
  | article i t cs ih =>
    intro h
    simp only [builtTest, Bool.and_eq_true, decide_eq_true_eq, builtTestL_iff, List.all_eq_true] at h
    exact .article cs (fun c hc => ih c hc (h.2 c hc)) (fun c hc => h.1.2 c hc) h.1.1
  | quoted l => exact fun _ => .quoted l
  | structural e => exact fun _ => .structural e

theorem built_of_testL {cs : List Node} (h : builtTestL cs = true) : ∀ c ∈ cs, Spec.Built c :=
  fun c hc => built_of_test c ((builtTestL_iff cs).1 h c hc)

theorem type_paragraph {n : Node} (h : n.type = .sae .paragraph) : ∃ d cs, n = .sae .paragraph d cs := by
  cases n with
  | sae k d cs => simp only [Node.type, NodeType.sae.injEq] at h; exact ⟨d, cs, by rw [h]⟩
  | article => cases h
  | quoted => cases h
  | structural => cases h

/-! ## References of elements -/

/-- How deep a kind of element stands: the place of its component in a reference. -/
def levelOf : SaeKind → Nat
  | .paragraph => 2
  | .numericPoint | .alphabeticPoint => 3
  | .numericSubpoint | .alphabeticSubpoint => 4
  | .blockAmendmentContainer => 5

/-- Nothing is set from the level on. -/
def Clear (k : Nat) (r : Reference) : Prop :=
  (k ≤ 2 → r.paragraph = none) ∧ (k ≤ 3 → r.point = none) ∧ (k ≤ 4 → r.subpoint = none)

/-- The references agree before the level. -/
def Agree (k : Nat) (r s : Reference) : Prop :=
  s.act = r.act ∧ s.article = r.article ∧ (3 ≤ k → s.paragraph = r.paragraph) ∧ (4 ≤ k → s.point = r.point) ∧
  (5 ≤ k → s.subpoint = r.subpoint)

theorem Agree.mono {j k : Nat} {r s : Reference} (h : Agree k r s) (hjk : j ≤ k) : Agree j r s :=
  ⟨h.1, h.2.1, fun i => h.2.2.1 (by omega), fun i => h.2.2.2.1 (by omega), fun i => h.2.2.2.2 (by omega)⟩

theorem Agree.refl (k : Nat) (r : Reference) : Agree k r r := ⟨rfl, rfl, fun _ => rfl, fun _ => rfl, fun _ => rfl⟩

theorem Agree.trans {k : Nat} {r s t : Reference} (h1 : Agree k r s) (h2 : Agree k s t) : Agree k r t :=
  ⟨h2.1.trans h1.1, h2.2.1.trans h1.2.1, fun i => (h2.2.2.1 i).trans (h1.2.2.1 i),
    fun i => (h2.2.2.2.1 i).trans (h1.2.2.2.1 i), fun i => (h2.2.2.2.2 i).trans (h1.2.2.2.2 i)⟩

theorem relativeReference_sae {p : Reference} {k : SaeKind} (d : SaeData) (cs : List Node) (h : Clear (levelOf k) p) :
    (Node.relativeReference (.sae k d cs)).map (fun rel => rel.relativeTo p) = Spec.refOf p k d.identifier := by
  obtain ⟨a1, a2, a3, a4, a5⟩ := p
  obtain ⟨h1, h2, h3⟩ := h
  simp only [Node.relativeReference]
  generalize d.identifier = i
  cases k <;> simp [levelOf] at h1 h2 h3 <;> cases i <;>
    simp_all [Spec.refOf, relativeTo]

theorem refOf_clear {p r : Reference} {k : SaeKind} {i : Option Str} (h : Spec.refOf p k i = some r)
    (hp : Clear (levelOf k) p) : Clear (levelOf k + 1) r := by
  obtain ⟨h1, h2, h3⟩ := hp
  cases k <;> simp [levelOf] at h1 h2 h3 <;> simp [Spec.refOf] at h <;> subst h <;> simp [Clear, levelOf, *]

theorem refOf_agree {p r : Reference} {k : SaeKind} {i : Option Str} (h : Spec.refOf p k i = some r) :
    Agree (levelOf k) p r := by
  cases k <;> simp [Spec.refOf] at h <;> subst h <;> simp [Agree, levelOf]

theorem level_child {k : SaeKind} {d : SaeData} {cs : List Node} {p r : Reference} (hb : Spec.Built (.sae k d cs))
    (hr : Spec.refOf p k d.identifier = some r) {l : SaeKind} {e : SaeData} {es : List Node} (hc : .sae l e es ∈ cs) :
    levelOf k + 1 ≤ levelOf l := by
  have := (built_sae hb).2.2.1 _ hc
  simp only [Node.type] at this
  cases this with
  | amendedElement => simp [Spec.refOf] at hr
  | _ => simp [levelOf]

theorem Clear.mono {j k : Nat} {r : Reference} (h : Clear j r) (hjk : j ≤ k) : Clear k r :=
  ⟨fun i => h.1 (by omega), fun i => h.2.1 (by omega), fun i => h.2.2 (by omega)⟩

theorem mem_preorderL {p : Reference} {x : Reference × Node} : ∀ {cs : List Node},
    x ∈ Spec.preorderL p cs ↔ ∃ c ∈ cs, x ∈ Spec.preorder p c
  | [] => by simp [Spec.preorderL]
  | c :: cs => by simp [Spec.preorderL, mem_preorderL (cs := cs)]

theorem mem_postorderL {p : Reference} {x : Reference × Node} : ∀ {cs : List Node},
    x ∈ Spec.postorderL p cs ↔ ∃ c ∈ cs, x ∈ Spec.postorder p c
  | [] => by simp [Spec.postorderL]
  | c :: cs => by simp [Spec.postorderL, mem_postorderL (cs := cs)]

theorem preorderL_flatMap (p : Reference) : ∀ cs : List Node, Spec.preorderL p cs = cs.flatMap (Spec.preorder p)
  | [] => rfl
  | c :: cs => by simp [Spec.preorderL, preorderL_flatMap p cs]

theorem postorderL_flatMap (p : Reference) : ∀ cs : List Node, Spec.postorderL p cs = cs.flatMap (Spec.postorder p)
  | [] => rfl
  | c :: cs => by simp [Spec.postorderL, postorderL_flatMap p cs]

/-- Both orders list the same elements. -/
theorem mem_postorder (n : Node) : ∀ (p : Reference) (x : Reference × Node),
    x ∈ Spec.postorder p n ↔ x ∈ Spec.preorder p n := by
  induction n using Node.ind with
  | sae k d cs ih =>
    intro p x
    rw [Spec.postorder, Spec.preorder]
    cases Spec.refOf p k d.identifier with
    | none => simp
    | some r =>
      simp only [List.mem_append, List.mem_cons, List.not_mem_nil, or_false, mem_postorderL, mem_preorderL]
      constructor
      · rintro (⟨c, hc, h⟩ | h)
        · exact .inr ⟨c, hc, (ih c hc r x).1 h⟩
        · exact .inl h
      · rintro (h | ⟨c, hc, h⟩)
        · exact .inr h
        · exact .inl ⟨c, hc, (ih c hc r x).2 h⟩
  | article => intro p x; simp [Spec.postorder, Spec.preorder]
  | quoted => intro p x; simp [Spec.postorder, Spec.preorder]
  | structural => intro p x; simp [Spec.postorder, Spec.preorder]

theorem inAct_plain {n : Node} (h : Spec.InAct n) : n.isSae = false := by
  cases n with
  | sae => rcases h with h | ⟨_, h⟩ <;> cases h
  | _ => rfl

theorem preorder_not_sae {p : Reference} {n : Node} (h : n.isSae = false) : Spec.preorder p n = [] := by
  cases n <;> simp_all [Spec.preorder, Node.isSae]

theorem postorder_not_sae {p : Reference} {n : Node} (h : n.isSae = false) : Spec.postorder p n = [] := by
  cases n <;> simp_all [Spec.postorder, Node.isSae]

/-- Everything listed below an element agrees with the reference of the element. -/
theorem preorder_agree (n : Node) : ∀ (k : SaeKind) (d : SaeData) (cs : List Node) (p r : Reference),
    n = .sae k d cs → Spec.Built n → Spec.refOf p k d.identifier = some r →
    ∀ x ∈ Spec.preorder p n, Agree (levelOf k + 1) r x.1 := by
  induction n using Node.ind with
  | sae k' d' cs' ih =>
    intro k d cs p r e hb hr x hx
    cases e
    rw [Spec.preorder, hr] at hx
    rcases List.mem_cons.1 hx with rfl | hx
    · exact Agree.refl _ _
    · obtain ⟨c, hc, hx⟩ := mem_preorderL.1 hx
      cases c with
      | sae l e es =>
        rw [Spec.preorder] at hx
        cases hl : Spec.refOf r l e.identifier with
        | none => simp [hl] at hx
        | some s =>
          have h1 := ih _ hc l e es r s rfl ((built_sae hb).1 _ hc) hl x (by rw [Spec.preorder, hl]; rw [hl] at hx; exact hx)
          have h2 := refOf_agree hl
          have h3 := level_child hb hr hc
          exact (h2.mono h3).trans (h1.mono (by omega))
      | article => simp [Spec.preorder] at hx
      | quoted => simp [Spec.preorder] at hx
      | structural => simp [Spec.preorder] at hx
  | article => intro k d cs p r e; cases e
  | quoted => intro k d cs p r e; cases e
  | structural => intro k d cs p r e; cases e

/-! ## Pruning -/

theorem firstOf_of_single {a : Option Ident} (h : isTuple a = false) : firstOf a = a := by
  cases a with
  | none => rfl
  | some i => cases i with
    | one => rfl
    | range => simp [isTuple] at h

theorem lastOf_of_single {a : Option Ident} (h : isTuple a = false) : lastOf a = a := by
  cases a with
  | none => rfl
  | some i => cases i with
    | one => rfl
    | range => simp [isTuple] at h

/-- Only the last set component may be a range, on lists. -/
def rangeLastL (l : List (Option Ident)) : Prop := ∀ p x y s, l = p ++ some (.range x y) :: s → ∀ c ∈ s, c = none

theorem rangeLastL_tail {a : Option Ident} {as : List (Option Ident)} (h : rangeLastL (a :: as)) : rangeLastL as :=
  fun p x y s e => h (a :: p) x y s (by rw [e]; rfl)

theorem map_nones {f : Option Ident → Option Ident} (hf : f none = none) {l : List (Option Ident)}
    (h : ∀ c ∈ l, c = none) : ∀ c ∈ l.map f, c = none := by
  intro c hc
  obtain ⟨d, hd, rfl⟩ := List.mem_map.1 hc
  rw [h d hd, hf]

/-- If a filter contains something then it contains, or is contained in, everything above that. -/
theorem prune_sound : ∀ (as p s t : List (Option Ident)), as.length = p.length + s.length → s.length = t.length →
    rangeLastL as → (∀ c ∈ p, isTuple c = false) → (∀ c ∈ s, c = none) → (∀ c ∈ t, isTuple c = false) →
    containsLoop as (p ++ t) → containsLoop as (p ++ s) ∨ containsLoop (p ++ s) as
  | as, [], s, t, hl, hst, _, _, hs, _, _ => by
    right
    have hl : s.length = as.length := by simpa using hl.symm
    refine ⟨?_, ?_⟩
    · exact (nones_le (s.map firstOf) (as.map firstOf) (by simp [hl]) (map_nones rfl hs) (map_firstOf_single as)).1
    · exact (nones_le (s.map lastOf) (as.map lastOf) (by simp [hl]) (map_nones rfl hs) (map_lastOf_single as)).2
  | [], c :: p, s, t, hl, _, _, _, _, _, _ => by simp at hl; omega
  | a :: as, c :: p, s, t, hl, hst, hr, hp, hs, ht, h => by
    have hc : isTuple c = false := hp c (by simp)
    have hl' : as.length = p.length + s.length := by simp at hl; omega
    have ih := prune_sound as p s t hl' hst (rangeLastL_tail hr) (fun c hc => hp c (by simp [hc])) hs ht
    have sg : ∀ u : List (Option Ident), (∀ c ∈ u, isTuple c = false) →
        u.map firstOf = u ∧ u.map lastOf = u := by
      intro u hu
      constructor
      · rw [List.map_congr_left (fun c hc => firstOf_of_single (hu c hc))]; simp
      · rw [List.map_congr_left (fun c hc => lastOf_of_single (hu c hc))]; simp
    have ss : ∀ c ∈ s, isTuple c = false := by intro c hc; rw [hs c hc]; rfl
    have hpt : ∀ c ∈ p ++ t, isTuple c = false := by
      intro d hd
      rcases List.mem_append.1 hd with hd | hd
      · exact hp d (by simp [hd])
      · exact ht d hd
    have hps : ∀ c ∈ p ++ s, isTuple c = false := by
      intro d hd
      rcases List.mem_append.1 hd with hd | hd
      · exact hp d (by simp [hd])
      · exact ss d hd
    rw [List.cons_append] at h ⊢
    rw [containsLoop_eq] at h
    simp only [List.map_cons, (sg _ hpt).1, (sg _ hpt).2, firstOf_of_single hc, lastOf_of_single hc] at h
    cases a with
    | none =>
      cases c with
      | none =>
        have h1 := (leL_same (a := none) rfl _ _).1 h.1
        have h2 := (geL_same (a := none) rfl _ _).1 h.2
        have hk : containsLoop as (p ++ t) := by
          rw [containsLoop_eq, (sg _ hpt).1, (sg _ hpt).2]; exact ⟨h1, h2⟩
        rcases ih hk with k | k
        · left
          rw [containsLoop_eq] at k ⊢
          simp only [List.map_cons]
          exact ⟨(leL_same (a := none) rfl _ _).2 k.1, (geL_same (a := none) rfl _ _).2 k.2⟩
        · right
          rw [containsLoop_eq] at k ⊢
          simp only [List.map_cons]
          exact ⟨(leL_same (a := none) rfl _ _).2 k.1, (geL_same (a := none) rfl _ _).2 k.2⟩
      | some i =>
        left
        rw [containsLoop_eq]
        simp only [List.map_cons, firstOf_of_single hc, lastOf_of_single hc]
        refine ⟨.inr (ltGtLoop_none hc (by simp) _ _), .inr (.inr ?_)⟩
        simp [isParentLoop, lastOf]
    | some i =>
      cases c with
      | none =>
        exfalso
        cases i with
        | one x => exact leL_to_none _ _ h.1
        | range x y => exact leL_to_none _ _ h.1
      | some j =>
        cases j with
        | range _ _ => simp [isTuple] at hc
        | one z =>
          cases i with
          | one x =>
            by_cases e : x = z
            · subst e
              have h1 := (leL_same (a := some (.one x)) rfl _ _).1 h.1
              have h2 := (geL_same (a := some (.one x)) rfl _ _).1 h.2
              have hk : containsLoop as (p ++ t) := by
                rw [containsLoop_eq, (sg _ hpt).1, (sg _ hpt).2]; exact ⟨h1, h2⟩
              rcases ih hk with k | k
              · left
                rw [containsLoop_eq] at k ⊢
                simp only [List.map_cons]
                exact ⟨(leL_same (a := some (.one x)) rfl _ _).2 k.1, (geL_same (a := some (.one x)) rfl _ _).2 k.2⟩
              · right
                rw [containsLoop_eq] at k ⊢
                simp only [List.map_cons]
                exact ⟨(leL_same (a := some (.one x)) rfl _ _).2 k.1, (geL_same (a := some (.one x)) rfl _ _).2 k.2⟩
            · exact (not_less_of_notAfter (leL_notAfter h.1) ((geL_one e _ _).1 h.2)).elim
          | range x y =>
            left
            have hn := hr [] x y as rfl
            rw [containsLoop_eq]
            simp only [List.map_cons, (sg _ hps).1, (sg _ hps).2]
            have hlen : as.length = (p ++ s).length := by simp [hl']
            refine ⟨notAfter_leL (leL_notAfter h.1) ?_, notAfter_geL (geL_notAfter h.2) ?_⟩
            · exact (nones_le (as.map firstOf) (p ++ s) (by simp [hlen]) (map_nones rfl hn) hps).1
            · exact (nones_le (as.map lastOf) (p ++ s) (by simp [hlen]) (map_nones rfl hn) hps).2

theorem prune_reference (f r s : Reference) (k : Nat) (hk : 2 ≤ k) (hf : Spec.RangeLast f) (hr : Spec.Single r)
    (hs : Spec.Single s) (hc : Clear k r) (ha : Agree k r s) (h : f.contains s = .ok true) :
    r.contains f = .ok true ∨ f.contains r = .ok true := by
  have step : ∀ p u t : List (Option Ident), r.components = p ++ u → s.components = p ++ t → u.length = t.length →
      (∀ c ∈ u, c = none) → r.contains f = .ok true ∨ f.contains r = .ok true := by
    intro p u t e1 e2 hl hu
    have h5 : r.components.length = 5 := components_length r
    rw [e1] at h5
    rw [contains_iff, e2] at h
    have := prune_sound f.components p u t (by rw [components_length]; simp at h5; omega) hl hf
      (fun c hc => single_iff.1 hr c (by rw [e1]; simp [hc])) hu
      (fun c hc => single_iff.1 hs c (by rw [e2]; simp [hc])) h
    rw [contains_iff, contains_iff, e1]
    exact this.symm
  obtain ⟨c1, c2, c3⟩ := hc
  obtain ⟨a1, a2, a3, a4, a5⟩ := ha
  have hs1 : s.act.map Ident.one = r.act.map Ident.one := by rw [a1]
  match k, hk with
  | 2, _ =>
    refine step [r.act.map .one, r.article] [r.paragraph, r.point, r.subpoint] [s.paragraph, s.point, s.subpoint] rfl
      (by simp [components, a1, a2]) rfl (by simp [c1, c2, c3])
  | 3, _ =>
    refine step [r.act.map .one, r.article, r.paragraph] [r.point, r.subpoint] [s.point, s.subpoint] rfl
      (by simp [components, a1, a2, a3]) rfl (by simp [c2, c3])
  | 4, _ =>
    refine step [r.act.map .one, r.article, r.paragraph, r.point] [r.subpoint] [s.subpoint] rfl
      (by simp [components, a1, a2, a3, a4]) rfl (by simp [c3])
  | n + 5, _ =>
    refine step [r.act.map .one, r.article, r.paragraph, r.point, r.subpoint] [] [] rfl
      (by simp [components, a1, a2, a3, a4, a5]) rfl (by simp)

/-! ## Mapping -/

theorem mapLoop_trace {τ σ : Type} {f : Node → List τ × σ → Res (Node × (List τ × σ))} {g : Node → List τ} :
    ∀ (cs cs' : List Node) (l l' : List τ) (s s' : σ),
    (∀ c ∈ cs, ∀ l s c' l' s', f c (l, s) = .ok (c', l', s') → l' = l ++ g c) →
    mapLoop f cs (l, s) = .ok (cs', l', s') → l' = l ++ cs.flatMap g
  | [], cs', l, l', s, s', _, h => by
    simp only [mapLoop, Except.ok.injEq, Prod.mk.injEq] at h
    simp [h.2.1.symm]
  | c :: cs, cs', l, l', s, s', hf, h => by
    simp only [mapLoop, bind, Except.bind] at h
    cases h1 : f c (l, s) with
    | error e => simp [h1] at h
    | ok v =>
      obtain ⟨c1, l1, s1⟩ := v
      simp only [h1] at h
      cases h2 : mapLoop f cs (l1, s1) with
      | error e => simp [h2] at h
      | ok w =>
        obtain ⟨cs2, l2, s2⟩ := w
        simp only [h2, Except.ok.injEq, Prod.mk.injEq] at h
        have e1 := hf c (by simp) l s c1 l1 s1 h1
        have e2 := mapLoop_trace cs cs2 l1 l2 s1 s2 (fun c hc => hf c (by simp [hc])) h2
        rw [← h.2.1, e2, e1]
        simp

theorem mapLoop_kept {σ : Type} {f : Node → σ → Res (Node × σ)} {sel : Reference → Prop} {r : Reference} :
    ∀ (cs cs' : List Node) (s s' : σ), (∀ c ∈ cs, ∀ s c' s', f c s = .ok (c', s') → Spec.Kept sel r c c') →
    mapLoop f cs s = .ok (cs', s') → Spec.KeptL sel r cs cs'
  | [], cs', s, s', _, h => by
    simp only [mapLoop, Except.ok.injEq, Prod.mk.injEq] at h
    rw [← h.1]; exact .nil r
  | c :: cs, cs', s, s', hf, h => by
    simp only [mapLoop, bind, Except.bind] at h
    cases h1 : f c s with
    | error e => simp [h1] at h
    | ok v =>
      obtain ⟨c1, s1⟩ := v
      simp only [h1] at h
      cases h2 : mapLoop f cs s1 with
      | error e => simp [h2] at h
      | ok w =>
        obtain ⟨cs2, s2⟩ := w
        simp only [h2, Except.ok.injEq, Prod.mk.injEq] at h
        rw [← h.1]
        exact .cons (hf c (by simp) s c1 s1 h1) (mapLoop_kept cs cs2 s1 s2 (fun c hc => hf c (by simp [hc])) h2)

theorem mapLoop_id {σ : Type} {f : Node → σ → Res (Node × σ)} :
    ∀ (cs : List Node) (s : σ), (∀ c ∈ cs, ∀ s, f c s = .ok (c, s)) → mapLoop f cs s = .ok (cs, s)
  | [], _, _ => rfl
  | c :: cs, s, hf => by
    simp only [mapLoop, bind, Except.bind, hf c (by simp) s, mapLoop_id cs s (fun c hc => hf c (by simp [hc]))]

theorem evolve_data {k : SaeKind} {d : SaeData} {cs cs' : List Node} {n : Node}
    (h : evolveIfChanged (.sae k d cs) cs' = .ok n) : n = .sae k d cs' := by
  unfold evolveIfChanged at h
  split at h
  · rename_i e
    simp only [Except.ok.injEq] at h
    rw [← h, e]; rfl
  · exact (mkSae_ok h).1

theorem outside_true {filter : Option Reference} {r : Reference} (h : outsideFilter filter r = .ok true) :
    ∃ f, filter = some f ∧ r.contains f = .ok false ∧ f.contains r = .ok false := by
  cases filter with
  | none => simp [outsideFilter] at h
  | some f =>
    refine ⟨f, rfl, ?_⟩
    simp only [outsideFilter, bind, Except.bind] at h
    cases h1 : r.contains f with
    | error e => simp [h1] at h
    | ok b =>
      cases b with
      | true => simp [h1] at h
      | false =>
        simp only [h1] at h
        cases h2 : f.contains r with
        | error e => simp [h2] at h
        | ok b =>
          cases b with
          | true => simp [h2] at h
          | false => exact ⟨rfl, rfl⟩

/-- What is recorded by one call under the filter. -/
theorem callInFilter_recording {σ : Type} {m : Modifier σ} {filter : Option Reference} {r : Reference} {n n' : Node}
    {l l' : List (Reference × Node)} {s s' : σ}
    (h : callInFilter (Spec.recording m) filter r n (l, s) = .ok (n', l', s')) :
    l' = l ++ (if Spec.Selected filter r then [(r, n)] else []) ∧
    ((Spec.Selected filter r ∧ m r n s = .ok (n', s')) ∨ (¬ Spec.Selected filter r ∧ n' = n ∧ s' = s)) := by
  have call : Spec.recording m r n (l, s) = .ok (n', l', s') → l' = l ++ [(r, n)] ∧ m r n s = .ok (n', s') := by
    intro h
    unfold Spec.recording at h
    cases hm : m r n s with
    | error e => simp [hm] at h
    | ok v =>
      obtain ⟨n1, s1⟩ := v
      simp only [hm, Except.ok.injEq, Prod.mk.injEq] at h
      simp [h.1, h.2.1.symm, h.2.2]
  unfold callInFilter at h
  cases filter with
  | none =>
    have hs : Spec.Selected none r := by intro f hf; cases hf
    obtain ⟨h1, h2⟩ := call h
    rw [if_pos hs]
    exact ⟨h1, .inl ⟨hs, h2⟩⟩
  | some f =>
    simp only [bind, Except.bind] at h
    cases hc : f.contains r with
    | error e => simp [hc] at h
    | ok b =>
      simp only [hc] at h
      cases b with
      | true =>
        have hs : Spec.Selected (some f) r := by intro g e; cases e; exact hc
        obtain ⟨h1, h2⟩ := call (by simpa using h)
        rw [if_pos hs]
        exact ⟨h1, .inl ⟨hs, h2⟩⟩
      | false =>
        have hs : ¬ Spec.Selected (some f) r := by intro k; rw [k f rfl] at hc; cases hc
        simp only [Bool.false_eq_true, if_false, Except.ok.injEq, Prod.mk.injEq] at h
        rw [if_neg hs]
        exact ⟨by simp [h.2.1], .inr ⟨hs, h.1.symm, h.2.2.symm⟩⟩

/-- The call changes only what is selected. -/
theorem callInFilter_kept {σ : Type} {m : Modifier σ} {filter : Option Reference} {r : Reference} {n n' : Node}
    {s s' : σ} (h : callInFilter m filter r n s = .ok (n', s')) : Spec.Selected filter r ∨ (n' = n ∧ s' = s) := by
  unfold callInFilter at h
  cases filter with
  | none => left; intro f hf; cases hf
  | some f =>
    simp only [bind, Except.bind] at h
    cases hc : f.contains r with
    | error e => simp [hc] at h
    | ok b =>
      simp only [hc] at h
      cases b with
      | true => left; intro g e; cases e; exact hc
      | false =>
        simp only [Bool.false_eq_true, if_false, Except.ok.injEq, Prod.mk.injEq] at h
        exact .inr ⟨h.1.symm, h.2.symm⟩

/-- One step of `mapSae`, in the two orders. -/
theorem mapSae_false {σ : Type} {m : Modifier σ} {filter : Option Reference} {depth : Nat} {p r : Reference}
    {k : SaeKind} {d : SaeData} {cs : List Node} {n' : Node} {s s' : σ} (hp : Clear (levelOf k) p)
    (hr : Spec.refOf p k d.identifier = some r)
    (h : mapSae m filter false (depth + 1) p (.sae k d cs) s = .ok (n', s')) :
    (outsideFilter filter r = .ok true ∧ n' = .sae k d cs ∧ s' = s) ∨
    ∃ n1 s1 cs1, callInFilter m filter r (.sae k d cs) s = .ok (n1, s1) ∧
      mapLoop (fun c s => if c.isSae then mapSae m filter false depth r c s else .ok (c, s)) n1.children s1
        = .ok (cs1, s') ∧ evolveIfChanged n1 cs1 = .ok n' := by
  have hrel := relativeReference_sae d cs hp
  rw [hr] at hrel
  obtain ⟨rel, h1, h2⟩ := Option.map_eq_some_iff.1 hrel
  rw [mapSae, h1] at h
  simp only [h2, bind, Except.bind] at h
  cases ho : outsideFilter filter r with
  | error e => simp [ho] at h
  | ok b =>
    cases b with
    | true =>
      simp only [ho, if_true, Except.ok.injEq, Prod.mk.injEq] at h
      exact .inl ⟨rfl, h.1.symm, h.2.symm⟩
    | false =>
      simp only [ho, Bool.false_eq_true, if_false] at h
      right
      cases hc : callInFilter m filter r (.sae k d cs) s with
      | error e => simp [hc] at h
      | ok v =>
        obtain ⟨n1, s1⟩ := v
        simp only [hc] at h
        generalize hl : mapLoop (fun c s => if c.isSae then mapSae m filter false depth r c s else .ok (c, s)) n1.children s1 = L at h
        cases L with
        | error e => simp at h
        | ok w =>
          obtain ⟨cs1, s2⟩ := w
          simp only at h
          cases he : evolveIfChanged n1 cs1 with
          | error e => simp [he] at h
          | ok n2 =>
            simp only [he, Except.ok.injEq, Prod.mk.injEq] at h
            exact ⟨n1, s1, cs1, rfl, by rw [hl, h.2], by rw [he, h.1]⟩

theorem mapSae_true {σ : Type} {m : Modifier σ} {filter : Option Reference} {depth : Nat} {p r : Reference}
    {k : SaeKind} {d : SaeData} {cs : List Node} {n' : Node} {s s' : σ} (hp : Clear (levelOf k) p)
    (hr : Spec.refOf p k d.identifier = some r)
    (h : mapSae m filter true (depth + 1) p (.sae k d cs) s = .ok (n', s')) :
    (outsideFilter filter r = .ok true ∧ n' = .sae k d cs ∧ s' = s) ∨
    ∃ s1 cs1, mapLoop (fun c s => if c.isSae then mapSae m filter true depth r c s else .ok (c, s)) cs s
        = .ok (cs1, s1) ∧ callInFilter m filter r (.sae k d cs1) s1 = .ok (n', s') := by
  have hrel := relativeReference_sae d cs hp
  rw [hr] at hrel
  obtain ⟨rel, h1, h2⟩ := Option.map_eq_some_iff.1 hrel
  rw [mapSae, h1] at h
  simp only [h2, bind, Except.bind] at h
  cases ho : outsideFilter filter r with
  | error e => simp [ho] at h
  | ok b =>
    cases b with
    | true =>
      simp only [ho, if_true, Except.ok.injEq, Prod.mk.injEq] at h
      exact .inl ⟨rfl, h.1.symm, h.2.symm⟩
    | false =>
      simp only [ho, Bool.false_eq_true, if_false, if_true, Node.children] at h
      right
      generalize hl : mapLoop (fun c s => if c.isSae then mapSae m filter true depth r c s else .ok (c, s)) cs s = L at h
      cases L with
      | error e => simp at h
      | ok w =>
        obtain ⟨cs1, s2⟩ := w
        simp only at h
        cases he : evolveIfChanged (.sae k d cs) cs1 with
        | error e => simp [he] at h
        | ok n2 =>
          simp only [he] at h
          rw [evolve_data he] at h
          exact ⟨s2, cs1, rfl, h⟩

theorem mapSae_unreferable {σ : Type} {m : Modifier σ} {filter : Option Reference} {cf : Bool} {depth : Nat}
    {p : Reference} {k : SaeKind} {d : SaeData} {cs : List Node} {n' : Node} {s s' : σ}
    (hr : Spec.refOf p k d.identifier = none)
    (h : mapSae m filter cf depth p (.sae k d cs) s = .ok (n', s')) : n' = .sae k d cs ∧ s' = s := by
  cases depth with
  | zero => simp [mapSae] at h
  | succ depth =>
    have hk : k = .blockAmendmentContainer := by cases k <;> simp [Spec.refOf] at hr <;> rfl
    subst hk
    simp only [mapSae, Node.relativeReference, Except.ok.injEq, Prod.mk.injEq] at h
    exact ⟨h.1.symm, h.2.symm⟩

/-- A filter that prunes an element selects nothing below it. -/
theorem pruned {filter : Option Reference} (hf : ∀ f, filter = some f → Spec.RangeLast f) {k : SaeKind} {d : SaeData}
    {cs : List Node} {p r : Reference} (hb : Spec.Built (.sae k d cs)) (hp : Clear (levelOf k) p)
    (hr : Spec.refOf p k d.identifier = some r) (ho : outsideFilter filter r = .ok true)
    (single : ∀ x ∈ Spec.preorder p (.sae k d cs), Spec.Single x.1) :
    ∀ x ∈ Spec.preorder p (.sae k d cs), ¬ Spec.Selected filter x.1 := by
  obtain ⟨f, rfl, h1, h2⟩ := outside_true ho
  intro x hx hs
  have hx1 := hs f rfl
  have ha := preorder_agree _ k d cs p r rfl hb hr x hx
  have hl : 2 ≤ levelOf k + 1 := by cases k <;> simp [levelOf]
  have hsr : Spec.Single r := single (r, .sae k d cs) (by rw [Spec.preorder, hr]; simp)
  rcases prune_reference f r x.1 (levelOf k + 1) hl (hf f rfl) hsr (single x hx) (refOf_clear hr hp) ha hx1 with h | h
  · rw [h1] at h; cases h
  · rw [h2] at h; cases h

theorem refOf_single {p r : Reference} {k : SaeKind} {i : Option Str} (hp : Spec.Single p)
    (h : Spec.refOf p k i = some r) : Spec.Single r := by
  rw [single_iff] at hp ⊢
  have hi : isTuple (i.map Ident.one) = false := by cases i <;> rfl
  have h1 := hp (p.act.map .one) (by simp [components])
  have h2 := hp p.article (by simp [components])
  have h3 := hp p.paragraph (by simp [components])
  have h4 := hp p.point (by simp [components])
  have h5 := hp p.subpoint (by simp [components])
  cases k <;> simp [Spec.refOf] at h <;> subst h <;> simp [components, hi, h1, h2, h3, h4, h5]

theorem preorder_single (n : Node) : ∀ p : Reference, Spec.Single p → ∀ x ∈ Spec.preorder p n, Spec.Single x.1 := by
  induction n using Node.ind with
  | sae k d cs ih =>
    intro p hp x hx
    rw [Spec.preorder] at hx
    cases hr : Spec.refOf p k d.identifier with
    | none => simp [hr] at hx
    | some r =>
      rw [hr] at hx
      rcases List.mem_cons.1 hx with rfl | hx
      · exact refOf_single hp hr
      · obtain ⟨c, hc, hx⟩ := mem_preorderL.1 hx
        exact ih c hc r (refOf_single hp hr) x hx
  | article => intro p hp x hx; simp [Spec.preorder] at hx
  | quoted => intro p hp x hx; simp [Spec.preorder] at hx
  | structural => intro p hp x hx; simp [Spec.preorder] at hx

theorem filter_selected_nil {τ : Type} {filter : Option Reference} {l : List (Reference × τ)}
    (h : ∀ x ∈ l, ¬ Spec.Selected filter x.1) : l.filter (fun x => decide (Spec.Selected filter x.1)) = [] := by
  rw [List.filter_eq_nil_iff]
  intro x hx
  simpa using h x hx

theorem filter_flatMap' {α β : Type} (p : β → Bool) (f : α → List β) (l : List α) :
    (l.flatMap f).filter p = l.flatMap fun a => (f a).filter p := by
  induction l with
  | nil => rfl
  | cons a l ih => simp [ih]

/-- The children of a built element stand below it. -/
theorem child_clear {k : SaeKind} {d : SaeData} {cs : List Node} {p r : Reference} (hb : Spec.Built (.sae k d cs))
    (hp : Clear (levelOf k) p) (hr : Spec.refOf p k d.identifier = some r) {l : SaeKind} {e : SaeData}
    {es : List Node} (hc : .sae l e es ∈ cs) : Clear (levelOf l) r :=
  (refOf_clear hr hp).mono (level_child hb hr hc)

/-- Parents first: what is recorded. -/
theorem mapSae_preorder {σ : Type} {m : Modifier σ} {filter : Option Reference}
    (hf : ∀ f, filter = some f → Spec.RangeLast f)
    (hm : ∀ r n s n' s', m r n s = .ok (n', s') → n'.children = n.children) :
    ∀ (depth : Nat) (k : SaeKind) (d : SaeData) (cs : List Node) (p : Reference) (l l' : List (Reference × Node))
      (s s' : σ) (n' : Node), Spec.Built (.sae k d cs) → Clear (levelOf k) p → Spec.Single p →
      mapSae (Spec.recording m) filter false depth p (.sae k d cs) (l, s) = .ok (n', l', s') →
      l' = l ++ (Spec.preorder p (.sae k d cs)).filter (fun x => decide (Spec.Selected filter x.1))
  | 0, k, d, cs, p, l, l', s, s', n', _, _, _, h => by simp [mapSae] at h
  | depth + 1, k, d, cs, p, l, l', s, s', n', hb, hp, sp, h => by
    cases hr : Spec.refOf p k d.identifier with
    | none =>
      have := (mapSae_unreferable hr h).2
      simp only [Prod.mk.injEq] at this
      rw [Spec.preorder, hr]
      simp [this.1]
    | some r =>
      rcases mapSae_false hp hr h with ⟨h1, -, h3⟩ | ⟨n1, ⟨l1, s1⟩, cs1, h1, h2, -⟩
      · simp only [Prod.mk.injEq] at h3
        rw [filter_selected_nil (pruned hf hb hp hr h1 (preorder_single _ p sp))]
        simp [h3.1]
      · obtain ⟨e1, e2⟩ := callInFilter_recording h1
        have hcs : n1.children = cs := by
          rcases e2 with ⟨-, e2⟩ | ⟨-, e2, -⟩
          · exact hm _ _ _ _ _ e2
          · rw [e2]; rfl
        rw [hcs] at h2
        have e3 := mapLoop_trace (g := fun c => (Spec.preorder r c).filter (fun x => decide (Spec.Selected filter x.1)))
          cs cs1 l1 l' s1 s' ?_ h2
        · rw [e3, e1, Spec.preorder, hr]
          simp only [preorderL_flatMap, List.filter_cons, filter_flatMap', decide_eq_true_eq]
          split <;> simp
        · intro c hc l s c' l' s' hcall
          cases c with
          | sae l0 e es =>
            exact mapSae_preorder hf hm depth l0 e es r l l' s s' c' ((built_sae hb).1 _ hc) (child_clear hb hp hr hc)
              (refOf_single sp hr) (by simpa [Node.isSae] using hcall)
          | _ => simp only [Node.isSae, Bool.false_eq_true, if_false, Except.ok.injEq, Prod.mk.injEq] at hcall
                 simp [Spec.preorder, hcall.2.1]

/-- A reference with the element without its children. -/
def bareEntry (x : Reference × Node) : Reference × Node := (x.1, Spec.bare x.2)

theorem mapLoop_trace_map {τ ρ σ : Type} {f : Node → List τ × σ → Res (Node × (List τ × σ))} {g : Node → List ρ}
    {v : τ → ρ} : ∀ (cs cs' : List Node) (l l' : List τ) (s s' : σ),
    (∀ c ∈ cs, ∀ l s c' l' s', f c (l, s) = .ok (c', l', s') → l'.map v = l.map v ++ g c) →
    mapLoop f cs (l, s) = .ok (cs', l', s') → l'.map v = l.map v ++ cs.flatMap g
  | [], cs', l, l', s, s', _, h => by
    simp only [mapLoop, Except.ok.injEq, Prod.mk.injEq] at h
    simp [h.2.1.symm]
  | c :: cs, cs', l, l', s, s', hf, h => by
    simp only [mapLoop, bind, Except.bind] at h
    cases h1 : f c (l, s) with
    | error e => simp [h1] at h
    | ok w =>
      obtain ⟨c1, l1, s1⟩ := w
      simp only [h1] at h
      cases h2 : mapLoop f cs (l1, s1) with
      | error e => simp [h2] at h
      | ok w =>
        obtain ⟨cs2, l2, s2⟩ := w
        simp only [h2, Except.ok.injEq, Prod.mk.injEq] at h
        have e1 := hf c (by simp) l s c1 l1 s1 h1
        have e2 := mapLoop_trace_map cs cs2 l1 l2 s1 s2 (fun c hc => hf c (by simp [hc])) h2
        rw [← h.2.1, e2, e1]
        simp

/-- Children first: what is recorded. -/
theorem mapSae_postorder {σ : Type} {m : Modifier σ} {filter : Option Reference}
    (hf : ∀ f, filter = some f → Spec.RangeLast f) :
    ∀ (depth : Nat) (k : SaeKind) (d : SaeData) (cs : List Node) (p : Reference) (l l' : List (Reference × Node))
      (s s' : σ) (n' : Node), Spec.Built (.sae k d cs) → Clear (levelOf k) p → Spec.Single p →
      mapSae (Spec.recording m) filter true depth p (.sae k d cs) (l, s) = .ok (n', l', s') →
      l'.map bareEntry = l.map bareEntry ++
        ((Spec.postorder p (.sae k d cs)).filter (fun x => decide (Spec.Selected filter x.1))).map bareEntry
  | 0, k, d, cs, p, l, l', s, s', n', _, _, _, h => by simp [mapSae] at h
  | depth + 1, k, d, cs, p, l, l', s, s', n', hb, hp, sp, h => by
    cases hr : Spec.refOf p k d.identifier with
    | none =>
      have := (mapSae_unreferable hr h).2
      simp only [Prod.mk.injEq] at this
      rw [Spec.postorder, hr]
      simp [this.1]
    | some r =>
      rcases mapSae_true hp hr h with ⟨h1, -, h3⟩ | ⟨⟨l1, s1⟩, cs1, h2, h1⟩
      · simp only [Prod.mk.injEq] at h3
        rw [filter_selected_nil (fun x hx => pruned hf hb hp hr h1 (preorder_single _ p sp) x ((mem_postorder _ p x).1 hx))]
        simp [h3.1]
      · obtain ⟨e1, -⟩ := callInFilter_recording h1
        have e3 := mapLoop_trace_map (v := bareEntry)
          (g := fun c => ((Spec.postorder r c).filter (fun x => decide (Spec.Selected filter x.1))).map bareEntry)
          cs cs1 l l1 s s1 ?_ h2
        · rw [e1, List.map_append, e3, Spec.postorder, hr]
          simp only [postorderL_flatMap, List.filter_append, filter_flatMap', List.map_append, List.map_flatMap, List.append_assoc]
          congr 2
          by_cases hs : Spec.Selected filter r <;> simp [hs, bareEntry, Spec.bare]
        · intro c hc l s c' l' s' hcall
          cases c with
          | sae l0 e es =>
            exact mapSae_postorder hf depth l0 e es r l l' s s' c' ((built_sae hb).1 _ hc) (child_clear hb hp hr hc)
              (refOf_single sp hr) (by simpa [Node.isSae] using hcall)
          | _ => simp only [Node.isSae, Bool.false_eq_true, if_false, Except.ok.injEq, Prod.mk.injEq] at hcall
                 simp [Spec.postorder, hcall.2.1]

/-- Mapping keeps everything that is not selected. -/
theorem mapSae_kept {σ : Type} {m : Modifier σ} {filter : Option Reference} {cf : Bool} :
    ∀ (depth : Nat) (k : SaeKind) (d : SaeData) (cs : List Node) (p : Reference) (s s' : σ) (n' : Node),
      Spec.Built (.sae k d cs) → Clear (levelOf k) p →
      mapSae m filter cf depth p (.sae k d cs) s = .ok (n', s') →
      Spec.Kept (Spec.Selected filter) p (.sae k d cs) n'
  | 0, k, d, cs, p, s, s', n', _, _, h => by simp [mapSae] at h
  | depth + 1, k, d, cs, p, s, s', n', hb, hp, h => by
    cases hr : Spec.refOf p k d.identifier with
    | none => rw [(mapSae_unreferable hr h).1]; exact .same _ _
    | some r =>
      by_cases hs : Spec.Selected filter r
      · exact .selected n' hr hs
      have hrec : ∀ c ∈ cs, ∀ (s : σ) c' s',
          (if c.isSae then mapSae m filter cf depth r c s else .ok (c, s)) = .ok (c', s') →
          Spec.Kept (Spec.Selected filter) r c c' := by
        intro c hc s c' s' hcall
        cases c with
        | sae l0 e es =>
          exact mapSae_kept depth l0 e es r s s' c' ((built_sae hb).1 _ hc) (child_clear hb hp hr hc)
            (by simpa [Node.isSae] using hcall)
        | _ => simp only [Node.isSae, Bool.false_eq_true, if_false, Except.ok.injEq, Prod.mk.injEq] at hcall
               rw [← hcall.1]; exact .same _ _
      cases cf with
      | false =>
        rcases mapSae_false hp hr h with ⟨-, h2, -⟩ | ⟨n1, s1, cs1, h1, h2, h3⟩
        · rw [h2]; exact .same _ _
        · obtain ⟨e1, -⟩ := (callInFilter_kept h1).resolve_left hs
          subst e1
          rw [evolve_data h3]
          exact .inside hr (mapLoop_kept cs cs1 s1 s' hrec h2)
      | true =>
        rcases mapSae_true hp hr h with ⟨-, h2, -⟩ | ⟨s1, cs1, h2, h1⟩
        · rw [h2]; exact .same _ _
        · obtain ⟨e1, -⟩ := (callInFilter_kept h1).resolve_left hs
          rw [e1]
          exact .inside hr (mapLoop_kept cs cs1 s s1 hrec h2)

/-! ## Changes that keep children -/

theorem editedL_map (sel : Reference → Bool) (f : Reference → SaeKind → SaeData → SaeData) (p : Reference) :
    ∀ cs, Spec.editedL sel f p cs = cs.map (Spec.edited sel f p)
  | [] => rfl
  | c :: cs => by rw [Spec.editedL, editedL_map sel f p cs, List.map_cons]

mutual
theorem edited_none {sel : Reference → Bool} {f : Reference → SaeKind → SaeData → SaeData} : ∀ (n : Node) (p : Reference),
    (∀ x ∈ Spec.preorder p n, sel x.1 = false) → Spec.edited sel f p n = n
  | .sae k d cs, p, h => by
    rw [Spec.edited]
    rw [Spec.preorder] at h
    cases hr : Spec.refOf p k d.identifier with
    | none => rfl
    | some r =>
      rw [hr] at h
      simp only [h (r, .sae k d cs) (by simp), Bool.false_eq_true, if_false,
        editedL_none cs r fun x hx => h x (List.mem_cons_of_mem _ hx)]
  | .article .., p, _ => by rw [Spec.edited]; intro _ _ _ h; cases h
  | .quoted .., p, _ => by rw [Spec.edited]; intro _ _ _ h; cases h
  | .structural .., p, _ => by rw [Spec.edited]; intro _ _ _ h; cases h

theorem editedL_none {sel : Reference → Bool} {f : Reference → SaeKind → SaeData → SaeData} : ∀ (cs : List Node)
    (p : Reference), (∀ x ∈ Spec.preorderL p cs, sel x.1 = false) → Spec.editedL sel f p cs = cs
  | [], p, _ => rfl
  | c :: cs, p, h => by
    rw [Spec.editedL, edited_none c p fun x hx => h x (by simp [Spec.preorderL, hx]),
      editedL_none cs p fun x hx => h x (by simp [Spec.preorderL, hx])]
end

theorem mapLoop_map {σ : Type} {f : Node → σ → Res (Node × σ)} {g : Node → Node} :
    ∀ (cs cs' : List Node) (s s' : σ), (∀ c ∈ cs, ∀ s c' s', f c s = .ok (c', s') → c' = g c) →
    mapLoop f cs s = .ok (cs', s') → cs' = cs.map g
  | [], cs', s, s', _, h => by
    simp only [mapLoop, Except.ok.injEq, Prod.mk.injEq] at h
    exact h.1.symm
  | c :: cs, cs', s, s', hf, h => by
    simp only [mapLoop, bind, Except.bind] at h
    cases h1 : f c s with
    | error e => simp [h1] at h
    | ok v =>
      obtain ⟨c1, s1⟩ := v
      simp only [h1] at h
      cases h2 : mapLoop f cs s1 with
      | error e => simp [h2] at h
      | ok w =>
        obtain ⟨cs2, s2⟩ := w
        simp only [h2, Except.ok.injEq, Prod.mk.injEq] at h
        rw [← h.1, hf c (by simp) s c1 s1 h1, mapLoop_map cs cs2 s1 s2 (fun c hc => hf c (by simp [hc])) h2,
          List.map_cons]

theorem callInFilter_editing {σ : Type} {f : Reference → SaeKind → SaeData → SaeData} {filter : Option Reference}
    {r : Reference} {k : SaeKind} {d : SaeData} {cs : List Node} {n' : Node} {s s' : σ}
    (h : callInFilter (Spec.editing f) filter r (.sae k d cs) s = .ok (n', s')) :
    n' = .sae k (if decide (Spec.Selected filter r) then f r k d else d) cs := by
  cases filter with
  | none =>
    simp only [callInFilter, Spec.editing, Except.ok.injEq, Prod.mk.injEq] at h
    have : Spec.Selected none r := by intro f h; cases h
    simp [this, h.1]
  | some g =>
    simp only [callInFilter, bind, Except.bind] at h
    cases hc : g.contains r with
    | error e => simp [hc] at h
    | ok b =>
      cases b with
      | true =>
        simp only [hc, if_true, Spec.editing, Except.ok.injEq, Prod.mk.injEq] at h
        have : Spec.Selected (some g) r := by intro f h; cases h; exact hc
        simp [this, h.1]
      | false =>
        simp only [hc, Bool.false_eq_true, if_false, Except.ok.injEq, Prod.mk.injEq] at h
        have : ¬ Spec.Selected (some g) r := by intro k; have := k g rfl; rw [hc] at this; cases this
        simp [this, h.1]

/-- Mapping makes the changes. -/
theorem mapSae_edited {σ : Type} {f : Reference → SaeKind → SaeData → SaeData} {filter : Option Reference} {cf : Bool}
    (hf : ∀ f, filter = some f → Spec.RangeLast f) :
    ∀ (depth : Nat) (k : SaeKind) (d : SaeData) (cs : List Node) (p : Reference) (s s' : σ) (n' : Node),
      Spec.Built (.sae k d cs) → Clear (levelOf k) p → Spec.Single p →
      mapSae (Spec.editing f) filter cf depth p (.sae k d cs) s = .ok (n', s') →
      n' = Spec.edited (fun r => decide (Spec.Selected filter r)) f p (.sae k d cs)
  | 0, k, d, cs, p, s, s', n', _, _, _, h => by simp [mapSae] at h
  | depth + 1, k, d, cs, p, s, s', n', hb, hp, sp, h => by
    cases hr : Spec.refOf p k d.identifier with
    | none => rw [(mapSae_unreferable hr h).1, Spec.edited, hr]
    | some r =>
      have hrec : ∀ c ∈ cs, ∀ (s : σ) c' s',
          (if c.isSae then mapSae (Spec.editing f) filter cf depth r c s else .ok (c, s)) = .ok (c', s') →
          c' = Spec.edited (fun r => decide (Spec.Selected filter r)) f r c := by
        intro c hc s c' s' hcall
        cases c with
        | sae l0 e es =>
          exact mapSae_edited hf depth l0 e es r s s' c' ((built_sae hb).1 _ hc) (child_clear hb hp hr hc)
            (refOf_single sp hr) (by simpa [Node.isSae] using hcall)
        | _ => simp only [Node.isSae, Bool.false_eq_true, if_false, Except.ok.injEq, Prod.mk.injEq] at hcall
               rw [← hcall.1, Spec.edited]; intro _ _ _ h; cases h
      have outside : outsideFilter filter r = .ok true → n' = .sae k d cs →
          n' = Spec.edited (fun r => decide (Spec.Selected filter r)) f p (.sae k d cs) := by
        intro h1 h2
        rw [h2, edited_none]
        intro x hx
        exact decide_eq_false (pruned hf hb hp hr h1 (preorder_single _ p sp) x hx)
      cases cf with
      | false =>
        rcases mapSae_false hp hr h with ⟨h1, h2, -⟩ | ⟨n1, s1, cs1, h1, h2, h3⟩
        · exact outside h1 h2
        · have e1 := callInFilter_editing h1
          subst e1
          rw [evolve_data h3, Spec.edited, hr]
          simp only
          rw [editedL_map, mapLoop_map cs cs1 s1 s' hrec h2]
      | true =>
        rcases mapSae_true hp hr h with ⟨h1, h2, -⟩ | ⟨s1, cs1, h2, h1⟩
        · exact outside h1 h2
        · rw [callInFilter_editing h1, Spec.edited, hr]
          simp only
          rw [editedL_map, mapLoop_map cs cs1 s s1 hrec h2]

/-- How many levels can be referred to below and including an element. -/
def depthOf : SaeKind → Nat
  | .paragraph => 3
  | .numericPoint | .alphabeticPoint => 2
  | .numericSubpoint | .alphabeticSubpoint => 1
  | .blockAmendmentContainer => 1

/-- The questions asked of the filter about a reference are answered. -/
def Answered (filter : Option Reference) (r : Reference) : Prop :=
  ∀ f, filter = some f → (∃ b, r.contains f = .ok b) ∧ ∃ b, f.contains r = .ok b

theorem outside_answered {filter : Option Reference} {r : Reference} (h : Answered filter r) :
    ∃ b, outsideFilter filter r = .ok b := by
  cases filter with
  | none => exact ⟨false, rfl⟩
  | some f =>
    obtain ⟨⟨b, hb⟩, c, hc⟩ := h f rfl
    simp only [outsideFilter, hb, hc, bind, Except.bind]
    cases b <;> cases c <;> simp

/-- The modifier that does nothing. -/
def idModifier (σ : Type) : Modifier σ := fun _ n s => .ok (n, s)

theorem call_id {σ : Type} {filter : Option Reference} {r : Reference} (h : Answered filter r) (n : Node) (s : σ) :
    callInFilter (idModifier σ) filter r n s = .ok (n, s) := by
  cases filter with
  | none => rfl
  | some f =>
    obtain ⟨-, c, hc⟩ := h f rfl
    simp only [callInFilter, hc, bind, Except.bind, idModifier]
    cases c <;> simp

theorem evolve_same (n : Node) : evolveIfChanged n n.children = .ok n := by simp [evolveIfChanged]

theorem mapSae_id {σ : Type} {filter : Option Reference} {cf : Bool} :
    ∀ (depth : Nat) (k : SaeKind) (d : SaeData) (cs : List Node) (p : Reference) (s : σ),
      Spec.Built (.sae k d cs) → Clear (levelOf k) p → depthOf k ≤ depth →
      (∀ x ∈ Spec.preorder p (.sae k d cs), Answered filter x.1) →
      mapSae (idModifier σ) filter cf depth p (.sae k d cs) s = .ok (.sae k d cs, s)
  | 0, k, d, cs, p, s, _, _, h, _ => by cases k <;> simp [depthOf] at h
  | depth + 1, k, d, cs, p, s, hb, hp, hd, ha => by
    cases hr : Spec.refOf p k d.identifier with
    | none =>
      have hk : k = .blockAmendmentContainer := by cases k <;> simp [Spec.refOf] at hr <;> rfl
      subst hk
      simp only [mapSae, Node.relativeReference]
    | some r =>
      have har : Answered filter r := ha (r, .sae k d cs) (by rw [Spec.preorder, hr]; simp)
      have hrel := relativeReference_sae d cs hp
      rw [hr] at hrel
      obtain ⟨rel, h1, h2⟩ := Option.map_eq_some_iff.1 hrel
      obtain ⟨b, hout⟩ := outside_answered har
      have hloop : mapLoop (fun c s => if c.isSae then mapSae (idModifier σ) filter cf depth r c s else .ok (c, s)) cs s
          = .ok (cs, s) := by
        apply mapLoop_id
        intro c hc s
        cases c with
        | sae l e es =>
          simp only [Node.isSae, if_true]
          refine mapSae_id depth l e es r s ((built_sae hb).1 _ hc) (child_clear hb hp hr hc) ?_ ?_
          · have := (built_sae hb).2.2.1 _ hc
            simp only [Node.type] at this
            cases this with
            | amendedElement => simp [Spec.refOf] at hr
            | _ => simp only [depthOf] at hd ⊢; omega
          · intro x hx
            exact ha x (by rw [Spec.preorder, hr]; exact List.mem_cons_of_mem _ (mem_preorderL.2 ⟨_, hc, hx⟩))
        | _ => simp [Node.isSae]
      rw [mapSae, h1]
      simp only [h2, bind, Except.bind, hout]
      cases b with
      | true => simp
      | false =>
        have hev := evolve_same (.sae k d cs)
        simp only [Node.children] at hev
        cases cf with
        | true => simp [Node.children, hloop, hev, call_id har]
        | false => simp [Node.children, hloop, hev, call_id har]

end Verif
