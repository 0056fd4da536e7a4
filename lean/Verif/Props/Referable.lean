import Verif.Proofs.Referable
import Verif.Props.Pipeline
import Verif.Props.Html

/-! # What is made can be referred to (C79) -/

namespace Verif.Props
open Spec

variable {s : Sources} {c : ExtractedClass}

/-! ## Identifiers in id strings -/

/-- A word of small letters is not in a text with fewer of them. -/
theorem few_letters {w t : Str} (hw : ∀ c ∈ w, isLowerAz c = true) (h : (t.filter isLowerAz).length < w.length) : ¬ w <:+: t := by
  intro hi
  have := (hi.sublist.filter isLowerAz).length_le
  rw [List.filter_eq_self.2 hw] at this
  omega

theorem writable_of {t : Str} (h0 : t ≠ []) (h1 : ∀ c ∈ t, c ≠ '_' ∧ c ≠ '-') (h : (t.filter isLowerAz).length < 5) : Writable t :=
  ⟨h0, fun hm => (h1 _ hm).1 rfl, fun hm => (h1 _ hm).2 rfl, few_letters (by decide) h, few_letters (by decide) h⟩

theorem number_plain {n : Str} (h : IsNumber n) : (∀ c ∈ n, c ≠ '_' ∧ c ≠ '-') ∧ n.filter isLowerAz = [] := by
  refine ⟨fun c hc => ⟨?_, ?_⟩, ?_⟩
  · rintro rfl; exact absurd (h.2 _ hc) (by decide)
  · rintro rfl; exact absurd (h.2 _ hc) (by decide)
  · rw [List.filter_eq_nil_iff]
    intro c hc hl
    have := h.2 c hc
    simp only [isAsciiDigit, isLowerAz, Bool.and_eq_true, decide_eq_true_eq] at this hl
    have h1 := Char.le_def.mp this.2
    have h2 := Char.le_def.mp hl.1
    have := UInt32.le_trans h2 h1
    revert this
    decide

theorem letter_plain {c : Char} (h : isLowerAz c = true ∨ isUpperAz c = true ∨ c = '/' ∨ c = ':') : c ≠ '_' ∧ c ≠ '-' := by
  constructor <;> (rintro rfl; revert h; decide)

theorem tail_writable {t : Str} (h : IsArticleTail t) :
    t ≠ [] ∧ (∀ c ∈ t, c ≠ '_' ∧ c ≠ '-') ∧ (t.filter isLowerAz).length < 4 := by
  rcases h with h | ⟨n, c, hn, hc, rfl⟩
  · exact ⟨h.1, (number_plain h).1, by rw [(number_plain h).2]; decide⟩
  · refine ⟨by simp, ?_, ?_⟩
    · intro x hx
      rcases List.mem_append.1 hx with hx | hx
      · exact (number_plain hn).1 x hx
      · simp only [List.mem_cons, List.not_mem_nil, or_false] at hx
        rcases hx with rfl | rfl
        · exact letter_plain (.inr (.inr (.inl rfl)))
        · exact letter_plain (.inr (.inl hc))
    · rw [List.filter_append, (number_plain hn).2]
      exact Nat.lt_of_le_of_lt (List.length_filter_le _ _) (by simp)

theorem article_writable {t : Str} (h : IsArticleId t) : Writable t := by
  rcases h with h | ⟨b, u, hb, hu, rfl⟩
  · obtain ⟨h0, h1, h2⟩ := tail_writable h
    exact writable_of h0 h1 (by omega)
  · obtain ⟨h0, h1, h2⟩ := tail_writable hu
    refine writable_of (by simp) ?_ ?_
    · intro x hx
      rcases List.mem_append.1 hx with hx | hx
      · exact (number_plain hb).1 x hx
      · rcases List.mem_cons.1 hx with rfl | hx
        · exact letter_plain (.inr (.inr (.inr rfl)))
        · exact h1 x hx
    · rw [List.filter_append, (number_plain hb).2, List.nil_append, List.filter_cons_of_neg (by decide)]
      omega

theorem numeric_writable {t : Str} (h : IsNumericPointId t) : Writable t := by
  have key : ∀ n e : Str, IsNumber n → e.length < 5 → (∀ c ∈ e, isLowerAz c = true ∨ isUpperAz c = true ∨ c = '/' ∨ c = ':') →
      Writable (n ++ e) := by
    intro n e hn he hc
    refine writable_of (by simp [hn.1]) ?_ ?_
    · intro x hx
      rcases List.mem_append.1 hx with hx | hx
      · exact (number_plain hn).1 x hx
      · exact letter_plain (hc x hx)
    · rw [List.filter_append, (number_plain hn).2]
      exact Nat.lt_of_le_of_lt (List.length_filter_le _ _) he
  rcases h with (h | ⟨n, c, hn, hc, rfl⟩) | ⟨n, c, hn, hc, rfl⟩
  · simpa using key t [] h (by decide) (by simp)
  · exact key n [c] hn (by simp) (by simp [hc])
  · exact key n ['/', c] hn (by simp) (by simp [hc])

theorem lettered_letters {t : Str} (h : IsLetteredId t) : t ≠ [] ∧ t.length ≤ 2 ∧ ∀ c ∈ t, isLowerAz c = true := by
  rcases h with ⟨c, hc, rfl⟩ | rfl | rfl
  · simp [hc]
  · decide
  · decide

theorem letters_writable {t : Str} (h0 : t ≠ []) (h1 : t.length ≤ 4) (h2 : ∀ c ∈ t, isLowerAz c = true) : Writable t :=
  writable_of h0 (fun c hc => letter_plain (.inl (h2 c hc))) (Nat.lt_of_le_of_lt (List.length_filter_le _ _) (by omega))

theorem identifier_writable {k : SaeKind} {t : Str} (h : IdentifierOf k t) : Writable t := by
  cases k with
  | paragraph => exact numeric_writable (.inl h)
  | numericPoint => exact numeric_writable h
  | numericSubpoint => exact numeric_writable h
  | alphabeticPoint =>
    obtain ⟨h0, h1, h2⟩ := lettered_letters h
    exact letters_writable h0 (by omega) h2
  | alphabeticSubpoint =>
    rcases h with h | ⟨p, c, hp, hc, rfl⟩
    · obtain ⟨h0, h1, h2⟩ := lettered_letters h
      exact letters_writable h0 (by omega) h2
    · obtain ⟨h0, h1, h2⟩ := lettered_letters hp
      refine letters_writable (by simp) (by simp; omega) ?_
      intro x hx
      rcases List.mem_append.1 hx with hx | hx
      · exact h2 x hx
      · rw [List.mem_singleton.1 hx]; exact hc
  | blockAmendmentContainer => exact h.elim

/-! ## Acts that are made -/

theorem produced_fit {r : LawRawText} {o : Extracted} {a : Act} (h : Produces s c r o)
    (ho : o = .structureOnly a ∨ o = .blockOnly a ∨ o = .act a) : ∀ n ∈ a.children, Fit n := by
  cases c with
  | raw => obtain rfl := h; simp at ho
  | structureOnly =>
    obtain ⟨body, a', h1, h2, rfl⟩ := h
    simp only [Extracted.structureOnly.injEq, reduceCtorEq, or_false] at ho
    exact ho ▸ parseAct_fit h2
  | blockOnly =>
    obtain ⟨body, a', b, h1, h2, h3, rfl⟩ := h
    simp only [Extracted.blockOnly.injEq, reduceCtorEq, or_false, false_or] at ho
    exact ho ▸ parseBlockAmendments_fit (fun n hn => (parseAct_has closed_built h2 n hn).1) h3 (parseAct_fit h2)
  | act =>
    have hp := h
    obtain ⟨body, a', b, c', h1, h2, h3, h4, rfl⟩ := h
    simp only [Extracted.act.injEq, reduceCtorEq, false_or] at ho
    subst ho
    have hb : ∀ n ∈ a'.children, Built n := fun n hn => (parseAct_has closed_built h2 n hn).1
    have hb' := (parseBlockAmendments_has h3).1 hb
    exact addSemantics_fit hb' (fun n hn => ((produced_well_made hp (.inr (.inr rfl))).2 n hn).2.1) h4
      (parseBlockAmendments_fit hb h3 (parseAct_fit h2))
  | _ => cases h

theorem idents_set {P : Str → Prop} {r : Reference} (h : AllIdents P { r with act := none }) {i : Option Str}
    (hi : ∀ j, i = some j → P j) : AllIdents P { r with act := none, paragraph := i.map .one } ∧
      AllIdents P { r with act := none, point := i.map .one } ∧ AllIdents P { r with act := none, subpoint := i.map .one } := by
  unfold AllIdents Reference.components at *
  have hx : ∀ s ∈ identsOf (i.map .one), P s := by
    cases i with
    | none => intro s hs; cases hs
    | some j => intro s hs; rw [List.mem_singleton.1 hs]; exact hi j rfl
  simp only [List.mem_cons, List.not_mem_nil, or_false, forall_eq_or_imp, forall_eq] at h ⊢
  obtain ⟨h0, h1, h2, h3, h4⟩ := h
  exact ⟨⟨h0, h1, hx, h3, h4⟩, ⟨h0, h1, h2, hx, h4⟩, ⟨h0, h1, h2, h3, hx⟩⟩

theorem preorder_writable (n : Node) : ∀ (p : Reference), n.type ≠ .sae .blockAmendmentContainer → Fit n →
    AllIdents Writable { p with act := none } → ∀ x ∈ preorder p n, AllIdents Writable { x.1 with act := none } ∧
      (x.2.type = .sae .paragraph ∨ x.2.identifier ≠ none) := by
  induction n using Node.ind with
  | sae k d cs ih =>
    intro p ht hf hp x hx
    rw [preorder] at hx
    cases hr : refOf p k d.identifier with
    | none => rw [hr] at hx; cases hx
    | some r =>
      rw [hr] at hx
      obtain ⟨f1, f2⟩ := (hf _ (.self _)).2
      have hi := idents_set hp (i := d.identifier) fun j hj => identifier_writable (f1 j hj)
      have hrw : AllIdents Writable { r with act := none } := by
        cases k <;> cases hr
        · exact hi.2.2
        · exact hi.2.2
        · exact hi.2.1
        · exact hi.2.1
        · exact hi.1
      rcases List.mem_cons.1 hx with rfl | hx
      · refine ⟨hrw, ?_⟩
        by_cases hd : d.identifier = none
        · left; rw [f2 hd]; rfl
        · exact .inr hd
      · obtain ⟨c, hc, hx⟩ := mem_preorderL.mp hx
        by_cases hty : c.type = .sae .blockAmendmentContainer
        · cases c with
          | sae l e es => cases hty; cases hx
          | _ => cases hty
        · exact ih c hc r hty (fun m hm => hf m (.deeper hc hty hm)) hrw x hx
  | article => intro p _ _ _ x hx; cases hx
  | quoted => intro p _ _ _ x hx; cases hx
  | structural => intro p _ _ _ x hx; cases hx

/-- The elements of an act whose objects are fit. -/
theorem page_fit {a : Act} (hb : ∀ n ∈ a.children, Built n) (hf : ∀ n ∈ a.children, Fit n) :
    PointsNumbered a ∧ ∀ x ∈ pageElements a, AllIdents Writable { x.1 with act := none } := by
  have key : ∀ x ∈ pageElements a, AllIdents Writable { x.1 with act := none } ∧
      (x.2.type = .sae .paragraph ∨ x.2.identifier ≠ none) := by
    intro x hx
    obtain ⟨n, hn, hx⟩ := List.mem_flatMap.1 hx
    cases n with
    | article i t cs =>
      have hi : AllIdents Writable { articleRef a i with act := none } := by
        unfold AllIdents Reference.components articleRef
        have := article_writable (hf _ hn _ (.self _)).2
        simpa [identsOf] using this
      rcases List.mem_cons.1 hx with rfl | hx
      · exact ⟨hi, .inr (by simp [Node.identifier])⟩
      · obtain ⟨p, hp, hx⟩ := mem_preorderL.mp hx
        have ht : p.type ≠ .sae .blockAmendmentContainer := by
          rw [(built_article (hb _ hn)).2.1 p hp]
          simp
        exact preorder_writable p _ ht (fun m hm => hf _ hn m (.deeper (n := .article i t cs) hp ht hm)) hi x hx
    | _ => cases hx
  exact ⟨fun x hx => (key x hx).2, fun x hx => (key x hx).1⟩

/-- C79. In every act that is made, after any of the steps, the elements of each article have the form of number that belongs to their
kind, of which no two siblings have the same; only paragraphs may have none. Amendments are left out. -/
theorem produced_numbers {r : LawRawText} {o : Extracted} {a : Act} (h : Produces s c r o)
    (ho : o = .structureOnly a ∨ o = .blockOnly a ∨ o = .act a) : ∀ n ∈ a.children, ∀ m, Own m n →
      Identified m ∧ DistinctSiblings m.children :=
  fun n hn m hm => (produced_fit h ho n hn m hm).symm

/-- C79. If also the articles have different numbers, then every element that has a number is found at its own reference, and nothing
else is. -/
theorem produced_found {r : LawRawText} {o : Extracted} {a : Act} (h : Produces s c r o)
    (ho : o = .structureOnly a ∨ o = .blockOnly a ∨ o = .act a) (hd : DistinctSiblings a.articles) {q : Reference} {n : Node}
    (he : ElementAt a q n) (hn : n.identifier ≠ none) : a.at q = .ok [n] := by
  have hw := (produced_well_made h ho).2
  refine find_own a (fun n hn => (hw n hn).2.1) ⟨hd, fun c hc m hm => ?_⟩ q n he hn
  exact (produced_numbers h ho c (List.mem_filter.1 hc).1 m hm).2

/-- C79. Then no two elements of its page have the same class and the same id, and the id of each element can be read back to its
reference. -/
theorem produced_page {r : LawRawText} {o : Extracted} {a : Act} (h : Produces s c r o)
    (ho : o = .structureOnly a ∨ o = .blockOnly a ∨ o = .act a) (hd : DistinctSiblings a.articles) {indent : Bool} {page : Elem}
    (hp : htmlBody a indent = .ok page) : (idMarks page).Nodup ∧
      ∀ x ∈ pageElements a, (markClass x.2, x.1.relativeIdString) ∈ idMarks page ∧
        Reference.fromRelativeIdString x.1.relativeIdString = .ok { x.1 with act := none } := by
  have hw := (produced_well_made h ho).2
  have hb : ∀ n ∈ a.children, Built n := fun n hn => (hw n hn).2.1
  have hs : ∀ n ∈ a.children, n.isSae = false := fun n hn => inAct_plain (hw n hn).1
  obtain ⟨h1, h2⟩ := page_fit hb (produced_fit h ho)
  refine ⟨class_and_id_unique hb hs ⟨hd, fun c hc m hm => ?_⟩ h1 h2 hp, fun x hx => ⟨?_, idString_roundtrip x.1 (h2 x hx)⟩⟩
  · exact (produced_numbers h ho c (List.mem_filter.1 hc).1 m hm).2
  · rw [page_ids hb hs hp]
    exact List.mem_map.2 ⟨x, hx, rfl⟩

/-- The text of an act with two articles. -/
def repeatedNumbers (i j : Str) : LawRawText :=
  { identifier := py"2020. évi I. törvény", publicationDate := ⟨2020, 1, 1⟩, subject := py"a mintákról",
    body := [spread 0 (i ++ (py". § (1) Ha")), spread 10 (py"a) igen,"), spread 10 (py"b) nem."), spread 5 (py"(2) Akkor."),
      spread 0 (j ++ (py". § Hatályba lép."))] }

/-- What is made of it. -/
def twoMade (i j : Str) : Option Act :=
  (parseAct (py"2020. évi I. törvény") ⟨2020, 1, 1⟩ (py"a mintákról") (repeatedNumbers i j).body).toOption

theorem twoMade_produced {i j : Str} {a : Act} (h : twoMade i j = some a) :
    Produces { read := fun _ => .error .valueError, fixups := [], analyze := fun _ => .ok {} } .structureOnly (repeatedNumbers i j)
      (.structureOnly a) := by
  refine ⟨(repeatedNumbers i j).body, a, rfl, ?_, rfl⟩
  unfold twoMade at h
  cases hp : parseAct (py"2020. évi I. törvény") ⟨2020, 1, 1⟩ (py"a mintákról") (repeatedNumbers i j).body with
  | error e => rw [hp] at h; cases h
  | ok b => rw [hp] at h; cases h; exact hp

example : ∃ a, twoMade (py"1") (py"2") = some a ∧ DistinctSiblings a.articles ∧
    (htmlBody a).toOption.map ids = some [py"1___", py"1_1__", py"1_1_a_", py"1_1_b_", py"1_2__", py"2___", py"2___"] := by
  have h : (twoMade (py"1") (py"2")).any (fun a => decide (a.articles.filterMap Node.identifier).Nodup && decide
    ((htmlBody a).toOption.map ids = some [py"1___", py"1_1__", py"1_1_a_", py"1_1_b_", py"1_2__", py"2___", py"2___"])) = true := by
    decide +kernel
  cases ha : twoMade (py"1") (py"2") with
  | none => rw [ha] at h; cases h
  | some a =>
    rw [ha] at h
    simp only [Option.any_some, Bool.and_eq_true, decide_eq_true_eq] at h
    exact ⟨a, rfl, h⟩

/-- C79. The numbers of articles are not compared: an act can be made with two articles of the same number, the first of which is not
found at its reference. -/
theorem articles_same_number : ∃ r a n, Produces { read := fun _ => .error .valueError, fixups := [], analyze := fun _ => .ok {} }
    .structureOnly r (.structureOnly a) ∧ ElementAt a (articleRef a (py"1")) n ∧ n.identifier = some (py"1") ∧
      a.at (articleRef a (py"1")) ≠ .ok [n] := by
  have h : (twoMade (py"1") (py"1")).any (fun a => match a.children with
    | [.article i t cs, .article j u ds] => decide (i = py"1" ∧ a.at (articleRef a (py"1")) = .ok [.article j u ds] ∧ u = t ∧ cs ≠ ds)
    | _ => false) = true := by decide +kernel
  cases ha : twoMade (py"1") (py"1") with
  | none => rw [ha] at h; cases h
  | some a =>
    rw [ha] at h
    simp only [Option.any_some] at h
    split at h
    · rename_i i t cs j u ds hc
      obtain ⟨rfl, h1, h2, h3⟩ := of_decide_eq_true h
      refine ⟨_, a, .article (py"1") t cs, twoMade_produced ha, .article (by rw [hc]; simp), rfl, ?_⟩
      rw [h1]
      intro he
      simp only [Except.ok.injEq, List.cons.injEq, and_true, Node.article.injEq] at he
      exact h3 he.2.2.symm
    · cases h

end Verif.Props
