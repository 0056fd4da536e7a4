import Verif.Props.Editor

/-! # Lemmas about fix-ups that are made twice -/

namespace Verif

open Verif.Spec Verif.Props

/-! ## The line that takes the place of another -/

theorem commonPrefixLen_append (a b : Str) : commonPrefixLen a (a ++ b) = a.length := by
  induction a with
  | nil => cases b <;> rfl
  | cons x a ih => simp [commonPrefixLen, ih]

/-- The line that takes the place of another one has another text. -/
theorem replacedLine_other {needle replacement : Str} {l r : Line} (hl : l.content = needle) (hne : needle ≠ replacement)
    (h : replacedLine needle replacement l = .ok r) : r.content ≠ needle := by
  intro hr
  obtain ⟨lost, h1, -, h2⟩ := replacedLine_text hl h
  rw [hr] at h1
  have : commonPostfixLen needle replacement = 0 := by
    unfold commonPostfixLen
    simp only
    rw [← h1, commonPrefixLen_append, List.drop_length]
    simp [commonPrefixLen]
  rw [this] at h2
  rw [List.eq_nil_of_length_eq_zero (by omega : lost.length = 0), List.append_nil] at h1
  exact hne h1

/-- A replacement that succeeds, with the line that takes the place of the other. -/
theorem replaced_by {needle replacement : Str} {prev : Option (List Str)} {body out : List Line} (hne : needle ≠ replacement)
    (h : replaceLineContent needle replacement prev body = .ok out) :
    ∃ before l after mid, body = before ++ l :: after ∧ out = before ++ mid ++ after ∧ Wanted needle prev before l ∧
      NoneWanted needle prev [] before ∧ NoneWanted needle prev (before ++ mid) after ∧
      mid.length ≤ 1 ∧ ∀ r ∈ mid, r.content ≠ needle ∧ r.content <+: replacement := by
  obtain ⟨r, hr, h⟩ := resBind_ok (show (replaceLoop needle replacement prev [] 0 body >>= fun r => checkCount r.1 r.2) =
    .ok out from h)
  obtain ⟨h1, rfl⟩ := checkCount_ok h
  obtain ⟨-, -, h2⟩ := replaceLoop_count hr
  obtain ⟨before, l, after, mid, k1, k2, k3, k4, k5, k6, k7⟩ := h2 (by omega)
  refine ⟨before, l, after, mid, k1, by simpa using k2, by simpa using k3, k4, by simpa using k5, ?_⟩
  by_cases he : replacement = []
  · rw [k6 he]
    simp
  · obtain ⟨r, rfl, hr⟩ := k7 he
    obtain ⟨lost, e, -⟩ := replacedLine_text (l := l) k3.1 hr
    refine ⟨Nat.le_refl _, fun x hx => ?_⟩
    cases List.mem_singleton.mp hx
    exact ⟨replacedLine_other k3.1 hne hr, lost, e⟩

/-! ## Texts that do not come back -/

/-- No line has the text. -/
def Without (text : Str) (body : List Line) : Prop := ∀ l ∈ body, l.content ≠ text

/-- The fix-up does not bring the text into the body. -/
def Keeps (text : Str) (fix : FixupFn) : Prop := ∀ body out, fix body = .ok out → Without text body → Without text out

/-- The fix-up needs the text and removes it. -/
def Removes (text : Str) (fix : FixupFn) : Prop := ∀ body out, fix body = .ok out → ¬ Without text body ∧ Without text out

theorem Removes.keeps {text : Str} {fix : FixupFn} (h : Removes text fix) : Keeps text fix := fun _ _ h1 _ => (h _ _ h1).2

theorem replacement_keeps {text : Str} {r : Replacement} (hne : r.needle ≠ r.replacement) (h : ¬ text <+: r.replacement) :
    Keeps text r.fixup := by
  intro body out hr hw
  obtain ⟨before, l, after, mid, rfl, rfl, -, -, -, -, hm⟩ := replaced_by hne hr
  intro x hx
  simp only [List.mem_append] at hx
  rcases hx with (hx | hx) | hx
  · exact hw x (by simp [hx])
  · rintro rfl
    exact h (hm x hx).2
  · exact hw x (by simp [hx])

theorem replacement_removes {r : Replacement} (hne : r.needle ≠ r.replacement) (hp : r.needlePrevLines = none) :
    Removes r.needle r.fixup := by
  intro body out hr
  obtain ⟨before, l, after, mid, rfl, rfl, h1, h2, h3, -, hm⟩ := replaced_by hne hr
  rw [hp] at h1 h2 h3
  refine ⟨fun hw => hw l (by simp) h1.1, fun x hx => ?_⟩
  simp only [List.mem_append] at hx
  have none : ∀ {before ls : List Line}, NoneWanted r.needle none before ls → x ∈ ls → x.content ≠ r.needle := by
    intro before ls hn hx hc
    obtain ⟨p, q, rfl⟩ := List.append_of_mem hx
    exact hn p x q rfl ⟨hc, fun _ h => by cases h⟩
  rcases hx with (hx | hx) | hx
  · exact none h2 hx
  · exact (hm x hx).1
  · exact none h3 hx

theorem deletion_keeps (text needle : Str) : Keeps text (deleteLine needle) := by
  intro body out h hw x hx
  obtain ⟨before, l, after, rfl, -, rfl⟩ := deletion.mp h
  rcases List.mem_append.mp hx with hx | hx
  · exact hw x (by simp [hx])
  · exact hw x (by simp [hx])

theorem applied_keeps {text : Str} {fixes : List FixupFn} {body out : List Line} (h : Applied fixes body out)
    (hk : ∀ f ∈ fixes, Keeps text f) (hw : Without text body) : Without text out := by
  induction h with
  | none => exact hw
  | next h1 _ ih =>
    exact ih (fun f hf => hk f (List.mem_cons_of_mem _ hf)) (hk _ (List.mem_cons_self ..) _ _ h1 hw)

theorem applied_split {a b : List FixupFn} {body out : List Line} (h : Applied (a ++ b) body out) :
    ∃ mid, Applied a body mid ∧ Applied b mid out := by
  induction a generalizing body with
  | nil => exact ⟨body, .none _, h⟩
  | cons f a ih =>
    cases h with
    | next h1 h2 =>
      obtain ⟨mid, k1, k2⟩ := ih h2
      exact ⟨mid, .next h1 k1, k2⟩

/-- If one of the fix-ups needs a text and removes it, and no other one brings it back, they cannot be made twice. -/
theorem not_twice {text : Str} {fixes : List FixupFn} {body out again : List Line} {fix : FixupFn} (hf : fix ∈ fixes)
    (hr : Removes text fix) (hk : ∀ f ∈ fixes, Keeps text f) (h : Applied fixes body out) : ¬ Applied fixes out again := by
  intro h'
  obtain ⟨a, b, rfl⟩ := List.append_of_mem hf
  have ha : ∀ f ∈ a, Keeps text f := fun f hf => hk f (by simp [hf])
  have hb : ∀ f ∈ b, Keeps text f := fun f hf => hk f (by simp [hf])
  have hout : Without text out := by
    obtain ⟨mid, -, h⟩ := applied_split h
    cases h with
    | next h1 h2 => exact applied_keeps h2 hb (hr _ _ h1).2
  obtain ⟨mid, h1, h2⟩ := applied_split h'
  cases h2 with
  | next h3 _ => exact (hr _ _ h3).1 (applied_keeps h1 ha hout)

/-- A single replacement cannot be made twice. -/
theorem single_not_twice {r : Replacement} {body out : List Line} (hne : r.needle ≠ r.replacement)
    (h : r.fixup body = .ok out) (again : List Line) : r.fixup out ≠ .ok again := by
  intro h'
  obtain ⟨before, l, after, mid, -, rfl, -, h2, h3, hlen, hm⟩ := replaced_by hne h
  obtain ⟨before', l', after', -, he, -, hw, -⟩ := replaced_by hne h'
  rw [List.append_assoc] at he
  rcases List.append_eq_append_iff.mp he with ⟨c, rfl, hc⟩ | ⟨c, hc1, hc2⟩
  · rcases List.append_eq_append_iff.mp hc with ⟨d, rfl, hd⟩ | ⟨d, hd1, hd2⟩
    · exact h3 d l' after' hd (by simpa using hw)
    · cases d with
      | nil =>
        rw [List.append_nil] at hd1
        subst hd1
        exact h3 [] l' after' (by simpa using hd2.symm) (by simpa using hw)
      | cons x d =>
        cases (List.cons.inj hd2).1
        exact (hm l' (by rw [hd1]; simp)).1 hw.1
  · cases c with
    | nil =>
      rw [List.append_nil] at hc1
      subst hc1
      cases mid with
      | nil => exact h3 [] l' after' (by simpa using hc2.symm) (by simpa using hw)
      | cons x mid =>
        cases (List.cons.inj hc2).1
        exact (hm l' (by simp)).1 hw.1
    | cons x c =>
      cases (List.cons.inj hc2).1
      exact h2 before' l' c hc1 (by simpa using hw)

end Verif
