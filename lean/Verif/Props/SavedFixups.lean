import Verif.Spec.SavedFixups
import Verif.Model.SavedFixups
import Verif.Proofs.SavedFixups

/-! # The fix-ups that come with the program (C78) -/

namespace Verif.Props

open Verif.Spec

set_option maxRecDepth 100000

/-- All fix-ups of the program. -/
def allFixups : Fixups := loadFixups textFixups savedReplacements

/-- Every name is before the next one. -/
def inOrder : List Str → Bool
  | a :: b :: rest => strLt a b && inOrder (b :: rest)
  | _ => true

theorem inOrder_pairwise : ∀ {ks : List Str}, inOrder ks = true → ks.Pairwise fun a b => strLt a b = true
  | [], _ => .nil
  | [a], _ => List.pairwise_singleton ..
  | a :: b :: rest, h => by
    simp only [inOrder, Bool.and_eq_true] at h
    have ih := inOrder_pairwise h.2
    refine List.pairwise_cons.mpr ⟨fun c hc => ?_, ih⟩
    rcases List.mem_cons.mp hc with rfl | hc
    · exact h.1
    · exact strLt_trans _ _ _ h.1 ((List.pairwise_cons.mp ih).1 c hc)

theorem saved_in_order : inOrder savedReplacements.keys = true := by decide +kernel

theorem saved_keys : savedReplacements.keys.Nodup :=
  (inOrder_pairwise saved_in_order).imp fun h he => by rw [he, strLt_irrefl] at h; cases h

/-- A reading of the names of acts. -/
def namesAct (s : Str) : Bool :=
  (s.take 4).length = 4 && (s.take 4).all (fun c => decide ('0' ≤ c) && decide (c ≤ '9')) &&
    let n := (readRomanLoop 20 (s.drop 10) 0).1
    0 < n && s.drop 4 = (py". évi ") ++ roman n ++ (py". törvény")

theorem namesAct_name {s : Str} (h : namesAct s = true) : NumberedAct s := by
  simp only [namesAct, Bool.and_eq_true, decide_eq_true_eq] at h
  obtain ⟨⟨h1, h2⟩, h3, h4⟩ := h
  match ht : s.take 4, h1, h2 with
  | [a, b, c, d], _, h2 =>
    refine ⟨a, b, c, d, _, ?_, h3, ?_⟩
    · simpa using h2
    · conv => lhs; rw [← List.take_append_drop 4 s, h4, ht]
      simp only [List.append_assoc]

theorem saved_all_named : (savedReplacements.all fun e => namesAct e.1) = true := by decide +kernel

/-- Every replacement changes the text of its line. -/
def realChanges (rs : List Replacement) : Bool := rs.all fun r => r.needle ≠ r.replacement

theorem saved_real : (savedReplacements.all fun e => realChanges e.2) = true := by decide +kernel

/-- A line with the text that the replacement looks for, which can be cut where this replacement cuts it. -/
def lineFor (r : Replacement) : Line :=
  let n := commonPrefixLen r.needle r.replacement
  let m := r.needle.length - commonPostfixLen r.needle r.replacement
  ⟨[⟨5, r.needle.take n, false⟩, ⟨5, (r.needle.take m).drop n, false⟩, ⟨5, r.needle.drop m, false⟩], 0⟩

/-- The lines that the replacements look for, except for those that another one has made before. -/
def lookedFor : List Str → List Replacement → List Line
  | _, [] => []
  | made, r :: rs =>
    (if r.needle ∈ made then [] else (r.needlePrevLines.getD []).map (fun t => ⟨[⟨5, t, false⟩], 0⟩) ++
      [if rs.any fun r' => r'.needle = r.replacement then fineLine r.needle else lineFor r]) ++
      lookedFor (made ++ [r.replacement]) rs

/-- All replacements can be made one after the other. -/
def usableTogether (rs : List Replacement) : Bool :=
  (fixupLoop (rs.map Replacement.fixup) (lookedFor [] rs)).toOption.isSome

theorem saved_usable : (savedReplacements.all fun e => usableTogether e.2) = true := by decide +kernel

/-- One of the replacements looks for a text that no other one makes, or there is only one replacement. -/
def onlyOnce (rs : List Replacement) : Bool :=
  rs.length = 1 || rs.any fun r => r.needlePrevLines.isNone && rs.all fun r' => r' = r || !(r.needle.isPrefixOf r'.replacement)

theorem saved_once : (savedReplacements.all fun e => onlyOnce e.2) = true := by decide +kernel

theorem realChanges_ne {rs : List Replacement} (h : realChanges rs = true) {r : Replacement} (hr : r ∈ rs) :
    r.needle ≠ r.replacement := by simpa using List.all_eq_true.mp h r hr

/-- Replacements like these cannot be made twice. -/
theorem onlyOnce_twice {rs : List Replacement} (hc : realChanges rs = true) (h : onlyOnce rs = true) {body out again : List Line}
    (ha : Applied (rs.map Replacement.fixup) body out) : ¬ Applied (rs.map Replacement.fixup) out again := by
  simp only [onlyOnce, Bool.or_eq_true, decide_eq_true_eq, List.any_eq_true, Bool.and_eq_true, List.all_eq_true,
    Option.isNone_iff_eq_none] at h
  rcases h with h | ⟨r, hr, hp, hk⟩
  · obtain ⟨r, rfl⟩ := List.length_eq_one_iff.mp h
    intro h'
    cases ha with
    | next h1 h2 =>
      cases h2
      cases h' with
      | next h3 _ => exact single_not_twice (realChanges_ne hc (List.mem_singleton.mpr rfl)) h1 _ h3
  · have hrem := replacement_removes (realChanges_ne hc hr) hp
    refine not_twice (List.mem_map.mpr ⟨r, hr, rfl⟩) hrem (fun f hf => ?_) ha
    obtain ⟨r', hr', rfl⟩ := List.mem_map.mp hf
    rcases hk r' hr' with rfl | hk
    · exact hrem.keeps
    · refine replacement_keeps (realChanges_ne hc hr') (fun hp => ?_)
      rw [List.isPrefixOf_iff_prefix.mpr hp] at hk
      cases hk

/-- The acts that have fix-ups by hand. -/
def byHandActs : List Str :=
  [py"2013. évi V. törvény", py"2013. évi CLXXVII. törvény", py"2011. évi CLXIX. törvény", py"2013. évi LXXVIII. törvény"]

theorem byHand_only {id : Str} (h : id ∉ byHandActs) : registered textFixups id = [] := by
  unfold registered
  rw [List.filter_eq_nil_iff.mpr]
  · rfl
  · intro e he
    have : e.1 ∈ byHandActs := by
      simp only [textFixups, List.mem_cons, List.not_mem_nil, or_false] at he
      rcases he with rfl | rfl | rfl | rfl | rfl | rfl | rfl | rfl <;> decide
    simp only [decide_eq_true_eq]
    rintro rfl
    exact h this

theorem byHand_not_saved : (byHandActs.all fun id => (savedReplacements.get? id).isNone) = true := by decide +kernel

/-- All fix-ups of an act. -/
theorem all_registered (id : Str) : registered (textFixups ++ savedFixups savedReplacements) id =
    registered textFixups id ++ ((savedReplacements.get? id).getD []).map Replacement.fixup := by
  rw [registered_append, registered_saved saved_keys]

theorem byHand_registered {id : Str} (h : id ∈ byHandActs) :
    registered (textFixups ++ savedFixups savedReplacements) id = registered textFixups id := by
  rw [all_registered, Option.isNone_iff_eq_none.mp (List.all_eq_true.mp byHand_not_saved id h)]
  simp

theorem saved_mem {id : Str} {rs : List Replacement} (h : savedReplacements.get? id = some rs) :
    (id, rs) ∈ savedReplacements := by
  revert h
  generalize savedReplacements = d
  intro h
  induction d with
  | nil => cases h
  | cons e es ih =>
    rw [Dict.get?_cons] at h
    by_cases he : e.1 = id
    · rw [if_pos he] at h
      cases h
      subst he
      exact List.mem_cons_self ..
    · rw [if_neg he] at h
      exact List.mem_cons_of_mem _ (ih h)

/-- C78. Every act with saved replacements is there once and by its full name, the acts are in order, and none has an empty list
of replacements. -/
theorem saved_acts : savedReplacements.Pairwise (fun a b => strLt a.1 b.1 = true) ∧
    ∀ e ∈ savedReplacements, NumberedAct e.1 ∧ e.2 ≠ [] := by
  refine ⟨List.pairwise_map.mp (inOrder_pairwise saved_in_order), fun e he => ⟨?_, ?_⟩⟩
  · exact namesAct_name (List.all_eq_true.mp saved_all_named e he)
  · have := List.all_eq_true.mp saved_once e he
    rintro h0
    rw [h0] at this
    cases this

/-- C78. Every saved replacement changes the text of the line it looks for. -/
theorem saved_replacements_change : ∀ e ∈ savedReplacements, ∀ r ∈ e.2, ∀ {body out : List Line}, r.fixup body = .ok out →
    body.map Line.content ≠ out.map Line.content := by
  intro e he r hr body out h heq
  have hne := realChanges_ne (List.all_eq_true.mp saved_real e he) hr
  obtain ⟨before, l, after, mid, rfl, rfl, hw, -, -, hlen, hm⟩ := replaced_by hne h
  have hl := congrArg List.length heq
  match mid, hlen with
  | [], _ => simp at hl
  | [x], _ =>
    simp only [List.map_append, List.map_cons, List.append_assoc, List.singleton_append,
      List.append_cancel_left_eq, List.cons.injEq] at heq
    exact (hm x (List.mem_singleton.mpr rfl)).1 (heq.1 ▸ hw.1)

theorem usable {fixes : List FixupFn} {body : List Line} (h : (fixupLoop fixes body).toOption.isSome = true) :
    ∃ out, Applied fixes body out := by
  cases ho : fixupLoop fixes body with
  | ok out => exact ⟨out, (fixupLoop_iff _ _ _).mp ho⟩
  | error e => rw [ho] at h; cases h

/-- C78. The fix-ups of no act are in each other's way: there is a body on which all of them succeed. -/
theorem fixups_usable (id : Str) : ∃ body out, doAllFixups allFixups id body = .ok out := by
  by_cases hid : id ∈ byHandActs
  · simp only [byHandActs, List.mem_cons, List.not_mem_nil, or_false] at hid
    have key : ∀ {id : Str}, id ∈ byHandActs → (∃ body out, Applied (registered textFixups id) body out) →
        ∃ body out, doAllFixups allFixups id body = .ok out := by
      rintro id hid ⟨body, out, h⟩
      exact ⟨body, out, fixups_in_order.mpr (by rw [byHand_registered hid]; exact h)⟩
    rcases hid with rfl | rfl | rfl | rfl
    · exact key (by decide) ⟨[fineLine (py"A SZERZŐDÉS ÁLTALÁNOS SZABÁLYAI")], usable (by decide +kernel)⟩
    · exact key (by decide) ⟨[], usable (by decide +kernel)⟩
    · exact key (by decide) ⟨[fineLine (py"(2) Az Mktv. 36. §-a a következő (4)–(6) bekezdéssel egészül ki:"),
        fineLine (py"adatot át kell adni az NMHH részére, amely azokat tárolja és kezeli.”"),
        fineLine (py"„(3) Az Mktv. 36. §-a a következő (7)–(9) bekezdéssel egészül ki:"),
        fineLine (py"„(7) 2012. január 1-je előtt a kiskorúak védelme érdekében")], usable (by decide +kernel)⟩
    · exact key (by decide) ⟨[fineLine (py"212/A. §"),
        fineLine (py"(1) Aki gyermekének szülője, továbbá az elkövetéskor vagy korábban vele közös háztartásban vagy egy lakásban")],
        usable (by decide +kernel)⟩
  · cases hs : savedReplacements.get? id with
    | none =>
      refine ⟨[], [], fixups_in_order.mpr ?_⟩
      rw [all_registered, byHand_only hid, hs]
      exact .none _
    | some rs =>
      obtain ⟨out, ho⟩ := usable (List.all_eq_true.mp saved_usable _ (saved_mem hs))
      refine ⟨lookedFor [] rs, out, fixups_in_order.mpr ?_⟩
      rw [all_registered, byHand_only hid, hs]
      exact ho

/-- C78. The fix-ups of an act cannot be made twice: on a body that they have been made on already they are a `ValueError`. This
is so for every act with fix-ups, except for two acts with fix-ups that are made by hand. -/
theorem fixed_once {id : Str} (h1 : id ≠ (py"2013. évi V. törvény")) (h2 : id ≠ (py"2013. évi CLXXVII. törvény"))
    (hr : registered (textFixups ++ savedFixups savedReplacements) id ≠ []) {body out : List Line}
    (h : doAllFixups allFixups id body = .ok out) : doAllFixups allFixups id out = .error .valueError := by
  refine fixups_fail.mp ?_
  rintro ⟨again, h'⟩
  have h := fixups_in_order.mp h
  revert h h'
  by_cases hid : id ∈ byHandActs
  · rw [byHand_registered hid]
    simp only [byHandActs, List.mem_cons, List.not_mem_nil, or_false] at hid
    rcases hid with h3 | h3 | rfl | rfl
    · exact absurd h3 h1
    · exact absurd h3 h2
    · let r1 : Replacement := ⟨py"(2) Az Mktv. 36. §-a a következő (4)–(6) bekezdéssel egészül ki:",
        py"(2) Az Mktv. 36. §-a a következő (4)–(9) bekezdéssel egészül ki:", none⟩
      let r2 : Replacement := ⟨py"adatot át kell adni az NMHH részére, amely azokat tárolja és kezeli.”",
        py"adatot át kell adni az NMHH részére, amely azokat tárolja és kezeli.", none⟩
      let r3 : Replacement := ⟨py"„(7) 2012. január 1-je előtt a kiskorúak védelme érdekében",
        py"(7) 2012. január 1-je előtt a kiskorúak védelme érdekében", none⟩
      have hl : registered textFixups (py"2011. évi CLXIX. törvény") = [r1.fixup, r2.fixup,
        deleteLine (py"„(3) Az Mktv. 36. §-a a következő (7)–(9) bekezdéssel egészül ki:"), r3.fixup] := rfl
      rw [hl]
      have hrem : Removes r1.needle r1.fixup := replacement_removes (by decide) rfl
      intro h' h
      refine not_twice (List.mem_cons_self ..) hrem (fun f hf => ?_) h h'
      simp only [List.mem_cons, List.not_mem_nil, or_false] at hf
      rcases hf with rfl | rfl | rfl | rfl
      · exact hrem.keeps
      · exact replacement_keeps (by decide) (by decide)
      · exact deletion_keeps _ _
      · exact replacement_keeps (by decide) (by decide)
    · let r : Replacement := ⟨
        py"(1) Aki gyermekének szülője, továbbá az elkövetéskor vagy korábban vele közös háztartásban vagy egy lakásban",
        py"212/A. § (1) Aki gyermekének szülője, továbbá az elkövetéskor vagy korábban vele közös háztartásban vagy egy lakásban",
        none⟩
      have hl : registered textFixups (py"2013. évi LXXVIII. törvény") = [deleteLine (py"212/A. §"), r.fixup] := rfl
      rw [hl]
      have hrem : Removes r.needle r.fixup := replacement_removes (by decide) rfl
      intro h' h
      refine not_twice (fix := r.fixup) (by simp) hrem (fun f hf => ?_) h h'
      simp only [List.mem_cons, List.not_mem_nil, or_false] at hf
      rcases hf with rfl | rfl
      · exact deletion_keeps _ _
      · exact hrem.keeps
  · rw [all_registered, byHand_only hid, List.nil_append] at hr ⊢
    cases hs : savedReplacements.get? id with
    | none => rw [hs] at hr; exact absurd rfl hr
    | some rs =>
      intro h' h
      exact onlyOnce_twice (List.all_eq_true.mp saved_real _ (saved_mem hs)) (List.all_eq_true.mp saved_once _ (saved_mem hs)) h h'

example : registered (textFixups ++ savedFixups savedReplacements) (py"2010. évi CLIX. törvény") ≠ [] ∧
    ∃ body out, doAllFixups allFixups (py"2010. évi CLIX. törvény") body = .ok out := by
  refine ⟨fun h => ?_, fixups_usable _⟩
  have := congrArg List.length h
  rw [all_registered, List.length_append, List.length_map] at this
  revert this
  decide +kernel

/-- C78. The two exceptions: an empty line is added again, and titles are looked for again. -/
theorem fixed_again : (∃ body out again, doAllFixups allFixups (py"2013. évi V. törvény") body = .ok out ∧
      doAllFixups allFixups (py"2013. évi V. törvény") out = .ok again ∧ body.length < out.length ∧ out.length < again.length) ∧
    ∃ body out again, doAllFixups allFixups (py"2013. évi CLXXVII. törvény") body = .ok out ∧
      doAllFixups allFixups (py"2013. évi CLXXVII. törvény") out = .ok again := by
  constructor
  · refine ⟨[fineLine (py"A SZERZŐDÉS ÁLTALÁNOS SZABÁLYAI")], [fineLine (py"A SZERZŐDÉS ÁLTALÁNOS SZABÁLYAI"), emptyLine],
      [fineLine (py"A SZERZŐDÉS ÁLTALÁNOS SZABÁLYAI"), emptyLine, emptyLine], ?_, ?_, by decide, by decide⟩ <;>
    · refine fixups_in_order.mpr ?_
      rw [byHand_registered (by decide)]
      exact (fixupLoop_iff _ _ _).mp rfl
  · refine ⟨[], [], [], ?_, ?_⟩ <;>
    · refine fixups_in_order.mpr ?_
      rw [byHand_registered (by decide)]
      exact (fixupLoop_iff _ _ _).mp rfl

end Verif.Props
