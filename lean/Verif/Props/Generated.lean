import Verif.Proofs.Generated

/-! # The generated parser (C74) -/

namespace Verif.Props

open Verif.Spec Verif.Generated

/-- C74. Whatever grammars and versions of TatSu the module was loaded with before, beginning with no files, and even if processes were
killed, except while a file has its first line but is not whole: if the module is loaded without an exception, both files are what is
generated of the grammar. Hashes are assumed not to collide, and of what a model is generated a parser is assumed to be generated. -/
theorem generated_current_partial {t : Tools} {allowed : Input → Prop} (hd : Distinct t allowed)
    (hg : ∀ x, allowed x → ∀ m, ModelOf t x m → ∃ s, SourceOf t x s) {f f' : Files} {x : Input} (hx : allowed x)
    (h : History t allowed (fun x p => ¬ Torn t x p) {} f) (hs : Steps t x (.start, f) (.done (.ok ()), f')) : Current t x f' :=
  (running_steps hd hg hx (a := (.start, f)) (history_files hd hg h ⟨fun c hc => (by cases hc), fun c hc => (by cases hc)⟩) hs).2.2 rfl

/-- C74. Current files are not written again, and there is no exception. -/
theorem current_kept {t : Tools} {allowed : Input → Prop} (hd : Distinct t allowed) {f : Files} {x : Input} (hx : allowed x)
    (h : Current t x f) : Step t x (.start, f) (.done (.ok ()), f) ∧ ∀ s, Steps t x (.start, f) s → s = (.start, f) ∨ s = (.done (.ok ()), f) := by
  have hn : t.needRegen x f = false := by
    obtain ⟨m, s, -, -, h1, h2⟩ := h
    unfold Tools.needRegen
    rw [h1, h2, ← header_first, header_eq, List.append_assoc, List.append_assoc, List.append_assoc]
    simp only [outdated, List.cons_append, List.nil_append, readline_line (headerLine_newline hd hx)]
    simp
  refine ⟨.skip hn, fun s hs => ?_⟩
  induction hs with
  | refl => exact .inl rfl
  | tail _ hs ih =>
    rcases ih with rfl | rfl
    · cases hs with
      | skip => exact .inr rfl
      | openModel h => rw [hn] at h; cases h
    · cases hs

/-- C74. If the first line of one of the files is another one, or there is no such file, and nothing goes wrong, they are generated. -/
theorem outdated_generated {t : Tools} {f : Files} {x : Input} {m s : Str} (hm : ModelOf t x m) (hs : SourceOf t x s)
    (h : ¬ ∃ a b, f.model = some (firstLine t x ++ a) ∧ f.source = some (firstLine t x ++ b)) :
    ∃ f', Steps t x (.start, f) (.done (.ok ()), f') ∧ Current t x f' := by
  have hm := modelBody_iff.mpr hm
  have hs := sourceBody_iff.mpr hs
  have h : t.needRegen x f = true := by
    cases hn : t.needRegen x f with
    | true => rfl
    | false =>
      refine absurd ?_ h
      obtain ⟨fm, fs⟩ := f
      obtain ⟨n1, n2⟩ := Bool.or_eq_false_iff.mp hn
      cases fm with
      | none => cases n1
      | some fm =>
        cases fs with
        | none => cases n2
        | some fs =>
          simp only [outdated, bne_eq_false_iff_eq] at n1 n2
          obtain ⟨a, ha⟩ := readline_rest fm
          obtain ⟨b, hb⟩ := readline_rest fs
          rw [n1] at ha
          rw [n2] at hb
          exact ⟨a, b, congrArg some ha, congrArg some hb⟩
  have pos : 0 < (t.modelText x).length ∧ 0 < (t.sourceText x).length := by
    obtain ⟨r, e⟩ := modelText_eq t x
    obtain ⟨r', e'⟩ := sourceText_eq t x
    rw [e, e']
    constructor <;> simp <;> omega
  refine ⟨_, .tail (.tail (.tail (.tail (.tail (.refl _) (.openModel h)) (.writeModel pos.1 (Nat.le_refl _))) (.openSource hm))
    (.writeSource pos.2 (Nat.le_refl _))) (.finish hs), current_of hm hs ?_ ?_⟩
  · show some ((t.modelText x).take _) = _
    rw [List.take_length, Tools.modelText, hm]
  · show some ((t.sourceText x).take _) = _
    rw [List.take_length, Tools.sourceText, hs]

/-! ## Witnesses -/

/-- Tools that generate files of two lines. -/
def sampleTools : Tools where
  sha g := (py"h") ++ g
  model x := .ok (fixupFrom ++ x.2)
  source x := .ok ((py"class Parser: ") ++ x.2)

theorem sample_distinct : Distinct sampleTools (fun x => x.1 = py"4.3.0" ∧ '\n' ∉ x.2) where
  hash := by
    intro x y _ _ h
    exact (List.cons.inj h).2
  comma := by rintro x ⟨h, -⟩; rw [h]; decide
  line := by
    rintro x ⟨h, h'⟩
    refine ⟨by rw [h]; decide, ?_⟩
    intro hm
    rcases List.mem_cons.mp hm with e | hm
    · exact absurd e (by decide)
    · exact h' hm

theorem sample_model (g : Str) : sampleTools.modelBody (py"4.3.0", g) = .ok (replaceAll fixupFrom fixupTo (fixupFrom ++ g)) := by
  have h : isInfix fixupFrom (fixupFrom ++ g) = true := by
    unfold fixupFrom
    simp [isInfix]
  show (if isInfix fixupFrom (fixupFrom ++ g) then Except.ok (replaceAll fixupFrom fixupTo (fixupFrom ++ g)) else Except.error Err.assertionError) = _
  rw [h]
  rfl

/-- C74. A process that is killed while it writes `parser.py` leaves part of it with the right first line: it is then taken for the whole
by every later process, until the grammar is changed or the file is deleted. -/
theorem killed_generating : ∃ f, Steps sampleTools (py"4.3.0", py"g") (.start, {}) (.writeSource ((sampleTools.sourceText (py"4.3.0", py"g")).length - 3), f) ∧
    ¬ Current sampleTools (py"4.3.0", py"g") f ∧ Step sampleTools (py"4.3.0", py"g") (.start, f) (.done (.ok ()), f) := by
  refine ⟨⟨some (sampleTools.modelText (py"4.3.0", py"g")), some ((sampleTools.sourceText (py"4.3.0", py"g")).take ((sampleTools.sourceText (py"4.3.0", py"g")).length - 3))⟩, ?_, ?_, ?_⟩
  · have h1 : Steps sampleTools (py"4.3.0", py"g") (.start, {}) (.writeSource 0, ⟨some ((sampleTools.modelText (py"4.3.0", py"g")).take (sampleTools.modelText (py"4.3.0", py"g")).length), some []⟩) :=
      .tail (.tail (.tail (.refl _) (.openModel rfl)) (.writeModel (by decide +kernel) (Nat.le_refl _))) (.openSource (sample_model _))
    rw [List.take_length] at h1
    exact .tail h1 (.writeSource (by decide +kernel) (Nat.sub_le _ _))
  · rintro ⟨m, s, -, h2, -, h4⟩
    cases sourceBody_iff.mpr h2
    revert h4
    decide +kernel
  · exact .skip (by decide +kernel)

/-- C74. The same for `model.py`, if the grammar is changed and changed back and the process is killed both times. -/
theorem killed_twice : ∃ f1 f2 f3, Steps sampleTools (py"4.3.0", py"g") (.start, {}) (.done (.ok ()), f1) ∧
    Steps sampleTools (py"4.3.0", py"h") (.start, f1) (.writeModel 0, f2) ∧
    (∃ n, Steps sampleTools (py"4.3.0", py"g") (.start, f2) (.writeModel n, f3)) ∧
    ¬ Current sampleTools (py"4.3.0", py"g") f3 ∧ Step sampleTools (py"4.3.0", py"g") (.start, f3) (.done (.ok ()), f3) := by
  obtain ⟨f1, h1, m, s, hm, hs, e1, e2⟩ := outdated_generated (t := sampleTools) (f := {}) (x := (py"4.3.0", py"g")) (modelBody_iff.mp (sample_model _))
    (sourceBody_iff.mp rfl) (by rintro ⟨a, b, h, -⟩; cases h)
  cases (modelBody_iff.mpr hm).symm.trans (sample_model _)
  cases sourceBody_iff.mpr hs
  obtain ⟨m1, s1⟩ := f1
  cases e1
  cases e2
  refine ⟨_, _, ⟨some ((sampleTools.modelText (py"4.3.0", py"g")).take ((sampleTools.modelText (py"4.3.0", py"g")).length - 3)), _⟩, h1, .tail (.refl _) (.openModel (by decide +kernel)),
    ⟨_, .tail (.tail (.refl _) (.openModel (by decide +kernel))) (.writeModel (by decide +kernel) (Nat.sub_le _ _))⟩, ?_, .skip (by decide +kernel)⟩
  rintro ⟨m, s, h1, -, h3, -⟩
  cases (modelBody_iff.mpr h1).symm.trans (sample_model _)
  revert h3
  decide +kernel

example : ∃ f f', History sampleTools (fun x => x.1 = (py"4.3.0") ∧ '\n' ∉ x.2) (fun x p => ¬ Torn sampleTools x p) {} f ∧
    Steps sampleTools (py"4.3.0", py"h") (.start, f) (.done (.ok ()), f') ∧ f.model ≠ f'.model ∧
    (∀ x : Input, x.1 = (py"4.3.0") ∧ '\n' ∉ x.2 → ∀ m, ModelOf sampleTools x m → ∃ s, SourceOf sampleTools x s) := by
  obtain ⟨f, h1, m, s, hm, hs, e1, e2⟩ := outdated_generated (t := sampleTools) (f := {}) (x := (py"4.3.0", py"g"))
    (modelBody_iff.mp (sample_model _)) (sourceBody_iff.mp rfl) (by rintro ⟨a, b, h, -⟩; cases h)
  cases (modelBody_iff.mpr hm).symm.trans (sample_model _)
  obtain ⟨f', h1', m', s', hm', hs', e1', e2'⟩ := outdated_generated (t := sampleTools) (f := f) (x := (py"4.3.0", py"h"))
    (modelBody_iff.mp (sample_model _)) (sourceBody_iff.mp rfl) (by
      rintro ⟨a, b, h, -⟩
      rw [e1] at h
      have := List.append_inj_left (Option.some.inj h) (by decide)
      revert this
      decide)
  cases (modelBody_iff.mpr hm').symm.trans (sample_model _)
  refine ⟨f, f', .ended ⟨rfl, by decide⟩ (.none _) h1, h1', ?_, fun _ _ _ _ => ⟨_, sourceBody_iff.mp rfl⟩⟩
  rw [e1, e1']
  decide +kernel

end Verif.Props
